import Verif.Model.FuncTensor
import Verif.Props.TensorGenericSum

/-!
# C62: the Tensors built by `grad_tensor` and `hess_tensor`
-/

set_option linter.unusedSectionVars false

namespace Verif.Tens
open Verif.Params (Err)
open NDArray

variable {α : Type} [Field α] [DecidableEq α]

/-- A map argument that fits `d` axes of a parameter and `n` value axes: `True` needs at least `d` value axes, a list
has at most `d` entries, each a value axis or `-1`. -/
def MapArg.Fits (m : MapArg) (d n : Nat) : Prop :=
  match m with
  | .none => True
  | .diag => d ≤ n
  | .list l => l.length ≤ d ∧ ∀ f ∈ l, -1 ≤ f ∧ f < (n : Int)

theorem MapArg.map_length {m : MapArg} {d n : Nat} (h : m.Fits d n) : (m.map d).length ≤ d := by
  cases m with
  | none => exact Nat.zero_le _
  | diag => simp [MapArg.map]
  | list l => exact h.1

theorem MapArg.map_range {m : MapArg} {d n : Nat} (h : m.Fits d n) : ∀ f ∈ m.map d, f < (n : Int) := by
  cases m with
  | none => intro f hf; cases hf
  | diag =>
    intro f hf
    obtain ⟨k, hk, rfl⟩ := List.mem_map.1 hf
    have := List.mem_range.1 hk
    have h : d ≤ n := h
    omega
  | list l => exact fun f hf => (h.2 f hf).2

/-- **C62.** `hess_tensor(values, params, i, j, x_map, y_map, dim)`: a Tensor in diagonal storage with the axes of
`params[i]` and of `params[j]` whose entry at `(x, y, n, d)` is the entry of `values` at `(n, d)` if `x` and `y` agree
with `n` along the maps, and zero otherwise; a space without a map (`None`) has its own axes in `values`. -/
theorem C62_hess_tensor (values : NDArray α) {xd yd n dim : Nat} {xm ym : MapArg} (hx : xm.Fits xd n)
    (hy : ym.Fits yd n)
    (hv : values.ndim = (if xm.isNone then xd else 0) + (if ym.isNone then yd else 0) + n + dim) :
    ∃ t, hessTensor values xd yd xm ym dim = .ok t ∧ t.WF ∧ t.xDim = xd ∧ t.yDim = yd ∧ t.n = n ∧ t.dim = dim ∧
      t.xMap = xm.map xd ∧ t.yMap = ym.map yd ∧
      (∀ k < n + dim, t.values.shape (xd + yd + k) =
        values.shape ((if xm.isNone then xd else 0) + (if ym.isNone then yd else 0) + k)) ∧
      ∀ i : Idx, t.dense i = if Agrees (xm.map xd) i.x i.n ∧ Agrees (ym.map yd) i.y i.n then
        values.bget (Tens.flat (if xm.isNone then xd else 0) (if ym.isNone then yd else 0) n i) else 0 := by
  set x := if xm.isNone then xd else 0 with hxd
  set y := if ym.isNone then yd else 0 with hyd
  have hblock : ∀ (b : Bool) (d : Nat),
      List.replicate (d - if b then d else 0) false ++ List.replicate (if b then d else 0) true =
        List.replicate d b := by
    intro b d
    cases b <;> simp
  obtain ⟨l, l1, l2, l3, l4, l5, l6⟩ := padAxes_ok values (x := x) (y := y) (X := xd) (Y := yd) (D := n + dim)
    (by omega) (by rw [hxd]; split_ifs <;> simp) (by rw [hyd]; split_ifs <;> simp)
  rw [List.append_assoc, hxd, hyd, hblock, hblock] at l1
  have hflat : ∀ (X Y : Nat) (i : Idx), Tens.flat X Y n i =
      Tens.flat X Y 0 ⟨i.x, i.y, i.n, fun k => if k < n then i.n k else i.d (k - n)⟩ := by
    intro X Y i
    funext k
    unfold Tens.flat
    dsimp only
    split_ifs with c1 c2 c3 c4 c5 c6 c7 <;> first | rfl | (exfalso; omega) | skip
  have hn : (⟨l, xd, yd, dim, xm.map xd, ym.map yd⟩ : Tensor α).n = n := by
    show l.ndim - xd - yd - dim = n
    omega
  have one : ∀ (m : MapArg) (d k : Nat), 0 ≤ (m.map d).getD k (-1) → m.isNone = false := by
    intro m d k h0
    cases m with
    | none => simp [MapArg.map] at h0
    | diag => rfl
    | list l => rfl
  have hxl := MapArg.map_length hx
  have hyl := MapArg.map_length hy
  refine ⟨⟨l, xd, yd, dim, xm.map xd, ym.map yd⟩, ?_, ⟨?_, hxl, hyl, ?_, ?_, ?_, ?_⟩, rfl, rfl, hn, rfl, rfl, rfl,
    ?_, ?_⟩
  · unfold hessTensor
    rw [l1]
    exact if_neg (by omega)
  · show xd + yd + dim ≤ l.ndim
    omega
  · rw [hn]; exact MapArg.map_range hx
  · rw [hn]; exact MapArg.map_range hy
  · intro k hk h0
    have hk : k < xd := Nat.lt_of_lt_of_le hk hxl
    show l.shape k = 1
    rw [l4 k hk, if_pos (by rw [hxd, one xm xd k h0]; rfl)]
  · intro k hk h0
    have hk : k < yd := Nat.lt_of_lt_of_le hk hyl
    show l.shape (xd + k) = 1
    rw [l5 k hk, if_pos (by rw [hyd, one ym yd k h0]; rfl)]
  · exact l6
  · intro i
    unfold Tensor.dense
    refine if_congr Iff.rfl ?_ rfl
    show l.bget _ = _
    unfold Tensor.flat
    rw [hn]
    show l.bget (Tens.flat xd yd n i) = _
    rw [hflat xd yd i, l3, hflat x y i]

/-- `grad_tensor` is `hess_tensor` without `y` axes. -/
theorem gradTensor_eq (values : NDArray α) (xd : Nat) (xm : MapArg) (dim : Nat) (h : xm.isNone = true → xd ≤ values.ndim) :
    gradTensor values xd xm dim = hessTensor values xd 0 xm .none dim := by
  unfold gradTensor hessTensor
  rw [List.replicate_zero, List.append_nil]
  cases hm : xm.isNone with
  | false => rfl
  | true =>
    rw [if_pos rfl]
    unfold NDArray.newAxes
    rw [if_neg (by simp), if_neg (by simp only [List.count_replicate_self]; have := h hm; omega)]
    have e1 : (List.replicate xd true).count false = 0 := by simp [List.count_replicate]
    have e2 : axisOf (List.replicate xd true) = axisOf [] := by
      funext k
      have := axisOf_append_true [] xd k
      rwa [List.nil_append] at this
    have e3 : posOf (List.replicate xd true) = posOf [] := by
      funext j
      have := posOf_append_true [] xd j
      rwa [List.nil_append] at this
    rw [e1, e2, e3]
    rfl

/-- **C62.** `grad_tensor(values, params, i, x_map, dim)`: a Tensor in diagonal storage with the axes of `params[i]`
whose entry at `(x, n, d)` is the entry of `values` at `(n, d)` if `x` agrees with `n` along the map, and zero
otherwise; without a map (`None`) the entry of `values` at `(x, n, d)`. -/
theorem C62_grad_tensor (values : NDArray α) {xd n dim : Nat} {xm : MapArg} (hx : xm.Fits xd n)
    (hv : values.ndim = (if xm.isNone then xd else 0) + n + dim) :
    ∃ t, gradTensor values xd xm dim = .ok t ∧ t.WF ∧ t.xDim = xd ∧ t.yDim = 0 ∧ t.n = n ∧ t.dim = dim ∧
      t.xMap = xm.map xd ∧ t.yMap = [] ∧
      (∀ k < n + dim, t.values.shape (xd + k) = values.shape ((if xm.isNone then xd else 0) + k)) ∧
      ∀ i : Idx, t.dense i = if Agrees (xm.map xd) i.x i.n then
        values.bget (Tens.flat (if xm.isNone then xd else 0) 0 n i) else 0 := by
  obtain ⟨t, h1, h2, h3, h4, h5, h6, h7, h8, h9, h10⟩ := C62_hess_tensor values (yd := 0) (ym := .none) (dim := dim)
    hx trivial
    (by rw [hv]; simp [MapArg.isNone])
  refine ⟨t, ?_, h2, h3, h4, h5, h6, h7, h8, ?_, ?_⟩
  · rw [gradTensor_eq, h1]
    intro h
    rw [hv, h]
    simp; omega
  · intro k hk
    have := h9 k hk
    simpa [MapArg.isNone] using this
  · intro i
    rw [h10]
    have e : (if MapArg.none.isNone = true then 0 else 0) = 0 := rfl
    rw [e]
    exact if_congr ⟨fun h => h.1, fun h => ⟨h, fun k hk => absurd hk (Nat.not_lt_zero k)⟩⟩ rfl rfl

/-- The map made by `True` for `d` axes says that the first `d` positions agree. -/
theorem agrees_range (d : Nat) (v n : Nat → Nat) : Agrees (MapArg.diag.map d) v n ↔ ∀ k < d, v k = n k := by
  have hget : ∀ k < d, (MapArg.diag.map d).getD k (-1) = (k : Int) := by
    intro k hk
    simp [MapArg.map, List.getD_eq_getElem?_getD, hk]
  have hl : (MapArg.diag.map d).length = d := by simp [MapArg.map]
  unfold Agrees
  rw [hl]
  constructor
  · intro h k hk
    have := h k hk (by rw [hget k hk]; omega)
    rwa [hget k hk, Int.toNat_natCast] at this
  · intro h k hk _
    rw [hget k hk, Int.toNat_natCast]
    exact h k hk

/-- **C62.** `grad_tensor(values, params, i, True, dim)` — the derivative of an elementwise function — is the diagonal
array with the entries of `values`: `toarray()` is `values[n, d]` where `x = n` on the first axes and zero elsewhere. -/
theorem C62_grad_diagonal (values : NDArray α) {xd n dim : Nat} (hx : xd ≤ n) (hv : values.ndim = n + dim) :
    ∃ t a, gradTensor values xd .diag dim = .ok t ∧ t.toarray = .ok a ∧ a.ndim = xd + n + dim ∧
      (∀ k < xd, a.shape k = values.shape k) ∧ (∀ k < n + dim, a.shape (xd + k) = values.shape k) ∧
      ∀ i : Idx, InRange a (Tens.flat xd 0 n i) → a.get (Tens.flat xd 0 n i) =
        if ∀ k < xd, i.x k = i.n k then values.get (Tens.flat 0 0 n i) else 0 := by
  obtain ⟨t, h1, h2, h3, h4, h5, h6, h7, h8, h9, h10⟩ := C62_grad_tensor values (xm := .diag) (n := n) (dim := dim) hx
    (by rw [hv]; simp [MapArg.isNone])
  obtain ⟨a, a1, a2, a3, a4⟩ := Tensor.toarray_ok h2
  have hnd := h2.nd
  have e0 : (if MapArg.diag.isNone = true then xd else 0) = 0 := rfl
  simp only [e0, Nat.zero_add] at h9 h10
  have hget : ∀ k < xd, t.xMap.getD k (-1) = (k : Int) := by
    intro k hk
    rw [h7]
    simp [MapArg.map, List.getD_eq_getElem?_getD, hk]
  have s1 : ∀ k < xd, a.shape k = values.shape k := by
    intro k hk
    rw [a3 k, t.fullShape_x h2 (by rw [hget k hk]; omega), hget k hk, Int.toNat_natCast, h3, h4,
      Nat.add_zero, h9 k (by omega)]
  have s2 : ∀ k < n + dim, a.shape (xd + k) = values.shape k := by
    intro k hk
    rw [a3 _, t.fullShape_ge (by omega), h9 k hk]
  have hf : ∀ i, t.flat i = Tens.flat xd 0 n i := by
    intro i
    unfold Tensor.flat
    rw [h3, h4, h5]
  refine ⟨t, a, h1, a1, by omega, s1, s2, fun i hi => ?_⟩
  have := a4 i (by rw [hf]; exact hi)
  rw [hf] at this
  rw [this, h10]
  refine if_congr (agrees_range _ _ _) ?_ rfl
  rw [get_eq_bget]
  intro k hk
  have := hi (xd + k) (by omega)
  rw [s2 k (by omega)] at this
  refine Eq.trans_lt ?_ this
  unfold Tens.flat
  simp only [Nat.add_zero, Nat.not_lt_zero, if_false, Nat.zero_add, Nat.sub_zero]
  by_cases c : k < n
  · rw [if_pos c, if_neg (by omega), if_neg (by omega), if_pos (by omega)]
    congr 1; omega
  · rw [if_neg c, if_neg (by omega), if_neg (by omega), if_neg (by omega)]
    congr 1; omega

/-- **C62.** `grad_tensor` raises exactly when `values` has too few axes: fewer than `dim`, or, without a map, fewer
than the axes of the parameter and `dim` together. -/
theorem C62_grad_raises_iff (values : NDArray α) (xd dim : Nat) (xm : MapArg) :
    (∃ e, gradTensor values xd xm dim = .error e) ↔ values.ndim < (if xm.isNone then xd else 0) + dim := by
  unfold gradTensor NDArray.newAxes mkTensor
  cases hm : xm.isNone with
  | true =>
    rw [if_pos rfl, if_neg (by simp)]
    simp only [List.count_nil, Nat.add_zero, if_true]
    show (∃ e, (if values.ndim + 0 < xd + 0 + dim then _ else _) = Except.error e) ↔ _
    split_ifs with h
    · exact ⟨fun _ => by omega, fun _ => ⟨_, rfl⟩⟩
    · exact ⟨fun ⟨e, he⟩ => (by cases he), fun h' => absurd h' (by omega)⟩
  | false =>
    have hc' : (List.replicate xd false).count true = 0 := by simp [List.count_replicate]
    simp only [Bool.false_eq_true, if_false]
    rw [if_neg (by rw [hc']; omega)]
    have hc : (List.replicate xd false).count false = xd := by simp
    simp only [hc]
    show (∃ e, (if values.ndim + xd < xd + 0 + dim then _ else _) = Except.error e) ↔ _
    split_ifs with h
    · exact ⟨fun _ => by omega, fun _ => ⟨_, rfl⟩⟩
    · exact ⟨fun ⟨e, he⟩ => (by cases he), fun h' => absurd h' (by omega)⟩

/-- **C62, counterexample.** A parameter with more axes than the value space: `grad_tensor(…, True)` builds a Tensor
whose map refers to a value axis that does not exist, without an error. -/
theorem C62_map_out_of_range : ∃ t : Tensor ℚ, gradTensor (NDArray.scalar 1) 1 .diag 0 = .ok t ∧ t.n = 0 ∧
    t.xMap = [0] ∧ ¬ t.WF := by
  refine ⟨_, rfl, rfl, rfl, fun h => ?_⟩
  exact absurd (h.xRange 0 (by decide)) (by decide)

/-- The hypotheses of the theorems are met by the derivative of a function of a `3 × 2` array with a `dim` axis, with
the three kinds of maps. -/
example : ∃ v w : NDArray ℚ, v.ndim = 2 + 1 ∧ MapArg.diag.Fits 2 2 ∧
    (MapArg.list [1, -1]).Fits 2 2 ∧ MapArg.none.Fits 2 2 ∧ w.ndim = 2 + 2 + 1 :=
  ⟨⟨3, fun k => if k = 0 then 3 else 2, fun idx => idx 0⟩, ⟨5, fun _ => 2, fun _ => 1⟩, rfl,
    Nat.le_refl 2, ⟨by decide, by decide⟩, trivial, rfl⟩

end Verif.Tens
