import Verif.Props.TensorAdd

/-!
# C52 (transpose), C54 (flip), C60 (drop_dim)
-/

set_option linter.unusedSectionVars false

namespace Verif.Tens
open Verif.Params (Err)
open NDArray

variable {α : Type} [Field α] [DecidableEq α]

/-! ### flip -/

theorem flip_bget (a : NDArray α) {i : Nat} (hi : i < a.ndim) (idx : Nat → Nat) :
    (a.flip i).bget idx = a.bget fun k => if k = i then a.shape i - 1 - idx i else idx k := by
  unfold bget NDArray.flip
  rw [mk_get]
  apply get_congr
  intro k hk
  dsimp only
  rw [if_pos hi]
  by_cases h : k = i
  · subst h
    rw [if_pos rfl]
    by_cases h1 : a.shape k = 1
    · rw [if_pos h1, if_pos h1, h1]
    · rw [if_neg h1, if_neg h1, if_pos rfl]
  · rw [if_neg h, if_pos hk, if_neg h]

theorem flips_ok (p : Nat) (wher : List Nat) (hn : wher.Nodup) (a : NDArray α)
    (h : ∀ k ∈ wher, p + k < a.ndim) :
    (wher.foldl (fun val k => val.flip (p + k)) a).ndim = a.ndim ∧
    (wher.foldl (fun val k => val.flip (p + k)) a).shape = a.shape ∧
    ∀ idx, (wher.foldl (fun val k => val.flip (p + k)) a).bget idx =
      a.bget fun m => if p ≤ m ∧ m - p ∈ wher then a.shape m - 1 - idx m else idx m := by
  induction wher generalizing a with
  | nil => exact ⟨rfl, rfl, fun idx => by simp⟩
  | cons k ks ih =>
    rw [List.nodup_cons] at hn
    obtain ⟨h1, h2, h3⟩ := ih hn.2 (a.flip (p + k)) fun j hj => h j (List.mem_cons_of_mem _ hj)
    rw [List.foldl_cons]
    refine ⟨h1, h2, fun idx => ?_⟩
    rw [h3, flip_bget a (h k List.mem_cons_self)]
    apply bget_congr'
    intro m hm
    have hs : (a.flip (p + k)).shape = a.shape := rfl
    rw [hs]
    by_cases hmk : m = p + k
    · rw [if_pos hmk, hmk, if_neg (by rw [show p + k - p = k by omega]; exact fun h => hn.1 h.2),
        if_pos ⟨by omega, by rw [show p + k - p = k by omega]; exact List.mem_cons_self⟩]
    · rw [if_neg hmk]
      refine if_congr (and_congr_right fun hpm => ?_) rfl rfl
      rw [List.mem_cons]
      exact ⟨Or.inr, fun h => h.resolve_left fun e => hmk (by omega)⟩

/-- Specification: the position with the listed axes reversed, for axes of the given sizes. -/
def flipPos (wher : List Nat) (size n : Nat → Nat) (k : Nat) : Nat :=
  if k ∈ wher then size k - 1 - n k else n k

/-- Specification: the position read by `flip(where, dim)`. -/
def flipIdx {β : Type} (t : Tensor β) (wher : List Nat) (dim : Bool) (i : Idx) : Idx :=
  if dim then { i with d := flipPos wher (fun k => t.values.shape (t.xDim + t.yDim + t.n + k)) i.d }
  else { i with n := flipPos wher (fun k => t.values.shape (t.xDim + t.yDim + k)) i.n }

theorem agrees_congr {m : List Int} {v n n' : Nat → Nat} (h : ∀ f : Nat, (f : Int) ∈ m → n f = n' f) :
    Agrees m v n ↔ Agrees m v n' := by
  unfold Agrees
  refine forall_congr' fun k => forall_congr' fun hk => forall_congr' fun h0 => ?_
  rw [h]
  rw [Int.toNat_of_nonneg h0]
  exact getD_mem h0

/-- **C54.** `flip(where, dim)` of distinct existing axes reverses these axes and nothing else. -/
theorem C54_flip {t : Tensor α} (h : t.WF) {wher : List Nat} (hn : wher.Nodup) (dim : Bool)
    (hk : ∀ k ∈ wher, k < if dim then t.dim else t.n) {r : Tensor α}
    (hr : t.flip wher dim = .ok r) :
    r.WF ∧ r.xDim = t.xDim ∧ r.yDim = t.yDim ∧ r.n = t.n ∧ r.dim = t.dim ∧
      r.fullShape = t.fullShape ∧ ∀ i, r.dense i = t.dense (flipIdx t wher dim i) := by
  have hnd := h.nd
  unfold Tensor.flip at hr
  by_cases hw : wher = []
  · rw [if_pos hw] at hr
    cases hr
    refine ⟨h, rfl, rfl, rfl, rfl, rfl, fun i => ?_⟩
    have : ∀ s (f : Nat → Nat), flipPos wher s f = f := fun s f => by
      funext k; unfold flipPos; rw [hw]; simp
    unfold flipIdx
    rw [this, this]; split_ifs <;> rfl
  rw [if_neg hw] at hr
  set p := if dim then t.xDim + t.yDim + t.n else t.xDim + t.yDim with hp
  dsimp only at hr
  by_cases hm : dim = false ∧ ∃ k ∈ wher, (k : Int) ∈ t.xMap ++ t.yMap
  · rw [if_pos hm] at hr; cases hr
  rw [if_neg hm] at hr
  by_cases ho : ∃ k ∈ wher, t.values.ndim ≤ p + k
  · rw [if_pos ho] at hr; cases hr
  rw [if_neg ho] at hr
  obtain ⟨rfl, -⟩ := mkTensor_ok hr
  obtain ⟨f1, f2, f3⟩ := flips_ok p wher hn t.values fun k hk => by
    by_contra hc; exact ho ⟨k, hk, by omega⟩
  set v := wher.foldl (fun val k => val.flip (p + k)) t.values with hv
  have hN : Tensor.n (⟨v, t.xDim, t.yDim, t.dim, t.xMap, t.yMap⟩ : Tensor α) = t.n := by
    show v.ndim - t.xDim - t.yDim - t.dim = t.n; rw [f1]; rfl
  refine ⟨⟨by dsimp only; rw [f1]; exact h.ndim, h.xLen, h.yLen, by rw [hN]; exact h.xRange,
      by rw [hN]; exact h.yRange, by dsimp only; rw [f2]; exact h.xOne, by dsimp only; rw [f2]; exact h.yOne⟩,
    rfl, rfl, hN, rfl, ?_, fun i => ?_⟩
  · funext k
    unfold Tensor.fullShape
    dsimp only
    rw [f2]
  · unfold Tensor.dense
    dsimp only
    have hag : ∀ m : List Int, (∀ f ∈ m, f ∈ t.xMap ++ t.yMap) → ∀ u,
        (Agrees m u i.n ↔ Agrees m u (flipIdx t wher dim i).n) := by
      intro m hmem u
      apply agrees_congr
      intro f hf
      unfold flipIdx
      cases dim with
      | true => rfl
      | false =>
        simp only [Bool.false_eq_true, if_false]
        unfold flipPos
        rw [if_neg fun hh => hm ⟨rfl, f, hh, hmem _ hf⟩]
    have hx : (flipIdx t wher dim i).x = i.x := by unfold flipIdx; split_ifs <;> rfl
    have hy : (flipIdx t wher dim i).y = i.y := by unfold flipIdx; split_ifs <;> rfl
    rw [hx, hy]
    refine if_congr (and_congr (hag _ (fun f hf => List.mem_append_left _ hf) _)
      (hag _ (fun f hf => List.mem_append_right _ hf) _)) ?_ rfl
    rw [f3]
    apply bget_congr'
    intro m hm'
    unfold Tensor.flat
    rw [hN]
    unfold Tens.flat
    dsimp only
    unfold flipIdx
    cases dim with
    | false =>
      have hp' : p = t.xDim + t.yDim := by rw [hp]; rfl
      simp only [Bool.false_eq_true, if_false]
      show _ = if m < t.xDim then i.x m else if m < t.xDim + t.yDim then i.y (m - t.xDim)
        else if m < t.xDim + t.yDim + t.n then flipPos wher _ i.n (m - t.xDim - t.yDim)
        else i.d (m - t.xDim - t.yDim - t.n)
      rw [hp']
      by_cases c1 : m < t.xDim + t.yDim
      · rw [if_neg (by omega)]
        split_ifs <;> rfl
      · rw [if_neg (show ¬ m < t.xDim by omega), if_neg c1, if_neg (show ¬ m < t.xDim by omega), if_neg c1]
        by_cases c2 : m < t.xDim + t.yDim + t.n
        · rw [if_pos c2, if_pos c2]
          unfold flipPos
          rw [show m - (t.xDim + t.yDim) = m - t.xDim - t.yDim by omega]
          refine if_congr (and_iff_right (by omega)) ?_ rfl
          dsimp only
          rw [show t.xDim + t.yDim + (m - t.xDim - t.yDim) = m by omega]
        · rw [if_neg c2, if_neg c2, if_neg]
          rintro ⟨-, hmem⟩
          have := hk _ hmem
          simp only [Bool.false_eq_true, if_false] at this
          omega
    | true =>
      have hp' : p = t.xDim + t.yDim + t.n := by rw [hp]; rfl
      simp only [if_true]
      show _ = if m < t.xDim then i.x m else if m < t.xDim + t.yDim then i.y (m - t.xDim)
        else if m < t.xDim + t.yDim + t.n then i.n (m - t.xDim - t.yDim)
        else flipPos wher _ i.d (m - t.xDim - t.yDim - t.n)
      rw [hp']
      by_cases c1 : m < t.xDim + t.yDim + t.n
      · rw [if_neg (by omega)]
        split_ifs <;> rfl
      · rw [if_neg (show ¬ m < t.xDim by omega), if_neg (show ¬ m < t.xDim + t.yDim by omega), if_neg c1,
          if_neg (show ¬ m < t.xDim by omega), if_neg (show ¬ m < t.xDim + t.yDim by omega), if_neg c1]
        unfold flipPos
        rw [show m - (t.xDim + t.yDim + t.n) = m - t.xDim - t.yDim - t.n by omega]
        refine if_congr (and_iff_right (by omega)) ?_ rfl
        dsimp only
        rw [show t.xDim + t.yDim + t.n + (m - t.xDim - t.yDim - t.n) = m by omega]

/-- **C54.** `flip` refuses (NotImplementedError) exactly when a value axis with a mapping is listed, and
succeeds otherwise. -/
theorem C54_refuses_mapped {t : Tensor α} (h : t.WF) {wher : List Nat} (dim : Bool)
    (hk : ∀ k ∈ wher, k < if dim then t.dim else t.n) :
    (dim = false ∧ (∃ k ∈ wher, (k : Int) ∈ t.xMap ∨ (k : Int) ∈ t.yMap) ↔
      t.flip wher dim = .error .notImplemented) ∧
    (¬ (dim = false ∧ ∃ k ∈ wher, (k : Int) ∈ t.xMap ∨ (k : Int) ∈ t.yMap) →
      ∃ r, t.flip wher dim = .ok r) := by
  have hnd := h.nd
  have key : ¬ (dim = false ∧ ∃ k ∈ wher, (k : Int) ∈ t.xMap ∨ (k : Int) ∈ t.yMap) →
      ∃ r, t.flip wher dim = .ok r := by
    intro hc
    unfold Tensor.flip
    by_cases hw : wher = []
    · rw [if_pos hw]; exact ⟨_, rfl⟩
    rw [if_neg hw]
    dsimp only
    rw [if_neg (by simpa only [List.mem_append] using hc), if_neg]
    · have : ∀ (p : Nat) (l : List Nat) (a : NDArray α),
          (l.foldl (fun val k => val.flip (p + k)) a).ndim = a.ndim := by
        intro p l
        induction l with
        | nil => intro a; rfl
        | cons k l ih => intro a; exact ih _
      rw [mkTensor_isOk (by rw [this]; exact h.ndim)]
      exact ⟨_, rfl⟩
    · rintro ⟨k, hk1, hk2⟩
      have := hk k hk1
      cases dim with
      | true => simp only [if_true] at this hk2; omega
      | false => simp only [Bool.false_eq_true, if_false] at this hk2; omega
  refine ⟨⟨fun hc => ?_, fun he => ?_⟩, key⟩
  · unfold Tensor.flip
    obtain ⟨h1, k, h2, h3⟩ := hc
    rw [if_neg (List.ne_nil_of_mem h2)]
    dsimp only
    rw [if_pos ⟨h1, k, h2, List.mem_append.2 h3⟩]
  · by_contra hc
    obtain ⟨r, hr⟩ := key hc
    rw [hr] at he
    cases he

/-- **C54.** Flipping the same axes again restores the entries at every position of the array. -/
theorem C54_flip_twice {t r s : Tensor α} (h : t.WF) {wher : List Nat} (hn : wher.Nodup) (dim : Bool)
    (hk : ∀ k ∈ wher, k < if dim then t.dim else t.n)
    (hr : t.flip wher dim = .ok r) (hs : r.flip wher dim = .ok s) {i : Idx} (hi : t.InBox i) :
    s.dense i = t.dense i := by
  obtain ⟨w, e1, e2, e3, e4, e5, e6⟩ := C54_flip h hn dim hk hr
  obtain ⟨-, -, -, -, -, -, g6⟩ := C54_flip w hn dim (by rw [e3, e4]; exact hk) hs
  rw [g6, e6]
  have hnd := h.nd
  have hsh : ∀ k, t.xDim + t.yDim ≤ k → r.values.shape k = t.values.shape k := by
    intro k hk
    have := congrFun e5 k
    unfold Tensor.fullShape at this
    rw [e1, e2] at this
    rw [if_neg (by omega), if_neg (by omega), if_neg (by omega), if_neg (by omega)] at this
    exact this
  congr 1
  unfold flipIdx
  cases dim with
  | true =>
    simp only [if_true] at hk ⊢
    congr 1
    funext k
    unfold flipPos
    by_cases hm : k ∈ wher
    · rw [if_pos hm, if_pos hm, e1, e2, e3]
      dsimp only
      rw [hsh _ (by omega)]
      have := hi (t.xDim + t.yDim + t.n + k) (by have := hk k hm; omega)
      rw [Tensor.flat_d] at this
      unfold Tensor.fullShape at this
      rw [if_neg (by omega), if_neg (by omega)] at this
      omega
    · rw [if_neg hm, if_neg hm]
  | false =>
    simp only [Bool.false_eq_true, if_false] at hk ⊢
    congr 1
    funext k
    unfold flipPos
    by_cases hm : k ∈ wher
    · have hkn := hk k hm
      rw [if_pos hm, if_pos hm, e1, e2]
      dsimp only
      rw [hsh _ (by omega)]
      have := hi (t.xDim + t.yDim + k) (by omega)
      rw [Tensor.flat_n i hkn] at this
      unfold Tensor.fullShape at this
      rw [if_neg (by omega), if_neg (by omega)] at this
      omega
    · rw [if_neg hm, if_neg hm]

/-- A Tensor with two value axes, the first of which is mapped, over ℚ: `t[x, n0, n1] = n1` where
`x = n0`. -/
def mapped23 : Tensor ℚ :=
  ⟨⟨3, fun k => if k = 0 then 1 else if k = 1 then 2 else 3, fun idx => (idx 2 : ℚ)⟩, 1, 0, 0, [0], []⟩

theorem mapped23_wf : mapped23.WF :=
  ⟨by decide, by decide, by decide, by decide, by decide, by decide, by decide⟩

/-- The hypotheses hold for `mapped23` and its second value axis; the first one is refused. -/
example : (∃ r, mapped23.flip [1] false = .ok r ∧
      r.dense ⟨fun _ => 1, fun _ => 0, fun k => if k = 0 then 1 else 0, fun _ => 0⟩ = 2) ∧
    mapped23.flip [0] false = .error .notImplemented := by
  constructor
  · obtain ⟨r, hr⟩ := (C54_refuses_mapped mapped23_wf (wher := [1]) false (by decide)).2 (by decide)
    obtain ⟨-, -, -, -, -, -, hd⟩ := C54_flip mapped23_wf (by decide) false (by decide) hr
    refine ⟨r, hr, ?_⟩
    rw [hd]
    show ((2 : ℕ) : ℚ) = 2
    norm_num
  · exact (C54_refuses_mapped mapped23_wf (wher := [0]) false (by decide)).1.1 (by decide)

/-! ### drop_dim -/

/-- **C60.** `drop_dim()` leaves the array unchanged. -/
theorem C60_drop_dim_toarray (t : Tensor α) : t.dropDim.toarray = t.toarray := rfl

/-- **C60.** `drop_dim()`: the `dim` axes become the last value axes. -/
theorem C60_drop_dim {t : Tensor α} (h : t.WF) : t.dropDim.WF ∧ t.dropDim.n = t.n + t.dim ∧
    t.dropDim.dim = 0 ∧
    ∀ i j : Idx, i.x = j.x → i.y = j.y → (∀ k < t.n, i.n k = j.n k) → (∀ k, i.n (t.n + k) = j.d k) →
      t.dropDim.dense i = t.dense j := by
  have hnd := h.nd
  have hN : t.dropDim.n = t.n + t.dim := by
    show t.values.ndim - t.xDim - t.yDim - 0 = _; omega
  refine ⟨⟨by have := h.ndim; show t.xDim + t.yDim + 0 ≤ t.values.ndim; omega, h.xLen, h.yLen, ?_, ?_,
    h.xOne, h.yOne⟩, hN, rfl, fun i j hx hy hn hd => ?_⟩
  · intro f hf; rw [hN]; have := h.xRange f hf; omega
  · intro f hf; rw [hN]; have := h.yRange f hf; omega
  · unfold Tensor.dense
    have e1 : ∀ m : List Int, (∀ f ∈ m, f < (t.n : Int)) → ∀ u, (Agrees m u i.n ↔ Agrees m u j.n) := by
      intro m hm u
      exact agrees_congr fun f hf => hn f (by have := hm _ hf; omega)
    rw [show t.dropDim.xMap = t.xMap from rfl, show t.dropDim.yMap = t.yMap from rfl,
      show t.dropDim.values = t.values from rfl, hx, hy]
    refine if_congr (and_congr (e1 _ h.xRange _) (e1 _ h.yRange _)) ?_ rfl
    apply bget_congr'
    intro m hm
    unfold Tensor.flat
    rw [hN]
    unfold Tens.flat
    rw [show t.dropDim.xDim = t.xDim from rfl, show t.dropDim.yDim = t.yDim from rfl]
    by_cases c1 : m < t.xDim
    · rw [if_pos c1, if_pos c1, hx]
    rw [if_neg c1, if_neg c1]
    by_cases c2 : m < t.xDim + t.yDim
    · rw [if_pos c2, if_pos c2, hy]
    rw [if_neg c2, if_neg c2, if_pos (by omega)]
    by_cases c3 : m < t.xDim + t.yDim + t.n
    · rw [if_pos c3]; exact hn _ (by omega)
    · rw [if_neg c3, ← hd]; congr 1; omega

/-- The hypotheses hold for a Tensor with one `dim` axis. -/
example : (⟨⟨1, fun _ => 3, fun idx => (idx 0 : ℚ)⟩, 0, 0, 1, [], []⟩ : Tensor ℚ).dropDim.n = 1 ∧
    (⟨⟨1, fun _ => 3, fun idx => (idx 0 : ℚ)⟩, 0, 0, 1, [], []⟩ : Tensor ℚ).dropDim.dense
      ⟨fun _ => 0, fun _ => 0, fun _ => 2, fun _ => 0⟩ = 2 := by
  have h : (⟨⟨1, fun _ => 3, fun idx => (idx 0 : ℚ)⟩, 0, 0, 1, [], []⟩ : Tensor ℚ).WF :=
    Tensor.wf_nomap (by decide)
  refine ⟨(C60_drop_dim h).2.1, ?_⟩
  rw [(C60_drop_dim h).2.2.2 ⟨fun _ => 0, fun _ => 0, fun _ => 2, fun _ => 0⟩ ⟨fun _ => 0, fun _ => 0, fun _ => 2, fun _ => 2⟩ rfl rfl
    (fun k hk => absurd hk (by simp [Tensor.n])) fun k => rfl]
  show ((2 : ℕ) : ℚ) = 2
  norm_num

/-! ### transpose -/

/-- Specification: the position with `x` and `y` exchanged. -/
def Idx.swap (i : Idx) : Idx := ⟨i.y, i.x, i.n, i.d⟩

theorem moveaxis_bget (a : NDArray α) {src dst : Nat} (h : dst ≤ src) (hs : src < a.ndim) (idx : Nat → Nat) :
    (a.moveaxis src dst).bget idx = a.bget fun j =>
      idx (if j < dst then j else if j < src then j + 1 else if j = src then dst else j) := by
  unfold moveaxis
  apply reaxis_bget
  · intro j hj; split_ifs <;> omega
  · intro j hj
    congr 1
    split_ifs <;> omega

/-- **C52.** `transpose()` exchanges the `x` and the `y` axes if one of the two spaces is empty or both
have one axis.  Missing: more axes, where the loop of `np.moveaxis` mixes the axes
(`C52_transpose_counterexample`). -/
theorem C52_transpose_partial {t : Tensor α} (h : t.WF)
    (hd : t.xDim = 0 ∨ t.yDim = 0 ∨ (t.xDim = 1 ∧ t.yDim = 1)) :
    t.transpose.WF ∧ t.transpose.xDim = t.yDim ∧ t.transpose.yDim = t.xDim ∧ t.transpose.n = t.n ∧
      t.transpose.dim = t.dim ∧ ∀ i, t.transpose.dense i = t.dense i.swap := by
  have hnd := h.nd
  have key : ∃ v : NDArray α, t.transpose = ⟨v, t.yDim, t.xDim, t.dim, t.yMap, t.xMap⟩ ∧
      v.ndim = t.values.ndim ∧ (∀ k < t.xDim, v.shape (t.yDim + k) = t.values.shape k) ∧
      (∀ k < t.yDim, v.shape k = t.values.shape (t.xDim + k)) ∧
      ∀ idx, v.bget idx = t.values.bget fun j =>
        idx (if j < t.xDim then t.yDim + j else if j < t.xDim + t.yDim then j - t.xDim else j) := by
    unfold Tensor.transpose
    dsimp only
    by_cases hc : 0 < t.xDim ∧ 0 < t.yDim
    · obtain ⟨h1, h2⟩ : t.xDim = 1 ∧ t.yDim = 1 := by omega
      rw [if_pos hc, h1, h2]
      refine ⟨t.values.moveaxis 1 0, rfl, rfl, ?_, ?_, fun idx => ?_⟩
      · intro k hk
        have : k = 0 := by omega
        subst this; rfl
      · intro k hk
        have : k = 0 := by omega
        subst this; rfl
      · rw [moveaxis_bget _ (by omega) (by omega)]
        apply bget_congr'
        intro j hj
        congr 1
        split_ifs <;> omega
    · rw [if_neg hc]
      refine ⟨t.values, rfl, rfl, ?_, ?_, fun idx => ?_⟩
      · intro k hk; congr 1; omega
      · intro k hk; congr 1; omega
      · apply bget_congr'
        intro j hj
        congr 1
        split_ifs <;> omega
  obtain ⟨v, hv, v1, v2, v3, v4⟩ := key
  have hN : t.transpose.n = t.n := by
    rw [hv]; show v.ndim - t.yDim - t.xDim - t.dim = _; omega
  refine ⟨?_, rfl, rfl, hN, rfl, fun i => ?_⟩
  · refine ⟨by rw [hv]; dsimp only; omega, h.yLen, h.xLen, by rw [hN]; exact h.yRange,
      by rw [hN]; exact h.xRange, ?_, ?_⟩
    · intro k hk h0
      have h1 := h.yLen
      have hk' : k < t.yMap.length := hk
      rw [hv]
      show v.shape k = 1
      rw [v3 k (by omega)]
      exact h.yOne k hk h0
    · intro k hk h0
      have h1 := h.xLen
      have hk' : k < t.xMap.length := hk
      rw [hv]
      show v.shape (t.yDim + k) = 1
      rw [v2 k (by omega)]
      exact h.xOne k hk h0
  · have hf : t.transpose.values.bget (t.transpose.flat i) = t.values.bget (t.flat i.swap) := by
      unfold Tensor.flat
      rw [hN, hv]
      dsimp only
      rw [v4]
      apply bget_congr'
      intro j hj
      unfold Tens.flat
      dsimp only [Idx.swap]
      by_cases c1 : j < t.xDim
      · rw [if_pos c1, if_pos c1, if_neg (by omega), if_pos (by omega)]; congr 1; omega
      · rw [if_neg c1, if_neg c1]
        by_cases c2 : j < t.xDim + t.yDim
        · rw [if_pos c2, if_pos (by omega), if_pos c2]
        · rw [if_neg c2, if_neg (by omega), if_neg (by omega), if_neg c2]
          by_cases c3 : j < t.xDim + t.yDim + t.n
          · rw [if_pos (by omega), if_pos c3]; congr 1; omega
          · rw [if_neg (by omega), if_neg c3]; congr 1; omega
    unfold Tensor.dense
    rw [hf]
    exact if_congr and_comm rfl rfl

/-- **C52.** Transposing twice gives the original array, in the same cases. -/
theorem C52_transpose_twice_partial {t : Tensor α} (h : t.WF)
    (hd : t.xDim = 0 ∨ t.yDim = 0 ∨ (t.xDim = 1 ∧ t.yDim = 1)) (i : Idx) :
    t.transpose.transpose.dense i = t.dense i := by
  obtain ⟨w, e1, e2, -, -, e5⟩ := C52_transpose_partial h hd
  obtain ⟨-, -, -, -, -, g5⟩ := C52_transpose_partial w (by rw [e1, e2]; omega)
  rw [g5, e5]; rfl

/-- Moves to a later or equal position below `src` do not touch the axes before and after. -/
theorem moves_shape (src : Nat) (ks : List Nat) (a : NDArray α) (m : Nat)
    (h : (∀ k ∈ ks, m < k) ∨ src < m) (hle : ∀ k ∈ ks, k ≤ src) :
    (ks.foldl (fun val k => val.moveaxis src k) a).shape m = a.shape m := by
  induction ks generalizing a with
  | nil => rfl
  | cons k ks ih =>
    rw [List.foldl_cons, ih _ (h.imp (fun h j hj => h j (List.mem_cons_of_mem _ hj)) id)
      fun j hj => hle j (List.mem_cons_of_mem _ hj)]
    show a.shape _ = _
    have hk := hle k List.mem_cons_self
    rcases h with h | h
    · rw [if_pos (h k List.mem_cons_self)]
    · rw [if_neg (by omega), if_neg (by omega), if_neg (by omega)]

/-- **C52, counterexample.** For all other numbers of axes there is a Tensor for which not even the shape
of `transpose()` has its `x` and `y` axes exchanged. -/
theorem C52_transpose_counterexample (X Y : Nat) (hX : 0 < X) (hY : 0 < Y) (h : ¬ (X = 1 ∧ Y = 1)) :
    ∃ t : Tensor ℚ, t.WF ∧ t.xDim = X ∧ t.yDim = Y ∧ ∃ k < X + Y,
      t.transpose.fullShape k ≠ t.fullShape (if k < Y then X + k else k - Y) := by
  have nomap : ∀ (v : NDArray ℚ) x y d k,
      Tensor.fullShape (⟨v, x, y, d, [], []⟩ : Tensor ℚ) k = v.shape k := by
    intro v x y d k
    unfold Tensor.fullShape
    dsimp only
    simp
  have hle : ∀ k ∈ List.range X, k ≤ X := fun k hk => by have := List.mem_range.1 hk; omega
  by_cases h2 : 2 ≤ Y
  · refine ⟨⟨⟨X + Y, fun k => if k = X + 1 then 2 else 1, fun _ => 0⟩, X, Y, 0, [], []⟩,
      Tensor.wf_nomap (by dsimp only; omega), rfl, rfl, 1, by omega, ?_⟩
    unfold Tensor.transpose
    dsimp only
    rw [nomap, nomap, if_pos ⟨hX, hY⟩, if_pos (by omega)]
    dsimp only
    rw [if_pos rfl]
    obtain ⟨X', rfl⟩ : ∃ X', X = X' + 1 := ⟨X - 1, by omega⟩
    rw [List.range_succ_eq_map, List.foldl_cons]
    set a : NDArray ℚ := ⟨X' + 1 + Y, fun k => if k = X' + 1 + 1 then 2 else 1, fun _ => 0⟩ with ha
    have : ∀ (ks : List Nat) (b : NDArray ℚ), (∀ k ∈ ks, k ≤ X' + 1) → (∀ m ≤ X' + 1, b.shape m = 1) →
        ∀ m ≤ X' + 1, (ks.foldl (fun val k => val.moveaxis (X' + 1) k) b).shape m = 1 := by
      intro ks
      induction ks with
      | nil => intro b _ hb m hm; exact hb m hm
      | cons k ks ih =>
        intro b hk hb m hm
        rw [List.foldl_cons]
        apply ih _ (fun j hj => hk j (List.mem_cons_of_mem _ hj)) _ m hm
        intro m hm
        have := hk k List.mem_cons_self
        show b.shape _ = 1
        apply hb
        split_ifs <;> omega
    rw [this _ _ _ _ 1 (by omega)]
    · decide
    · intro k hk
      obtain ⟨j, hj, rfl⟩ := List.mem_map.1 hk
      have := List.mem_range.1 hj; omega
    · intro m hm
      show a.shape _ = 1
      rw [ha]
      dsimp only
      rw [if_neg]
      split_ifs <;> omega
  · have hY1 : Y = 1 := by omega
    subst hY1
    have hX2 : 2 ≤ X := by omega
    refine ⟨⟨⟨X + 1, fun k => if k = X - 1 then 2 else 1, fun _ => 0⟩, X, 1, 0, [], []⟩,
      Tensor.wf_nomap (by dsimp only; omega), rfl, rfl, 1, by omega, ?_⟩
    unfold Tensor.transpose
    dsimp only
    rw [nomap, nomap, if_pos ⟨hX, by omega⟩, if_neg (by omega)]
    dsimp only
    rw [if_neg (by omega)]
    obtain ⟨X', rfl⟩ : ∃ X', X = X' + 2 := ⟨X - 2, by omega⟩
    rw [show List.range (X' + 2) = 0 :: 1 :: (List.range X').map (· + 2) by
      rw [List.range_succ_eq_map, List.range_succ_eq_map]; simp, List.foldl_cons, List.foldl_cons]
    rw [moves_shape]
    · simp [moveaxis, reaxis]
    · left
      intro k hk
      obtain ⟨j, hj, rfl⟩ := List.mem_map.1 hk
      omega
    · intro k hk
      obtain ⟨j, hj, rfl⟩ := List.mem_map.1 hk
      have := List.mem_range.1 hj; omega

/-- The hypotheses of the partial theorem hold for `diag3` (one `x` axis) and for a Tensor with one
axis in each space. -/
example : diag3.transpose.dense ⟨fun _ => 0, fun _ => 1, fun _ => 1, fun _ => 0⟩ = 2 ∧
    (⟨⟨2, fun _ => 3, fun idx => (10 * idx 0 + idx 1 : ℚ)⟩, 1, 1, 0, [], []⟩ : Tensor ℚ).transpose.dense
      ⟨fun _ => 1, fun _ => 2, fun _ => 0, fun _ => 0⟩ = 21 := by
  constructor
  · rw [(C52_transpose_partial diag3_wf (Or.inr (Or.inl rfl))).2.2.2.2.2]
    show ((1 : ℕ) : ℚ) + 1 = 2; norm_num
  · rw [(C52_transpose_partial (Tensor.wf_nomap (by decide)) (Or.inr (Or.inr ⟨rfl, rfl⟩))).2.2.2.2.2]
    show (10 * (2 : ℕ) + (1 : ℕ) : ℚ) = 21; norm_num

end Verif.Tens
