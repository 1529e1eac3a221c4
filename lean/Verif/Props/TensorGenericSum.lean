import Verif.Props.TensorGenericArray
import Verif.Lemmas.TensorGenericSum

/-!
# C58: `GenericTensor.sum`
-/

set_option linter.unusedSectionVars false

namespace Verif.Tens
open Verif.Params (Err)
open NDArray

variable {α : Type} [Field α] [DecidableEq α]

theorem axisOf_append_true (l : List Bool) (D k : Nat) : axisOf (l ++ List.replicate D true) k = axisOf l k := by
  induction l generalizing k with
  | nil => exact axisOf_replicate_true D k
  | cons b l ih =>
    cases b <;> cases k <;> simp only [List.cons_append, axisOf, ih]

theorem posOf_append_true (l : List Bool) (D j : Nat) : posOf (l ++ List.replicate D true) j = posOf l j := by
  induction l generalizing j with
  | nil =>
    have := posOf_true D [] j
    rw [List.append_nil] at this
    rw [List.nil_append, this]
    show (if j < D then j else D + (j - D)) = j
    split_ifs <;> omega
  | cons b l ih =>
    cases b
    · show posOf (l ++ _) j + 1 = posOf l j + 1
      rw [ih]
    · cases j
      · rfl
      · show posOf (l ++ _) _ + 1 = posOf l _ + 1
        rw [ih]

/-- `values[[None] * (X - x) + [slice(None)] * x + …]` -/
theorem padAxes_ok (v : NDArray α) {x y X Y D : Nat} (hv : v.ndim = x + y + D) (hx : x = 0 ∨ x = X)
    (hy : y = 0 ∨ y = Y) :
    ∃ l, v.newAxes (List.replicate (X - x) false ++ List.replicate x true ++ List.replicate (Y - y) false ++
        List.replicate y true) = .ok l ∧ l.ndim = X + Y + D ∧
      (∀ i, l.bget (Tens.flat X Y 0 i) = v.bget (Tens.flat x y 0 i)) ∧
      (∀ k < X, l.shape k = if x = 0 then 1 else v.shape k) ∧
      (∀ k < Y, l.shape (X + k) = if y = 0 then 1 else v.shape (x + k)) ∧
      (∀ k < D, l.shape (X + Y + k) = v.shape (x + y + k)) := by
  set t : Tensor α := ⟨v, x, y, D, [], []⟩ with ht
  have hn : t.n = 0 := by
    show v.ndim - x - y - D = 0
    omega
  have hblock : ∀ {a A : Nat}, a = 0 ∨ a = A →
      List.replicate (A - a) false ++ List.replicate a true = List.replicate A (decide (0 < a)) := by
    intro a A h
    rcases Nat.eq_zero_or_pos a with h0 | h0
    · subst h0; simp
    · have : a = A := by omega
      subst this
      simp [h0]
  have hm : List.replicate (X - x) false ++ List.replicate x true ++ List.replicate (Y - y) false ++
        List.replicate y true = List.replicate X (decide (0 < x)) ++ List.replicate Y (decide (0 < y)) := by
    rw [List.append_assoc, hblock hx, hblock hy]
  obtain ⟨l, l1, l2, l3, l4, l5, l6, l7⟩ := reshape_ok (t := t) (v := v) (X := X) (Y := Y) (N := 0) (D := D)
    (by rw [hn]; exact hv) rfl ⟨hx, hy, Or.inl hn, Or.inr rfl⟩
  have hidx : t.reshapeIdx X Y 0 D = (List.replicate X (decide (0 < x)) ++ List.replicate Y (decide (0 < y))) ++
      List.replicate D true := by
    unfold Tensor.reshapeIdx
    rw [List.replicate_zero, List.append_nil]
    congr 1
    show List.replicate D (decide (0 < D)) = _
    rcases Nat.eq_zero_or_pos D with h0 | h0
    · subst h0; rfl
    · rw [decide_eq_true h0]
  have hnew : v.newAxes (List.replicate X (decide (0 < x)) ++ List.replicate Y (decide (0 < y))) = .ok l := by
    rw [← l1, hidx]
    unfold NDArray.newAxes
    have c : (List.replicate X (decide (0 < x)) ++ List.replicate Y (decide (0 < y))).count true = x + y := by
      rw [List.count_append, count_block_true hx, count_block_true hy]
    rw [if_neg (by omega), if_neg (by
      rw [List.count_append, c]; simp; omega)]
    have hc : ((List.replicate X (decide (0 < x)) ++ List.replicate Y (decide (0 < y))) ++
        List.replicate D true).count false =
        (List.replicate X (decide (0 < x)) ++ List.replicate Y (decide (0 < y))).count false := by
      rw [List.count_append]; simp [List.count_replicate]
    rw [hc]
    congr 2
    · funext k; rw [axisOf_append_true]
    · funext j; rw [posOf_append_true]
  refine ⟨l, by rw [hm, hnew], l2, ?_, l4, l5, ?_⟩
  · intro i
    rw [l3 i]
    apply bget_congr'
    intro k _
    unfold Tensor.flat
    rw [hn]
  · intro k hk
    have := l7 k hk
    rw [hn, if_neg (by show ¬ D = 0; omega)] at this
    exact this

/-- Tensors whose sum is the sum of the represented array, also at positions that broadcast it. -/
theorem elem_sum {t : Tensor α} (hw : t.WF) (hm : t.MapsInjective) (sd : Bool) :
    ∃ r, t.sum .all sd = .ok r ∧ r.values.ndim = t.xDim + t.yDim + (if sd then 0 else t.dim) ∧
      (∀ k < t.xDim + t.yDim, r.values.shape k = t.fullShape k) ∧
      (sd = false → ∀ k < t.dim, r.values.shape (t.xDim + t.yDim + k) =
        t.values.shape (t.xDim + t.yDim + t.n + k)) ∧
      ∀ i : Idx, (∀ k < t.xDim, t.fullShape k = 1 ∨ i.x k < t.fullShape k) →
        (∀ k < t.yDim, t.fullShape (t.xDim + k) = 1 ∨ i.y k < t.fullShape (t.xDim + k)) →
        (sd = false → ∀ k < t.dim, t.values.shape (t.xDim + t.yDim + t.n + k) = 1 ∨
          i.d k < t.values.shape (t.xDim + t.yDim + t.n + k)) →
        (∀ k, 0 ≤ t.xMap.getD k (-1) → t.fullShape k = 1 → i.x k = 0) →
        (∀ k, 0 ≤ t.yMap.getD k (-1) → t.fullShape (t.xDim + k) = 1 → i.y k = 0) →
        r.values.bget (Tens.flat t.xDim t.yDim 0 i) = t.sumDense (List.range t.n) sd i := by
  obtain ⟨r, h1, hrw, h2, h3, h4, h5, h6, h7, h8, h9, h10⟩ := C55_sum_all_partial hw hm sd
  have hrf : ∀ k, r.fullShape k = r.values.shape k := by
    intro k
    unfold Tensor.fullShape
    rw [h6, h7]
    simp
  have hnd : r.values.ndim = t.xDim + t.yDim + (if sd then 0 else t.dim) := by
    rw [hrw.nd, h2, h3, h4, h5, Nat.add_zero]
  have hge : ∀ k, t.fullShape (t.xDim + t.yDim + t.n + k) = t.values.shape (t.xDim + t.yDim + t.n + k) :=
    fun k => Tensor.fullShape_ge _ (by omega)
  refine ⟨r, h1, hnd, fun k hk => by rw [← hrf, h8 k hk], fun hsd k hk => by
    rw [← hrf, h9 hsd k hk, hge], ?_⟩
  intro i ix iy id mx my
  have hxl := hw.xLen
  have hyl := hw.yLen
  set j : Idx := ⟨fun k => if t.fullShape k = 1 then 0 else i.x k,
    fun k => if t.fullShape (t.xDim + k) = 1 then 0 else i.y k, i.n,
    fun k => if t.values.shape (t.xDim + t.yDim + t.n + k) = 1 then 0 else i.d k⟩ with hj
  have hrd : r.values.bget (Tens.flat t.xDim t.yDim 0 i) = r.dense j := by
    unfold Tensor.dense
    rw [if_pos (by rw [h6, h7]; exact ⟨fun k hk => absurd hk (Nat.not_lt_zero k),
      fun k hk => absurd hk (Nat.not_lt_zero k)⟩)]
    apply bget_congr
    intro k hk hk1
    unfold Tensor.flat
    rw [h2, h3, h4]
    by_cases c1 : k < t.xDim
    · rw [flat_x c1, flat_x c1]
      have : r.values.shape k = t.fullShape k := by rw [← hrf, h8 k (by omega)]
      rw [this] at hk1
      exact (if_neg hk1).symm
    · by_cases c2 : k < t.xDim + t.yDim
      · obtain ⟨k, rfl⟩ : ∃ m, k = t.xDim + m := ⟨k - t.xDim, by omega⟩
        rw [flat_y (by omega), flat_y (by omega)]
        have : r.values.shape (t.xDim + k) = t.fullShape (t.xDim + k) := by rw [← hrf, h8 _ (by omega)]
        rw [this] at hk1
        exact (if_neg hk1).symm
      · obtain ⟨k, rfl⟩ : ∃ m, k = t.xDim + t.yDim + 0 + m := ⟨k - t.xDim - t.yDim, by omega⟩
        rw [flat_d, flat_d]
        cases sd with
        | true => simp at hnd; omega
        | false =>
          have hnd' : r.values.ndim = t.xDim + t.yDim + t.dim := hnd
          have : r.values.shape (t.xDim + t.yDim + k) = t.values.shape (t.xDim + t.yDim + t.n + k) := by
            rw [← hrf, h9 rfl k (by omega), hge]
          rw [Nat.add_zero, this] at hk1
          exact (if_neg hk1).symm
  rw [hrd, h10]
  · unfold Tensor.sumDense
    apply sumAt_congr _ fun _ _ => rfl
    intro n n' n1 n2 n3
    have hnn : n = n' := by
      funext k
      by_cases hk : k ∈ List.range t.n
      · exact (n1 k hk).1
      · rw [n2 k hk, n3 k hk]
    subst hnn
    apply sumAt_congr _ fun _ _ => rfl
    intro d d' d1 d2 d3
    have hfn : ∀ f < t.n, t.values.shape (t.xDim + t.yDim + f) = 1 → n f = 0 := by
      intro f hf h1
      have := (n1 f (List.mem_range.2 hf)).2
      omega
    apply Tensor.dense_clamp hw
    · intro k hk hk1
      by_cases c1 : k < t.xDim
      · rw [t.flat_x _ c1, t.flat_x _ c1]
        exact if_neg hk1
      · by_cases c2 : k < t.xDim + t.yDim
        · obtain ⟨k, rfl⟩ : ∃ m, k = t.xDim + m := ⟨k - t.xDim, by omega⟩
          rw [t.flat_y _ (by omega), t.flat_y _ (by omega)]
          exact if_neg hk1
        · by_cases c3 : k < t.xDim + t.yDim + t.n
          · obtain ⟨k, rfl⟩ : ∃ m, k = t.xDim + t.yDim + m := ⟨k - t.xDim - t.yDim, by omega⟩
            rw [t.flat_n _ (by omega), t.flat_n _ (by omega)]
          · obtain ⟨k, rfl⟩ : ∃ m, k = t.xDim + t.yDim + t.n + m := ⟨k - t.xDim - t.yDim - t.n, by omega⟩
            rw [t.flat_d, t.flat_d]
            rw [hge] at hk1
            by_cases hkd : k ∈ if sd = true then List.range t.dim else []
            · exact (d1 k hkd).1
            · show d k = d' k
              rw [d2 k hkd, d3 k hkd]
              exact if_neg hk1
    · intro k h0 h1
      have e := t.fullShape_x hw h0
      have z := hfn _ (hw.xR h0) (by rw [← e, h1])
      exact ⟨mx k h0 h1, z, if_pos h1, z⟩
    · intro k h0 h1
      have e := t.fullShape_y hw h0
      have z := hfn _ (hw.yR h0) (by rw [← e, h1])
      exact ⟨my k h0 h1, z, if_pos h1, z⟩
  · intro k hk
    unfold Tensor.flat
    rw [h2, h3, h4]
    by_cases c1 : k < t.xDim
    · rw [flat_x c1, h8 k (by omega)]
      show (if t.fullShape k = 1 then 0 else i.x k) < _
      rcases ix k c1 with h | h
      · rw [if_pos h, h]; omega
      · split_ifs <;> omega
    · by_cases c2 : k < t.xDim + t.yDim
      · obtain ⟨k, rfl⟩ : ∃ m, k = t.xDim + m := ⟨k - t.xDim, by omega⟩
        rw [flat_y (by omega), h8 _ (by omega)]
        show (if t.fullShape (t.xDim + k) = 1 then 0 else i.y k) < _
        rcases iy k (by omega) with h | h
        · rw [if_pos h, h]; omega
        · split_ifs <;> omega
      · obtain ⟨k, rfl⟩ : ∃ m, k = t.xDim + t.yDim + 0 + m := ⟨k - t.xDim - t.yDim, by omega⟩
        rw [flat_d]
        cases sd with
        | true => simp at hnd; omega
        | false =>
          have hnd' : r.values.ndim = t.xDim + t.yDim + t.dim := hnd
          rw [Nat.add_zero, h9 rfl k (by omega), hge]
          show (if t.values.shape (t.xDim + t.yDim + t.n + k) = 1 then 0 else i.d k) < _
          rcases id rfl k (by omega) with h | h
          · rw [if_pos h, h]; omega
          · split_ifs <;> omega

theorem Tensor.dense_update_n {t : Tensor α} (hw : t.WF) (i : Idx) {f : Nat} (hf : f < t.n)
    (h1 : t.values.shape (t.xDim + t.yDim + f) = 1) (hx : (f : Int) ∉ t.xMap) (hy : (f : Int) ∉ t.yMap) (v : Nat) :
    t.dense ⟨i.x, i.y, Function.update i.n f v, i.d⟩ = t.dense i := by
  have ag : ∀ (m : List Int) (w : Nat → Nat), (f : Int) ∉ m →
      (Agrees m w (Function.update i.n f v) ↔ Agrees m w i.n) := by
    intro m w hm
    apply agrees_congr
    intro g hg
    rw [Function.update_of_ne]
    rintro rfl
    exact hm hg
  unfold Tensor.dense
  refine if_congr (and_congr (ag _ _ hx) (ag _ _ hy)) ?_ rfl
  apply bget_congr
  intro k hk hk1
  by_cases c1 : k < t.xDim
  · rw [t.flat_x _ c1, t.flat_x _ c1]
  · by_cases c2 : k < t.xDim + t.yDim
    · obtain ⟨k, rfl⟩ : ∃ m, k = t.xDim + m := ⟨k - t.xDim, by omega⟩
      rw [t.flat_y _ (by omega), t.flat_y _ (by omega)]
    · by_cases c3 : k < t.xDim + t.yDim + t.n
      · obtain ⟨k, rfl⟩ : ∃ m, k = t.xDim + t.yDim + m := ⟨k - t.xDim - t.yDim, by omega⟩
        rw [t.flat_n _ (by omega), t.flat_n _ (by omega)]
        refine Function.update_of_ne ?_ _ _
        rintro rfl
        exact hk1 h1
      · obtain ⟨k, rfl⟩ : ∃ m, k = t.xDim + t.yDim + t.n + m := ⟨k - t.xDim - t.yDim - t.n, by omega⟩
        rw [t.flat_d, t.flat_d]

theorem Tensor.dense_update_d {t : Tensor α} (hw : t.WF) (i : Idx) {f : Nat}
    (h1 : t.values.shape (t.xDim + t.yDim + t.n + f) = 1) (v : Nat) :
    t.dense ⟨i.x, i.y, i.n, Function.update i.d f v⟩ = t.dense i := by
  unfold Tensor.dense
  refine if_congr Iff.rfl ?_ rfl
  apply bget_congr
  intro k hk hk1
  by_cases c1 : k < t.xDim
  · rw [t.flat_x _ c1, t.flat_x _ c1]
  · by_cases c2 : k < t.xDim + t.yDim
    · obtain ⟨k, rfl⟩ : ∃ m, k = t.xDim + m := ⟨k - t.xDim, by omega⟩
      rw [t.flat_y _ (by omega), t.flat_y _ (by omega)]
    · by_cases c3 : k < t.xDim + t.yDim + t.n
      · obtain ⟨k, rfl⟩ : ∃ m, k = t.xDim + t.yDim + m := ⟨k - t.xDim - t.yDim, by omega⟩
        rw [t.flat_n _ (by omega), t.flat_n _ (by omega)]
      · obtain ⟨k, rfl⟩ : ∃ m, k = t.xDim + t.yDim + t.n + m := ⟨k - t.xDim - t.yDim - t.n, by omega⟩
        rw [t.flat_d, t.flat_d]
        refine Function.update_of_ne ?_ _ _
        rintro rfl
        exact hk1 h1

/-- The positions of value axes beyond the existing ones are not read. -/
theorem Tensor.dense_congr_n {t : Tensor α} (hw : t.WF) {x y n n' d : Nat → Nat} (h : ∀ f < t.n, n f = n' f) :
    t.dense ⟨x, y, n, d⟩ = t.dense ⟨x, y, n', d⟩ := by
  unfold Tensor.dense
  refine if_congr (and_congr ?_ ?_) ?_ rfl
  · exact agrees_congr fun f hf => h f (by have := hw.xRange _ hf; omega)
  · exact agrees_congr fun f hf => h f (by have := hw.yRange _ hf; omega)
  · apply bget_congr'
    intro k hk
    unfold Tensor.flat Tens.flat
    split_ifs with c1 c2 c3
    · rfl
    · rfl
    · exact h _ (by omega)
    · rfl

/-- The sum over the common axes of an element that is repeated by broadcasting. -/
theorem elem_repeat [CharZero α] {t : Tensor α} (hw : t.WF) (S : Nat → Nat) (sd : Bool)
    (hp : ∀ k < t.n + t.dim, t.values.shape (t.xDim + t.yDim + k) ≠ 0)
    (hS : ∀ k < t.n + t.dim, t.values.shape (t.xDim + t.yDim + k) = S k ∨
      t.values.shape (t.xDim + t.yDim + k) = 1)
    (hx : ∀ f : Nat, (f : Int) ∈ t.xMap ∨ (f : Int) ∈ t.yMap → t.values.shape (t.xDim + t.yDim + f) = S f)
    (i : Idx) :
    sumAt S (List.range t.n)
      (fun n => sumAt (fun k => S (t.n + k)) (if sd then List.range t.dim else [])
        (fun d => t.dense ⟨i.x, i.y, n, d⟩) i.d) (fun _ => 0) =
    ((((List.range t.n ++ if sd then (List.range t.dim).map (t.n + ·) else []).map S).prod : Nat) : α) /
      ((((List.range t.n ++ if sd then (List.range t.dim).map (t.n + ·) else []).map
        fun k => t.values.shape (t.xDim + t.yDim + k)).prod : Nat) : α) *
      t.sumDense (List.range t.n) sd i := by
  have inner : ∀ n, sumAt (fun k => S (t.n + k)) (if sd then List.range t.dim else [])
      (fun d => t.dense ⟨i.x, i.y, n, d⟩) i.d =
      (((((if sd then List.range t.dim else []).map fun k => S (t.n + k)).prod : Nat) : α) /
        ((((if sd then List.range t.dim else []).map fun k =>
          t.values.shape (t.xDim + t.yDim + t.n + k)).prod : Nat) : α)) *
      sumAt (fun k => t.values.shape (t.xDim + t.yDim + t.n + k)) (if sd then List.range t.dim else [])
        (fun d => t.dense ⟨i.x, i.y, n, d⟩) i.d := by
    intro n
    have hmem : ∀ a ∈ (if sd then List.range t.dim else []), a < t.dim := by
      intro a ha
      split_ifs at ha
      · exact List.mem_range.1 ha
      · cases ha
    refine sumAt_bcast _ _ _ ?_ ?_ _
    · intro a ha
      have := hp (t.n + a) (by have := hmem a ha; omega)
      rwa [← Nat.add_assoc] at this
    · intro a ha
      have := hS (t.n + a) (by have := hmem a ha; omega)
      rw [← Nat.add_assoc] at this
      rcases this with h | h
      · exact Or.inl h
      · exact Or.inr ⟨h, fun d v => t.dense_update_d hw ⟨i.x, i.y, n, d⟩ h v⟩
  have hpr : ∀ F : Nat → Nat, ((List.range t.n ++ if sd then (List.range t.dim).map (t.n + ·) else []).map F).prod =
      ((List.range t.n).map F).prod * ((if sd then List.range t.dim else []).map fun k => F (t.n + k)).prod := by
    intro F
    rw [List.map_append, List.prod_append]
    congr 2
    split_ifs
    · rw [List.map_map]; rfl
    · rfl
  rw [hpr, hpr]
  simp only [inner]
  rw [sumAt_mul, sumAt_bcast (fun k => t.values.shape (t.xDim + t.yDim + k)) S (List.range t.n)]
  · have e : sumAt (fun k => t.values.shape (t.xDim + t.yDim + k)) (List.range t.n)
        (fun n => sumAt (fun k => t.values.shape (t.xDim + t.yDim + t.n + k)) (if sd then List.range t.dim else [])
          (fun d => t.dense ⟨i.x, i.y, n, d⟩) i.d) (fun _ => 0) = t.sumDense (List.range t.n) sd i := by
      unfold Tensor.sumDense
      apply sumAt_congr _ fun _ _ => rfl
      intro n n' n1 n2 n3
      congr 1
      funext d
      exact t.dense_congr_n hw fun f hf => (n1 f (List.mem_range.2 hf)).1
    rw [e, Nat.cast_mul, Nat.cast_mul]
    simp only [← Nat.add_assoc]
    ring
  · intro a ha
    exact hp a (by have := List.mem_range.1 ha; omega)
  · intro a ha
    have han := List.mem_range.1 ha
    by_cases hm : (a : Int) ∈ t.xMap ∨ (a : Int) ∈ t.yMap
    · exact Or.inl (hx a hm)
    · rcases hS a (by omega) with h | h
      · exact Or.inl h
      · refine Or.inr ⟨h, fun n v => ?_⟩
        congr 1
        funext d
        rw [not_or] at hm
        exact t.dense_update_n hw ⟨i.x, i.y, n, d⟩ han h hm.1 hm.2 v

/-- The loop of additions. -/
def addArrays : List (NDArray α) → NDArray α → Except Err (NDArray α)
  | [], acc => .ok acc
  | w :: ws, acc =>
    match NDArray.binary (· + ·) acc w with
    | .error e => .error e
    | .ok acc => addArrays ws acc

theorem addArrays_ok {nd : Nat} (ws : List (NDArray α)) (acc : NDArray α) (hacc : acc.ndim = nd)
    (hws : ∀ w ∈ ws, w.ndim = nd)
    (hf : ∀ w ∈ ws, ∀ v ∈ ws, ∀ k < nd, Bcast (w.shape k) (v.shape k))
    (hfa : ∀ w ∈ ws, ∀ k < nd, Bcast (acc.shape k) (w.shape k)) :
    ∃ a, addArrays ws acc = .ok a ∧ a.ndim = nd ∧
      (∀ k < nd, acc.shape k = 1 ∨ acc.shape k = a.shape k) ∧
      (∀ w ∈ ws, ∀ k < nd, w.shape k = 1 ∨ w.shape k = a.shape k) ∧
      (∀ k < nd, acc.shape k = 1 → (∀ w ∈ ws, w.shape k = 1) → a.shape k = 1) ∧
      ∀ idx, a.bget idx = acc.bget idx + (ws.map fun w => w.bget idx).sum := by
  induction ws generalizing acc with
  | nil =>
    exact ⟨acc, rfl, hacc, fun k _ => Or.inr rfl, fun t ht => (by cases ht), fun k _ h _ => h,
      fun idx => by simp⟩
  | cons w ws ih =>
    have hw := hws w List.mem_cons_self
    obtain ⟨acc', hb⟩ := NDArray.binary_isOk (f := (· + ·)) (a := acc) (b := w) (by omega) (by
      intro k hk
      exact hfa w List.mem_cons_self k (by omega))
    obtain ⟨b1, b2, b3, b4⟩ := NDArray.binary_ok hb (by omega)
    obtain ⟨a, ha, a1, a2, a3, a4, a5⟩ := ih acc' (by omega) (fun e he => hws e (List.mem_cons_of_mem _ he))
      (fun t ht o ho => hf t (List.mem_cons_of_mem _ ht) o (List.mem_cons_of_mem _ ho)) (by
        intro o ho k hk
        rw [b2]
        have e1 := hfa o (List.mem_cons_of_mem _ ho) k hk
        have e2 := hf w List.mem_cons_self o (List.mem_cons_of_mem _ ho) k hk
        split_ifs <;> assumption)
    refine ⟨a, ?_, a1, ?_, ?_, ?_, ?_⟩
    · unfold addArrays
      simp only [hb, ha]
    · intro k hk
      have e1 := a2 k hk
      rw [b2] at e1
      by_cases hc : acc.shape k = 1
      · exact Or.inl hc
      · rw [if_neg hc] at e1; exact e1
    · intro o ho k hk
      rcases List.mem_cons.1 ho with rfl | ho
      · have e1 := a2 k hk
        have e2 := hfa o List.mem_cons_self k hk
        rw [b2] at e1
        unfold Bcast at e2
        split_ifs at e1 with hc <;> omega
      · exact a3 o ho k hk
    · intro k hk hc hall
      apply a4 k hk
      · rw [b2, if_pos hc]
        exact hall w List.mem_cons_self
      · exact fun o ho => hall o (List.mem_cons_of_mem _ ho)
    · intro idx
      rw [a5 idx, b4, List.map_cons, List.sum_cons, add_assoc]

/-- The same from 0. -/
theorem addArrays_zero {nd : Nat} (ws : List (NDArray α)) (hne : ws ≠ []) (hws : ∀ w ∈ ws, w.ndim = nd)
    (hf : ∀ w ∈ ws, ∀ v ∈ ws, ∀ k < nd, Bcast (w.shape k) (v.shape k)) :
    ∃ a, addArrays ws (NDArray.scalar 0) = .ok a ∧ a.ndim = nd ∧
      (∀ w ∈ ws, ∀ k < nd, w.shape k = 1 ∨ w.shape k = a.shape k) ∧
      (∀ k < nd, (∀ w ∈ ws, w.shape k = 1) → a.shape k = 1) ∧
      ∀ idx, a.bget idx = (ws.map fun w => w.bget idx).sum := by
  obtain ⟨w, ws', rfl⟩ := List.exists_cons_of_ne_nil hne
  obtain ⟨s, s1, s2, s3, s4⟩ := binary_zero w
  obtain ⟨a, h1, h2, h3, h4, h5, h6⟩ := addArrays_ok (nd := nd) ws' s
    (by rw [s2]; exact hws w List.mem_cons_self) (fun v hv => hws v (List.mem_cons_of_mem _ hv))
    (fun v hv u hu => hf v (List.mem_cons_of_mem _ hv) u (List.mem_cons_of_mem _ hu))
    (fun v hv k hk => by rw [s3]; exact hf w List.mem_cons_self v (List.mem_cons_of_mem _ hv) k hk)
  refine ⟨a, ?_, h2, ?_, ?_, ?_⟩
  · unfold addArrays
    simp only [s1, h1]
  · intro v hv k hk
    rcases List.mem_cons.1 hv with rfl | hv
    · have := h3 k hk
      rwa [s3] at this
    · exact h4 v hv k hk
  · intro k hk h
    exact h5 k hk (by rw [s3]; exact h w List.mem_cons_self) fun v hv => h v (List.mem_cons_of_mem _ hv)
  · intro idx
    rw [h6, s4, List.map_cons, List.sum_cons]

/-- All elements are Tensors in diagonal storage with injective maps, with all the value and `dim` axes of the
GenericTensor, and all or none of its `x` and `y` axes. -/
def Generic.Regular (g : Generic α) : Prop :=
  ∀ e ∈ g.elements, ∃ t, e = .inl t ∧ t.WF ∧ t.MapsInjective ∧ (t.xDim = 0 ∨ t.xDim = g.xDim) ∧
    (t.yDim = 0 ∨ t.yDim = g.yDim) ∧ t.n = g.n ∧ t.dim = g.dim

/-- The sizes of the axes of the elements can be broadcast, and no value or `dim` axis is empty. -/
def Generic.SizesFit (g : Generic α) : Prop :=
  ∀ t o, .inl t ∈ g.elements → .inl o ∈ g.elements →
    (t.xDim ≠ 0 → o.xDim ≠ 0 → ∀ k < g.xDim, Bcast (t.fullShape k) (o.fullShape k)) ∧
    (t.yDim ≠ 0 → o.yDim ≠ 0 → ∀ k < g.yDim, Bcast (t.fullShape (t.xDim + k)) (o.fullShape (o.xDim + k))) ∧
    (∀ k < g.n + g.dim,
      Bcast (t.values.shape (t.xDim + t.yDim + k)) (o.values.shape (o.xDim + o.yDim + k))) ∧
    ∀ k < g.n + g.dim, t.values.shape (t.xDim + t.yDim + k) ≠ 0

theorem exists_tensors {es : List (Tensor α ⊕ NDArray α)} {P : Tensor α → Prop}
    (h : ∀ e ∈ es, ∃ t, e = .inl t ∧ P t) : ∃ ts : List (Tensor α), es = ts.map Sum.inl ∧ ∀ t ∈ ts, P t := by
  induction es with
  | nil => exact ⟨[], rfl, fun t ht => by cases ht⟩
  | cons e es ih =>
    obtain ⟨t, rfl, ht⟩ := h e List.mem_cons_self
    obtain ⟨ts, rfl, hts⟩ := ih fun e he => h e (List.mem_cons_of_mem _ he)
    refine ⟨t :: ts, rfl, fun u hu => ?_⟩
    rcases List.mem_cons.1 hu with rfl | hu
    · exact ht
    · exact hts u hu

theorem elemShapes_ok (idx : List Nat) (ts : List (Tensor α))
    (h : ∀ t ∈ ts, ∀ j ∈ idx, t.xDim + t.yDim + j < t.values.ndim) :
    elemShapes idx (ts.map Sum.inl) =
      .ok (ts.map fun t => idx.map fun j => t.values.shape (t.xDim + t.yDim + j)) := by
  induction ts with
  | nil => rfl
  | cons t ts ih =>
    have h1 : elemShape idx (.inl t) = .ok (idx.map fun j => t.values.shape (t.xDim + t.yDim + j)) := by
      unfold elemShape
      dsimp only
      rw [if_neg]
      rintro ⟨j, hj, hc⟩
      have := h t List.mem_cons_self j hj
      omega
    rw [List.map_cons]
    unfold elemShapes
    simp only [h1, ih fun t ht => h t (List.mem_cons_of_mem _ ht), List.map_cons]

/-- The sizes of the sum of an element, in the axes of the result. -/
def outShape (g : Generic α) (t : Tensor α) (k : Nat) : Nat :=
  if k < g.xDim then (if t.xDim = 0 then 1 else t.fullShape k)
  else if k < g.xDim + g.yDim then (if t.yDim = 0 then 1 else t.fullShape (t.xDim + (k - g.xDim)))
  else t.values.shape (t.xDim + t.yDim + t.n + (k - g.xDim - g.yDim))

/-- One summand of the loop. -/
theorem summand_ok (g : Generic α) {t : Tensor α} (hw : t.WF) (hm : t.MapsInjective)
    (hx : t.xDim = 0 ∨ t.xDim = g.xDim) (hy : t.yDim = 0 ∨ t.yDim = g.yDim) (hn : t.n = g.n) (hd : t.dim = g.dim)
    (sd : Bool) (c : α) :
    ∃ r v, t.sum .all sd = .ok r ∧
      r.values.newAxes (List.replicate (g.xDim - t.xDim) false ++ List.replicate t.xDim true ++
          List.replicate (g.yDim - t.yDim) false ++ List.replicate t.yDim true) = .ok v ∧
      v.ndim = g.xDim + g.yDim + (if sd then 0 else g.dim) ∧
      (∀ k < g.xDim + g.yDim + (if sd then 0 else g.dim), v.shape k = outShape g t k) ∧
      ∀ i : Idx, (∀ k < g.xDim + g.yDim + (if sd then 0 else g.dim),
          outShape g t k = 1 ∨ Tens.flat g.xDim g.yDim 0 i k < outShape g t k) →
        (∀ k, 0 ≤ t.xMap.getD k (-1) → t.fullShape k = 1 → i.x k = 0) →
        (∀ k, 0 ≤ t.yMap.getD k (-1) → t.fullShape (t.xDim + k) = 1 → i.y k = 0) →
        (v.map fun a => a * c).bget (Tens.flat g.xDim g.yDim 0 i) = c * t.sumDense (List.range t.n) sd i := by
  obtain ⟨r, r1, r2, r3, r4, r5⟩ := elem_sum hw hm sd
  obtain ⟨v, v1, v2, v3, v4, v5, v6⟩ := padAxes_ok r.values r2 hx hy
  rw [hd] at v2 v6
  refine ⟨r, v, r1, v1, v2, ?_, ?_⟩
  · intro k hk
    unfold outShape
    by_cases c1 : k < g.xDim
    · rw [if_pos c1, v4 k c1]
      split_ifs with h
      · rfl
      · exact r3 k (by omega)
    · rw [if_neg c1]
      by_cases c2 : k < g.xDim + g.yDim
      · rw [if_pos c2]
        have := v5 (k - g.xDim) (by omega)
        rw [show g.xDim + (k - g.xDim) = k by omega] at this
        rw [this]
        split_ifs with h
        · rfl
        · exact r3 _ (by omega)
      · rw [if_neg c2]
        have hlt : k - g.xDim - g.yDim < if sd then 0 else g.dim := by omega
        have := v6 (k - g.xDim - g.yDim) hlt
        rw [show g.xDim + g.yDim + (k - g.xDim - g.yDim) = k by omega] at this
        rw [this]
        cases sd with
        | true => simp at hlt
        | false => exact r4 rfl _ (by rw [hd]; exact hlt)
  · intro i hi mx my
    rw [map_bget, v3, r5 i, mul_comm]
    · intro k hk
      have := hi k (by omega)
      unfold outShape at this
      rw [if_pos (by omega), if_neg (by omega), flat_x (by omega)] at this
      exact this
    · intro k hk
      have := hi (g.xDim + k) (by omega)
      unfold outShape at this
      rw [if_neg (by omega), if_pos (by omega), if_neg (by omega), flat_y (by omega),
        show g.xDim + k - g.xDim = k by omega] at this
      exact this
    · intro hsd k hk
      subst hsd
      have := hi (g.xDim + g.yDim + 0 + k) (by simp; omega)
      unfold outShape at this
      rw [if_neg (by omega), if_neg (by omega), flat_d,
        show g.xDim + g.yDim + 0 + k - g.xDim - g.yDim = k by omega] at this
      exact this
    · exact mx
    · exact my

theorem sumValues_eq (g : Generic α) (sd : Bool) (size : Nat) (ts : List (Tensor α)) (sh : Tensor α → List Nat)
    (V : Tensor α → NDArray α)
    (h : ∀ t ∈ ts, ∃ r, t.sum .all sd = .ok r ∧
      r.values.newAxes (List.replicate (g.xDim - t.xDim) false ++ List.replicate t.xDim true ++
          List.replicate (g.yDim - t.yDim) false ++ List.replicate t.yDim true) = .ok (V t)) (acc : NDArray α) :
    sumValues g.xDim g.yDim sd size (ts.map Sum.inl) (ts.map sh) acc =
      addArrays (ts.map fun t => (V t).map fun a => a * ((size : α) / ((sh t).prod : Nat))) acc := by
  induction ts generalizing acc with
  | nil => rfl
  | cons t ts ih =>
    obtain ⟨r, r1, r2⟩ := h t List.mem_cons_self
    simp only [List.map_cons, sumValues, addArrays, r1, r2]
    cases NDArray.binary (· + ·) acc ((V t).map fun a => a * ((size : α) / ((sh t).prod : Nat))) with
    | error e => rfl
    | ok acc' => exact ih (fun t ht => h t (List.mem_cons_of_mem _ ht)) acc'

/-- The common size is the size of every element that does not broadcast the axis. -/
theorem Generic.size_ok {g : Generic α} {t : Tensor α} (ht : .inl t ∈ g.elements) (hs : g.SizesFit)
    (hr : g.Regular) {k : Nat} (hk : k < g.n + g.dim) :
    (t.values.shape (t.xDim + t.yDim + k) = g.size k ∨ t.values.shape (t.xDim + t.yDim + k) = 1) ∧
      ((∀ o, .inl o ∈ g.elements → o.values.shape (o.xDim + o.yDim + k) = 1) → g.size k = 1) := by
  have hpos := (hs t t ht ht).2.2.2 k hk
  have hmem : t.values.shape (t.xDim + t.yDim + k) ∈ g.elements.map fun e => match e with
    | .inl t => t.values.shape (t.xDim + t.yDim + k)
    | .inr a => a.shape k := List.mem_map.2 ⟨_, ht, rfl⟩
  have hle := (foldl_max_ge (g.elements.map fun e => match e with
    | .inl t => t.values.shape (t.xDim + t.yDim + k)
    | .inr a => a.shape k) 1).2 _ hmem
  have hdef : g.size k = (g.elements.map fun e => match e with
    | .inl t => t.values.shape (t.xDim + t.yDim + k)
    | .inr a => a.shape k).foldl max 1 := rfl
  rw [← hdef] at hle
  rcases foldl_max_mem (g.elements.map fun e => match e with
    | .inl t => t.values.shape (t.xDim + t.yDim + k)
    | .inr a => a.shape k) 1 with h | h
  · rw [← hdef] at h
    exact ⟨by omega, fun _ => h⟩
  · rw [← hdef] at h
    obtain ⟨e, he, h⟩ := List.mem_map.1 h
    obtain ⟨o, rfl, -⟩ := hr e he
    have hb := (hs t o ht he).2.2.1 k hk
    dsimp only at h
    unfold Bcast at hb
    exact ⟨by omega, fun hall => by rw [← h]; exact hall o he⟩

/-- **C58 (partial).** `g.sum(True, sum_dim)` succeeds and returns a Tensor with the `x` and `y` axes of `g` that
represents the sum of the array represented by `g` over all value axes (and all `dim` axes): elements whose axes
have size 1 are counted once for every position of the broadcast axes.  Missing: elements that lack the value
axes (`C58_sum_raises`), broadcast diagonals and maps that are not injective. -/
theorem C58_sum_all_partial [CharZero α] {g : Generic α} (hr : g.Regular) (hne : g.elements ≠ []) (hs : g.SizesFit)
    (hd : g.DiagFits) (sd : Bool) :
    ∃ r, g.sum .all sd = .ok (.tensor r) ∧ r.WF ∧ r.xDim = g.xDim ∧ r.yDim = g.yDim ∧ r.n = 0 ∧
      r.dim = (if sd then 0 else g.dim) ∧
      (∀ t, .inl t ∈ g.elements → ∀ k < r.values.ndim, outShape g t k = 1 ∨ outShape g t k = r.fullShape k) ∧
      (∀ k < r.values.ndim, (∀ t, .inl t ∈ g.elements → outShape g t k = 1) → r.fullShape k = 1) ∧
      ∀ i, r.InBox i → r.dense i = g.sumDense sd i := by
  obtain ⟨ts, hts, P⟩ := exists_tensors hr
  have mem : ∀ t, .inl t ∈ g.elements ↔ t ∈ ts := by
    intro t
    rw [hts, List.mem_map]
    exact ⟨fun ⟨u, hu, e⟩ => by cases e; exact hu, fun h => ⟨t, h, rfl⟩⟩
  have hidx : ∀ j ∈ g.sumIdx .all sd, j < g.n + g.dim := by
    intro j hj
    unfold Generic.sumIdx at hj
    rcases List.mem_append.1 hj with h | h
    · have := List.mem_range.1 h; omega
    · split_ifs at h
      · obtain ⟨b, hb, rfl⟩ := List.mem_map.1 h
        have := List.mem_range.1 hb
        omega
      · cases h
  have hshapes := elemShapes_ok (g.sumIdx .all sd) ts (by
    intro t ht j hj
    obtain ⟨hw, -, -, -, e1, e2⟩ := P t ht
    have := hidx j hj
    have := hw.nd
    omega)
  rw [← hts] at hshapes
  set sh : Tensor α → List Nat := fun t => (g.sumIdx .all sd).map fun j => t.values.shape (t.xDim + t.yDim + j)
    with hsh
  have hsize : ((ts.map sh).foldl (List.zipWith max) (List.replicate (g.sumIdx .all sd).length 1)) =
      (g.sumIdx .all sd).map g.size := by
    have := foldl_zipWith_max (g.sumIdx .all sd)
      (ts.map fun t j => t.values.shape (t.xDim + t.yDim + j)) fun _ => 1
    rw [List.map_map, List.map_const'] at this
    refine Eq.trans this ?_
    apply List.map_congr_left
    intro j _
    unfold Generic.size
    rw [hts, List.map_map, List.map_map]
    rfl
  -- the summands
  have hV : ∀ t : Tensor α, ∃ v : NDArray α, t ∈ ts → ∃ r, t.sum .all sd = .ok r ∧
      r.values.newAxes (List.replicate (g.xDim - t.xDim) false ++ List.replicate t.xDim true ++
          List.replicate (g.yDim - t.yDim) false ++ List.replicate t.yDim true) = .ok v ∧
      v.ndim = g.xDim + g.yDim + (if sd then 0 else g.dim) ∧
      (∀ k < g.xDim + g.yDim + (if sd then 0 else g.dim), v.shape k = outShape g t k) ∧
      ∀ i : Idx, (∀ k < g.xDim + g.yDim + (if sd then 0 else g.dim),
          outShape g t k = 1 ∨ Tens.flat g.xDim g.yDim 0 i k < outShape g t k) →
        (∀ k, 0 ≤ t.xMap.getD k (-1) → t.fullShape k = 1 → i.x k = 0) →
        (∀ k, 0 ≤ t.yMap.getD k (-1) → t.fullShape (t.xDim + k) = 1 → i.y k = 0) →
        ∀ c : α, (v.map fun a => a * c).bget (Tens.flat g.xDim g.yDim 0 i) =
          c * t.sumDense (List.range t.n) sd i := by
    intro t
    by_cases ht : t ∈ ts
    · obtain ⟨hw, hm, hx, hy, e1, e2⟩ := P t ht
      obtain ⟨r, v, r1, r2, r3, r4, -⟩ := summand_ok g hw hm hx hy e1 e2 sd 0
      refine ⟨v, fun _ => ⟨r, r1, r2, r3, r4, ?_⟩⟩
      intro i h1 h2 h3 c
      obtain ⟨r', v', r1', r2', -, -, r5'⟩ := summand_ok g hw hm hx hy e1 e2 sd c
      rw [r1] at r1'
      cases r1'
      rw [r2] at r2'
      cases r2'
      exact r5' i h1 h2 h3
    · exact ⟨NDArray.scalar 0, fun h => absurd h ht⟩
  choose V hV using hV
  have hne' : ts ≠ [] := by
    rintro rfl
    exact hne hts
  set size := ((g.sumIdx .all sd).map g.size).prod with hsz
  obtain ⟨a, a1, a2, a3, a4, a5⟩ := addArrays_zero
    (nd := g.xDim + g.yDim + (if sd then 0 else g.dim))
    (ts.map fun t => (V t).map fun a => a * ((size : α) / ((sh t).prod : Nat))) (by simp [hne'])
    (by
      intro w hw
      obtain ⟨t, ht, rfl⟩ := List.mem_map.1 hw
      obtain ⟨r, -, -, h, -⟩ := hV t ht
      exact h)
    (by
      intro w hw v hv k hk
      obtain ⟨t, ht, rfl⟩ := List.mem_map.1 hw
      obtain ⟨o, ho, rfl⟩ := List.mem_map.1 hv
      obtain ⟨-, -, -, -, h1, -⟩ := hV t ht
      obtain ⟨-, -, -, -, h2, -⟩ := hV o ho
      show Bcast ((V t).shape k) ((V o).shape k)
      rw [h1 k hk, h2 k hk]
      obtain ⟨f1, f2, f3, -⟩ := hs t o ((mem t).2 ht) ((mem o).2 ho)
      unfold outShape
      by_cases c1 : k < g.xDim
      · rw [if_pos c1, if_pos c1]
        by_cases z1 : t.xDim = 0
        · rw [if_pos z1]; exact Or.inr (Or.inl rfl)
        · by_cases z2 : o.xDim = 0
          · rw [if_pos z2]; exact Or.inr (Or.inr rfl)
          · rw [if_neg z1, if_neg z2]; exact f1 z1 z2 k c1
      · rw [if_neg c1, if_neg c1]
        by_cases c2 : k < g.xDim + g.yDim
        · rw [if_pos c2, if_pos c2]
          by_cases z1 : t.yDim = 0
          · rw [if_pos z1]; exact Or.inr (Or.inl rfl)
          · by_cases z2 : o.yDim = 0
            · rw [if_pos z2]; exact Or.inr (Or.inr rfl)
            · rw [if_neg z1, if_neg z2]; exact f2 z1 z2 _ (by omega)
        · rw [if_neg c2, if_neg c2]
          obtain ⟨-, -, -, -, e1, -⟩ := P t ht
          obtain ⟨-, -, -, -, e2, -⟩ := P o ho
          have := f3 (g.n + (k - g.xDim - g.yDim)) (by split_ifs at hk <;> omega)
          rw [e1, e2]
          rwa [← Nat.add_assoc, ← Nat.add_assoc] at this)
  have hval : sumValues g.xDim g.yDim sd size g.elements (ts.map sh) (NDArray.scalar 0) = .ok a := by
    rw [hts, sumValues_eq g sd size ts sh V (fun t ht => by
      obtain ⟨r, h1, h2, -⟩ := hV t ht
      exact ⟨r, h1, h2⟩), a1]
  have hV4 : ∀ t ∈ ts, ∀ k < g.xDim + g.yDim + (if sd then 0 else g.dim),
      ((V t).map fun a => a * ((size : α) / ((sh t).prod : Nat))).shape k = outShape g t k := by
    intro t ht k hk
    obtain ⟨-, -, -, -, h, -⟩ := hV t ht
    exact h k hk
  set r : Tensor α := ⟨a, g.xDim, g.yDim, if sd then 0 else g.dim, [], []⟩ with hrdef
  have hrn : r.n = 0 := by
    show a.ndim - g.xDim - g.yDim - (if sd then 0 else g.dim) = 0
    rw [a2]; omega
  have hrf : ∀ k, r.fullShape k = a.shape k := by
    intro k
    unfold Tensor.fullShape
    simp [hrdef]
  have ho : ∀ t, .inl t ∈ g.elements → ∀ k < a.ndim, outShape g t k = 1 ∨ outShape g t k = a.shape k := by
    intro t ht k hk
    rw [mem] at ht
    rw [← hV4 t ht k (by omega)]
    exact a3 _ (List.mem_map.2 ⟨t, ht, rfl⟩) k (by omega)
  have hone : ∀ k < a.ndim, (∀ t, .inl t ∈ g.elements → outShape g t k = 1) → a.shape k = 1 := by
    intro k hk h
    apply a4 k (by omega)
    intro w hw
    obtain ⟨t, ht, rfl⟩ := List.mem_map.1 hw
    rw [hV4 t ht k (by omega)]
    exact h t ((mem t).2 ht)
  refine ⟨r, ?_, ⟨?_, by simp [hrdef], by simp [hrdef], by simp [hrdef], by simp [hrdef], by simp [hrdef],
    by simp [hrdef]⟩, rfl, rfl, hrn, rfl, ?_, ?_, ?_⟩
  · unfold Generic.sum
    simp only [Bool.false_and, Bool.false_eq_true, if_false, if_true, hshapes, hsize, ← hsz, hval, mkTensor]
    rw [if_neg (by rw [a2]; omega)]
  · show g.xDim + g.yDim + (if sd then 0 else g.dim) ≤ a.ndim
    omega
  · intro t ht k hk
    rw [hrf]
    exact ho t ht k hk
  · intro k hk h
    rw [hrf]
    exact hone k hk h
  · intro i hi
    have hin : ∀ k < a.ndim, Tens.flat g.xDim g.yDim 0 i k < a.shape k := by
      intro k hk
      have := hi k hk
      unfold Tensor.flat at this
      rwa [hrf, hrn] at this
    have hdense : r.dense i = a.bget (Tens.flat g.xDim g.yDim 0 i) := by
      unfold Tensor.dense
      rw [if_pos ⟨fun k hk => absurd hk (Nat.not_lt_zero k), fun k hk => absurd hk (Nat.not_lt_zero k)⟩]
      unfold Tensor.flat
      rw [hrn]
    rw [hdense, a5, List.map_map]
    unfold Generic.sumDense Generic.dense
    simp only [sumAt_list]
    rw [hts, List.map_map]
    congr 1
    apply List.map_congr_left
    intro t ht
    have htm := (mem t).2 ht
    obtain ⟨hw, hm, hx, hy, e1, e2⟩ := P t ht
    obtain ⟨r', -, -, -, -, h5⟩ := hV t ht
    have hxl := hw.xLen
    have hyl := hw.yLen
    have hsz1 : ∀ k < g.n + g.dim, _ := fun k hk => Generic.size_ok (g := g) (t := t) htm hs hr hk
    simp only [Function.comp]
    rw [h5 i]
    · have := elem_repeat hw g.size sd (by
        intro k hk
        exact (hs t t htm htm).2.2.2 k (by omega)) (fun k hk => (hsz1 k (by omega)).1) (by
        intro f hf
        have key : ∀ m : List Int, (f : Int) ∈ m →
            ∃ k, 0 ≤ m.getD k (-1) ∧ (m.getD k (-1)).toNat = f := fun m hm =>
          ⟨m.idxOf (f : Int), by rw [getD_idxOf hm]; omega, by rw [getD_idxOf hm]; omega⟩
        have hfn : f < t.n := by
          rcases hf with h | h
          · have := hw.xRange _ h; omega
          · have := hw.yRange _ h; omega
        rcases (hsz1 f (by omega)).1 with h | h
        · exact h
        · rw [h]
          symm
          apply (hsz1 f (by omega)).2
          intro o ho'
          rcases hf with h' | h'
          · obtain ⟨k, k1, k2⟩ := key _ h'
            have := ((hd t o htm ho').1 k k1 (by rw [t.fullShape_x hw k1, k2]; exact h)).2
            rwa [k2] at this
          · obtain ⟨k, k1, k2⟩ := key _ h'
            have := ((hd t o htm ho').2 k k1 (by rw [t.fullShape_y hw k1, k2]; exact h)).2
            rwa [k2] at this) i
      rw [e1, e2] at this
      refine Eq.trans ?_ this.symm
      rw [e1]
      rfl
    · intro k hk
      rcases ho t htm k (by omega) with h | h
      · exact Or.inl h
      · right; rw [h]; exact hin k (by omega)
    · intro k h0 h1
      have hk : k < t.xMap.length := lt_of_getD_nonneg h0
      have ax : a.shape k = 1 := hone k (by omega) fun o ho' => by
        unfold outShape
        rw [if_pos (by omega)]
        by_cases z : o.xDim = 0
        · rw [if_pos z]
        · rw [if_neg z]; exact ((hd t o htm ho').1 k h0 h1).1 z
      have := hin k (by omega)
      rw [flat_x (by omega)] at this
      omega
    · intro k h0 h1
      have hk : k < t.yMap.length := lt_of_getD_nonneg h0
      have ax : a.shape (g.xDim + k) = 1 := hone _ (by omega) fun o ho' => by
        unfold outShape
        rw [if_neg (by omega), if_pos (by omega), show g.xDim + k - g.xDim = k by omega]
        by_cases z : o.yDim = 0
        · rw [if_pos z]
        · rw [if_neg z]; exact ((hd t o htm ho').2 k h0 h1).1 z
      have := hin (g.xDim + k) (by omega)
      rw [flat_y (by omega)] at this
      omega

end Verif.Tens
