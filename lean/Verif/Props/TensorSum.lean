import Verif.Props.TensorAdd
import Verif.Lemmas.TensorSum

/-!
# C55: sum
-/

set_option linter.unusedSectionVars false

namespace Verif.Tens
open Verif.Params (Err)
open NDArray

variable {α : Type} [Field α] [DecidableEq α]

/-- The axes that `sum_val` selects. -/
def SumVal.sel (n : Nat) : SumVal → List Nat
  | .all => List.range n
  | .none => []
  | .axes l => l

section
variable {t : Tensor α} (hw : t.WF) {sel : List Nat}

/-- Swapped axes for `x`. -/
abbrev sgX (t : Tensor α) (sel : List Nat) : Nat → Nat :=
  swapPerm 0 (t.xDim + t.yDim) (fun f => 0 ≤ f ∧ f.toNat ∈ sel) t.xMap

/-- Swapped axes for `y`. -/
abbrev sgY (t : Tensor α) (sel : List Nat) : Nat → Nat :=
  swapPerm t.xDim (t.xDim + t.yDim) (fun f => (0 ≤ f ∧ f.toNat ∈ sel) ∧ f ∉ t.xMap) t.yMap

include hw

theorem sgX_x {k : Nat} (hk : k < t.xMap.length) (h0 : 0 ≤ t.xMap.getD k (-1))
    (hs : (t.xMap.getD k (-1)).toNat ∈ sel) :
    sgX t sel k = t.xDim + t.yDim + (t.xMap.getD k (-1)).toNat := by
  have := hw.xLen
  unfold sgX swapPerm
  rw [if_neg (by rintro ⟨h, -⟩; omega), Nat.sub_zero, if_pos ⟨by omega, hk, h0, hs⟩]

theorem sgX_x' {k : Nat} (hk : k < t.xDim + t.yDim) (h : k < t.xMap.length → ¬ 0 ≤ t.xMap.getD k (-1)) :
    sgX t sel k = k := by
  unfold sgX swapPerm
  rw [if_neg (by rintro ⟨h, -⟩; omega), Nat.sub_zero, if_neg]
  rintro ⟨-, h1, h2, -⟩
  exact h h1 h2

theorem sgX_n {a : Nat} (ha : a ∈ sel) (hx : (a : Int) ∈ t.xMap) :
    sgX t sel (t.xDim + t.yDim + a) = t.xMap.idxOf (a : Int) := by
  unfold sgX swapPerm
  rw [show t.xDim + t.yDim + a - (t.xDim + t.yDim) = a by omega,
    if_pos ⟨by omega, ⟨by omega, by simpa using ha⟩, hx⟩, Nat.zero_add]

theorem sgX_n' {a : Nat} (h : (a : Int) ∉ t.xMap ∨ a ∉ sel) :
    sgX t sel (t.xDim + t.yDim + a) = t.xDim + t.yDim + a := by
  have := hw.xLen
  unfold sgX swapPerm
  rw [show t.xDim + t.yDim + a - (t.xDim + t.yDim) = a by omega, if_neg, Nat.sub_zero, if_neg]
  · rintro ⟨-, h1, -⟩; omega
  · rintro ⟨-, ⟨-, h1⟩, h2⟩
    rcases h with h | h
    · exact h h2
    · exact h (by simpa using h1)

theorem sgY_x {k : Nat} (hk : k < t.xDim) : sgY t sel k = k := by
  unfold sgY swapPerm
  rw [if_neg (by rintro ⟨h, -⟩; omega), if_neg (by rintro ⟨h, -⟩; omega)]

theorem sgY_y {k : Nat} (hk : k < t.yMap.length) (h0 : 0 ≤ t.yMap.getD k (-1))
    (hs : (t.yMap.getD k (-1)).toNat ∈ sel) (hx : t.yMap.getD k (-1) ∉ t.xMap) :
    sgY t sel (t.xDim + k) = t.xDim + t.yDim + (t.yMap.getD k (-1)).toNat := by
  have := hw.yLen
  unfold sgY swapPerm
  rw [if_neg (by rintro ⟨h, -⟩; omega), show t.xDim + k - t.xDim = k by omega,
    if_pos ⟨by omega, hk, ⟨h0, hs⟩, hx⟩]

theorem sgY_y' {k : Nat} (hk : k < t.yDim)
    (h : k < t.yMap.length → 0 ≤ t.yMap.getD k (-1) → t.yMap.getD k (-1) ∈ t.xMap) :
    sgY t sel (t.xDim + k) = t.xDim + k := by
  unfold sgY swapPerm
  rw [if_neg (by rintro ⟨h, -⟩; omega), show t.xDim + k - t.xDim = k by omega, if_neg]
  rintro ⟨-, h1, ⟨h2, -⟩, h3⟩
  exact h3 (h h1 h2)

theorem sgY_n {a : Nat} (ha : a ∈ sel) (hy : (a : Int) ∈ t.yMap) (hx : (a : Int) ∉ t.xMap) :
    sgY t sel (t.xDim + t.yDim + a) = t.xDim + t.yMap.idxOf (a : Int) := by
  unfold sgY swapPerm
  rw [show t.xDim + t.yDim + a - (t.xDim + t.yDim) = a by omega,
    if_pos ⟨by omega, ⟨⟨by omega, by simpa using ha⟩, hx⟩, hy⟩]

theorem sgY_n' {a : Nat} (h : (a : Int) ∉ t.yMap ∨ (a : Int) ∈ t.xMap ∨ a ∉ sel) :
    sgY t sel (t.xDim + t.yDim + a) = t.xDim + t.yDim + a := by
  have := hw.yLen
  unfold sgY swapPerm
  rw [show t.xDim + t.yDim + a - (t.xDim + t.yDim) = a by omega, if_neg, if_neg]
  · rintro ⟨-, h1, -⟩; omega
  · rintro ⟨-, ⟨⟨-, h1⟩, h3⟩, h2⟩
    rcases h with h | h | h
    · exact h h2
    · exact h3 h
    · exact h (by simpa using h1)

end

/-- What the positions of the value axes are fixed to by the maps. -/
def pivot (t : Tensor α) (i : Idx) (a : Nat) : Option Nat :=
  if (a : Int) ∈ t.xMap then some (i.x (t.xMap.idxOf (a : Int)))
  else if (a : Int) ∈ t.yMap then some (i.y (t.yMap.idxOf (a : Int)))
  else none

theorem agrees_iff {t : Tensor α} {sel : List Nat} (i : Idx)
    (hxs : ∀ f ∈ t.xMap, 0 ≤ f → f.toNat ∈ sel) (hys : ∀ f ∈ t.yMap, 0 ≤ f → f.toNat ∈ sel)
    (hxn : (t.xMap.filter fun f => 0 ≤ f).Nodup) (hyn : (t.yMap.filter fun f => 0 ≤ f).Nodup)
    (n : Nat → Nat) :
    (Agrees t.xMap i.x n ∧ Agrees t.yMap i.y n) ↔
      (∀ a ∈ sel, ∀ c, pivot t i a = some c → n a = c) ∧
      ∀ k < t.yMap.length, 0 ≤ t.yMap.getD k (-1) → t.yMap.getD k (-1) ∈ t.xMap →
        i.x (t.xMap.idxOf (t.yMap.getD k (-1))) = i.y k := by
  have mem : ∀ (m : List Int) (k : Nat), k < m.length → m.getD k (-1) ∈ m := fun m k hk => by
    rw [List.getD_eq_getElem _ _ hk]; exact List.getElem_mem hk
  constructor
  · rintro ⟨h1, h2⟩
    constructor
    · intro a ha c hc
      unfold pivot at hc
      split_ifs at hc with c1 c2
      · cases hc
        have := h1 (t.xMap.idxOf (a : Int)) (List.idxOf_lt_length_iff.2 c1)
        rw [getD_idxOf c1] at this
        exact (this (by omega)).symm
      · cases hc
        have := h2 (t.yMap.idxOf (a : Int)) (List.idxOf_lt_length_iff.2 c2)
        rw [getD_idxOf c2] at this
        exact (this (by omega)).symm
    · intro k hk h0 hx
      have g1 := h1 (t.xMap.idxOf (t.yMap.getD k (-1))) (List.idxOf_lt_length_iff.2 hx)
      rw [getD_idxOf hx] at g1
      rw [g1 h0, h2 k hk h0]
  · rintro ⟨h1, h2⟩
    constructor
    · intro k hk h0
      have hm := mem _ k hk
      have hc : (((t.xMap.getD k (-1)).toNat : Nat) : Int) = t.xMap.getD k (-1) := by omega
      refine (h1 _ (hxs _ hm h0) _ ?_).symm
      unfold pivot
      rw [hc, if_pos hm, idxOf_getD_of_filter_nodup hxn hk h0]
    · intro k hk h0
      have hm := mem _ k hk
      have hc : (((t.yMap.getD k (-1)).toNat : Nat) : Int) = t.yMap.getD k (-1) := by omega
      by_cases hx : t.yMap.getD k (-1) ∈ t.xMap
      · rw [← h2 k hk h0 hx]
        refine (h1 _ (hys _ hm h0) _ ?_).symm
        unfold pivot
        rw [hc, if_pos hx]
      · refine (h1 _ (hys _ hm h0) _ ?_).symm
        unfold pivot
        rw [hc, if_neg hx, if_pos hm, idxOf_getD_of_filter_nodup hyn hk h0]

theorem filter_lt_append_map (p : Nat) (sel : List Nat) (dm : List Nat) (j : Nat) :
    ((sel.map (p + ·) ++ dm).filter (· < j)).length =
      (sel.filter (p + · < j)).length + (dm.filter (· < j)).length := by
  rw [List.filter_append, List.length_append, List.filter_map, List.length_map]
  rfl

theorem sum_core {t : Tensor α} (hw : t.WF) {sel : List Nat} (hsn : sel.Nodup) (hsl : ∀ a ∈ sel, a < t.n)
    (hxs : ∀ f ∈ t.xMap, 0 ≤ f → f.toNat ∈ sel) (hys : ∀ f ∈ t.yMap, 0 ≤ f → f.toNat ∈ sel)
    (hxn : (t.xMap.filter fun f => 0 ≤ f).Nodup) (hyn : (t.yMap.filter fun f => 0 ≤ f).Nodup)
    (sumDim : Bool) :
    ∃ r, t.sum (.axes sel) sumDim = .ok r ∧ r.WF ∧ r.xDim = t.xDim ∧ r.yDim = t.yDim ∧
      r.dim = (if sumDim then 0 else t.dim) ∧ r.n = t.n - sel.length ∧ r.xMap = [] ∧ r.yMap = [] ∧
      (∀ k < t.xDim + t.yDim, r.fullShape k = t.fullShape k) ∧
      (∀ f < t.n, f ∉ sel → r.fullShape (t.xDim + t.yDim + (f - (sel.filter (· < f)).length)) =
        t.fullShape (t.xDim + t.yDim + f)) ∧
      (sumDim = false → ∀ k < t.dim, r.fullShape (t.xDim + t.yDim + r.n + k) =
        t.fullShape (t.xDim + t.yDim + t.n + k)) ∧
      ∀ i, r.InBox i → r.dense i = t.sumDense sel sumDim i := by
  have mem : ∀ (m : List Int) (k : Nat), k < m.length → m.getD k (-1) ∈ m := fun m k hk => by
    rw [List.getD_eq_getElem _ _ hk]; exact List.getElem_mem hk
  have hnd : t.values.ndim = t.xDim + t.yDim + t.n + t.dim := by
    have := hw.ndim
    unfold Tensor.n; omega
  have fx : t.xMap.filter (fun f => 0 ≤ f ∧ f.toNat ∈ sel) = t.xMap.filter fun f => 0 ≤ f := by
    apply List.filter_congr
    intro f hf
    by_cases h : 0 ≤ f
    · simp [h, hxs f hf h]
    · simp [h]
  have fy : t.yMap.filter (fun f => 0 ≤ f ∧ f.toNat ∈ sel) = t.yMap.filter fun f => 0 ≤ f := by
    apply List.filter_congr
    intro f hf
    by_cases h : 0 ≤ f
    · simp [h, hys f hf h]
    · simp [h]
  have fy' : (t.yMap.filter (fun f => (0 ≤ f ∧ f.toNat ∈ sel) ∧ f ∉ t.xMap)).Nodup := by
    refine hyn.sublist (List.monotone_filter_right _ ?_)
    intro f hf
    simp only [decide_eq_true_eq] at hf ⊢
    exact hf.1.1
  have xr : ∀ f ∈ t.xMap, f < t.n := hw.xRange
  have yr : ∀ f ∈ t.yMap, f < t.n := hw.yRange
  obtain ⟨v1n, v1s, v1b⟩ := swapSel_perm (q := 0) (p := t.xDim + t.yDim)
    (P := fun f => 0 ≤ f ∧ f.toNat ∈ sel) t.xMap t.values (by have := hw.xLen; omega)
    (fun f hf h => ⟨h.1, by have := xr f hf; omega⟩) (by rw [fx]; exact hxn)
  set V1 := swapSel 0 (t.xDim + t.yDim) (fun f => 0 ≤ f ∧ f.toNat ∈ sel) 0 t.xMap t.values with hV1
  obtain ⟨v2n, v2s, v2b⟩ := swapSel_perm (q := t.xDim) (p := t.xDim + t.yDim)
    (P := fun f => (0 ≤ f ∧ f.toNat ∈ sel) ∧ f ∉ t.xMap) t.yMap V1 (by have := hw.yLen; omega)
    (fun f hf h => ⟨h.1.1, by have := yr f hf; omega⟩) fy'
  obtain ⟨y1, y2, y3⟩ := sumSwapY_ok (t.xDim + t.yDim) t.xDim sel t.xMap t.yMap 0 V1 []
    (by rw [fy]; exact hyn) (by simp) (by simp)
  rw [← y1] at v2n v2s v2b
  set V := (sumSwapY (t.xDim + t.yDim) t.xDim sel t.xMap 0 t.yMap V1 []).1 with hV
  set cross := (sumSwapY (t.xDim + t.yDim) t.xDim sel t.xMap 0 t.yMap V1 []).2 with hcross
  have vs : ∀ j, V.shape j = t.values.shape (sgX t sel (sgY t sel j)) := by
    intro j; rw [v2s, v1s]
  have vb : ∀ idx, V.bget idx = t.values.bget fun j => idx (sgY t sel (sgX t sel j)) := by
    intro idx; rw [v2b, v1b]
  have vn : V.ndim = t.values.ndim := by rw [v2n, v1n]
  -- shapes of V
  have vsx : ∀ k < t.xMap.length, 0 ≤ t.xMap.getD k (-1) →
      V.shape k = t.values.shape (t.xDim + t.yDim + (t.xMap.getD k (-1)).toNat) := by
    intro k hk h0
    have := hw.xLen
    rw [vs, sgY_x hw (by omega), sgX_x hw hk h0 (hxs _ (mem _ _ hk) h0)]
  have vsx' : ∀ k < t.xDim, (k < t.xMap.length → ¬ 0 ≤ t.xMap.getD k (-1)) → V.shape k = t.values.shape k := by
    intro k hk h
    rw [vs, sgY_x hw hk, sgX_x' hw (by omega) h]
  have xfix : ∀ k < t.yDim, sgX t sel (t.xDim + k) = t.xDim + k := by
    intro k hk
    exact sgX_x' hw (by omega) fun h => by have := hw.xLen; omega
  have xfixn : ∀ a : Nat, (a : Int) ∉ t.xMap → sgX t sel (t.xDim + t.yDim + a) = t.xDim + t.yDim + a :=
    fun a h => sgX_n' hw (Or.inl h)
  have vsy : ∀ k < t.yMap.length, 0 ≤ t.yMap.getD k (-1) → t.yMap.getD k (-1) ∉ t.xMap →
      V.shape (t.xDim + k) = t.values.shape (t.xDim + t.yDim + (t.yMap.getD k (-1)).toNat) := by
    intro k hk h0 hx
    rw [vs, sgY_y hw hk h0 (hys _ (mem _ _ hk) h0) hx, xfixn]
    rwa [show (((t.yMap.getD k (-1)).toNat : Nat) : Int) = t.yMap.getD k (-1) by omega]
  have vsy' : ∀ k < t.yDim, (k < t.yMap.length → 0 ≤ t.yMap.getD k (-1) → t.yMap.getD k (-1) ∈ t.xMap) →
      V.shape (t.xDim + k) = t.values.shape (t.xDim + k) := by
    intro k hk h
    rw [vs, sgY_y' hw hk h, xfix k hk]
  have vsn : ∀ a ∈ sel, V.shape (t.xDim + t.yDim + a) =
      if (a : Int) ∈ t.xMap ∨ (a : Int) ∈ t.yMap then 1 else t.values.shape (t.xDim + t.yDim + a) := by
    intro a ha
    by_cases hx : (a : Int) ∈ t.xMap
    · have hl := List.idxOf_lt_length_iff.2 hx
      rw [if_pos (Or.inl hx), vs, sgY_n' hw (Or.inr (Or.inl hx)), sgX_n hw ha hx]
      exact hw.xOne _ hl (by rw [getD_idxOf hx]; omega)
    · by_cases hy : (a : Int) ∈ t.yMap
      · have hl := List.idxOf_lt_length_iff.2 hy
        rw [if_pos (Or.inr hy), vs, sgY_n hw ha hy hx, xfix _ (by have := hw.yLen; omega)]
        exact hw.yOne _ hl (by rw [getD_idxOf hy]; omega)
      · rw [if_neg (by tauto), vs, sgY_n' hw (Or.inl hy), xfixn a hx]
  have nmx : ∀ a : Nat, t.n ≤ a → (a : Int) ∉ t.xMap := fun a ha h => by have := xr _ h; omega
  have nmy : ∀ a : Nat, t.n ≤ a → (a : Int) ∉ t.yMap := fun a ha h => by have := yr _ h; omega
  have vsd : ∀ a, a ∉ sel → V.shape (t.xDim + t.yDim + a) = t.values.shape (t.xDim + t.yDim + a) := by
    intro a ha
    rw [vs, sgY_n' hw (Or.inr (Or.inr ha)), sgX_n' hw (Or.inr ha)]
  -- the summed axes
  set dsel := (if sumDim then List.range t.dim else []) with hdsel
  set dm := dsel.map (t.xDim + t.yDim + t.n + ·) with hdm
  have hdmem : ∀ k ∈ dsel, k < t.dim := by
    intro k hk
    rw [hdsel] at hk
    split_ifs at hk
    · simpa using hk
    · simp at hk
  have hdn : dsel.Nodup := by
    rw [hdsel]; split_ifs
    · exact List.nodup_range
    · exact List.nodup_nil
  have hdm' : (if sumDim then (List.range t.dim).map (t.xDim + t.yDim + t.n + ·) else []) = dm := by
    rw [hdm, hdsel]; split_ifs <;> rfl
  have hin : (sel.map (t.xDim + t.yDim + ·) ++ dm).Nodup := by
    refine List.nodup_append.2 ⟨hsn.map (fun a b h => by simpa using h), hdn.map (fun a b h => by simpa using h), ?_⟩
    intro a ha b hb
    rw [hdm, List.mem_map] at hb
    rw [List.mem_map] at ha
    obtain ⟨a, ha, rfl⟩ := ha
    obtain ⟨b, hb, rfl⟩ := hb
    have := hsl a ha
    omega
  have hil : ∀ a ∈ sel.map (t.xDim + t.yDim + ·) ++ dm, a < t.values.ndim := by
    intro a ha
    rcases List.mem_append.1 ha with ha | ha
    · obtain ⟨b, hb, rfl⟩ := List.mem_map.1 ha
      have := hsl b hb
      omega
    · obtain ⟨b, hb, rfl⟩ := List.mem_map.1 ha
      have := hdmem b hb
      omega
  have hge : ∀ a ∈ sel.map (t.xDim + t.yDim + ·) ++ dm, t.xDim + t.yDim ≤ a := by
    intro a ha
    rcases List.mem_append.1 ha with ha | ha
    · obtain ⟨a, ha, rfl⟩ := List.mem_map.1 ha
      omega
    · obtain ⟨a, ha, rfl⟩ := List.mem_map.1 ha
      omega
  obtain ⟨a1, a2, a3⟩ := sumAxes_ok V hin (by rw [vn]; exact hil)
  set idx := sel.map (t.xDim + t.yDim + ·) ++ dm with hidx
  have hlen : idx.length = sel.length + dsel.length := by simp [hidx, hdm]
  have hlow : ∀ k < t.xDim + t.yDim, (idx.filter (· < k)).length = 0 := by
    intro k hk
    rw [List.length_eq_zero_iff, List.filter_eq_nil_iff]
    intro a ha
    have := hge a ha
    simp; omega
  have hslen : sel.length ≤ t.n := by
    have := (List.subperm_of_subset hsn (fun a ha => List.mem_range.2 (hsl a ha))).length_le
    simpa using this
  have hdlen : dsel.length ≤ t.dim := by
    rw [hdsel]; split_ifs <;> simp
  have vals : ∀ k < t.xDim + t.yDim, (V.sumAxes idx).shape k = V.shape k := by
    intro k hk
    have := a2 k (by rw [vn]; omega) (fun h => by have := hge k h; omega)
    rwa [hlow k hk, Nat.sub_zero] at this
  have crossm : ∀ pr ∈ cross, ∃ k < t.yMap.length, 0 ≤ t.yMap.getD k (-1) ∧ t.yMap.getD k (-1) ∈ t.xMap ∧
      pr = (t.xMap.idxOf (t.yMap.getD k (-1)), k) := by
    intro pr hpr
    rcases (y3 pr).1 hpr with h | ⟨k, hk, ⟨h0, -⟩, h1, h2⟩
    · simp at h
    · exact ⟨k, hk, h0, h1, by rw [h2, Nat.zero_add]⟩
  have crossm' : ∀ k < t.yMap.length, 0 ≤ t.yMap.getD k (-1) → t.yMap.getD k (-1) ∈ t.xMap →
      (t.xMap.idxOf (t.yMap.getD k (-1)), k) ∈ cross := by
    intro k hk h0 h1
    exact (y3 _).2 (Or.inr ⟨k, hk, ⟨h0, hys _ (mem _ _ hk) h0⟩, h1, by rw [Nat.zero_add]⟩)
  have hxl := hw.xLen
  have hyl := hw.yLen
  obtain ⟨R, r1, r2, r3, r4, r5⟩ := sumCross_ok t.xDim cross (V.sumAxes idx) y2 (by
    intro pr hpr
    obtain ⟨k, hk, h0, h1, rfl⟩ := crossm pr hpr
    have hl := List.idxOf_lt_length_iff.2 h1
    refine ⟨by dsimp only; omega, ?_, ?_⟩
    · rw [a1, vn, hnd, hlen]; dsimp only; omega
    · dsimp only
      rw [vals _ (by omega), vsy' k (by omega) fun _ _ => h1]
      exact hw.yOne k hk h0)
  have hRn : R.ndim = t.xDim + t.yDim + (t.n - sel.length) + (t.dim - dsel.length) := by
    rw [r2, a1, vn, hnd, hlen]; omega
  have hdd : (if sumDim then 0 else t.dim) = t.dim - dsel.length := by
    rw [hdsel]; split_ifs <;> simp
  have hsum : t.sum (.axes sel) sumDim = .ok ⟨R, t.xDim, t.yDim, if sumDim then 0 else t.dim, [], []⟩ := by
    unfold Tensor.sum
    simp only [sumSwapX_eq, ← hV1]
    rw [hdm', ← hidx, if_neg (by
      rintro ⟨a, ha, h⟩
      have := hil a ha
      omega), if_neg (not_not_intro hin), ← hV, ← hcross, r1]
    simp only [mkTensor]
    rw [if_neg]
    rw [hRn, hdd]
    omega
  -- shapes of the result
  have rsx : ∀ k < t.xDim, R.shape k = V.shape k := by
    intro k hk
    rw [r3 k (fun pr hpr => by omega), vals k (by omega)]
  have rsxm : ∀ k < t.xMap.length, 0 ≤ t.xMap.getD k (-1) →
      R.shape k = t.values.shape (t.xDim + t.yDim + (t.xMap.getD k (-1)).toNat) := by
    intro k hk h0
    rw [rsx k (by omega), vsx k hk h0]
  have rsy : ∀ k < t.yMap.length, 0 ≤ t.yMap.getD k (-1) →
      R.shape (t.xDim + k) = t.values.shape (t.xDim + t.yDim + (t.yMap.getD k (-1)).toNat) := by
    intro k hk h0
    by_cases hx : t.yMap.getD k (-1) ∈ t.xMap
    · have := r4 _ (crossm' k hk h0 hx)
      dsimp only at this
      have hl := List.idxOf_lt_length_iff.2 hx
      rw [this, vals _ (by omega), vsx _ hl (by rw [getD_idxOf hx]; exact h0), getD_idxOf hx]
    · rw [r3 _ (by
        intro pr hpr he
        obtain ⟨k', hk', h0', h1, rfl⟩ := crossm pr hpr
        dsimp only at he
        have : k = k' := by omega
        subst this
        exact hx h1), vals _ (by omega), vsy k hk h0 hx]
  have rsy' : ∀ k < t.yDim, (k < t.yMap.length → ¬ 0 ≤ t.yMap.getD k (-1)) →
      R.shape (t.xDim + k) = t.values.shape (t.xDim + k) := by
    intro k hk h
    rw [r3 _ (by
        intro pr hpr he
        obtain ⟨k', hk', h0', h1, rfl⟩ := crossm pr hpr
        dsimp only at he
        have : k = k' := by omega
        subst this
        exact h hk' h0'), vals _ (by omega), vsy' k hk fun h1 h2 => absurd h2 (h h1)]
  set r : Tensor α := ⟨R, t.xDim, t.yDim, if sumDim then 0 else t.dim, [], []⟩ with hr
  have hrn : r.n = t.n - sel.length := by
    show R.ndim - t.xDim - t.yDim - (if sumDim then 0 else t.dim) = _
    rw [hRn, hdd]; omega
  have rfull : ∀ k, r.fullShape k = R.shape k := by
    intro k
    unfold Tensor.fullShape
    simp [hr]
  refine ⟨r, hsum, ⟨?_, by simp [hr], by simp [hr], by simp [hr], by simp [hr], by simp [hr], by simp [hr]⟩,
    rfl, rfl, rfl, hrn, rfl, rfl, ?_, ?_, ?_, ?_⟩
  · show t.xDim + t.yDim + (if sumDim then 0 else t.dim) ≤ R.ndim
    rw [hRn, hdd]; omega
  rotate_left
  · intro f hf hfs
    have hno : t.xDim + t.yDim + f ∉ idx := by
      rw [hidx]
      intro h
      rcases List.mem_append.1 h with h | h
      · obtain ⟨b, hb, e⟩ := List.mem_map.1 h
        exact hfs (by rwa [show f = b by omega])
      · obtain ⟨b, hb, e⟩ := List.mem_map.1 h
        omega
    have e1 : (idx.filter (· < t.xDim + t.yDim + f)).length = (sel.filter (· < f)).length := by
      rw [hidx, filter_lt_append_map]
      rw [show (dm.filter (· < t.xDim + t.yDim + f)) = [] from by
        rw [List.filter_eq_nil_iff]
        intro a ha
        obtain ⟨b, hb, rfl⟩ := List.mem_map.1 ha
        simp; omega]
      rw [List.length_nil, Nat.add_zero]
      congr 1
      apply List.filter_congr
      intro a _
      simp
    have e2 := a2 (t.xDim + t.yDim + f) (by rw [vn]; omega) hno
    have e3 : (sel.filter (· < f)).length ≤ f := by
      have := (List.subperm_of_subset (hsn.filter _) (fun a ha =>
        List.mem_range.2 (of_decide_eq_true (List.mem_filter.1 ha).2) : sel.filter (· < f) ⊆ List.range f)).length_le
      simpa using this
    rw [e1, vsd f hfs] at e2
    have e4 : t.fullShape (t.xDim + t.yDim + f) = t.values.shape (t.xDim + t.yDim + f) := by
      unfold Tensor.fullShape
      rw [if_neg (by omega), if_neg (by omega)]
    rw [rfull, r3 _ (by
      intro pr hpr he
      obtain ⟨k', hk', h0', h1, rfl⟩ := crossm pr hpr
      dsimp only at he
      omega), e4, ← e2]
    congr 1; omega
  · intro hsd k hk
    have hds : dsel = [] := by rw [hdsel, hsd]; rfl
    have hno : t.xDim + t.yDim + (t.n + k) ∉ idx := by
      rw [hidx, hdm, hds]
      intro h
      rcases List.mem_append.1 h with h | h
      · obtain ⟨b, hb, e⟩ := List.mem_map.1 h
        have := hsl b hb
        omega
      · cases h
    have e1 : (idx.filter (· < t.xDim + t.yDim + (t.n + k))).length = sel.length := by
      rw [hidx, filter_lt_append_map, hdm, hds]
      show _ + 0 = _
      rw [Nat.add_zero]
      congr 1
      rw [List.filter_eq_self]
      intro a ha
      have := hsl a ha
      simp; omega
    have e2 := a2 (t.xDim + t.yDim + (t.n + k)) (by rw [vn]; omega) hno
    rw [e1, vsd _ (fun h => by have := hsl _ h; omega)] at e2
    have e4 : t.fullShape (t.xDim + t.yDim + t.n + k) = t.values.shape (t.xDim + t.yDim + (t.n + k)) := by
      unfold Tensor.fullShape
      rw [if_neg (by omega), if_neg (by omega), Nat.add_assoc (t.xDim + t.yDim)]
    rw [rfull, r3 _ (by
      intro pr hpr he
      obtain ⟨k', hk', h0', h1, rfl⟩ := crossm pr hpr
      dsimp only at he
      omega), e4, ← e2]
    congr 1
    rw [hrn]
    omega
  rotate_left
  · intro k hk
    rw [rfull]
    unfold Tensor.fullShape
    by_cases hkx : k < t.xDim
    · rw [if_pos hkx]
      by_cases hm : 0 ≤ t.xMap.getD k (-1)
      · have hkl : k < t.xMap.length := by
          by_contra hc
          rw [List.getD_eq_default _ _ (by omega)] at hm
          omega
        rw [if_pos hm, rsxm k hkl hm]
      · rw [if_neg hm, rsx k hkx, vsx' k hkx fun _ => hm]
    · rw [if_neg hkx, if_pos hk]
      obtain ⟨j, rfl⟩ : ∃ j, k = t.xDim + j := ⟨k - t.xDim, by omega⟩
      rw [show t.xDim + j - t.xDim = j by omega]
      by_cases hm : 0 ≤ t.yMap.getD j (-1)
      · have hkl : j < t.yMap.length := by
          by_contra hc
          rw [List.getD_eq_default _ _ (by omega)] at hm
          omega
        rw [if_pos hm, rsy j hkl hm]
      · rw [if_neg hm, rsy' j (by omega) fun _ => hm]
  · intro i hb
    have hbx : ∀ k < t.xMap.length, 0 ≤ t.xMap.getD k (-1) →
        i.x k < t.values.shape (t.xDim + t.yDim + (t.xMap.getD k (-1)).toNat) := by
      intro k hk h0
      have := hb k (by show k < R.ndim; omega)
      rw [rfull, rsxm k hk h0] at this
      have e : r.flat i k = i.x k := by
        show Tens.flat t.xDim t.yDim r.n i k = _
        unfold Tens.flat
        rw [if_pos (by omega)]
      rwa [e] at this
    have hby : ∀ k < t.yMap.length, 0 ≤ t.yMap.getD k (-1) →
        i.y k < t.values.shape (t.xDim + t.yDim + (t.yMap.getD k (-1)).toNat) := by
      intro k hk h0
      have := hb (t.xDim + k) (by show t.xDim + k < R.ndim; omega)
      rw [rfull, rsy k hk h0] at this
      have e : r.flat i (t.xDim + k) = i.y k := by
        show Tens.flat t.xDim t.yDim r.n i _ = _
        unfold Tens.flat
        rw [if_neg (by omega), if_pos (by omega)]
        congr 1; omega
      rwa [e] at this
    have hpiv : ∀ a ∈ sel, ∀ c, pivot t i a = some c → c < t.values.shape (t.xDim + t.yDim + a) := by
      intro a _ c hc
      unfold pivot at hc
      split_ifs at hc with c1 c2
      · cases hc
        have := hbx _ (List.idxOf_lt_length_iff.2 c1) (by rw [getD_idxOf c1]; omega)
        rwa [getD_idxOf c1, Int.toNat_natCast] at this
      · cases hc
        have := hby _ (List.idxOf_lt_length_iff.2 c2) (by rw [getD_idxOf c2]; omega)
        rwa [getD_idxOf c2, Int.toNat_natCast] at this
    have hflat : ∀ k, r.flat i k = Tens.flat t.xDim t.yDim (t.n - sel.length) i k := by
      intro k
      show Tens.flat t.xDim t.yDim r.n i k = _
      rw [hrn]
    have hL : r.dense i = R.bget (r.flat i) := by
      unfold Tensor.dense
      rw [if_pos]
      exact ⟨fun k hk => by simp [hr] at hk, fun k hk => by simp [hr] at hk⟩
    rw [hL, r5]
    -- the cross map
    have hcr : (∀ pr ∈ cross, (V.sumAxes idx).shape pr.1 = 1 ∨ r.flat i pr.1 = r.flat i (t.xDim + pr.2)) ↔
        ∀ k < t.yMap.length, 0 ≤ t.yMap.getD k (-1) → t.yMap.getD k (-1) ∈ t.xMap →
          i.x (t.xMap.idxOf (t.yMap.getD k (-1))) = i.y k := by
      have key : ∀ k < t.yMap.length, 0 ≤ t.yMap.getD k (-1) → t.yMap.getD k (-1) ∈ t.xMap →
          ((V.sumAxes idx).shape (t.xMap.idxOf (t.yMap.getD k (-1))) = 1 ∨
            r.flat i (t.xMap.idxOf (t.yMap.getD k (-1))) = r.flat i (t.xDim + k) ↔
          i.x (t.xMap.idxOf (t.yMap.getD k (-1))) = i.y k) := by
        intro k hk h0 h1
        have hl := List.idxOf_lt_length_iff.2 h1
        have e1 : r.flat i (t.xMap.idxOf (t.yMap.getD k (-1))) = i.x (t.xMap.idxOf (t.yMap.getD k (-1))) := by
          rw [hflat]; unfold Tens.flat; rw [if_pos (by omega)]
        have e2 : r.flat i (t.xDim + k) = i.y k := by
          rw [hflat]; unfold Tens.flat
          rw [if_neg (by omega), if_pos (by omega)]
          congr 1; omega
        rw [e1, e2, vals _ (by omega), vsx _ hl (by rw [getD_idxOf h1]; exact h0), getD_idxOf h1]
        constructor
        · rintro (h | h)
          · have g1 := hbx _ hl (by rw [getD_idxOf h1]; exact h0)
            have g2 := hby k hk h0
            rw [getD_idxOf h1] at g1
            omega
          · exact h
        · exact Or.inr
      constructor
      · intro h k hk h0 h1
        exact (key k hk h0 h1).1 (h _ (crossm' k hk h0 h1))
      · intro h pr hpr
        obtain ⟨k, hk, h0, h1, rfl⟩ := crossm pr hpr
        exact (key k hk h0 h1).2 (h k hk h0 h1)
    -- the sum of the represented array
    have hR : t.sumDense sel sumDim i =
        sumAt (fun f => t.values.shape (t.xDim + t.yDim + f)) sel
          (fun n => if ∀ a ∈ sel, ∀ c, pivot t i a = some c → n a = c then
            (if ∀ k < t.yMap.length, 0 ≤ t.yMap.getD k (-1) → t.yMap.getD k (-1) ∈ t.xMap →
              i.x (t.xMap.idxOf (t.yMap.getD k (-1))) = i.y k then
              sumAt (fun k => t.values.shape (t.xDim + t.yDim + t.n + k)) dsel
                (fun d => t.values.bget (t.flat ⟨i.x, i.y, n, d⟩)) i.d else 0) else 0)
          fun f => i.n (f - (sel.filter (· < f)).length) := by
      unfold Tensor.sumDense
      congr 1
      funext n
      have := agrees_iff i hxs hys hxn hyn n
      by_cases hA : Agrees t.xMap i.x n ∧ Agrees t.yMap i.y n
      · rw [if_pos (this.1 hA).1, if_pos (this.1 hA).2]
        congr 1
        funext d
        exact if_pos hA
      · have hz : (fun d => t.dense ⟨i.x, i.y, n, d⟩) = fun _ => 0 := by
          funext d
          exact if_neg hA
        rw [hz, sumAt_zero]
        by_cases c1 : ∀ a ∈ sel, ∀ c, pivot t i a = some c → n a = c
        · rw [if_pos c1, if_neg fun c2 => hA (this.2 ⟨c1, c2⟩)]
        · rw [if_neg c1]
    rw [hR, sumAt_collapse _ _ hsn (pivot t i) hpiv]
    by_cases hc : ∀ k < t.yMap.length, 0 ≤ t.yMap.getD k (-1) → t.yMap.getD k (-1) ∈ t.xMap →
          i.x (t.xMap.idxOf (t.yMap.getD k (-1))) = i.y k
    · simp only [if_pos hc]
      rw [if_pos (hcr.2 hc), a3, hidx, sumAt_append]
      -- positions of the axes that are not summed
      have hbase : ∀ j < t.values.ndim, j ∉ idx →
          r.flat i (j - (idx.filter (· < j)).length) = Tens.flat t.xDim t.yDim t.n
            ⟨i.x, i.y, fun f => i.n (f - (sel.filter (· < f)).length), i.d⟩ j := by
        intro j hj hji
        rw [hflat]
        unfold Tens.flat
        by_cases h1 : j < t.xDim
        · rw [hlow j (by omega), Nat.sub_zero, if_pos h1, if_pos h1]
        · by_cases h2 : j < t.xDim + t.yDim
          · rw [hlow j h2, Nat.sub_zero, if_neg h1, if_pos h2, if_neg h1, if_pos h2]
          · have hfl := filter_lt_append_map (t.xDim + t.yDim) sel dm j
            rw [← hidx] at hfl
            rw [if_neg h1, if_neg h2]
            by_cases h3 : j < t.xDim + t.yDim + t.n
            · obtain ⟨f, rfl⟩ : ∃ f, j = t.xDim + t.yDim + f := ⟨j - (t.xDim + t.yDim), by omega⟩
              have hd0 : (dm.filter (· < t.xDim + t.yDim + f)).length = 0 := by
                rw [List.length_eq_zero_iff, List.filter_eq_nil_iff]
                intro a ha
                obtain ⟨b, hb, rfl⟩ := List.mem_map.1 ha
                simp; omega
              have hs0 : (sel.filter (t.xDim + t.yDim + · < t.xDim + t.yDim + f)) = sel.filter (· < f) := by
                apply List.filter_congr
                intro a _
                simp
              have hfs : f ∉ sel := fun h => hji (List.mem_append_left _ (List.mem_map.2 ⟨f, h, rfl⟩))
              have hk := (List.getElem?_eq_some_iff.1 (kept_getElem? hsn (show f < t.n by omega) hfs)).1
              rw [kept_length hsn hsl] at hk
              have hle : (sel.filter (· < f)).length ≤ f := by
                have := (List.subperm_of_subset (hsn.filter (· < f)) (l₂ := List.range f) (by
                  intro a ha
                  rw [List.mem_filter] at ha
                  exact List.mem_range.2 (by simpa using ha.2))).length_le
                simpa using this
              rw [hfl, hd0, hs0, Nat.add_zero, if_neg (by omega), if_neg (by omega), if_pos (by omega),
                if_pos h3]
              dsimp only
              rw [show t.xDim + t.yDim + f - t.xDim - t.yDim = f by omega]
              congr 1
              omega
            · obtain ⟨k, rfl⟩ : ∃ k, j = t.xDim + t.yDim + t.n + k := ⟨j - (t.xDim + t.yDim + t.n), by omega⟩
              have hs0 : (sel.filter (t.xDim + t.yDim + · < t.xDim + t.yDim + t.n + k)).length = sel.length := by
                congr 1
                rw [List.filter_eq_self]
                intro a ha
                have := hsl a ha
                simp; omega
              have hd0 : (dm.filter (· < t.xDim + t.yDim + t.n + k)).length = 0 := by
                cases hsd : sumDim with
                | false =>
                  have : dm = [] := by rw [hdm, hdsel, hsd]; rfl
                  rw [this]; rfl
                | true =>
                  exfalso
                  apply hji
                  refine List.mem_append_right _ (List.mem_map.2 ⟨k, ?_, rfl⟩)
                  rw [hdsel, hsd, if_pos rfl]
                  exact List.mem_range.2 (by omega)
              rw [hfl, hd0, hs0, Nat.add_zero, if_neg (by omega), if_neg (by omega), if_neg (by omega),
                if_neg h3]
              dsimp only
              congr 1
              omega
      apply sumAt_map (g := (t.xDim + t.yDim + ·)) (fun a b h => by simpa using h)
      · intro a ha
        rw [vsn a ha]
        unfold pivot
        by_cases c1 : (a : Int) ∈ t.xMap
        · simp [c1]
        · by_cases c2 : (a : Int) ∈ t.yMap <;> simp [c1, c2]
      · intro m m' m1 m2 m3
        apply sumAt_map (g := (t.xDim + t.yDim + t.n + ·)) (fun a b h => by simpa using h)
        · intro k hk
          show V.shape (t.xDim + t.yDim + t.n + k) = _
          rw [show t.xDim + t.yDim + t.n + k = t.xDim + t.yDim + (t.n + k) by omega, vsd]
          intro h
          have := hsl _ h
          omega
        · intro q q' q1 q2 q3
          -- the index `q` on the axes that are not summed, and on the summed ones
          have qv : ∀ a ∈ sel, q (t.xDim + t.yDim + a) = m' a := by
            intro a ha
            rw [q2 _ (by
              intro h
              obtain ⟨b, -, he⟩ := List.mem_map.1 h
              have := hsl a ha
              omega), (m1 a ha).1]
          have qb : ∀ j < t.values.ndim, j ∉ idx → q j = Tens.flat t.xDim t.yDim t.n
            ⟨i.x, i.y, fun f => i.n (f - (sel.filter (· < f)).length), i.d⟩ j := by
            intro j hj hji
            rw [hidx, List.mem_append, not_or] at hji
            rw [q2 j hji.2, m2 j hji.1, hbase j hj (by rw [hidx, List.mem_append, not_or]; exact hji)]
          have qx : ∀ k < t.xDim, q k = i.x k := by
            intro k hk
            rw [qb k (by omega) (fun h => by have := hge k h; omega)]
            unfold Tens.flat
            rw [if_pos hk]
          have qy : ∀ k < t.yDim, q (t.xDim + k) = i.y k := by
            intro k hk
            rw [qb _ (by omega) (fun h => by have := hge _ h; omega)]
            unfold Tens.flat
            rw [if_neg (by omega), if_pos (by omega)]
            dsimp only
            congr 1; omega
          rw [vb]
          apply bget_congr
          intro j hj h1
          unfold Tensor.flat Tens.flat
          by_cases c1 : j < t.xDim
          · rw [if_pos c1, sgX_x' hw (by omega) fun hl h0 => h1 (hw.xOne j hl h0), sgY_x hw c1, qx j c1]
          · rw [if_neg c1]
            by_cases c2 : j < t.xDim + t.yDim
            · rw [if_pos c2]
              obtain ⟨k, rfl⟩ : ∃ k, j = t.xDim + k := ⟨j - t.xDim, by omega⟩
              rw [xfix k (by omega), sgY_y' hw (by omega) (fun hl h0 => absurd (hw.yOne k hl h0) h1),
                qy k (by omega)]
              dsimp only
              congr 1; omega
            · rw [if_neg c2]
              by_cases c3 : j < t.xDim + t.yDim + t.n
              · rw [if_pos c3]
                obtain ⟨a, rfl⟩ : ∃ a, j = t.xDim + t.yDim + a := ⟨j - (t.xDim + t.yDim), by omega⟩
                dsimp only
                rw [show t.xDim + t.yDim + a - t.xDim - t.yDim = a by omega]
                by_cases ha : a ∈ sel
                · rw [if_pos ha]
                  unfold pivot
                  by_cases hx : (a : Int) ∈ t.xMap
                  · have := List.idxOf_lt_length_iff.2 hx
                    rw [if_pos hx, sgX_n hw ha hx, sgY_x hw (by omega), qx _ (by omega)]; rfl
                  · rw [if_neg hx, xfixn a hx]
                    by_cases hy : (a : Int) ∈ t.yMap
                    · have := List.idxOf_lt_length_iff.2 hy
                      rw [if_pos hy, sgY_n hw ha hy hx, qy _ (by omega)]; rfl
                    · rw [if_neg hy, sgY_n' hw (Or.inl hy), qv a ha]; rfl
                · rw [if_neg ha, sgX_n' hw (Or.inr ha), sgY_n' hw (Or.inr (Or.inr ha)), m3 a ha, qb _ hj (by
                    rw [hidx, List.mem_append, not_or]
                    constructor
                    · intro h
                      obtain ⟨b, hb, he⟩ := List.mem_map.1 h
                      exact ha (by rwa [show a = b by omega])
                    · intro h
                      obtain ⟨b, hb, he⟩ := List.mem_map.1 h
                      omega)]
                  unfold Tens.flat
                  rw [if_neg c1, if_neg c2, if_pos c3]
                  dsimp only
                  rw [show t.xDim + t.yDim + a - t.xDim - t.yDim = a by omega]
              · rw [if_neg c3]
                obtain ⟨k, rfl⟩ : ∃ k, j = t.xDim + t.yDim + t.n + k :=
                  ⟨j - (t.xDim + t.yDim + t.n), by omega⟩
                dsimp only
                rw [show t.xDim + t.yDim + t.n + k - t.xDim - t.yDim - t.n = k by omega]
                have hns : t.n + k ∉ sel := fun h => by have := hsl _ h; omega
                rw [show t.xDim + t.yDim + t.n + k = t.xDim + t.yDim + (t.n + k) by omega,
                  sgX_n' hw (Or.inr hns), sgY_n' hw (Or.inr (Or.inr hns)),
                  show t.xDim + t.yDim + (t.n + k) = t.xDim + t.yDim + t.n + k by omega]
                by_cases hk : k ∈ dsel
                · exact (q1 k hk).1
                · rw [q3 k hk, qb _ hj (by
                    rw [hidx, List.mem_append, not_or]
                    constructor
                    · intro h
                      obtain ⟨b, hb, he⟩ := List.mem_map.1 h
                      have := hsl b hb
                      omega
                    · intro h
                      obtain ⟨b, hb, he⟩ := List.mem_map.1 h
                      exact hk (by rwa [show k = b by omega]))]
                  unfold Tens.flat
                  rw [if_neg c1, if_neg c2, if_neg c3]
                  dsimp only
                  congr 1; omega
    · rw [if_neg (fun h => hc (hcr.1 h))]
      simp only [if_neg hc]
      rw [sumAt_zero]

/-- Each of the two maps sends different axes to different value axes. -/
def Tensor.MapsInjective (t : Tensor α) : Prop :=
  (t.xMap.filter fun f => 0 ≤ f).Nodup ∧ (t.yMap.filter fun f => 0 ≤ f).Nodup

/-- **C55 (partial).** `t.sum(True, sum_dim)`: the result has the `x` and `y` axes of `t` and no value axes
(and no `dim` axes with `sum_dim = True`, the same ones otherwise), of the same sizes, and represents the sum of the array
represented by `t` over all value axes (and all `dim` axes).  Missing: Tensors with two axes of the same space
mapped to the same value axis (`C55_same_axis_counterexample`). -/
theorem C55_sum_all_partial {t : Tensor α} (hw : t.WF) (hm : t.MapsInjective) (sumDim : Bool) :
    ∃ r, t.sum .all sumDim = .ok r ∧ r.WF ∧ r.xDim = t.xDim ∧ r.yDim = t.yDim ∧ r.n = 0 ∧
      r.dim = (if sumDim then 0 else t.dim) ∧ r.xMap = [] ∧ r.yMap = [] ∧
      (∀ k < t.xDim + t.yDim, r.fullShape k = t.fullShape k) ∧
      (sumDim = false → ∀ k < t.dim, r.fullShape (t.xDim + t.yDim + k) =
        t.fullShape (t.xDim + t.yDim + t.n + k)) ∧
      ∀ i, r.InBox i → r.dense i = t.sumDense (List.range t.n) sumDim i := by
  obtain ⟨r, h1, h2, h3, h4, h5, h6, h7, h8, h9, -, h10, h11⟩ := sum_core hw (List.nodup_range (n := t.n))
    (fun a ha => List.mem_range.1 ha)
    (fun f hf h0 => List.mem_range.2 (by have := hw.xRange f hf; omega))
    (fun f hf h0 => List.mem_range.2 (by have := hw.yRange f hf; omega)) hm.1 hm.2 sumDim
  have hn : r.n = 0 := by rw [h6, List.length_range, Nat.sub_self]
  refine ⟨r, h1, h2, h3, h4, hn, h5, h7, h8, h9, ?_, h11⟩
  rwa [hn] at h10

/-- **C55 (partial).** `t.sum(list, sum_dim)` over distinct value axes that include all mapped ones: the result
has the remaining value axes in their order, and represents the sum of the array represented by `t` over the
listed axes (and all `dim` axes).  Missing: see `C55_remaining_map_counterexample` (a mapped axis that is not
summed) and `C55_same_axis_counterexample`. -/
theorem C55_sum_axes_partial {t : Tensor α} (hw : t.WF) (hm : t.MapsInjective) {sel : List Nat}
    (hsn : sel.Nodup) (hsl : ∀ a ∈ sel, a < t.n) (hmaps : ∀ f ∈ t.xMap ++ t.yMap, 0 ≤ f → f.toNat ∈ sel)
    (sumDim : Bool) :
    ∃ r, t.sum (.axes sel) sumDim = .ok r ∧ r.WF ∧ r.xDim = t.xDim ∧ r.yDim = t.yDim ∧
      r.n = t.n - sel.length ∧ r.dim = (if sumDim then 0 else t.dim) ∧ r.xMap = [] ∧ r.yMap = [] ∧
      (∀ k < t.xDim + t.yDim, r.fullShape k = t.fullShape k) ∧
      (∀ f < t.n, f ∉ sel → r.fullShape (t.xDim + t.yDim + (f - (sel.filter (· < f)).length)) =
        t.fullShape (t.xDim + t.yDim + f)) ∧
      (sumDim = false → ∀ k < t.dim, r.fullShape (t.xDim + t.yDim + r.n + k) =
        t.fullShape (t.xDim + t.yDim + t.n + k)) ∧
      ∀ i, r.InBox i → r.dense i = t.sumDense sel sumDim i := by
  obtain ⟨r, h1, h2, h3, h4, h5, h6, h7⟩ := sum_core hw hsn hsl
    (fun f hf h0 => hmaps f (List.mem_append_left _ hf) h0)
    (fun f hf h0 => hmaps f (List.mem_append_right _ hf) h0) hm.1 hm.2 sumDim
  exact ⟨r, h1, h2, h3, h4, h6, h5, h7⟩

/-- **C55.** `t.sum(False, True)` keeps the `x`, `y` and value axes and the maps, and represents the sum of the
array represented by `t` over the `dim` axes. -/
theorem C55_sum_dim {t : Tensor α} (hw : t.WF) :
    ∃ r, t.sum .none true = .ok r ∧ r.WF ∧ r.xDim = t.xDim ∧ r.yDim = t.yDim ∧ r.n = t.n ∧ r.dim = 0 ∧
      r.xMap = t.xMap ∧ r.yMap = t.yMap ∧
      (∀ k < t.xDim + t.yDim + t.n, r.values.shape k = t.values.shape k) ∧
      ∀ i, r.dense i = t.sumDense [] true i := by
  have hnd : t.values.ndim = t.xDim + t.yDim + t.n + t.dim := by
    have := hw.ndim
    unfold Tensor.n; omega
  set idx := (List.range t.dim).map (t.xDim + t.yDim + t.n + ·) with hidx
  have hlen : idx.length = t.dim := by simp [hidx]
  have hge : ∀ a ∈ idx, t.xDim + t.yDim + t.n ≤ a := by
    intro a ha
    obtain ⟨b, -, rfl⟩ := List.mem_map.1 ha
    omega
  obtain ⟨a1, a2, a3⟩ := sumAxes_ok t.values (axes := idx)
    (List.nodup_range.map fun a b h => by simpa using h) (by
      intro a ha
      obtain ⟨b, hb, rfl⟩ := List.mem_map.1 ha
      have := List.mem_range.1 hb
      omega)
  have hlow : ∀ k ≤ t.xDim + t.yDim + t.n, (idx.filter (· < k)).length = 0 := by
    intro k hk
    rw [List.length_eq_zero_iff, List.filter_eq_nil_iff]
    intro a ha
    have := hge a ha
    simp; omega
  have hsh : ∀ k < t.xDim + t.yDim + t.n, (t.values.sumAxes idx).shape k = t.values.shape k := by
    intro k hk
    have := a2 k (by omega) (fun h => by have := hge k h; omega)
    rwa [hlow k (by omega), Nat.sub_zero] at this
  set r : Tensor α := ⟨t.values.sumAxes idx, t.xDim, t.yDim, 0, t.xMap, t.yMap⟩ with hr
  have hrn : r.n = t.n := by
    show (t.values.sumAxes idx).ndim - t.xDim - t.yDim - 0 = _
    rw [a1, hlen]; omega
  have hxl := hw.xLen
  have hyl := hw.yLen
  refine ⟨r, ?_, ⟨?_, hxl, hyl, ?_, ?_, ?_, ?_⟩, rfl, rfl, hrn, rfl, rfl, rfl, hsh, ?_⟩
  · unfold Tensor.sum
    simp only [if_true, mkTensor, ← hidx]
    rw [if_neg (by rw [a1, hlen]; omega)]
  · show t.xDim + t.yDim + 0 ≤ (t.values.sumAxes idx).ndim
    rw [a1, hlen]; omega
  · rw [hrn]; exact hw.xRange
  · rw [hrn]; exact hw.yRange
  · intro k hk h0
    have hk' : k < t.xMap.length := hk
    show (t.values.sumAxes idx).shape k = 1
    rw [hsh k (by omega)]
    exact hw.xOne k hk h0
  · intro k hk h0
    have hk' : k < t.yMap.length := hk
    show (t.values.sumAxes idx).shape (t.xDim + k) = 1
    rw [hsh _ (by omega)]
    exact hw.yOne k hk h0
  · intro i
    unfold Tensor.sumDense
    simp only [sumAt, if_true, List.filter_nil, List.length_nil, Nat.sub_zero]
    by_cases hA : Agrees t.xMap i.x i.n ∧ Agrees t.yMap i.y i.n
    · have hL : r.dense i = (t.values.sumAxes idx).bget (r.flat i) := if_pos hA
      rw [hL, a3, hidx]
      apply sumAt_map (g := (t.xDim + t.yDim + t.n + ·)) (fun a b h => by simpa using h)
      · intro k _; rfl
      · intro q q' q1 q2 q3
        have hD : t.dense ⟨i.x, i.y, i.n, q'⟩ = t.values.bget (t.flat ⟨i.x, i.y, i.n, q'⟩) := if_pos hA
        rw [hD]
        apply bget_congr'
        intro j hj
        by_cases hjl : j < t.xDim + t.yDim + t.n
        · rw [q2 j (fun h => by
              have := hge j h
              omega)]
          rw [← hidx, hlow j (by omega), Nat.sub_zero]
          show Tens.flat t.xDim t.yDim r.n i j = Tens.flat t.xDim t.yDim t.n _ j
          rw [hrn]
          unfold Tens.flat
          by_cases c1 : j < t.xDim
          · rw [if_pos c1, if_pos c1]
          · rw [if_neg c1, if_neg c1]
            by_cases c2 : j < t.xDim + t.yDim
            · rw [if_pos c2, if_pos c2]
            · rw [if_neg c2, if_neg c2, if_pos hjl, if_pos hjl]
        · obtain ⟨k, rfl⟩ : ∃ k, j = t.xDim + t.yDim + t.n + k := ⟨j - (t.xDim + t.yDim + t.n), by omega⟩
          rw [(q1 k (List.mem_range.2 (by omega))).1]
          unfold Tensor.flat Tens.flat
          rw [if_neg (by omega), if_neg (by omega), if_neg (by omega)]
          dsimp only
          congr 1; omega
    · have hL : r.dense i = 0 := if_neg hA
      have hz : (fun d => t.dense ⟨i.x, i.y, i.n, d⟩) = fun _ => 0 := by
        funext d
        exact if_neg hA
      rw [hL, hz, sumAt_zero]

/-- **C55, finding.** `t.sum(False, False)` sums nothing, but does not return `t`: it returns `t.drop_dim()`,
whose `dim` axes have become value axes. -/
theorem C55_sum_nothing_drops_dim {t : Tensor α} (hw : t.WF) :
    t.sum .none false = .ok t.dropDim ∧ t.dropDim.dim = 0 ∧ t.dropDim.n = t.n + t.dim := by
  have := hw.ndim
  refine ⟨?_, rfl, ?_⟩
  · unfold Tensor.sum
    simp only [Bool.false_eq_true, if_false, mkTensor]
    rw [if_neg (by omega)]
    rfl
  · show t.values.ndim - t.xDim - t.yDim - 0 = t.values.ndim - t.xDim - t.yDim - t.dim + t.dim
    omega

/-- **C55.** Repeated axes are refused. -/
theorem C55_repeated_axis_raises (t : Tensor α) {sel : List Nat} (hs : ¬ sel.Nodup) (sumDim : Bool) :
    ∃ e, t.sum (.axes sel) sumDim = .error e := by
  have hn : ∀ dm, ¬ (sel.map (t.xDim + t.yDim + ·) ++ dm).Nodup := fun dm h =>
    hs (List.Nodup.of_map _ (List.nodup_append.1 h).1)
  unfold Tensor.sum
  simp only
  rw [if_pos (hn _)]
  split_ifs <;> exact ⟨_, rfl⟩

/-- **C55, counterexample.** If a mapped axis is not among the summed ones, its map is lost: the result
represents 5 where the sum is 0. -/
theorem C55_remaining_map_counterexample : ∃ (t r : Tensor ℚ) (i : Idx), t.WF ∧ t.MapsInjective ∧
    t.sum (.axes [0]) true = .ok r ∧ r.InBox i ∧ t.sumDense [0] true i = 0 ∧ r.dense i = 5 := by
  refine ⟨⟨⟨3, fun k => if k = 2 then 2 else 1, fun _ => 5⟩, 1, 0, 0, [1], []⟩, _,
    ⟨fun _ => 0, fun _ => 0, fun _ => 1, fun _ => 0⟩,
    ⟨by decide, by decide, by decide, by decide, by decide, by decide, by decide⟩,
    ⟨by decide, by decide⟩, rfl, ?_, ?_, ?_⟩
  · unfold Tensor.InBox; decide
  · show ∑ i ∈ Finset.range 1, (0 : ℚ) = 0; simp
  · show ∑ i ∈ Finset.range 1, (5 : ℚ) = 5; simp

/-- **C55, counterexample.** Two `x` axes mapped to the same value axis: the result is not diagonal. -/
theorem C55_same_axis_counterexample : ∃ (t r : Tensor ℚ) (i : Idx), t.WF ∧
    t.sum .all true = .ok r ∧ t.InBox ⟨i.x, i.y, fun _ => 1, i.d⟩ ∧ t.sumDense [0] true i = 0 ∧ r.dense i = 5 := by
  refine ⟨⟨⟨3, fun k => if k = 2 then 2 else 1, fun _ => 5⟩, 2, 0, 0, [0, 0], []⟩, _,
    ⟨fun k => k, fun _ => 0, fun _ => 1, fun _ => 0⟩,
    ⟨by decide, by decide, by decide, by decide, by decide, by decide, by decide⟩,
    rfl, ?_, ?_, ?_⟩
  · unfold Tensor.InBox; decide
  · show ∑ i ∈ Finset.range 2, _ = (0 : ℚ)
    rw [Finset.sum_range_succ, Finset.sum_range_one]
    show (0 : ℚ) + 0 = 0
    norm_num
  · show ∑ i ∈ Finset.range 1, (5 : ℚ) = 5; simp

/-- The hypotheses are met by a Tensor with one `x` axis and one `y` axis mapped to the same value axis
(a diagonal Hessian): its sum is the diagonal matrix of the stored values. -/
example : ∃ t r : Tensor ℚ, t.WF ∧ t.MapsInjective ∧ t.xMap = [0] ∧ t.yMap = [0] ∧ t.sum .all true = .ok r ∧
    r.dense ⟨fun _ => 1, fun _ => 1, fun _ => 0, fun _ => 0⟩ = 8 ∧
    r.dense ⟨fun _ => 1, fun _ => 0, fun _ => 0, fun _ => 0⟩ = 0 := by
  refine ⟨⟨⟨3, fun k => if k = 2 then 2 else 1, fun idx => (idx 2 : ℚ) + 7⟩, 1, 1, 0, [0], [0]⟩, _,
    ⟨by decide, by decide, by decide, by decide, by decide, by decide, by decide⟩,
    ⟨by decide, by decide⟩, rfl, rfl, rfl, ?_, ?_⟩
  · show (∑ i ∈ Finset.range 1, (((1 : ℕ) : ℚ) + 7)) * 1 = 8; norm_num
  · show (∑ i ∈ Finset.range 1, (((1 : ℕ) : ℚ) + 7)) * 0 = 0; norm_num

end Verif.Tens
