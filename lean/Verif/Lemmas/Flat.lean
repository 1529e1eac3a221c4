import Verif.Spec.Flat
import Verif.Lemmas.Params
import Mathlib.Tactic.Ring

namespace Verif.Flat
open Verif.Params

variable {R : Type}

/-- The free entries `(i, a)` (parameter, entry), in the order of the flat vector. -/
def freePairsFrom (s : Nat) (params : List (Param R)) : List (Nat × Nat) :=
  ((params.zipIdx s).map fun (p, i) => (freeOf p).map fun a => (i, a)).flatten

def freePairs (params : List (Param R)) : List (Nat × Nat) := freePairsFrom 0 params

theorem flatten_free {β : Type} (s : Nat) (params : List (Param R)) (f : Nat → Nat → β) :
    ((params.zipIdx s).map fun (p, i) => (freeOf p).map (f i)).flatten =
      (freePairsFrom s params).map (fun x => f x.1 x.2) := by
  unfold freePairsFrom
  rw [List.map_flatten, List.map_map]
  congr 1
  apply List.map_congr_left
  rintro ⟨p, i⟩ _
  simp

theorem freeOf_length (p : Param R) : (freeOf p).length = p.mask.count false := by
  unfold freeOf
  rw [sel_length _ _ (by simp [notMask]), notMask_count]

theorem sel_getElem? {β : Type} (m : List Bool) (l : List β) (h : l.length = m.length) (a : Nat)
    (ha : m[a]? = some false) : (sel (notMask m) l)[(m.take a).count false]? = l[a]? := by
  induction m generalizing l a with
  | nil => simp at ha
  | cons b m ih =>
    cases l with
    | nil => simp at h
    | cons x l =>
      cases a with
      | zero => simp at ha; subst ha; simp [sel]
      | succ a =>
        have := ih l (by simpa using h) a (by simpa using ha)
        cases b <;> simpa [sel] using this

theorem freeOf_getElem? (p : Param R) (a : Nat) (ha : p.mask[a]? = some false) :
    (freeOf p)[(p.mask.take a).count false]? = some a := by
  unfold freeOf
  rw [sel_getElem? _ _ (by simp) a ha]
  have : a < p.mask.length := (List.getElem?_eq_some_iff.mp ha).1
  simp [this]

theorem freePairsFrom_length (s : Nat) (params : List (Param R)) :
    (freePairsFrom s params).length = totalFree params := by
  unfold freePairsFrom totalFree
  rw [List.length_flatten, List.map_map]
  induction params generalizing s with
  | nil => rfl
  | cons p ps ih => simp [freeOf_length, ih]

theorem freePairsFrom_cons (s : Nat) (p : Param R) (ps : List (Param R)) :
    freePairsFrom s (p :: ps) = ((freeOf p).map fun a => (s, a)) ++ freePairsFrom (s + 1) ps := by
  simp [freePairsFrom]

theorem freePairsFrom_getElem? (s : Nat) (params : List (Param R)) (i a : Nat)
    (h : isFree params i a) :
    (freePairsFrom s params)[freeRank params i a]? = some (s + i, a) := by
  obtain ⟨p, hp, ha⟩ := h
  induction params generalizing s i with
  | nil => simp at hp
  | cons q ps ih =>
    rw [freePairsFrom_cons]
    cases i with
    | zero =>
      simp only [List.getElem?_cons_zero, Option.some.injEq] at hp
      subst hp
      have hlt : (q.mask.take a).count false < ((freeOf q).map fun a => (s, a)).length := by
        have := freeOf_getElem? q a ha
        have := (List.getElem?_eq_some_iff.mp this).1
        simpa using this
      simp only [freeRank, List.take_zero, totalFree, List.map_nil, List.sum_nil,
        List.getElem?_cons_zero, Option.map_some, Option.getD_some, Nat.zero_add]
      rw [List.getElem?_append_left hlt, List.getElem?_map, freeOf_getElem? q a ha]
      rfl
    | succ i =>
      simp only [List.getElem?_cons_succ] at hp
      have := ih (s + 1) i hp
      have hl : ((freeOf q).map fun a => (s, a)).length = q.mask.count false := by
        simp [freeOf_length]
      have hr : freeRank (q :: ps) (i + 1) a = q.mask.count false + freeRank ps i a := by
        simp [freeRank, totalFree, Nat.add_assoc]
      rw [hr, List.getElem?_append_right (by omega), hl]
      rw [show q.mask.count false + freeRank ps i a - q.mask.count false = freeRank ps i a by omega,
        this]
      simp; omega

theorem freePairs_getElem? (params : List (Param R)) (i a : Nat) (h : isFree params i a) :
    (freePairs params)[freeRank params i a]? = some (i, a) := by
  unfold freePairs
  rw [freePairsFrom_getElem? 0 params i a h, Nat.zero_add]

theorem mem_sel {β : Type} {m : List Bool} {l : List β} {x : β} (h : x ∈ sel m l) :
    ∃ i : Nat, m[i]? = some true ∧ l[i]? = some x := by
  induction m generalizing l with
  | nil => simp [sel] at h
  | cons b m ih =>
    cases l with
    | nil => cases b <;> simp [sel] at h
    | cons y l =>
      cases b with
      | true =>
        simp only [sel, List.mem_cons] at h
        rcases h with rfl | h
        · exact ⟨0, by simp⟩
        · obtain ⟨i, h1, h2⟩ := ih h
          exact ⟨i + 1, by simpa using h1, by simpa using h2⟩
      | false =>
        simp only [sel] at h
        obtain ⟨i, h1, h2⟩ := ih h
        exact ⟨i + 1, by simpa using h1, by simpa using h2⟩

theorem mem_freePairsFrom {s : Nat} {params : List (Param R)} {x : Nat × Nat}
    (h : x ∈ freePairsFrom s params) : ∃ i, x.1 = s + i ∧ isFree params i x.2 := by
  unfold freePairsFrom at h
  simp only [List.mem_flatten, List.mem_map] at h
  obtain ⟨l, ⟨⟨p, i⟩, hp, rfl⟩, hx⟩ := h
  simp only [List.mem_map] at hx
  obtain ⟨a, ha, rfl⟩ := hx
  have hpi := List.mk_mem_zipIdx_iff_le_and_getElem?_sub.mp hp
  refine ⟨i - s, by simp; omega, p, hpi.2, ?_⟩
  obtain ⟨k, h1, h2⟩ := mem_sel ha
  rw [List.getElem?_range] at h2
  · simp at h2; subst h2
    simpa [notMask] using h1
  · have := (List.getElem?_eq_some_iff.mp h2).1; simpa using this

theorem mem_freePairs {params : List (Param R)} {x : Nat × Nat} (h : x ∈ freePairs params) :
    isFree params x.1 x.2 := by
  obtain ⟨i, h1, h2⟩ := mem_freePairsFrom h
  rw [h1, Nat.zero_add]; exact h2

/-! ### Arguments -/

theorem getArgs_ok (params : List (Param R)) (pm : List Nat) (h : ∀ k ∈ pm, k < params.length) :
    getArgs params pm = .ok (argsOf params pm) := by
  induction pm with
  | nil => rfl
  | cons k pm ih =>
    have hk := h k (by simp)
    have := ih (fun k hk => h k (by simp [hk]))
    unfold getArgs at this ⊢
    rw [List.mapM_cons, this]
    simp [argsOf, hk, bind, Except.bind, pure, Except.pure]

/-! ### Loops -/

theorem foldl_addAt [AddCommMonoid R] (l : List (Nat × Nat)) (v : Nat → Nat → R)
    (g : Nat → Nat → R) (i a : Nat) :
    (l.foldl (fun g (x : Nat × Nat) => addAt g x.1 (v x.2)) g) i a =
      g i a + (l.map fun x => if x.1 = i then v x.2 a else 0).sum := by
  induction l generalizing g with
  | nil => simp
  | cons x l ih =>
    rw [List.foldl_cons, ih]
    simp only [addAt, List.map_cons, List.sum_cons]
    by_cases h : i = x.1
    · rw [if_pos h, if_pos h.symm, add_assoc]
    · rw [if_neg h, if_neg (Ne.symm h), zero_add]

theorem foldl_subAt [AddCommGroup R] (l : List (Nat × Nat)) (v : Nat → Nat → R)
    (g : Nat → Nat → R) (i a : Nat) :
    (l.foldl (fun g (x : Nat × Nat) => subAt g x.1 (v x.2)) g) i a =
      g i a - (l.map fun x => if x.1 = i then v x.2 a else 0).sum := by
  induction l generalizing g with
  | nil => simp
  | cons x l ih =>
    rw [List.foldl_cons, ih]
    simp only [subAt, List.map_cons, List.sum_cons]
    by_cases h : i = x.1
    · rw [if_pos h, if_pos h.symm, sub_sub]
    · rw [if_neg h, if_neg (Ne.symm h), zero_add]

theorem gradConstraints_ok [CommRing R] (params : List (Param R)) (ts : List (Term R))
    (hv : ∀ t ∈ ts, t.Valid params ∧ t.paramMap ≠ []) (g : Nat → Nat → R) :
    gradConstraints params ts g =
      .ok (g, ts.map fun t => t.val (argsOf params t.paramMap)) := by
  induction ts generalizing g with
  | nil => rfl
  | cons t ts ih =>
    have h := hv t (by simp)
    have hz : (t.paramMap.zipIdx.foldl (fun g (x : Nat × Nat) =>
        addAt g x.1 (fun a => 0 * t.grad (argsOf params t.paramMap) x.2 a)) g) = g := by
      funext i a
      rw [foldl_addAt (v := fun k a => 0 * t.grad (argsOf params t.paramMap) k a)]
      simp
    have he : t.paramMap.isEmpty = false := by simpa using h.2
    simp only [gradConstraints, getArgs_ok _ _ h.1, bind, Except.bind, he, Bool.false_eq_true,
      if_false, pure, Except.pure]
    rw [hz, ih (fun t ht => hv t (by simp [ht]))]
    simp

theorem gradRegs_ok [CommRing R] (params : List (Param R)) (ts : List (Term R))
    (hv : ∀ t ∈ ts, t.Valid params) (g : Nat → Nat → R) :
    ∃ g', gradRegs params ts g = .ok g' ∧
      ∀ i a, g' i a = g i a - (ts.map fun t => termGrad params t i a).sum := by
  induction ts generalizing g with
  | nil => exact ⟨g, rfl, by simp⟩
  | cons t ts ih =>
    obtain ⟨g', h1, h2⟩ := ih (fun t ht => hv t (by simp [ht]))
      (t.paramMap.zipIdx.foldl (fun g (x : Nat × Nat) =>
        subAt g x.1 (t.grad (argsOf params t.paramMap) x.2)) g)
    refine ⟨g', ?_, ?_⟩
    · simp only [gradRegs, getArgs_ok _ _ (hv t (by simp)), bind, Except.bind]
      exact h1
    · intro i a
      rw [h2, foldl_subAt]
      simp only [List.map_cons, List.sum_cons, termGrad]
      rw [sub_sub]

/-- Contribution of a term's Hessian (lower-triangular positions `j <= i`) to block `(i', j')`. -/
def termHess [AddCommMonoid R] (pm : List Nat) (v : Nat → Nat → Nat → Nat → R)
    (i' j' a b : Nat) : R :=
  (pm.zipIdx.map fun x => ((pm.take (x.2 + 1)).zipIdx.map fun y =>
    if x.1 = i' ∧ y.1 = j' then v x.2 y.2 a b else 0).sum).sum

theorem addBlocks_inner [AddCommMonoid R] (l : List (Nat × Nat)) (idx : Nat)
    (v : Nat → Nat → Nat → R) (hl : ∀ x ∈ l, x.1 ≤ idx) (h : Nat → Nat → Nat → Nat → R) :
    ∃ h', l.foldlM (fun h (x : Nat × Nat) => addBlock h idx x.1 (v x.2)) h = .ok h' ∧
      ∀ i j a b, h' i j a b = h i j a b +
        (l.map fun y => if idx = i ∧ y.1 = j then v y.2 a b else 0).sum := by
  induction l generalizing h with
  | nil => exact ⟨h, rfl, by simp⟩
  | cons x l ih =>
    obtain ⟨h', e1, e2⟩ := ih (fun y hy => hl y (by simp [hy]))
      (fun i' j' a b => if i' = idx ∧ j' = x.1 then h i' j' a b + v x.2 a b else h i' j' a b)
    refine ⟨h', ?_, ?_⟩
    · rw [List.foldlM_cons]
      simp only [addBlock, if_pos (hl x (by simp)), bind, Except.bind]
      exact e1
    · intro i j a b
      rw [e2]
      simp only [List.map_cons, List.sum_cons]
      by_cases hc : idx = i ∧ x.1 = j
      · obtain ⟨rfl, rfl⟩ := hc
        simp [add_assoc]
      · have hc' : ¬ (i = idx ∧ j = x.1) := fun h => hc ⟨h.1.symm, h.2.symm⟩
        rw [if_neg hc, if_neg hc', zero_add]

theorem addBlocks_ok [AddCommMonoid R] (pm : List Nat) (hpm : NonDecreasing pm)
    (v : Nat → Nat → Nat → Nat → R) (h : Nat → Nat → Nat → Nat → R) :
    ∃ h', addBlocks pm v h = .ok h' ∧
      ∀ i j a b, h' i j a b = h i j a b + termHess pm v i j a b := by
  have outer : ∀ (l : List (Nat × Nat)), (∀ x ∈ l, x ∈ pm.zipIdx) →
      ∀ h : Nat → Nat → Nat → Nat → R, ∃ h', l.foldlM (fun h (x : Nat × Nat) =>
        (pm.take (x.2 + 1)).zipIdx.foldlM (fun h (y : Nat × Nat) =>
          addBlock h x.1 y.1 (v x.2 y.2)) h) h = .ok h' ∧
        ∀ i j a b, h' i j a b = h i j a b + (l.map fun x =>
          ((pm.take (x.2 + 1)).zipIdx.map fun y =>
            if x.1 = i ∧ y.1 = j then v x.2 y.2 a b else 0).sum).sum := by
    intro l
    induction l with
    | nil => intro _ h; exact ⟨h, rfl, by simp⟩
    | cons x l ih =>
      intro hl h
      have hx := List.mem_zipIdx_iff_getElem?.mp (hl x (by simp))
      have hle : ∀ y ∈ (pm.take (x.2 + 1)).zipIdx, y.1 ≤ x.1 := by
        intro y hy
        have hy := List.mem_zipIdx_iff_getElem?.mp hy
        rw [List.getElem?_take] at hy
        split at hy
        · rename_i hlt
          rcases Nat.lt_or_ge y.2 x.2 with h1 | h1
          · have hyl := (List.getElem?_eq_some_iff.mp hy)
            have hxl := (List.getElem?_eq_some_iff.mp hx)
            obtain ⟨hyl, hy'⟩ := hyl
            obtain ⟨hxl, hx'⟩ := hxl
            have := (List.pairwise_iff_getElem.mp hpm) y.2 x.2 hyl hxl h1
            rw [hy', hx'] at this; exact this
          · have : y.2 = x.2 := by omega
            rw [this, hx] at hy; exact Nat.le_of_eq (Option.some.inj hy).symm
        · cases hy
      obtain ⟨h1, e1, e2⟩ := addBlocks_inner _ x.1 (v x.2) hle h
      obtain ⟨h2, e3, e4⟩ := ih (fun y hy => hl y (by simp [hy])) h1
      refine ⟨h2, ?_, ?_⟩
      · rw [List.foldlM_cons, e1]
        exact e3
      · intro i j a b
        rw [e4, e2]
        simp only [List.map_cons, List.sum_cons, add_assoc]
  obtain ⟨h', e1, e2⟩ := outer pm.zipIdx (fun _ h => h) h
  exact ⟨h', e1, e2⟩

theorem termHess_zero [CommRing R] (pm : List Nat) (v : Nat → Nat → Nat → Nat → R)
    (i j a b : Nat) : termHess pm (fun i j a b => 0 * v i j a b) i j a b = 0 := by
  simp [termHess]

theorem list_sum_neg [AddCommGroup R] {β : Type} (l : List β) (f : β → R) :
    (l.map fun x => -(f x)).sum = -(l.map f).sum := by
  induction l with
  | nil => simp
  | cons x l ih => simp only [List.map_cons, List.sum_cons, ih]; rw [neg_add]

theorem termHess_neg [CommRing R] (pm : List Nat) (v : Nat → Nat → Nat → Nat → R)
    (i j a b : Nat) :
    termHess pm (fun i j a b => -(v i j a b)) i j a b = - termHess pm v i j a b := by
  unfold termHess
  rw [← list_sum_neg]
  congr 1
  apply List.map_congr_left
  intro x _
  rw [← list_sum_neg]
  congr 1
  apply List.map_congr_left
  intro y _
  split <;> simp

theorem borderOf_eq [CommRing R] (params : List (Param R)) (t : Term R) (i a : Nat) :
    borderOf t (argsOf params t.paramMap) i a = termGrad params t i a := by
  unfold borderOf
  rw [foldl_addAt, zero_add]
  rfl

theorem hessConstraints_ok [CommRing R] (params : List (Param R)) (ts : List (Term R))
    (hv : ∀ t ∈ ts, t.Valid params ∧ NonDecreasing t.paramMap) (h : Nat → Nat → Nat → Nat → R) :
    hessConstraints params ts h = .ok (h, ts.map fun t => fun i a => termGrad params t i a) := by
  induction ts generalizing h with
  | nil => rfl
  | cons t ts ih =>
    obtain ⟨h1, h2⟩ := hv t (by simp)
    obtain ⟨h', e1, e2⟩ := addBlocks_ok t.paramMap h2
      (fun i j a b => 0 * t.hess (argsOf params t.paramMap) i j a b) h
    have : h' = h := by
      funext i j a b
      rw [e2, termHess_zero, add_zero]
    subst this
    simp only [hessConstraints, getArgs_ok _ _ h1, bind, Except.bind, pure, Except.pure, e1,
      ih (fun t ht => hv t (by simp [ht]))]
    congr 3
    funext i a
    exact borderOf_eq params t i a

theorem hessRegs_ok [CommRing R] (params : List (Param R)) (ts : List (Term R))
    (hv : ∀ t ∈ ts, t.Valid params ∧ NonDecreasing t.paramMap) (h : Nat → Nat → Nat → Nat → R) :
    ∃ h', hessRegs params ts h = .ok h' ∧ ∀ i j a b, h' i j a b = h i j a b -
      (ts.map fun t => termHess t.paramMap (t.hess (argsOf params t.paramMap)) i j a b).sum := by
  induction ts generalizing h with
  | nil => exact ⟨h, rfl, by simp⟩
  | cons t ts ih =>
    obtain ⟨h1, h2⟩ := hv t (by simp)
    obtain ⟨h', e1, e2⟩ := addBlocks_ok t.paramMap h2
      (fun i j a b => -(t.hess (argsOf params t.paramMap) i j a b)) h
    obtain ⟨h'', e3, e4⟩ := ih (fun t ht => hv t (by simp [ht])) h'
    refine ⟨h'', ?_, ?_⟩
    · simp only [hessRegs, getArgs_ok _ _ h1, bind, Except.bind, e1, e3]
    · intro i j a b
      rw [e4, e2, termHess_neg]
      simp only [List.map_cons, List.sum_cons]
      ring

/-! ### Assembly -/

/-- The completed free/free matrix as a function of the two entries. -/
def fullEntry (h : Nat → Nat → Nat → Nat → R) (x y : Nat × Nat) : R :=
  if y.1 < x.1 then h x.1 y.1 x.2 y.2 else h y.1 x.1 y.2 x.2

theorem fullBlock_eq (h : Nat → Nat → Nat → Nat → R) (i j : Nat) (pi pj : Param R) :
    fullBlock h i j pi pj =
      (freeOf pi).map fun a => (freeOf pj).map fun b => fullEntry h (i, a) (j, b) := by
  unfold fullBlock fullEntry
  split <;> simp_all

theorem map_range_getD {β γ : Type} (l : List β) (f : β → γ) (d : β) :
    (List.range l.length).map (fun r => f (l.getD r d)) = l.map f := by
  apply List.ext_getElem
  · simp
  · intro n h1 h2
    simp at h1
    simp [h1]

theorem hstack_row (params : List (Param R)) (h : Nat → Nat → Nat → Nat → R) (i : Nat)
    (pi : Param R) :
    hstack (freeOf pi).length (params.zipIdx.map fun (pj, j) => fullBlock h i j pi pj) =
      (freeOf pi).map fun a => (freePairs params).map fun y => fullEntry h (i, a) y := by
  unfold hstack
  apply List.ext_getElem
  · simp
  · intro n h1 h2
    simp only [List.length_map, List.length_range] at h1
    simp only [List.getElem_map, List.getElem_range, List.map_map]
    unfold freePairs
    rw [← flatten_free 0 params (fun j b => fullEntry h (i, (freeOf pi)[n]) (j, b))]
    congr 1
    apply List.map_congr_left
    rintro ⟨pj, j⟩ _
    simp [fullBlock_eq, List.getD, h1]

theorem rows_eq (params : List (Param R)) (h : Nat → Nat → Nat → Nat → R) :
    (params.zipIdx.map fun (pi, i) => hstack (freeOf pi).length
      (params.zipIdx.map fun (pj, j) => fullBlock h i j pi pj)).flatten =
    (freePairs params).map fun x => (freePairs params).map fun y => fullEntry h x y := by
  have : (params.zipIdx.map fun (pi, i) => hstack (freeOf pi).length
      (params.zipIdx.map fun (pj, j) => fullBlock h i j pi pj)) =
      params.zipIdx.map fun (pi, i) => (freeOf pi).map
        ((fun i a => (freePairs params).map fun y => fullEntry h (i, a) y) i) := by
    apply List.map_congr_left
    rintro ⟨pi, i⟩ _
    exact hstack_row params h i pi
  rw [this, flatten_free 0 params (fun i a => (freePairs params).map fun y => fullEntry h (i, a) y)]
  rfl

/-- Closed form of `flat_hess`. -/
theorem flatHess_eq [CommRing R] (params : List (Param R)) (hne : params ≠ [])
    (hl : Nat → Nat → Nat → Nat → R) (cs rs : List (Term R))
    (hc : ∀ t ∈ cs, t.Valid params ∧ NonDecreasing t.paramMap)
    (hr : ∀ t ∈ rs, t.Valid params ∧ NonDecreasing t.paramMap) :
    ∃ h, (∀ i j a b, h i j a b = hl i j a b - (rs.map fun t =>
        termHess t.paramMap (t.hess (argsOf params t.paramMap)) i j a b).sum) ∧
      flatHess params hl cs rs = .ok
        (((freePairs params).map fun x => ((freePairs params).map fun y => fullEntry h x y) ++
            cs.map fun t => termGrad params t x.1 x.2) ++
         cs.map fun t => ((freePairs params).map fun x => termGrad params t x.1 x.2) ++
            List.replicate cs.length 0) := by
  obtain ⟨h, e1, e2⟩ := hessRegs_ok params rs hr hl
  refine ⟨h, e2, ?_⟩
  have hne' : params.isEmpty = false := by simpa using hne
  simp only [flatHess, hessConstraints_ok params cs hc, e1, bind, Except.bind, hne',
    Bool.false_eq_true, if_false, pure, Except.pure, rows_eq]
  have hb : (cs.map fun t => fun i a => termGrad params t i a).map (concatFree params) =
      cs.map fun t => (freePairs params).map fun x => termGrad params t x.1 x.2 := by
    rw [List.map_map]
    apply List.map_congr_left
    intro t _
    exact flatten_free 0 params (fun i a => termGrad params t i a)
  rw [hb]
  cases cs with
  | nil => simp
  | cons c cs' =>
    rw [if_neg (by simp)]
    congr 2
    · apply List.ext_getElem
      · simp
      · intro n h1 h2
        simp only [List.length_map] at h2
        simp only [List.getElem_map, List.getElem_zipIdx, Nat.zero_add, List.map_map]
        congr 1
        apply List.map_congr_left
        intro t _
        simp [List.getD, h2]
    · rw [List.map_map]
      apply List.map_congr_left
      intro t _
      simp

/-- Closed form of `flat_grad`. -/
theorem flatGrad_eq [CommRing R] (params : List (Param R)) (hne : params ≠ [])
    (gl : Nat → Nat → R) (cs rs : List (Term R))
    (hc : ∀ t ∈ cs, t.Valid params ∧ t.paramMap ≠ []) (hr : ∀ t ∈ rs, t.Valid params) :
    flatGrad params gl cs rs = .ok
      (((freePairs params).map fun x =>
          gl x.1 x.2 - (rs.map fun t => termGrad params t x.1 x.2).sum) ++
        cs.map fun t => t.val (argsOf params t.paramMap)) := by
  obtain ⟨g, e1, e2⟩ := gradRegs_ok params rs hr gl
  simp only [flatGrad, gradConstraints_ok params cs hc, e1, bind, Except.bind, npConcatenate]
  rw [if_neg]
  · congr 1
    rw [List.flatten_append, flatten_free 0 params g]
    congr 1
    · apply List.map_congr_left
      intro x _
      exact e2 _ _
    · rw [← List.flatMap_def]
      simp
  · cases params with
    | nil => exact absurd rfl hne
    | cons p ps => simp

end Verif.Flat
