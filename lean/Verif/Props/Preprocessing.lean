import Verif.Model.Preprocessing
import Mathlib.Algebra.BigOperators.Group.List.Basic
import Mathlib.Algebra.BigOperators.Ring.List
import Mathlib.Tactic.Ring
import Mathlib.Tactic.NormNum

/-!
# Preparing data: C45 – C47
-/

set_option linter.unusedSectionVars false

namespace Verif.Prep
open Verif.Params (Err)

variable {L V : Type} [LinearOrder L]

/-! ## specification -/

/-- The values of the observations with the labels `k`, in order. -/
def observationsAt {K : Type} [DecidableEq K] (rows : List (K × V)) (k : K) : List V :=
  (rows.filter fun r => r.1 = k).map Prod.snd

/-- What a cell must contain: the transformation of its observations, zero without observations (or if
the transformation gives `NaN`). -/
def cellSpec [Zero V] (f : List V → Option V) (vals : List V) : V :=
  match vals with
  | [] => 0
  | v :: vs => (f (v :: vs)).getD 0

/-- C-order position of a multi-index. -/
def ravel : List Nat → List Nat → Nat
  | _ :: ns, i :: is => i * ns.prod + ravel ns is
  | _, _ => 0

/-- `labels` are the labels at the positions `idx` of the axes. -/
inductive LabelsAt : List (List L) → List Nat → List L → Prop
  | nil : LabelsAt [] [] []
  | cons {a as i is x xs} : a[i]? = some x → LabelsAt as is xs → LabelsAt (a :: as) (i :: is) (x :: xs)

/-- Series as pandas builds them: as many names as levels, levels without repetition, every row has one
label per level. -/
def WellFormed (levels : List (List L)) (names : List String) (keys : List (List L)) : Prop :=
  names.length = levels.length ∧ (∀ l ∈ levels, l.Nodup) ∧
    ∀ k ∈ keys, List.Forall₂ (fun x level => x ∈ level) k levels

/-! ## sorting -/

theorem sorted_perm (l : List L) : (sorted l).Perm l := List.perm_insertionSort _ _

theorem sorted_sorted (l : List L) : (sorted l).Pairwise (· ≤ ·) := List.pairwise_insertionSort _ _

theorem sorted_strict {l : List L} (h : l.Nodup) : (sorted l).Pairwise (· < ·) := by
  have h1 := sorted_sorted l
  have h2 : (sorted l).Nodup := (sorted_perm l).nodup_iff.2 h
  exact (h1.and h2).imp fun ⟨a, b⟩ => lt_of_le_of_ne a b

theorem mem_sortedUnion {a b : List L} {x : L} : x ∈ sortedUnion a b ↔ x ∈ a ∨ x ∈ b := by
  unfold sortedUnion
  rw [(sorted_perm _).mem_iff, List.mem_dedup, List.mem_append]

theorem sortedUnion_strict (a b : List L) : (sortedUnion a b).Pairwise (· < ·) :=
  sorted_strict (List.nodup_dedup _)

/-! ## the product index -/

theorem length_fromProduct (axes : List (List L)) :
    (fromProduct axes).length = (axes.map List.length).prod := by
  induction axes with
  | nil => rfl
  | cons a as ih =>
    unfold fromProduct
    rw [List.length_flatMap]
    simp only [List.length_map, ih, List.map_cons, List.prod_cons]
    simp

theorem getElem?_block {A B : Type} (a : List A) (g : A → List B) (m : Nat)
    (hg : ∀ x, (g x).length = m) (i j : Nat) (x : A) (hi : a[i]? = some x) (hj : j < m) :
    (a.flatMap g)[i * m + j]? = (g x)[j]? := by
  induction a generalizing i with
  | nil => simp at hi
  | cons y a ih =>
    cases i with
    | zero =>
      simp only [List.getElem?_cons_zero, Option.some.injEq] at hi
      subst hi
      rw [List.flatMap_cons, Nat.zero_mul, Nat.zero_add, List.getElem?_append_left (by rw [hg]; exact hj)]
    | succ i =>
      simp only [List.getElem?_cons_succ] at hi
      rw [List.flatMap_cons, List.getElem?_append_right (by rw [hg, Nat.succ_mul]; omega), hg,
        ← ih i hi]
      congr 1
      rw [Nat.succ_mul]; omega

theorem ravel_lt {axes : List (List L)} {idx : List Nat} {labels : List L}
    (h : LabelsAt axes idx labels) : ravel (axes.map List.length) idx < (axes.map List.length).prod := by
  induction h with
  | nil => simp [ravel]
  | @cons a as i is x xs hi hl ih =>
    have hlt : i < a.length := by
      by_contra hc
      rw [List.getElem?_eq_none (by omega)] at hi
      cases hi
    simp only [List.map_cons, ravel, List.prod_cons]
    calc i * (as.map List.length).prod + ravel (as.map List.length) is
        < i * (as.map List.length).prod + (as.map List.length).prod := by omega
      _ = (i + 1) * (as.map List.length).prod := by ring
      _ ≤ a.length * (as.map List.length).prod := Nat.mul_le_mul_right _ hlt

theorem fromProduct_get {axes : List (List L)} {idx : List Nat} {labels : List L}
    (h : LabelsAt axes idx labels) :
    (fromProduct axes)[ravel (axes.map List.length) idx]? = some labels := by
  induction h with
  | nil => rfl
  | @cons a as i is x xs hi hl ih =>
    unfold fromProduct
    simp only [List.map_cons, ravel]
    rw [getElem?_block a _ (as.map List.length).prod
      (fun y => by rw [List.length_map, length_fromProduct]) i _ x hi (ravel_lt hl),
      List.getElem?_map, ih]
    rfl

theorem mem_fromProduct {axes : List (List L)} {k : List L} :
    k ∈ fromProduct axes ↔ List.Forall₂ (fun x a => x ∈ a) k axes := by
  induction axes generalizing k with
  | nil => simp [fromProduct]
  | cons a as ih =>
    simp only [fromProduct, List.mem_flatMap, List.mem_map]
    constructor
    · rintro ⟨x, hx, t, ht, rfl⟩
      exact List.Forall₂.cons hx (ih.1 ht)
    · intro h
      cases h with
      | cons hx ht => exact ⟨_, hx, _, ih.2 ht, rfl⟩

theorem nodup_fromProduct {axes : List (List L)} (h : ∀ a ∈ axes, a.Nodup) :
    (fromProduct axes).Nodup := by
  induction axes with
  | nil => simp [fromProduct]
  | cons a as ih =>
    have ha := h a (List.mem_cons_self ..)
    have ih := ih fun b hb => h b (List.mem_cons_of_mem _ hb)
    unfold fromProduct
    rw [List.nodup_flatMap]
    refine ⟨fun x _ => ih.map fun p q hpq => by simpa using hpq, ?_⟩
    refine ha.imp fun {x y} hxy => ?_
    intro z hz hz'
    simp only [List.mem_map] at hz hz'
    obtain ⟨p, _, rfl⟩ := hz
    obtain ⟨q, _, hq⟩ := hz'
    simp only [List.cons.injEq] at hq
    exact hxy hq.1.symm

/-! ## grouping -/

theorem lookup_map {K : Type} [DecidableEq K] {A : Type} (l : List K) (g : K → A) (k : K) :
    (l.map fun k => (k, g k)).lookup k = if k ∈ l then some (g k) else none := by
  induction l with
  | nil => simp
  | cons x l ih =>
    simp only [List.map_cons, List.lookup_cons, ih, List.mem_cons]
    by_cases h : k = x
    · subst h; simp
    · have hb : (k == x) = false := by simpa using h
      simp [h, hb]

theorem reindex_cell {K : Type} [DecidableEq K] [Zero V] (rows : List (K × V))
    (f : List V → Option V) (index : List K) :
    reindexFill (groupAgg rows f) index = index.map fun k => cellSpec f (observationsAt rows k) := by
  unfold reindexFill groupAgg
  refine List.map_congr_left fun k _ => ?_
  rw [lookup_map]
  simp only [List.mem_dedup, List.mem_map]
  by_cases h : ∃ a ∈ rows, a.1 = k
  · rw [if_pos h]
    have hne : observationsAt rows k ≠ [] := by
      obtain ⟨a, ha, hk⟩ := h
      unfold observationsAt
      intro he
      rw [List.map_eq_nil_iff, List.filter_eq_nil_iff] at he
      exact he a ha (by simpa using hk)
    show (match some (f (observationsAt rows k)) with
      | none => 0 | some none => 0 | some (some v) => v) = _
    cases hv : observationsAt rows k with
    | nil => exact absurd hv hne
    | cons v vs =>
      show _ = (f (v :: vs)).getD 0
      cases f (v :: vs) <;> rfl
  · rw [if_neg h]
    have he : observationsAt rows k = [] := by
      unfold observationsAt
      rw [List.map_eq_nil_iff, List.filter_eq_nil_iff]
      intro a ha hk
      exact h ⟨a, ha, by simpa using hk⟩
    rw [he]
    rfl

theorem sum_over_index {K : Type} [DecidableEq K] [AddCommMonoid V] (rows : List (K × V))
    (index : List K) (hn : index.Nodup) (hm : ∀ r ∈ rows, r.1 ∈ index) :
    (index.map fun k => (observationsAt rows k).sum).sum = (rows.map Prod.snd).sum := by
  induction rows with
  | nil => simp [observationsAt]
  | cons r rows ih =>
    replace ih := ih fun r' h => hm r' (List.mem_cons_of_mem _ h)
    have hr := hm r (List.mem_cons_self ..)
    have hobs : ∀ k, (observationsAt (r :: rows) k).sum =
        (if k = r.1 then r.2 else 0) + (observationsAt rows k).sum := by
      intro k
      unfold observationsAt
      by_cases h : r.1 = k
      · simp [h]
      · simp [h, Ne.symm h]
    simp only [hobs]
    rw [List.sum_map_add, ih, List.map_cons, List.sum_cons]
    congr 1
    clear ih hobs hm
    revert hr
    induction index with
    | nil => intro hr; cases hr
    | cons k index ihi =>
      intro hr
      rw [List.nodup_cons] at hn
      rw [List.map_cons, List.sum_cons]
      by_cases h : k = r.1
      · rw [if_pos h]
        have : (index.map fun k => if k = r.1 then r.2 else 0).sum = 0 := by
          apply List.sum_eq_zero
          intro x hx
          rw [List.mem_map] at hx
          obtain ⟨k', hk', rfl⟩ := hx
          rw [if_neg]
          rintro rfl
          exact hn.1 (h ▸ hk')
        rw [this, add_zero]
      · rw [if_neg h, zero_add]
        refine ihi hn.2 ?_
        rcases List.mem_cons.1 hr with h' | h'
        · exact absurd h'.symm h
        · exact h'

theorem cellSpec_sum [AddCommMonoid V] (vals : List V) : cellSpec npSum vals = vals.sum := by
  cases vals <;> simp [cellSpec, npSum]

theorem cellSpec_size [AddCommMonoidWithOne V] (vals : List V) :
    cellSpec npSize vals = (vals.map fun _ => (1 : V)).sum := by
  cases vals <;> simp [cellSpec, npSize, add_comm]

theorem observationsAt_map {K W : Type} [DecidableEq K] (rows : List (K × V)) (g : V → W) (k : K) :
    (observationsAt rows k).map g = observationsAt (rows.map fun r => (r.1, g r.2)) k := by
  unfold observationsAt
  induction rows with
  | nil => rfl
  | cons r rows ih =>
    by_cases h : r.1 = k <;> simp_all

theorem total_sum {K : Type} [DecidableEq K] [AddCommMonoid V] (rows : List (K × V))
    (index : List K) (hn : index.Nodup) (hm : ∀ r ∈ rows, r.1 ∈ index) :
    (reindexFill (groupAgg rows npSum) index).sum = (rows.map Prod.snd).sum := by
  rw [reindex_cell]
  simp only [cellSpec_sum]
  exact sum_over_index rows index hn hm

theorem total_size {K : Type} [DecidableEq K] [AddCommMonoidWithOne V] (rows : List (K × V))
    (index : List K) (hn : index.Nodup) (hm : ∀ r ∈ rows, r.1 ∈ index) :
    (reindexFill (groupAgg rows npSize) index).sum = (rows.length : V) := by
  rw [reindex_cell]
  simp only [cellSpec_size]
  simp only [observationsAt_map rows (fun _ => (1 : V))]
  rw [sum_over_index _ index hn (by
    intro r hr
    rw [List.mem_map] at hr
    obtain ⟨r', hr', rfl⟩ := hr
    exact hm r' hr'), List.map_map]
  show (rows.map fun _ => (1 : V)).sum = _
  simp

/-! ## axes -/

theorem buildAxis_length (levels : List (List L)) (names : List String)
    (addAxis : String → Option (List L)) (h : names.length = levels.length) :
    (buildAxis levels names addAxis).length = levels.length := by
  simp [buildAxis, h]

/-- Each axis is strictly increasing and consists of the labels of its level and the added ones. -/
theorem buildAxis_get {levels : List (List L)} {names : List String}
    {addAxis : String → Option (List L)} {k : Nat} {axis level : List L} {name : String}
    (hl : levels[k]? = some level) (hn : names[k]? = some name) (hd : level.Nodup)
    (ha : (buildAxis levels names addAxis)[k]? = some axis) :
    axis.Pairwise (· < ·) ∧ ∀ x, x ∈ axis ↔ x ∈ level ∨ ∃ e, addAxis name = some e ∧ x ∈ e := by
  unfold buildAxis at ha
  rw [List.getElem?_map, List.getElem?_zip_eq_some (z := (level, name)) |>.2 ⟨hl, hn⟩] at ha
  simp only [Option.map_some, Option.some.injEq] at ha
  cases hadd : addAxis name with
  | none =>
    rw [hadd] at ha
    subst ha
    exact ⟨sorted_strict hd, fun x => by simp [(sorted_perm level).mem_iff]⟩
  | some e =>
    rw [hadd] at ha
    subst ha
    exact ⟨sortedUnion_strict _ _, fun x => by
      rw [mem_sortedUnion, (sorted_perm level).mem_iff]; simp⟩

theorem buildAxis_nodup {levels : List (List L)} {names : List String}
    {addAxis : String → Option (List L)} (hd : ∀ l ∈ levels, l.Nodup) :
    ∀ a ∈ buildAxis levels names addAxis, a.Nodup := by
  intro a ha
  unfold buildAxis at ha
  rw [List.mem_map] at ha
  obtain ⟨⟨level, name⟩, hm, rfl⟩ := ha
  have := hd level (List.of_mem_zip hm).1
  dsimp only
  cases addAxis name with
  | none => exact (sorted_strict this).imp fun h => h.ne
  | some e => exact (sortedUnion_strict _ _).imp fun h => h.ne

theorem keys_in_product {levels : List (List L)} {names : List String}
    {addAxis : String → Option (List L)} (hn : names.length = levels.length) {k : List L}
    (hk : List.Forall₂ (fun x level => x ∈ level) k levels) :
    k ∈ fromProduct (buildAxis levels names addAxis) := by
  rw [mem_fromProduct]
  induction hk generalizing names with
  | nil => simp [buildAxis]
  | @cons x level k levels hx hk ih =>
    cases names with
    | nil => simp at hn
    | cons name names =>
      have := ih (names := names) (by simpa using hn)
      refine List.Forall₂.cons ?_ this
      dsimp only
      cases addAxis name with
      | none => exact (sorted_perm level).mem_iff.2 hx
      | some e => exact mem_sortedUnion.2 (Or.inl ((sorted_perm level).mem_iff.2 hx))

theorem lookup_of_mem {A B : Type} {g : A → B} {ts : List (String × A)} {name : String} {f : A}
    (hn : (ts.map Prod.fst).Nodup) (h : (name, f) ∈ ts) :
    (ts.map fun x => (x.1, g x.2)).lookup name = some (g f) := by
  induction ts with
  | nil => cases h
  | cons p ts ih =>
    obtain ⟨n, f'⟩ := p
    rw [List.map_cons, List.nodup_cons] at hn
    rw [List.map_cons, List.lookup_cons]
    rcases List.mem_cons.1 h with h' | h'
    · cases h'; simp
    · have hne : name ≠ n := by
        rintro rfl
        exact hn.1 (List.mem_map.2 ⟨(name, f), h', rfl⟩)
      have hb : (name == n) = false := by simpa using hne
      simp only [hb]
      exact ih hn.2 h'

/-! ## C45 -/

/-- C45: every requested transformation is returned under its name, with one axis per level, and its
cell for the labels `(l1, …, lk)` (in the order of the returned axes) is the transformation of exactly
the observations with these labels, zero where there is none. -/
theorem C45_cells [Zero V] {obs : Series L V} {ts : List (String × (List V → Option V))}
    {addAxis : String → Option (List L)} {res : List (String × Arr V)} {axis : List (List L)}
    (hts : (ts.map Prod.fst).Nodup) (h : prepareSeries obs ts addAxis = .ok (res, axis))
    {name : String} {f : List V → Option V} (hf : (name, f) ∈ ts) :
    ∃ arr, res.lookup name = some arr ∧ arr.shape = axis.map List.length ∧
      arr.data.length = arr.shape.prod ∧
      ∀ idx labels, LabelsAt axis idx labels →
        arr.data[ravel arr.shape idx]? = some (cellSpec f (observationsAt obs.rows labels)) := by
  unfold prepareSeries at h
  split_ifs at h
  simp only [Except.ok.injEq, Prod.mk.injEq] at h
  obtain ⟨rfl, rfl⟩ := h
  refine ⟨_, lookup_of_mem (g := fun f => (⟨(buildAxis obs.levels obs.names addAxis).map List.length,
    reindexFill (groupAgg obs.rows f) (fromProduct (buildAxis obs.levels obs.names addAxis))⟩ : Arr V))
    hts hf, rfl, ?_, ?_⟩
  · simp only [reindex_cell, List.length_map, length_fromProduct]
  · intro idx labels hl
    simp only [reindex_cell, List.getElem?_map, fromProduct_get hl, Option.map_some]

/-- C45: the returned axes are strictly increasing and contain exactly the labels of the level and the
added ones. -/
theorem C45_axes [Zero V] {obs : Series L V} {ts : List (String × (List V → Option V))}
    {addAxis : String → Option (List L)} {res : List (String × Arr V)} {axis : List (List L)}
    (hw : WellFormed obs.levels obs.names (obs.rows.map Prod.fst))
    (h : prepareSeries obs ts addAxis = .ok (res, axis)) :
    axis.length = obs.levels.length ∧
    ∀ (k : Nat) (a level : List L) (name : String), axis[k]? = some a → obs.levels[k]? = some level →
      obs.names[k]? = some name →
      a.Pairwise (· < ·) ∧ ∀ x, x ∈ a ↔ x ∈ level ∨ ∃ e, addAxis name = some e ∧ x ∈ e := by
  unfold prepareSeries at h
  split_ifs at h
  simp only [Except.ok.injEq, Prod.mk.injEq] at h
  obtain ⟨rfl, rfl⟩ := h
  refine ⟨buildAxis_length _ _ _ hw.1, fun k a level name ha hl hn => ?_⟩
  exact buildAxis_get hl hn (hw.2.1 level (List.mem_of_getElem? hl)) ha

/-- C45: no observation is lost: with `np.sum` the array total is the total of the observations. -/
theorem C45_total [AddCommMonoid V] {obs : Series L V} {ts : List (String × (List V → Option V))}
    {addAxis : String → Option (List L)} {res : List (String × Arr V)} {axis : List (List L)}
    (hw : WellFormed obs.levels obs.names (obs.rows.map Prod.fst))
    (hts : (ts.map Prod.fst).Nodup) (h : prepareSeries obs ts addAxis = .ok (res, axis))
    {name : String} (hf : (name, npSum) ∈ ts) :
    ∃ arr, res.lookup name = some arr ∧ arr.data.sum = (obs.rows.map Prod.snd).sum := by
  unfold prepareSeries at h
  split_ifs at h
  simp only [Except.ok.injEq, Prod.mk.injEq] at h
  obtain ⟨rfl, rfl⟩ := h
  refine ⟨_, lookup_of_mem (g := fun f => (⟨_, reindexFill (groupAgg obs.rows f) _⟩ : Arr V)) hts hf, ?_⟩
  exact total_sum _ _ (nodup_fromProduct (buildAxis_nodup hw.2.1)) fun r hr =>
    keys_in_product hw.1 (hw.2.2 _ (List.mem_map.2 ⟨r, hr, rfl⟩))

/-- C45: with `np.size` the array total is the number of observations. -/
theorem C45_count [AddCommMonoidWithOne V] {obs : Series L V}
    {ts : List (String × (List V → Option V))}
    {addAxis : String → Option (List L)} {res : List (String × Arr V)} {axis : List (List L)}
    (hw : WellFormed obs.levels obs.names (obs.rows.map Prod.fst))
    (hts : (ts.map Prod.fst).Nodup) (h : prepareSeries obs ts addAxis = .ok (res, axis))
    {name : String} (hf : (name, npSize) ∈ ts) :
    ∃ arr, res.lookup name = some arr ∧ arr.data.sum = (obs.rows.length : V) := by
  unfold prepareSeries at h
  split_ifs at h
  simp only [Except.ok.injEq, Prod.mk.injEq] at h
  obtain ⟨rfl, rfl⟩ := h
  refine ⟨_, lookup_of_mem (g := fun f => (⟨_, reindexFill (groupAgg obs.rows f) _⟩ : Arr V)) hts hf, ?_⟩
  exact total_size _ _ (nodup_fromProduct (buildAxis_nodup hw.2.1)) fun r hr =>
    keys_in_product hw.1 (hw.2.2 _ (List.mem_map.2 ⟨r, hr, rfl⟩))

/-- C45: the same for a plain index: axis, cells and totals. -/
theorem C45_plain [AddCommMonoidWithOne V] {rows : List (L × V)}
    {ts : List (String × (List V → Option V))} {addAxis : Option (List L)}
    {res : List (String × Arr V)} {axis : List L}
    (hts : (ts.map Prod.fst).Nodup) (h : prepareSeriesPlain rows ts addAxis = .ok (res, axis)) :
    axis.Pairwise (· < ·) ∧ (∀ x, x ∈ axis ↔ x ∈ rows.map Prod.fst ∨ ∃ e, addAxis = some e ∧ x ∈ e) ∧
    ∀ name f, (name, f) ∈ ts → ∃ arr, res.lookup name = some arr ∧ arr.shape = [axis.length] ∧
      arr.data.length = axis.length ∧
      (∀ (i : Nat) x, axis[i]? = some x →
        arr.data[i]? = some (cellSpec f (observationsAt rows x))) ∧
      (f = npSum → arr.data.sum = (rows.map Prod.snd).sum) ∧
      (f = npSize → arr.data.sum = (rows.length : V)) := by
  unfold prepareSeriesPlain at h
  split_ifs at h
  simp only [Except.ok.injEq, Prod.mk.injEq] at h
  obtain ⟨hres, hax⟩ := h
  simp only [hax] at hres
  subst hres
  have hs : axis.Pairwise (· < ·) ∧
      (∀ x, x ∈ axis ↔ x ∈ rows.map Prod.fst ∨ ∃ e, addAxis = some e ∧ x ∈ e) := by
    cases addAxis with
    | none =>
      subst hax
      exact ⟨sorted_strict (List.nodup_dedup _), fun x => by
        simp [(sorted_perm _).mem_iff]⟩
    | some e =>
      subst hax
      exact ⟨sortedUnion_strict _ _, fun x => by
        rw [mem_sortedUnion, (sorted_perm _).mem_iff, List.mem_dedup]; simp⟩
  refine ⟨hs.1, hs.2, fun name f hf => ⟨_,
    lookup_of_mem (g := fun f => (⟨[axis.length], reindexFill (groupAgg rows f) axis⟩ : Arr V)) hts hf,
    rfl, ?_, ?_, ?_, ?_⟩⟩
  · rw [reindex_cell, List.length_map]
  · intro i x hx
    simp only [reindex_cell, List.getElem?_map, hx, Option.map_some]
  · rintro rfl
    exact total_sum _ _ (hs.1.imp fun h => h.ne) fun r hr =>
      (hs.2 r.1).2 (Or.inl (List.mem_map.2 ⟨r, hr, rfl⟩))
  · rintro rfl
    exact total_size _ _ (hs.1.imp fun h => h.ne) fun r hr =>
      (hs.2 r.1).2 (Or.inl (List.mem_map.2 ⟨r, hr, rfl⟩))

/-- A series with two levels, an unused label and an added one. -/
def exampleSeries : Series Nat ℚ :=
  ⟨[[3, 1], [7, 5]], ["home", "away"], [([1, 5], 2), ([3, 7], 1), ([1, 5], 4)]⟩

example : WellFormed exampleSeries.levels exampleSeries.names (exampleSeries.rows.map Prod.fst) := by
  refine ⟨rfl, by decide, ?_⟩
  intro k hk
  simp only [exampleSeries, List.map_cons, List.map_nil, List.mem_cons, List.not_mem_nil,
    or_false] at hk
  rcases hk with rfl | rfl | rfl <;>
    exact .cons (by decide) (.cons (by decide) .nil)

/-- Decidable equality for the concrete examples. -/
instance {A B : Type} [DecidableEq A] [DecidableEq B] : DecidableEq (Except A B) := fun x y =>
  match x, y with
  | .ok a, .ok b => if h : a = b then isTrue (by rw [h]) else isFalse (by simpa using h)
  | .error a, .error b => if h : a = b then isTrue (by rw [h]) else isFalse (by simpa using h)
  | .ok _, .error _ => isFalse (by simp)
  | .error _, .ok _ => isFalse (by simp)

deriving instance DecidableEq for Arr

example : prepareSeries exampleSeries [("N", npSize), ("X", npSum)]
    (fun n => if n = "away" then some [6] else none) =
    .ok ([("N", ⟨[2, 3], [2, 0, 0, 0, 0, 1]⟩), ("X", ⟨[2, 3], [6, 0, 0, 0, 0, 1]⟩)],
      [[1, 3], [5, 6, 7]]) := by
  decide +kernel

/-! ## C46 -/

theorem lookup_replace {A : Type} (d : List (String × A)) (k : String) (v : A) (k' : String)
    (hk : k' ≠ k) : (d.map fun p => if p.1 = k then (k, v) else p).lookup k' = d.lookup k' := by
  have hb : (k' == k) = false := by simpa using hk
  induction d with
  | nil => rfl
  | cons p d ih =>
    obtain ⟨m, u⟩ := p
    simp only [List.map_cons]
    by_cases hm : m = k
    · subst hm
      simp only [if_true, List.lookup_cons, hb, ih]
    · simp only [if_neg hm, List.lookup_cons, ih]

theorem lookup_dictSet {A : Type} (d : List (String × A)) (k : String) (v : A) (k' : String) :
    (dictSet d k v).lookup k' = if k' = k then some v else d.lookup k' := by
  unfold dictSet
  by_cases hany : (d.any fun p => p.1 = k) = true
  · rw [if_pos hany]
    by_cases hk : k' = k
    · subst hk
      rw [if_pos rfl]
      induction d with
      | nil => simp at hany
      | cons p d ih =>
        obtain ⟨n, w⟩ := p
        simp only [List.map_cons]
        by_cases hn : n = k'
        · subst hn; simp
        · have hany' : (d.any fun p => p.1 = k') = true := by
            simpa [List.any_cons, hn] using hany
          have hb : (k' == n) = false := by simpa using Ne.symm hn
          simp only [if_neg hn, List.lookup_cons, hb]
          exact ih hany'
    · rw [if_neg hk]; exact lookup_replace d k v k' hk
  · rw [if_neg hany]
    rw [List.lookup_append]
    by_cases hk : k' = k
    · subst hk
      have : d.lookup k' = none := by
        rw [List.lookup_eq_none_iff]
        intro p hp
        simp only [List.any_eq_true, decide_eq_true_eq, not_exists, not_and] at hany
        simpa using Ne.symm (hany p hp)
      simp [this]
    · have hb : (k' == k) = false := by simpa using hk
      simp [List.lookup_cons, hb, hk]

/-- C46: `N` is the total weight per cell; the axes are as for `prepare_series`; every transformation
not called "N" is returned under its name with the transformation of `result * weight` per cell; no
weight is lost.  Missing from the full claim: a transformation called "N" (see the counterexample). -/
theorem C46_cells_partial [CommSemiring V] {df : Frame L V} {ts : List (String × (List V → Option V))}
    {addAxis : String → Option (List L)} {res : List (String × Arr V)} {axis : List (List L)}
    (hw : WellFormed df.levels df.names (df.rows.map Prod.fst))
    (hts : (ts.map Prod.fst).Nodup) (h : prepareDataframe df ts addAxis = .ok (res, axis)) :
    (∃ arr, res.lookup "N" = some arr ∧ arr.shape = axis.map List.length ∧
      arr.data.length = arr.shape.prod ∧
      (∀ idx labels, LabelsAt axis idx labels → arr.data[ravel arr.shape idx]? =
        some (observationsAt (df.rows.map fun r => (r.1, r.2.1)) labels).sum) ∧
      arr.data.sum = (df.rows.map fun r => r.2.1).sum) ∧
    (∀ name f, (name, f) ∈ ts → name ≠ "N" →
      ∃ arr, res.lookup name = some arr ∧ arr.shape = axis.map List.length ∧
      arr.data.length = arr.shape.prod ∧
      ∀ idx labels, LabelsAt axis idx labels → arr.data[ravel arr.shape idx]? =
        some (cellSpec f (observationsAt (df.rows.map fun r => (r.1, r.2.2 * r.2.1)) labels))) ∧
    axis.length = df.levels.length ∧
    ∀ (k : Nat) (a level : List L) (name : String), axis[k]? = some a → df.levels[k]? = some level →
      df.names[k]? = some name →
      a.Pairwise (· < ·) ∧ ∀ x, x ∈ a ↔ x ∈ level ∨ ∃ e, addAxis name = some e ∧ x ∈ e := by
  unfold prepareDataframe at h
  split_ifs at h
  simp only [Except.ok.injEq, Prod.mk.injEq] at h
  obtain ⟨rfl, rfl⟩ := h
  refine ⟨⟨_, by rw [lookup_dictSet, if_pos rfl], rfl, ?_, ?_, ?_⟩, fun name f hf hne =>
    ⟨_, by
      rw [lookup_dictSet, if_neg hne]
      exact lookup_of_mem (g := fun f => (⟨_, reindexFill (groupAgg (df.rows.map fun r =>
        (r.1, r.2.2 * r.2.1)) f) _⟩ : Arr V)) hts hf, rfl, ?_, ?_⟩,
    buildAxis_length _ _ _ hw.1, fun k a level name ha hl hn =>
      buildAxis_get hl hn (hw.2.1 level (List.mem_of_getElem? hl)) ha⟩
  · simp only [reindex_cell, List.length_map, length_fromProduct]
  · intro idx labels hl
    simp only [reindex_cell, List.getElem?_map, fromProduct_get hl, Option.map_some, cellSpec_sum]
  · dsimp only
    rw [total_sum _ _ (nodup_fromProduct (buildAxis_nodup hw.2.1)), List.map_map]
    · rfl
    · intro r hr
      rw [List.mem_map] at hr
      obtain ⟨r', hr', rfl⟩ := hr
      exact keys_in_product hw.1 (hw.2.2 _ (List.mem_map.2 ⟨r', hr', rfl⟩))
  · simp only [reindex_cell, List.length_map, length_fromProduct]
  · intro idx labels hl
    simp only [reindex_cell, List.getElem?_map, fromProduct_get hl, Option.map_some]

/-- A frame with one level: two observations of one label. -/
def exampleFrame : Frame Nat ℚ := ⟨[[1]], ["a"], [([1], 2, 5), ([1], 3, 7)]⟩

/-- C46: a requested transformation called "N" is not returned: the entry holds the weights.  Here
`{"N": np.size}` should give the number of observations, 2, and gives the total weight, 5. -/
theorem C46_name_clash_counterexample :
    prepareDataframe exampleFrame [("N", npSize)] (fun _ => none) =
      .ok ([("N", ⟨[1], [5]⟩)], [[1]]) := by
  decide +kernel

example : prepareDataframe exampleFrame [("X", npSum)] (fun _ => none) =
    .ok ([("X", ⟨[1], [31]⟩), ("N", ⟨[1], [5]⟩)], [[1]]) := by
  decide +kernel

/-! ## C47 -/

/-- The specified row for an observation `v`: column `k` is `v = k` for `k < size - 1`, the last column
is "none of 0 … size - 2". -/
def countRowSpec (size : Nat) (v : ℚ) : List Bool :=
  (List.range (size - 1)).map (fun (k : Nat) => decide (v = (k : ℚ))) ++
    [decide (∀ k < size - 1, v ≠ (k : ℚ))]

/-- The row as returned: the overflow column comes before the column of `size - 2`. -/
theorem dfCount_rows {values : List ℚ} {size : Int} {rows : List (List Bool)}
    (h : dfCount values size = .ok rows) :
    1 < size ∧ rows = values.map fun v =>
      (List.range (size.toNat - 2)).map (fun (k : Nat) => decide (v = (k : ℚ))) ++
        [decide (∀ k < size.toNat - 1, v ≠ (k : ℚ)), decide (v = ((size.toNat - 2 : Nat) : ℚ))] := by
  unfold dfCount at h
  split_ifs at h with hs
  refine ⟨by omega, ?_⟩
  obtain ⟨m, rfl⟩ : ∃ m : Nat, size = m + 2 := ⟨(size - 2).toNat, by omega⟩
  have e1 : ((m : Int) + 2 - 1).toNat = m + 1 := by omega
  have e2 : ((m : Int) + 2).toNat = m + 2 := by omega
  rw [e1] at h
  simp only [e2, Nat.add_sub_cancel, show m + 2 - 1 = m + 1 by omega]
  have hrow : ∀ v : ℚ, (insertBeforeLast ((List.range (m + 1)).map fun (k : Nat) => decide (v = (k : ℚ)))
      (!((List.range (m + 1)).map fun (k : Nat) => decide (v = (k : ℚ))).any id)) =
      .ok ((List.range m).map (fun (k : Nat) => decide (v = (k : ℚ))) ++
        [decide (∀ k < m + 1, v ≠ (k : ℚ)), decide (v = ((m : Nat) : ℚ))]) := by
    intro v
    unfold insertBeforeLast
    rw [if_neg (by simp)]
    have hb : (!((List.range (m + 1)).map fun (k : Nat) => decide (v = (k : ℚ))).any id) =
        decide (∀ k < m + 1, v ≠ (k : ℚ)) := by
      rw [Bool.eq_iff_iff]
      simp only [Bool.not_eq_true', decide_eq_true_eq, List.any_eq_false, List.mem_map, List.mem_range,
        id]
      constructor
      · intro hh k hk he
        exact hh (decide (v = (k : ℚ))) ⟨k, hk, rfl⟩ (by simpa using he)
      · rintro hh b ⟨k, hk, rfl⟩ hb
        exact hh k hk (by simpa using hb)
    rw [hb]
    simp [List.range_succ]
  simp only [hrow] at h
  clear hs e1 e2 hrow
  induction values generalizing rows with
  | nil => simp only [List.mapM_nil, pure, Except.pure, Except.ok.injEq] at h; simp [← h]
  | cons v values ih =>
    rw [List.mapM_cons] at h
    simp only [bind, Except.bind, pure, Except.pure] at h
    split at h
    · cases h
    · rename_i rest hr
      cases h
      rw [ih hr]
      rfl

/-- Number of `True` entries. -/
def trues (row : List Bool) : Nat := row.countP id

theorem trues_range (v : ℚ) (m : Nat) :
    trues ((List.range m).map fun (k : Nat) => decide (v = (k : ℚ))) =
      if ∃ k < m, v = (k : ℚ) then 1 else 0 := by
  induction m with
  | zero => simp [trues]
  | succ m ih =>
    rw [List.range_succ, List.map_append]
    unfold trues at ih ⊢
    rw [List.countP_append, ih]
    by_cases hm : v = (m : ℚ)
    · have h1 : ¬ ∃ k < m, v = (k : ℚ) := by
        rintro ⟨k, hk, he⟩
        rw [hm] at he
        have : m = k := by exact_mod_cast he
        omega
      rw [if_neg h1, if_pos ⟨m, by omega, hm⟩]
      simp [hm]
    · have h2 : (∃ k < m + 1, v = (k : ℚ)) ↔ ∃ k < m, v = (k : ℚ) := by
        constructor
        · rintro ⟨k, hk, he⟩
          rcases Nat.lt_succ_iff_lt_or_eq.1 hk with h | rfl
          · exact ⟨k, h, he⟩
          · exact absurd he hm
        · rintro ⟨k, hk, he⟩
          exact ⟨k, by omega, he⟩
      simp [h2, hm]

/-- C47: what holds: one row per observation, `size` columns, exactly one `True` per row, and the
columns below `size - 2` are right.  Missing from the full claim: the last two columns, which are
exchanged. -/
theorem C47_one_hot_partial {values : List ℚ} {size : Int} {rows : List (List Bool)}
    (h : dfCount values size = .ok rows) :
    rows.length = values.length ∧
    ∀ (i : Nat) (row : List Bool) (v : ℚ), rows[i]? = some row → values[i]? = some v →
      row.length = size.toNat ∧ trues row = 1 ∧
      ∀ k : Nat, (k : Int) < size - 2 → (row[k]? = some true ↔ v = (k : ℚ)) := by
  obtain ⟨hs, rfl⟩ := dfCount_rows h
  refine ⟨by simp, ?_⟩
  intro i row v hrow hv
  rw [List.getElem?_map, hv, Option.map_some, Option.some.injEq] at hrow
  obtain ⟨m, rfl⟩ : ∃ m : Nat, size = m + 2 := ⟨(size - 2).toNat, by omega⟩
  have e2 : ((m : Int) + 2).toNat = m + 2 := by omega
  simp only [e2, Nat.add_sub_cancel, show m + 2 - 1 = m + 1 by omega] at hrow ⊢
  subst hrow
  refine ⟨by simp, ?_, ?_⟩
  · have := trues_range v (m + 1)
    rw [List.range_succ, List.map_append] at this
    unfold trues at this ⊢
    rw [List.countP_append] at this ⊢
    simp only [List.map_cons, List.map_nil, List.countP_cons, List.countP_nil, id] at this ⊢
    by_cases hh : ∃ k < m + 1, v = (k : ℚ)
    · rw [if_pos hh] at this
      have hd : ¬ ∀ k < m + 1, v ≠ (k : ℚ) := by
        obtain ⟨k, hk, he⟩ := hh
        exact fun h => h k hk he
      simp only [hd, decide_false]
      simp at this ⊢
      omega
    · rw [if_neg hh] at this
      have hd : ∀ k < m + 1, v ≠ (k : ℚ) := fun k hk he => hh ⟨k, hk, he⟩
      rw [decide_eq_true hd, if_pos rfl]
      omega
  · intro k hk
    have hk : k < m := by omega
    rw [List.getElem?_append_left (by simpa using hk)]
    simp [hk]

/-- C47: the last two columns of every returned frame: `size - 2` holds the overflow flag and
`size - 1` the flag of the value `size - 2`; they are exchanged. -/
theorem C47_last_columns {values : List ℚ} {size : Int} {rows : List (List Bool)}
    (h : dfCount values size = .ok rows) (i : Nat) (row : List Bool) (v : ℚ)
    (hrow : rows[i]? = some row) (hv : values[i]? = some v) :
    (row[size.toNat - 2]? = some true ↔ ∀ k < size.toNat - 1, v ≠ (k : ℚ)) ∧
    (row[size.toNat - 1]? = some true ↔ v = ((size.toNat - 2 : Nat) : ℚ)) := by
  obtain ⟨hs, rfl⟩ := dfCount_rows h
  rw [List.getElem?_map, hv, Option.map_some, Option.some.injEq] at hrow
  obtain ⟨m, rfl⟩ : ∃ m : Nat, size = m + 2 := ⟨(size - 2).toNat, by omega⟩
  have e2 : ((m : Int) + 2).toNat = m + 2 := by omega
  simp only [e2, Nat.add_sub_cancel, show m + 2 - 1 = m + 1 by omega] at hrow ⊢
  subst hrow
  constructor
  · rw [List.getElem?_append_right (by simp)]
    simp
  · rw [List.getElem?_append_right (by simp)]
    simp

/-- C47: the claim is false for every observation outside `0 … size - 2` and for `size - 2` itself:
the returned row is not the specified one. -/
theorem C47_overflow_counterexample {v : ℚ} {size : Nat} (hs : 2 ≤ size)
    (hv : ∀ k < size - 2, v ≠ (k : ℚ)) {rows : List (List Bool)} (h : dfCount [v] size = .ok rows) :
    rows ≠ [countRowSpec size v] := by
  intro he
  have hl := C47_last_columns h 0 (countRowSpec size v) v (by rw [he]; rfl) rfl
  obtain ⟨m, rfl⟩ : ∃ m : Nat, size = m + 2 := ⟨size - 2, by omega⟩
  have e2 : (((m + 2 : Nat) : Int)).toNat = m + 2 := by omega
  simp only [e2, Nat.add_sub_cancel, show m + 2 - 1 = m + 1 by omega, countRowSpec] at hl hv
  rw [List.getElem?_append_left (by simp), List.getElem?_append_right (by simp)] at hl
  simp only [List.getElem?_map, List.getElem?_range (Nat.lt_succ_self m), Option.map_some,
    Option.some.injEq, decide_eq_true_eq, List.length_map, List.length_range, Nat.sub_self,
    List.getElem?_cons_zero] at hl
  by_cases hm : v = (m : ℚ)
  · exact hl.1.1 hm m (by omega) hm
  · have : ∀ k < m + 1, v ≠ (k : ℚ) := by
      intro k hk
      rcases Nat.lt_succ_iff_lt_or_eq.1 hk with h | rfl
      · exact hv k h
      · exact hm
    exact hm (hl.1.2 this)

/-- C47: `size ≤ 1` always raises, although a frame with one (overflow) column would be the answer for
`size = 1`. -/
theorem C47_size_one (values : List ℚ) {size : Int} (hs : size ≤ 1) :
    dfCount values size = .error .indexError := if_pos hs

example : dfCount [0, 1, 2, 7] 3 =
    .ok [[true, false, false], [false, false, true], [false, true, false], [false, true, false]] := by
  decide +kernel

end Verif.Prep
