import Verif.Props.Preprocessing
import Verif.Model.Pipeline

/-!
# C81: the tables depend only on the collection of the observations
-/

namespace Verif.Prep
open Verif.Params (Err)

variable {L V : Type} [LinearOrder L]

/-- The value of the function does not depend on the order of the list. -/
def OrderFree (f : List V → Option V) : Prop := ∀ l l' : List V, l.Perm l' → f l = f l'

theorem sorted_eq {l l' : List L} (h : l.Perm l') : sorted l = sorted l' :=
  List.Perm.eq_of_pairwise (le := (· ≤ ·)) (fun _ _ _ _ h1 h2 => le_antisymm h1 h2) (sorted_sorted l) (sorted_sorted l') ((sorted_perm l).trans (h.trans (sorted_perm l').symm))

theorem sortedUnion_eq {a a' : List L} (h : a.Perm a') (b : List L) : sortedUnion a b = sortedUnion a' b := sorted_eq ((h.append_right b).dedup)

theorem buildAxis_eq {levels levels' : List (List L)} (h : List.Forall₂ List.Perm levels levels') (names : List String) (addAxis : String → Option (List L)) :
    buildAxis levels names addAxis = buildAxis levels' names addAxis := by
  unfold buildAxis
  induction h generalizing names with
  | nil => rfl
  | cons h1 _ ih =>
    cases names with
    | nil => rfl
    | cons n ns =>
      rw [List.zip_cons_cons, List.zip_cons_cons, List.map_cons, List.map_cons, ih ns]
      congr 1
      dsimp only
      rw [sorted_eq h1]

section
variable {K : Type} [DecidableEq K]

theorem observationsAt_perm {rows rows' : List (K × V)} (h : rows.Perm rows') (k : K) : (observationsAt rows k).Perm (observationsAt rows' k) := (h.filter _).map _

theorem cellSpec_perm [Zero V] {f : List V → Option V} (hf : OrderFree f) {l l' : List V} (h : l.Perm l') : cellSpec f l = cellSpec f l' := by
  cases l with
  | nil => rw [List.nil_perm.1 h]
  | cons x l =>
    cases l' with
    | nil => exact absurd h.length_eq (by simp)
    | cons y l' =>
      exact congrArg (fun o => Option.getD o 0) (hf _ _ h)

theorem reindexFill_congr [Zero V] {rows rows' : List (K × V)} {f f' : List V → Option V} {index : List K}
    (h : ∀ k ∈ index, cellSpec f (observationsAt rows k) = cellSpec f' (observationsAt rows' k)) :
    reindexFill (groupAgg rows f) index = reindexFill (groupAgg rows' f') index := by
  rw [reindex_cell, reindex_cell]
  exact List.map_congr_left h

theorem reindexFill_perm [Zero V] {rows rows' : List (K × V)} (h : rows.Perm rows') {f : List V → Option V} (hf : OrderFree f) (index : List K) :
    reindexFill (groupAgg rows f) index = reindexFill (groupAgg rows' f) index :=
  reindexFill_congr fun k _ => cellSpec_perm hf (observationsAt_perm h k)

end

/-- **C81.** The order of the observations does not matter: if the transformations do not depend on the order then `prepare_series` returns exactly the same arrays and axes
for the rows in any order (also if pandas has the labels of a level in another order). -/
theorem C81_series_order [Zero V] {obs obs' : Series L V} (hl : List.Forall₂ List.Perm obs.levels obs'.levels) (hn : obs.names = obs'.names) (hr : obs.rows.Perm obs'.rows)
    {ts : List (String × (List V → Option V))} (hts : ∀ t ∈ ts, OrderFree t.2) (addAxis : String → Option (List L)) : prepareSeries obs ts addAxis = prepareSeries obs' ts addAxis := by
  unfold prepareSeries
  rw [hn, buildAxis_eq hl]
  split_ifs with h
  · rfl
  · dsimp only
    congr 2
    exact List.map_congr_left fun t ht => by rw [reindexFill_perm hr (hts t ht)]

/-- **C81.** The same with a plain index. -/
theorem C81_plain_order [Zero V] {rows rows' : List (L × V)} (hr : rows.Perm rows') {ts : List (String × (List V → Option V))} (hts : ∀ t ∈ ts, OrderFree t.2)
    (addAxis : Option (List L)) : prepareSeriesPlain rows ts addAxis = prepareSeriesPlain rows' ts addAxis := by
  have hax : sorted (rows.map Prod.fst).dedup = sorted (rows'.map Prod.fst).dedup := sorted_eq ((hr.map _).dedup)
  unfold prepareSeriesPlain
  rw [hax]
  split_ifs with h
  · rfl
  · dsimp only
    congr 2
    exact List.map_congr_left fun t ht => by rw [reindexFill_perm hr (hts t ht)]

theorem npSum_orderFree [AddCommMonoid V] : OrderFree (npSum (V := V)) := fun _ _ h => congrArg some h.sum_eq

theorem npSize_orderFree [NatCast V] : OrderFree (npSize (V := V)) := fun _ _ h => by
  unfold npSize
  rw [h.length_eq]

theorem npZeros_orderFree : OrderFree Verif.Tens.npZeros := fun _ _ h => by
  unfold Verif.Tens.npZeros
  rw [(h.filter _).length_eq]

/-- **C81.** The transformations of the documentation do not depend on the order. -/
theorem C81_transformations [AddCommMonoid V] [NatCast V] : OrderFree (npSum (V := V)) ∧ OrderFree (npSize (V := V)) ∧ OrderFree Verif.Tens.npZeros :=
  ⟨npSum_orderFree, npSize_orderFree, npZeros_orderFree⟩

/-- **C81.** `prepare_dataframe` returns the same arrays and axes for the rows in any order. -/
theorem C81_dataframe_order [CommSemiring V] {df df' : Frame L V} (hl : List.Forall₂ List.Perm df.levels df'.levels) (hn : df.names = df'.names) (hr : df.rows.Perm df'.rows)
    {ts : List (String × (List V → Option V))} (hts : ∀ t ∈ ts, OrderFree t.2) (addAxis : String → Option (List L)) :
    prepareDataframe df ts addAxis = prepareDataframe df' ts addAxis := by
  unfold prepareDataframe
  rw [hn, buildAxis_eq hl]
  split_ifs with h
  · rfl
  · dsimp only
    rw [reindexFill_perm (hr.map fun r => (r.1, r.2.1)) npSum_orderFree]
    congr 3
    exact List.map_congr_left fun t ht => by
      rw [reindexFill_perm (hr.map fun r => (r.1, r.2.2 * r.2.1)) (hts t ht)]

section
variable {K : Type} [DecidableEq K]

theorem observationsAt_append (a b : List (K × V)) (k : K) : observationsAt (a ++ b) k = observationsAt a k ++ observationsAt b k := by
  unfold observationsAt
  rw [List.filter_append, List.map_append]

end

/-- **C81.** An observation of weight `w₁ + w₂` can be given as two observations of weights `w₁` and `w₂` with the same labels and the same result: with sums as
transformations `prepare_dataframe` returns the same. -/
theorem C81_split [CommSemiring V] {levels : List (List L)} {names : List String} {before after : List (List L × V × V)} (labels : List L) (w₁ w₂ x : V)
    {ts : List (String × (List V → Option V))} (hts : ∀ t ∈ ts, t.2 = npSum) (addAxis : String → Option (List L)) :
    prepareDataframe ⟨levels, names, before ++ (labels, w₁ + w₂, x) :: after⟩ ts addAxis =
      prepareDataframe ⟨levels, names, before ++ (labels, w₁, x) :: (labels, w₂, x) :: after⟩ ts addAxis := by
  have key : ∀ (g : List L × V × V → V) (index : List (List L)), g (labels, w₁ + w₂, x) = g (labels, w₁, x) + g (labels, w₂, x) →
      reindexFill (groupAgg ((before ++ (labels, w₁ + w₂, x) :: after).map fun r => (r.1, g r)) npSum) index =
        reindexFill (groupAgg ((before ++ (labels, w₁, x) :: (labels, w₂, x) :: after).map fun r => (r.1, g r)) npSum) index := by
    intro g index hg
    refine reindexFill_congr fun k _ => ?_
    rw [cellSpec_sum, cellSpec_sum, List.map_append, List.map_append, observationsAt_append, observationsAt_append, List.sum_append, List.sum_append]
    congr 1
    unfold observationsAt
    by_cases hk : labels = k
    · subst hk
      simp [hg, add_assoc]
    · simp [hk]
  unfold prepareDataframe
  split_ifs with h
  · rfl
  · dsimp only
    rw [key (fun r => r.2.1) _ rfl]
    congr 3
    exact List.map_congr_left fun t ht => by
      rw [hts t ht, key (fun r => r.2.2 * r.2.1) _ (mul_add x w₁ w₂)]

/-- **C81.** Every observation given `n` times: the arrays of `prepare_series` with sums, numbers of observations or numbers of zeros are multiplied by `n`; the axes are the
same. -/
theorem C81_repeated {obs : Series L ℝ} {ts : List (String × (List ℝ → Option ℝ))} (hts : ∀ t ∈ ts, t.2 = npSum ∨ t.2 = npSize ∨ t.2 = Verif.Tens.npZeros)
    {addAxis : String → Option (List L)} {res : List (String × Arr ℝ)} {axis : List (List L)} (h : prepareSeries obs ts addAxis = .ok (res, axis)) (n : Nat) :
    prepareSeries ⟨obs.levels, obs.names, (List.replicate n obs.rows).flatten⟩ ts addAxis =
      .ok (res.map fun r => (r.1, ⟨r.2.shape, r.2.data.map ((n : ℝ) * ·)⟩), axis) := by
  unfold prepareSeries at h ⊢
  split_ifs at h ⊢ with hne
  injection h with h
  injection h with h1 h2
  subst h1 h2
  dsimp only
  congr 2
  rw [List.map_map]
  refine List.map_congr_left fun t ht => ?_
  have hrep : ∀ k, observationsAt (List.replicate n obs.rows).flatten k = (List.replicate n (observationsAt obs.rows k)).flatten := by
    intro k
    induction n with
    | zero => rfl
    | succ n ih => rw [List.replicate_succ, List.flatten_cons, observationsAt_append, ih, List.replicate_succ, List.flatten_cons]
  have hcell : ∀ l : List ℝ, cellSpec t.2 (List.replicate n l).flatten = n * cellSpec t.2 l := by
    intro l
    have key : ∀ g : List ℝ → ℝ, g [] = 0 → (∀ a b, g (a ++ b) = g a + g b) → g (List.replicate n l).flatten = n * g l := by
      intro g h0 h1
      clear hrep
      induction n with
      | zero => simp [h0]
      | succ n ih => rw [List.replicate_succ, List.flatten_cons, h1, ih]; push_cast; ring
    rcases hts t ht with h | h | h
    · rw [h, cellSpec_sum, cellSpec_sum]
      exact key List.sum rfl fun a b => List.sum_append
    · have e1 : ∀ l : List ℝ, cellSpec npSize l = (l.length : ℝ) := by
        intro l
        cases l with
        | nil => simp [cellSpec]
        | cons x l => rfl
      rw [h, e1, e1]
      exact key (fun l => (l.length : ℝ)) (by simp) fun a b => by simp
    · have e1 : ∀ l : List ℝ, cellSpec Verif.Tens.npZeros l = ((l.filter fun x => x = 0).length : ℝ) := by
        intro l
        cases l with
        | nil => simp [cellSpec]
        | cons x l => rfl
      rw [h, e1, e1]
      exact key (fun l => ((l.filter fun x => x = 0).length : ℝ)) (by simp) fun a b => by simp
  simp only [Function.comp]
  congr 2
  rw [reindex_cell, reindex_cell, List.map_map]
  exact List.map_congr_left fun k _ => by
    rw [hrep, hcell]
    rfl

/-- A concrete case of `C81_series_order`: three rows in another order, and the labels of the first level in another order. -/
example (addAxis : String → Option (List Nat)) : prepareSeries exampleSeries [("N", npSize), ("X", npSum)] addAxis =
    prepareSeries ⟨[[1, 3], [7, 5]], ["home", "away"], [([3, 7], 1), ([1, 5], 4), ([1, 5], 2)]⟩ [("N", npSize), ("X", npSum)] addAxis := by
  have hl : List.Forall₂ List.Perm exampleSeries.levels [[1, 3], [7, 5]] := .cons (List.Perm.swap _ _ _) (.cons (List.Perm.refl _) .nil)
  have hr : exampleSeries.rows.Perm [([3, 7], 1), ([1, 5], 4), ([1, 5], 2)] := by decide
  refine C81_series_order (obs' := ⟨[[1, 3], [7, 5]], ["home", "away"], [([3, 7], 1), ([1, 5], 4), ([1, 5], 2)]⟩) hl rfl hr ?_ addAxis
  intro t ht
  simp only [List.mem_cons, List.not_mem_nil, or_false] at ht
  rcases ht with rfl | rfl
  · exact npSize_orderFree
  · exact npSum_orderFree

/-- The order matters for a transformation that depends on it (the first observation of the cell). -/
theorem C81_counterexample_first : prepareSeries (V := ℚ) ⟨[[1]], ["a"], [([1], 2), ([1], 4)]⟩ [("F", List.head?)] (fun _ : String => (none : Option (List Nat))) ≠
    prepareSeries ⟨[[1]], ["a"], [([1], 4), ([1], 2)]⟩ [("F", List.head?)] (fun _ => none) := by
  decide +kernel

end Verif.Prep
