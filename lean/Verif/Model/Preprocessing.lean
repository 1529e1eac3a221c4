import Verif.Model.Params
import Mathlib.Data.List.Sort
import Mathlib.Data.List.Dedup
import Mathlib.Algebra.Ring.Defs
import Mathlib.Data.Rat.Defs

/-!
# Model of maxlike/preprocessing.py

A `pd.Series` with a `MultiIndex` is the list of its levels (duplicate free, possibly containing
unused labels, in pandas' internal order), their names, and its rows in order: a tuple of labels (one
per level) and a value.  All labels are of one linearly ordered type `L` (simplification).  Values are
of a type `V`; `NaN` values in the input are not modelled, a transformation may return `NaN` (`none`).
An array is its shape and its entries in C order.
-/

namespace Verif.Prep
open Verif.Params (Err)

variable {L V : Type} [LinearOrder L]

/-- `sorted(l)` / `level.sort_values()` -/
def sorted (l : List L) : List L := l.insertionSort (· ≤ ·)

/-- `sorted(set(a).union(b))` -/
def sortedUnion (a b : List L) : List L := sorted (a ++ b).dedup

/-- A `pd.Series` with a `MultiIndex`. -/
structure Series (L V : Type) where
  levels : List (List L)
  names : List String
  rows : List (List L × V)

/-- An `ndarray`: shape and entries in C order. -/
structure Arr (V : Type) where
  shape : List Nat
  data : List V

/-- The loop over the levels (preprocessing.py:36-40, 58-62): sorted levels, united with the labels
`add_axis` gives under the level's name. -/
def buildAxis (levels : List (List L)) (names : List String) (addAxis : String → Option (List L)) :
    List (List L) :=
  (levels.zip names).map fun (level, name) =>
    match addAxis name with
    | none => sorted level
    | some extra => sortedUnion (sorted level) extra

/-- `pd.MultiIndex.from_product(axis)` -/
def fromProduct : List (List L) → List (List L)
  | [] => [[]]
  | a :: as => a.flatMap fun x => (fromProduct as).map (x :: ·)

/-- `rows.groupby(index).agg(f)`: one entry per key that occurs, with `f` of the values of that key in
order of appearance. (pandas also sorts the keys; the result is only looked up by key.) -/
def groupAgg {K : Type} [DecidableEq K] (rows : List (K × V)) (f : List V → Option V) :
    List (K × Option V) :=
  (rows.map Prod.fst).dedup.map fun k => (k, f ((rows.filter fun r => r.1 = k).map Prod.snd))

/-- `.reindex(new_index).fillna(0)`, the values in the order of the new index. -/
def reindexFill {K : Type} [DecidableEq K] [Zero V] (g : List (K × Option V)) (index : List K) :
    List V :=
  index.map fun k => match g.lookup k with
    | none => 0
    | some none => 0
    | some (some v) => v

/-- `prepare_series(observations, transformations, add_axis)` for a `MultiIndex`
(preprocessing.py:32-53); `agg` without arguments raises `TypeError`. -/
def prepareSeries [Zero V] (obs : Series L V) (transformations : List (String × (List V → Option V)))
    (addAxis : String → Option (List L)) : Except Err (List (String × Arr V) × List (List L)) :=
  if transformations = [] then .error .typeError
  else
    let axis := buildAxis obs.levels obs.names addAxis
    let shape := axis.map List.length
    .ok (transformations.map fun (name, f) =>
      (name, ⟨shape, reindexFill (groupAgg obs.rows f) (fromProduct axis)⟩), axis)

/-- `prepare_series` for a plain index (preprocessing.py:44-53): the axis is one list of labels. -/
def prepareSeriesPlain [Zero V] (rows : List (L × V))
    (transformations : List (String × (List V → Option V))) (addAxis : Option (List L)) :
    Except Err (List (String × Arr V) × List L) :=
  if transformations = [] then .error .typeError
  else
    let axis := sorted (rows.map Prod.fst).dedup
    let axis := match addAxis with
      | none => axis
      | some extra => sortedUnion axis extra
    .ok (transformations.map fun (name, f) =>
      (name, ⟨[axis.length], reindexFill (groupAgg rows f) axis⟩), axis)

/-- A `pd.DataFrame` with a `MultiIndex` and the two columns `weight_col` and `result_col`. -/
structure Frame (L V : Type) where
  levels : List (List L)
  names : List String
  /-- labels, weight, result -/
  rows : List (List L × V × V)

/-- `np.sum` as a transformation. -/
def npSum [AddCommMonoid V] (l : List V) : Option V := some l.sum

/-- `np.size` as a transformation. -/
def npSize [NatCast V] (l : List V) : Option V := some (l.length : V)

/-- Assignment `res[k] = v` in a dictionary (association list, insertion order). -/
def dictSet {A : Type} (d : List (String × A)) (k : String) (v : A) : List (String × A) :=
  if d.any (fun p => p.1 = k) then d.map fun p => if p.1 = k then (k, v) else p
  else d ++ [(k, v)]

/-- `prepare_dataframe(df, weight_col, result_col, transformations, add_axis)`
(preprocessing.py:56-71) -/
def prepareDataframe [CommSemiring V] (df : Frame L V)
    (transformations : List (String × (List V → Option V))) (addAxis : String → Option (List L)) :
    Except Err (List (String × Arr V) × List (List L)) :=
  if transformations = [] then .error .typeError
  else
    let axis := buildAxis df.levels df.names addAxis
    let shape := axis.map List.length
    let newIndex := fromProduct axis
    let w := reindexFill (groupAgg (df.rows.map fun r => (r.1, r.2.1)) npSum) newIndex
    let res := transformations.map fun (name, f) =>
      (name, (⟨shape, reindexFill (groupAgg (df.rows.map fun r => (r.1, r.2.2 * r.2.1)) f) newIndex⟩ :
        Arr V))
    .ok (dictSet res "N" ⟨shape, w⟩, axis)

/-- `np.insert(X, -1, column, 1)` for one row: before the last entry; `IndexError` if there is none. -/
def insertBeforeLast (row : List Bool) (b : Bool) : Except Err (List Bool) :=
  if row = [] then .error .indexError else .ok (row.dropLast ++ [b] ++ row.drop (row.length - 1))

/-- `df_count(series, size)` (preprocessing.py:74-81): the rows of the resulting frame.
(The exception for an empty second axis is raised for every number of rows.) -/
def dfCount (values : List ℚ) (size : Int) : Except Err (List (List Bool)) :=
  if size ≤ 1 then .error .indexError
  else
    values.mapM fun v =>
      let row := (List.range (size - 1).toNat).map fun (k : Nat) => decide (v = (k : ℚ))
      insertBeforeLast row (!row.any id)

end Verif.Prep
