import Verif.Model.Pipeline
import Verif.Props.Observations
import Verif.Props.SessionLike

/-!
# C75: from the observations to the fit
-/

namespace Verif.Tens
open Verif.Params Verif.Prep

set_option linter.unusedSectionVars false

/-! ## arrays as data -/

section
variable {pr : Problem}

/-- The position of a cell in the axes of the data: features, then outcomes. -/
def Problem.index (pr : Problem) (c : pr.Cell) (k : Nat) : Nat :=
  if h : k < pr.n then c.1 ⟨k, h⟩ else if h' : k - pr.n < pr.d then c.2 ⟨k - pr.n, h'⟩ else 0

theorem index_lt (c : pr.Cell) {k : Nat} (hk : k < pr.n + pr.d) : pr.index c k < pr.S k := by
  unfold Problem.index
  split_ifs with h h'
  · exact (c.1 ⟨k, h⟩).2
  · have := (c.2 ⟨k - pr.n, h'⟩).2
    have e : pr.n + (k - pr.n) = k := by omega
    simpa only [e] using this
  · omega

theorem index_inj {c c' : pr.Cell} (h : ∀ k < pr.n + pr.d, pr.index c k = pr.index c' k) : c = c' := by
  refine Prod.ext (funext fun k => Fin.ext ?_) (funext fun k => Fin.ext ?_)
  · have := h k (by have := k.2; omega)
    unfold Problem.index at this
    rw [dif_pos k.2, dif_pos k.2] at this
    exact this
  · have hk := k.2
    have := h (pr.n + k) (by omega)
    have e : pr.n + (k : Nat) - pr.n = k := by omega
    have key : ∀ c : pr.Cell, pr.index c (pr.n + k) = c.2 k := by
      intro c
      unfold Problem.index
      rw [dif_neg (by omega)]
      rw [dif_pos (by omega)]
      have gen : ∀ (j : Nat) (hj : j < pr.d), j = k → ((c.2 ⟨j, hj⟩ : Fin _) : Nat) = c.2 k := by
        rintro j hj rfl; rfl
      exact gen _ _ e
    rw [key, key] at this
    exact this

theorem index_surj {f : Nat → Nat} (h : ∀ k < pr.n + pr.d, f k < pr.S k) : ∃ c : pr.Cell, ∀ k < pr.n + pr.d, pr.index c k = f k := by
  refine ⟨(fun k => ⟨f k, h k (by have := k.2; omega)⟩, fun k => ⟨f (pr.n + k), h _ (by have := k.2; omega)⟩), fun k hk => ?_⟩
  unfold Problem.index
  split_ifs with c c'
  · rfl
  · show f (pr.n + (k - pr.n)) = f k
    congr 1; omega
  · omega

theorem array_isData {v : NDArray ℝ} (hn : v.ndim = pr.n + pr.d) (hs : ∀ k < pr.n + pr.d, v.shape k = pr.S k) : pr.IsData (.tensor ⟨v, 0, 0, pr.d, [], []⟩) := by
  have hle : 0 + 0 + pr.d ≤ v.ndim := by omega
  have hshape : ∀ k < pr.n + pr.d, v.shape (0 + 0 + k) = pr.S k := fun k hk => by simpa using hs k hk
  exact ⟨_, rfl, ⟨Tensor.wf_nomap hle, ⟨List.nodup_nil, List.nodup_nil⟩, Or.inl rfl, Or.inl rfl, by show v.ndim - 0 - 0 - pr.d = pr.n; omega, Or.inr rfl,
    fun k hk => Or.inl (hshape k hk), fun k hk => absurd hk (Nat.not_lt_zero _), fun k hk => absurd hk (Nat.not_lt_zero _)⟩, ⟨rfl, hshape⟩, rfl, rfl⟩

theorem array_val {v : NDArray ℝ} (hn : v.ndim = pr.n + pr.d) (hs : ∀ k < pr.n + pr.d, v.shape k = pr.S k) (c : pr.Cell) :
    pr.val (.tensor ⟨v, 0, 0, pr.d, [], []⟩) c = v.raw fun k => if k < pr.n + pr.d then pr.index c k else 0 := by
  unfold Problem.val
  show (Tensor.dense _ _ : ℝ) = _
  unfold Tensor.dense
  rw [if_pos (And.intro (agrees_nil _ _) (agrees_nil _ _))]
  unfold NDArray.bget NDArray.get
  congr 1
  funext k
  by_cases hk : k < pr.n + pr.d
  swap
  · rw [if_neg hk, if_neg (by rw [hn]; exact hk)]
  rw [if_pos hk, if_pos (by rw [hn]; exact hk)]
  have hlt := index_lt c hk
  rw [← hs k hk] at hlt
  beta_reduce
  dsimp only
  by_cases h1 : v.shape k = 1
  · rw [if_pos h1]; omega
  · rw [if_neg h1]
    have e : (⟨v, 0, 0, pr.d, [], []⟩ : Tensor ℝ).n = pr.n := by show v.ndim - 0 - 0 - pr.d = pr.n; omega
    unfold Tensor.flat flat Problem.index Problem.at
    dsimp only
    rw [e]
    simp only [Nat.not_lt_zero, if_false, Nat.sub_zero, Nat.add_zero, Nat.zero_add]
    split_ifs with c1 c2 <;> simp_all

end

/-! ## labels and cells -/

section
variable {L : Type} [LinearOrder L]

theorem labelsAt_of : ∀ {axis : List (List L)} {f : Nat → Nat} {labels : List L}, labels.length = axis.length →
    (∀ (k : Nat) a x, axis[k]? = some a → labels[k]? = some x → a[f k]? = some x) → LabelsAt axis ((List.range axis.length).map f) labels
  | [], f, [], _, _ => .nil
  | a :: axis, f, x :: labels, hl, h => by
    rw [List.length_cons, List.range_succ_eq_map, List.map_cons, List.map_map]
    exact .cons (h 0 a x rfl rfl) (labelsAt_of (f := f ∘ Nat.succ) (by simpa using hl) fun k a x ha hx => h (k + 1) a x ha hx)
  | [], f, _ :: _, hl, _ => by simp at hl
  | _ :: _, f, [], hl, _ => by simp at hl

theorem labelsAt_get : ∀ {axis : List (List L)} {idx : List Nat} {labels : List L}, LabelsAt axis idx labels → labels.length = axis.length ∧
    ∀ (k : Nat) a i, axis[k]? = some a → idx[k]? = some i → ∃ x, labels[k]? = some x ∧ a[i]? = some x
  | _, _, _, .nil => ⟨rfl, by simp⟩
  | _, _, _, .cons hi hl => by
    obtain ⟨h1, h2⟩ := labelsAt_get hl
    refine ⟨by simp [h1], fun k a i ha hk => ?_⟩
    cases k with
    | zero =>
      simp only [List.getElem?_cons_zero, Option.some.injEq] at ha hk
      subst ha hk
      exact ⟨_, rfl, hi⟩
    | succ k => exact h2 k a i ha hk

/-- The positions of a cell, as a list. -/
def Problem.indices (pr : Problem) (c : pr.Cell) : List Nat := (List.range (pr.n + pr.d)).map (pr.index c)

/-- The axes of the prepared data are those of the problem. -/
def Problem.HasAxes (pr : Problem) (axis : List (List L)) : Prop := axis.length = pr.n + pr.d ∧ ∀ (k : Nat) a, axis[k]? = some a → pr.S k = a.length

variable {pr : Problem} {axis : List (List L)}

theorem labels_of_cell (h : pr.HasAxes axis) (c : pr.Cell) : ∃ labels, LabelsAt axis (pr.indices c) labels := by
  obtain ⟨h1, h2⟩ := h
  have hk : ∀ k : Fin axis.length, pr.index c k < (axis[k]).length := fun k => by
    show pr.index c k < (axis[(k : Nat)]).length
    rw [← h2 k _ (List.getElem?_eq_getElem k.2)]
    exact index_lt c (by rw [← h1]; exact k.2)
  refine ⟨List.ofFn fun k : Fin axis.length => (axis[k])[pr.index c k]'(hk k), ?_⟩
  unfold Problem.indices
  rw [← h1]
  refine labelsAt_of (by simp) fun k a x ha hx => ?_
  obtain ⟨hlt, rfl⟩ := List.getElem?_eq_some_iff.1 ha
  obtain ⟨hlt', rfl⟩ := List.getElem?_eq_some_iff.1 hx
  rw [List.getElem_ofFn]
  exact List.getElem?_eq_getElem (hk ⟨k, hlt⟩)

theorem cell_of_labels (h : pr.HasAxes axis) {labels : List L} (hl : List.Forall₂ (fun x a => x ∈ a) labels axis) : ∃ c : pr.Cell, LabelsAt axis (pr.indices c) labels := by
  obtain ⟨h1, h2⟩ := h
  have hlen := hl.length_eq
  have hg := List.forall₂_iff_get.1 hl
  have hex : ∀ k, ∃ i, k < pr.n + pr.d → i < pr.S k ∧ ∀ a x, axis[k]? = some a → labels[k]? = some x → a[i]? = some x := by
    intro k
    by_cases hk : k < pr.n + pr.d
    · have hk1 : k < axis.length := by omega
      have hk2 : k < labels.length := by omega
      obtain ⟨i, hi, e⟩ := List.mem_iff_getElem.1 (hg.2 k hk2 hk1)
      refine ⟨i, fun _ => ⟨by rw [h2 k _ (List.getElem?_eq_getElem hk1)]; exact hi, fun a x ha hx => ?_⟩⟩
      obtain ⟨_, rfl⟩ := List.getElem?_eq_some_iff.1 ha
      obtain ⟨_, rfl⟩ := List.getElem?_eq_some_iff.1 hx
      exact List.getElem?_eq_some_iff.2 ⟨hi, e⟩
    · exact ⟨0, fun h => absurd h hk⟩
  choose f hf using hex
  obtain ⟨c, hc⟩ := index_surj (pr := pr) (f := f) fun k hk => (hf k hk).1
  refine ⟨c, ?_⟩
  unfold Problem.indices
  rw [← h1]
  refine labelsAt_of hlen fun k a x ha hx => ?_
  have hk : k < pr.n + pr.d := by rw [← h1]; exact (List.getElem?_eq_some_iff.1 ha).1
  rw [hc k hk]
  exact (hf k hk).2 a x ha hx

theorem cell_unique (h : pr.HasAxes axis) (hnd : ∀ a ∈ axis, a.Nodup) {c c' : pr.Cell} {labels : List L} (hc : LabelsAt axis (pr.indices c) labels)
    (hc' : LabelsAt axis (pr.indices c') labels) : c = c' := by
  refine index_inj fun k hk => ?_
  have hk1 : k < axis.length := by rw [h.1]; exact hk
  have e : ∀ c : pr.Cell, (pr.indices c)[k]? = some (pr.index c k) := fun c => by
    unfold Problem.indices
    rw [List.getElem?_map, List.getElem?_range hk]; rfl
  obtain ⟨x, x1, x2⟩ := (labelsAt_get hc).2 k _ _ (List.getElem?_eq_getElem hk1) (e c)
  obtain ⟨x', y1, y2⟩ := (labelsAt_get hc').2 k _ _ (List.getElem?_eq_getElem hk1) (e c')
  rw [x1] at y1
  cases y1
  obtain ⟨z1, z2⟩ := List.getElem?_eq_some_iff.1 x2
  obtain ⟨w1, w2⟩ := List.getElem?_eq_some_iff.1 y2
  exact (List.Nodup.getElem_inj_iff (hnd _ (List.getElem_mem hk1))).1 (z2.trans w2.symm)

theorem labels_unique {idx : List Nat} : ∀ {axis : List (List L)} {l l' : List L}, LabelsAt axis idx l → LabelsAt axis idx l' → l = l' := by
  intro axis l l' h
  induction h generalizing l' with
  | nil => intro h'; cases h'; rfl
  | cons hi _ ih =>
    intro h'
    cases h' with
    | cons hi' h' =>
      rw [hi] at hi'
      cases hi'
      rw [ih h']

end

/-! ## the prepared arrays -/

section
variable {L : Type} [LinearOrder L] {pr : Problem} {axis : List (List L)}

theorem prepared_array (hax : pr.HasAxes axis) {arr : Arr ℝ} {g : List L → ℝ} (h1 : arr.shape = axis.map List.length)
    (h2 : ∀ idx labels, LabelsAt axis idx labels → arr.data[Prep.ravel arr.shape idx]? = some (g labels)) :
    pr.IsData (.tensor ⟨arr.ndarray, 0, 0, pr.d, [], []⟩) ∧
      ∀ c labels, LabelsAt axis (pr.indices c) labels → pr.val (.tensor ⟨arr.ndarray, 0, 0, pr.d, [], []⟩) c = g labels := by
  have hlen : arr.shape.length = pr.n + pr.d := by rw [h1, List.length_map]; exact hax.1
  have hs : ∀ k < pr.n + pr.d, arr.ndarray.shape k = pr.S k := by
    intro k hk
    have hk1 : k < axis.length := by rw [hax.1]; exact hk
    show arr.shape.getD k 1 = _
    rw [h1, hax.2 k _ (List.getElem?_eq_getElem hk1), List.getD_eq_getElem?_getD, List.getElem?_map, List.getElem?_eq_getElem hk1]
    rfl
  refine ⟨array_isData hlen hs, fun c labels hl => ?_⟩
  rw [array_val hlen hs]
  show arr.data.getD (Prep.ravel arr.shape ((List.range arr.shape.length).map _)) 0 = _
  have : ((List.range arr.shape.length).map fun k => if k < pr.n + pr.d then pr.index c k else 0) = pr.indices c := by
    unfold Problem.indices
    rw [hlen]
    exact List.map_congr_left fun k hk => if_pos (List.mem_range.1 hk)
  rw [this, List.getD_eq_getElem?_getD, h2 _ _ hl]
  rfl

theorem kwargName_inj {s t : String} (h : kwargName s = kwargName t) : s = t := by
  unfold kwargName at h
  split_ifs at h <;> simp_all

theorem kwargs_last : ∀ {res : List (String × Arr ℝ)} (_ : (res.map Prod.fst).Nodup) {name : String} {arr : Arr ℝ} (_ : res.lookup name = some arr),
    (((kwargsOf res).filterMap fun x => if x.1 = kwargName name then some x.2 else none).getLast?) = some arr.ndarray
  | [], _, name, arr, h => by simp at h
  | (n, a) :: res, hnd, name, arr, h => by
    rw [List.map_cons, List.nodup_cons] at hnd
    unfold kwargsOf
    rw [List.map_cons]
    by_cases c : name = n
    · subst c
      rw [List.lookup_cons_self] at h
      cases h
      rw [List.filterMap_cons_some (b := a.ndarray) (by simp)]
      have : ((res.map fun x => (kwargName x.1, x.2.ndarray)).filterMap fun x => if x.1 = kwargName name then some x.2 else none) = [] := by
        rw [List.filterMap_eq_nil_iff]
        intro x hx
        obtain ⟨y, hy, rfl⟩ := List.mem_map.1 hx
        have : kwargName y.1 ≠ kwargName name := fun e => hnd.1 (List.mem_map.2 ⟨y, hy, kwargName_inj e⟩)
        simp [this]
      rw [this]
      rfl
    · rw [List.filterMap_cons_none (by simp; exact fun e => c (kwargName_inj e).symm)]
      rw [List.lookup_cons, show (name == n) = false by simpa using c] at h
      exact kwargs_last hnd.2 h

theorem lastData_kwargs {ops : List SessionOp} {a : FitArgs} {res : List (String × Arr ℝ)} (ha : a.kwargs = kwargsOf res) (hnd : (res.map Prod.fst).Nodup) {name : String}
    {arr : Arr ℝ} (h : res.lookup name = some arr) : lastData (ops ++ [.fit a]) (kwargName name) = some arr.ndarray := by
  rw [lastData_fit, ha, kwargs_last hnd h]
  rfl

/-- The cell of an observation. -/
theorem exists_cell (hpr : pr.Ok) (hax : pr.HasAxes axis) (hnd : ∀ a ∈ axis, a.Nodup) (keys : List (List L))
    (hk : ∀ l ∈ keys, List.Forall₂ (fun x a => x ∈ a) l axis) :
    ∃ cell : List L → pr.Cell, (∀ l ∈ keys, LabelsAt axis (pr.indices (cell l)) l) ∧
      ∀ c labels, LabelsAt axis (pr.indices c) labels → ∀ l ∈ keys, cell l = c ↔ l = labels := by
  have hex : ∀ l, ∃ c : pr.Cell, l ∈ keys → LabelsAt axis (pr.indices c) l := by
    intro l
    by_cases h : l ∈ keys
    · obtain ⟨c, hc⟩ := cell_of_labels hax (hk l h)
      exact ⟨c, fun _ => hc⟩
    · exact ⟨(fun k => ⟨0, Nat.pos_of_ne_zero (hpr.2 k (by have := k.2; omega))⟩, fun k => ⟨0, Nat.pos_of_ne_zero (hpr.2 _ (by have := k.2; omega))⟩), fun h' => absurd h' h⟩
  choose cell hcell using hex
  refine ⟨cell, hcell, fun c labels hl l hlk => ⟨fun e => ?_, fun e => ?_⟩⟩
  · subst e
    exact labels_unique (hcell l hlk) hl
  · subst e
    exact cell_unique hax hnd (hcell l hlk) hl

theorem observations_cell {V : Type} {rows : List (List L × V)} {cell : List L → pr.Cell} {c : pr.Cell} {labels : List L}
    (h : ∀ l ∈ rows.map Prod.fst, cell l = c ↔ l = labels) (g : V → ℝ) :
    ((observationsAt rows labels).map g).sum = cellSum rows (fun r => cell r.1) (fun r => g r.2) c := by
  unfold observationsAt cellSum
  rw [List.map_map]
  congr 2
  refine List.filter_congr fun r hr => ?_
  exact decide_eq_decide.2 (h r.1 (List.mem_map.2 ⟨r, hr, rfl⟩)).symm

end

section
variable {pr : Problem} {m : Nat} {dom : Theta → Prop} {gs : List Con} {φs : List Pen} {ρ : Type}

theorem Admits.ok {k : Kind} {v : ℕ} (h : k.Admits v) : k.Ok := by
  cases k <;> first | trivial | exact h | exact le_of_lt h

/-- **C75.** The fit of a session whose data are sums over observations: it maximises the probability of the observations. -/
theorem C75_observations (hpr : pr.Ok) (k : Kind) (hd : pr.d = k.axes) (ops : List SessionOp) (x : Name → NDArray ℝ)
    (hx : ∀ n ∈ k.reads, lastData ops n = some (x n) ∧ pr.IsData (.tensor ⟨x n, 0, 0, pr.d, [], []⟩))
    {f : TFunc ℝ} (hmod : lastModel ops = some f) {st : Store} {val : Val} (hm : 0 < m) {outcomes : Nat → Prop} (hf : Computes pr (cOrder pr m) outcomes st dom f val)
    (hout : k.SumsOutcomes → ∀ q, pr.n ≤ q → outcomes q)
    (hone : f.gradOne = false) (ht : st.tot) (hu : ∀ p < m, st.used p) (hc : k.SumsOutcomes → st.clean)
    (hpos : k.IsProbability → ∀ θ, dom θ → ∀ n d, pr.Pos n d → 0 < val θ n d)
    (hcs : List.Forall₂ (fun t g => IsConstraint (cOrder pr m) t g.val g.der) (constraintsOf ops) gs)
    (hrs : List.Forall₂ (fun t φ => IsPenalty (cOrder pr m) t φ.val φ.der φ.hes) (regularizationsOf ops) φs)
    (rows : List ρ) (pos : ρ → pr.Cell) (w : ρ → ℝ) (v : ρ → ℕ) (hv : ∀ r ∈ rows, k.Admits (v r)) (hne : (rows.map w).sum ≠ 0)
    (hX : .X ∈ k.reads → ∀ c, pr.val (.tensor ⟨x .X, 0, 0, pr.d, [], []⟩) c = cellSum rows pos (fun r => w r * v r) c)
    (hN : ∀ c, pr.val (.tensor ⟨x .N, 0, 0, pr.d, [], []⟩) c = cellSum rows pos w c)
    (hZ : .Z ∈ k.reads → ∀ c, pr.val (.tensor ⟨x .Z, 0, 0, pr.d, [], []⟩) c = cellSum rows pos (fun r => if v r = 0 then w r else 0) c) :
    ∃ K : ℝ, Solver pr m dom (problemOf k ops) (fun θ => (rows.map fun r => w r * k.logProb (valCell pr val θ) (pos r) (v r)).sum + K) gs φs (rows.map w).sum := by
  have hk : k.Ok := by
    cases rows with
    | nil => simp at hne
    | cons r rows => exact Admits.ok (hv r (List.mem_cons_self ..))
  have hT : ∑ c, pr.val (.tensor ⟨x .N, 0, 0, pr.d, [], []⟩) c = (rows.map w).sum := by
    have := sum_cellSum pos w (fun _ => 1) rows
    simp only [mul_one] at this
    rw [← this]
    exact Finset.sum_congr rfl fun c _ => hN c
  obtain ⟨K, hK⟩ := C75_aggregate k rows pos w v hv (fun n => pr.val (.tensor ⟨x n, 0, 0, pr.d, [], []⟩)) hX hN hZ
  refine ⟨K, ?_⟩
  have := C74_problem (dom := dom) hpr k hk ops x (by rw [← hd]; exact hx) hmod hm hf hout hone ht hu hc hpos (by rw [← hd, hT]; exact hne) hcs hrs
  rw [← hd, hT] at this
  refine (congrArg (fun L => Solver pr m dom (problemOf k ops) L gs φs (rows.map w).sum) (funext fun θ => ?_)).mp this
  exact hK _

end

section
variable {L : Type} [LinearOrder L] {pr : Problem} {m : Nat} {dom : Theta → Prop} {gs : List Con} {φs : List Pen}

theorem series_shape {obs : Series L ℝ} {ts : List (String × (List ℝ → Option ℝ))} {addAxis : String → Option (List L)} {res : List (String × Arr ℝ)} {axis : List (List L)}
    (hw : WellFormed obs.levels obs.names (obs.rows.map Prod.fst)) (h : prepareSeries obs ts addAxis = .ok (res, axis)) :
    res.map Prod.fst = ts.map Prod.fst ∧ (∀ a ∈ axis, a.Nodup) ∧ ∀ l ∈ obs.rows.map Prod.fst, List.Forall₂ (fun x a => x ∈ a) l axis := by
  unfold prepareSeries at h
  split_ifs at h
  simp only [Except.ok.injEq, Prod.mk.injEq] at h
  obtain ⟨rfl, rfl⟩ := h
  exact ⟨by rw [List.map_map]; rfl, buildAxis_nodup hw.2.1, fun l hl => mem_fromProduct.1 (keys_in_product hw.1 (hw.2.2 l hl))⟩

theorem cellSpec_zeros (vals : List ℝ) : cellSpec npZeros vals = (vals.map fun v => if v = 0 then (1 : ℝ) else 0).sum := by
  have : ∀ l : List ℝ, (npZeros l).getD 0 = (l.map fun v => if v = 0 then (1 : ℝ) else 0).sum := by
    intro l
    induction l with
    | nil => simp [npZeros]
    | cons v l ih =>
      simp only [npZeros, Option.getD_some] at ih ⊢
      rw [List.map_cons, List.sum_cons, ← ih, List.filter_cons]
      by_cases c : v = 0
      · simp [c]; ring
      · simp [c]
  cases vals with
  | nil => rfl
  | cons v l => exact this (v :: l)

/-- **C75.** From a series of counts to the fit, as in the tests: `kwargs, axis = prepare_series(g, {'N': np.size, 'X': np.sum, ...})`, `mle.fit(**kwargs)`.  The fit
maximises the product of the probabilities of the observations: the logarithm of the objective (without penalties) is the sum over the observations of the log-probability of
the observation at the value of the model in the cell with its labels, plus a constant.  (`Solver` is the hypothesis of C68-C71; the weight is the number of observations.) -/
theorem C75_series (hpr : pr.Ok) (k : Kind) (hd : pr.d = k.axes) {counts : List (List L × ℕ)} {obs : Series L ℝ} (hrows : obs.rows = counts.map fun r => (r.1, (r.2 : ℝ)))
    (hw : WellFormed obs.levels obs.names (obs.rows.map Prod.fst)) {ts : List (String × (List ℝ → Option ℝ))} (hts : (ts.map Prod.fst).Nodup)
    (tN : ("N", npSize) ∈ ts) (tX : .X ∈ k.reads → ("X", npSum) ∈ ts) (tZ : .Z ∈ k.reads → ("Z", npZeros) ∈ ts)
    {addAxis : String → Option (List L)} {res : List (String × Arr ℝ)} {axis : List (List L)} (h : prepareSeries obs ts addAxis = .ok (res, axis)) (hax : pr.HasAxes axis)
    (hv : ∀ r ∈ counts, k.Admits r.2) (hne : counts ≠ [])
    {ops : List SessionOp} {a : FitArgs} (ha : a.kwargs = kwargsOf res) {f : TFunc ℝ} (hmod : lastModel ops = some f) {st : Store} {val : Val} (hm : 0 < m)
    {outcomes : Nat → Prop} (hf : Computes pr (cOrder pr m) outcomes st dom f val) (hout : k.SumsOutcomes → ∀ q, pr.n ≤ q → outcomes q) (hone : f.gradOne = false) (ht : st.tot) (hu : ∀ p < m, st.used p) (hc : k.SumsOutcomes → st.clean)
    (hpos : k.IsProbability → ∀ θ, dom θ → ∀ n d, pr.Pos n d → 0 < val θ n d)
    (hcs : List.Forall₂ (fun t g => IsConstraint (cOrder pr m) t g.val g.der) (constraintsOf ops) gs)
    (hrs : List.Forall₂ (fun t φ => IsPenalty (cOrder pr m) t φ.val φ.der φ.hes) (regularizationsOf ops) φs) :
    ∃ (cell : List L → pr.Cell) (K : ℝ), (∀ r ∈ counts, LabelsAt axis (pr.indices (cell r.1)) r.1) ∧
      Solver pr m dom (problemOf k (ops ++ [.fit a])) (fun θ => (counts.map fun r => k.logProb (valCell pr val θ) (cell r.1) r.2).sum + K) gs φs counts.length := by
  obtain ⟨s1, s2, s3⟩ := series_shape hw h
  have hnd : (res.map Prod.fst).Nodup := by rw [s1]; exact hts
  obtain ⟨cell, c1, c2⟩ := exists_cell hpr hax s2 _ s3
  have hkeys : ∀ {P : List L → Prop}, (∀ l ∈ obs.rows.map Prod.fst, P l) → ∀ r ∈ counts, P r.1 := by
    intro P hP r hr
    exact hP r.1 (by rw [hrows, List.map_map]; exact List.mem_map.2 ⟨r, hr, rfl⟩)
  have hsum : ∀ (g : ℝ → ℝ) c, cellSum obs.rows (fun r => cell r.1) (fun r => g r.2) c = cellSum counts (fun r => cell r.1) (fun r => g r.2) c := by
    intro g c
    unfold cellSum
    rw [hrows, List.filter_map, List.map_map]
    rfl
  have arr : ∀ {name : String} {g : List ℝ → Option ℝ} {e : ℝ → ℝ}, (name, g) ∈ ts → (∀ vals, cellSpec g vals = (vals.map e).sum) →
      ∃ v : NDArray ℝ, lastData (ops ++ [.fit a]) (kwargName name) = some v ∧ pr.IsData (.tensor ⟨v, 0, 0, pr.d, [], []⟩) ∧
        ∀ c, pr.val (.tensor ⟨v, 0, 0, pr.d, [], []⟩) c = cellSum counts (fun r => cell r.1) (fun r => e r.2) c := by
    intro name g e hg he
    obtain ⟨ar, a1, a2, -, a4⟩ := C45_cells hts h hg
    obtain ⟨b1, b2⟩ := prepared_array (pr := pr) hax a2 a4
    refine ⟨ar.ndarray, lastData_kwargs ha hnd a1, b1, fun c => ?_⟩
    obtain ⟨labels, hl⟩ := labels_of_cell hax c
    rw [b2 c labels hl, he, observations_cell (c2 c labels hl), hsum]
  obtain ⟨vN, n1, n2, n3⟩ := arr (e := fun _ => 1) tN cellSpec_size
  have hX : ∃ vX : NDArray ℝ, .X ∈ k.reads → lastData (ops ++ [.fit a]) .X = some vX ∧ pr.IsData (.tensor ⟨vX, 0, 0, pr.d, [], []⟩) ∧
        ∀ c, pr.val (.tensor ⟨vX, 0, 0, pr.d, [], []⟩) c = cellSum counts (fun r => cell r.1) (fun r => r.2) c := by
    by_cases hr : .X ∈ k.reads
    · obtain ⟨v, hv⟩ := arr (e := fun v => v) (tX hr) fun vals => by rw [cellSpec_sum, List.map_id']
      exact ⟨v, fun _ => hv⟩
    · exact ⟨vN, fun h => absurd h hr⟩
  have hZ : ∃ vZ : NDArray ℝ, .Z ∈ k.reads → lastData (ops ++ [.fit a]) .Z = some vZ ∧ pr.IsData (.tensor ⟨vZ, 0, 0, pr.d, [], []⟩) ∧
        ∀ c, pr.val (.tensor ⟨vZ, 0, 0, pr.d, [], []⟩) c = cellSum counts (fun r => cell r.1) (fun r => if (r.2 : ℝ) = 0 then 1 else 0) c := by
    by_cases hr : .Z ∈ k.reads
    · obtain ⟨v, hv⟩ := arr (e := fun v => if v = 0 then 1 else 0) (tZ hr) cellSpec_zeros
      exact ⟨v, fun _ => hv⟩
    · exact ⟨vN, fun h => absurd h hr⟩
  obtain ⟨vX, hX⟩ := hX
  obtain ⟨vZ, hZ⟩ := hZ
  obtain ⟨K, hK⟩ := C75_observations (dom := dom) (gs := gs) (φs := φs) hpr k hd (ops ++ [.fit a])
    (fun n => match n with | .X => vX | .N => vN | .Z => vZ | .other _ => vN)
    (by
      intro n hn
      cases n with
      | X => exact ⟨(hX hn).1, (hX hn).2.1⟩
      | N => exact ⟨n1, n2⟩
      | Z => exact ⟨(hZ hn).1, (hZ hn).2.1⟩
      | other s => cases k <;> simp [Kind.reads] at hn)
    (f := f) (by rw [show lastModel (ops ++ [.fit a]) = lastModel ops by simp [lastModel]]; exact hmod) hm hf hout hone ht hu hc hpos
    (by rw [show constraintsOf (ops ++ [.fit a]) = constraintsOf ops by simp [constraintsOf]]; exact hcs)
    (by rw [show regularizationsOf (ops ++ [.fit a]) = regularizationsOf ops by simp [regularizationsOf]]; exact hrs)
    counts (fun r => cell r.1) (fun _ => 1) (fun r => r.2) hv (by simpa using hne)
    (fun hr c => by simpa using (hX hr).2.2 c) n3 (fun hr c => by simpa using (hZ hr).2.2 c)
  refine ⟨cell, K, hkeys c1, ?_⟩
  simpa using hK

/-- **C75.** Occurrences given with their numbers (or weights), for the classes of finitely many outcomes: `prepare_series(n)` with the default transformations, or
`{'N': np.sum}`.  The labels of a row are its features and its outcome. -/
theorem C75_weighted_series (hpr : pr.Ok) (k : Kind) (hk : k.IsProbability) (hd : pr.d = k.axes) {obs : Series L ℝ}
    (hw : WellFormed obs.levels obs.names (obs.rows.map Prod.fst)) {ts : List (String × (List ℝ → Option ℝ))} (hts : (ts.map Prod.fst).Nodup)
    (tN : ("N", npSum) ∈ ts) {addAxis : String → Option (List L)} {res : List (String × Arr ℝ)} {axis : List (List L)} (h : prepareSeries obs ts addAxis = .ok (res, axis))
    (hax : pr.HasAxes axis) (hne : (obs.rows.map Prod.snd).sum ≠ 0)
    {ops : List SessionOp} {a : FitArgs} (ha : a.kwargs = kwargsOf res) {f : TFunc ℝ} (hmod : lastModel ops = some f) {st : Store} {val : Val} (hm : 0 < m)
    (hf : Computes pr (cOrder pr m) (fun _ => True) st dom f val) (hone : f.gradOne = false) (ht : st.tot) (hu : ∀ p < m, st.used p) (hc : st.clean)
    (hpos : ∀ θ, dom θ → ∀ n d, pr.Pos n d → 0 < val θ n d)
    (hcs : List.Forall₂ (fun t g => IsConstraint (cOrder pr m) t g.val g.der) (constraintsOf ops) gs)
    (hrs : List.Forall₂ (fun t φ => IsPenalty (cOrder pr m) t φ.val φ.der φ.hes) (regularizationsOf ops) φs) :
    ∃ (cell : List L → pr.Cell) (K : ℝ), (∀ r ∈ obs.rows, LabelsAt axis (pr.indices (cell r.1)) r.1) ∧
      Solver pr m dom (problemOf k (ops ++ [.fit a])) (fun θ => (obs.rows.map fun r => r.2 * k.logProb (valCell pr val θ) (cell r.1) 0).sum + K) gs φs
        (obs.rows.map Prod.snd).sum := by
  obtain ⟨s1, s2, s3⟩ := series_shape hw h
  have hnd : (res.map Prod.fst).Nodup := by rw [s1]; exact hts
  obtain ⟨cell, c1, c2⟩ := exists_cell hpr hax s2 _ s3
  obtain ⟨ar, a1, a2, -, a4⟩ := C45_cells hts h tN
  obtain ⟨b1, b2⟩ := prepared_array (pr := pr) hax a2 a4
  have hreads : ∀ n ∈ k.reads, n = .N := by
    intro n hn
    cases k <;> simp_all [Kind.reads, Kind.IsProbability]
  obtain ⟨K, hK⟩ := C75_observations (dom := dom) (gs := gs) (φs := φs) hpr k hd (ops ++ [.fit a]) (fun _ => ar.ndarray)
    (fun n hn => by rw [hreads n hn]; exact ⟨lastData_kwargs ha hnd a1, b1⟩)
    (f := f) (by rw [show lastModel (ops ++ [.fit a]) = lastModel ops by simp [lastModel]]; exact hmod) hm hf (fun _ _ _ => trivial) hone ht hu (fun _ => hc) (fun _ => hpos)
    (by rw [show constraintsOf (ops ++ [.fit a]) = constraintsOf ops by simp [constraintsOf]]; exact hcs)
    (by rw [show regularizationsOf (ops ++ [.fit a]) = regularizationsOf ops by simp [regularizationsOf]]; exact hrs)
    obs.rows (fun r => cell r.1) (fun r => r.2) (fun _ => 0) (fun r _ => by cases k <;> simp_all [Kind.Admits, Kind.IsProbability]) hne
    (fun hr => by have := hreads _ hr; cases this)
    (fun c => by
      obtain ⟨labels, hl⟩ := labels_of_cell hax c
      rw [b2 c labels hl, cellSpec_sum, ← observations_cell (c2 c labels hl) fun v => v, List.map_id'])
    (fun hr => by have := hreads _ hr; cases this)
  exact ⟨cell, K, fun r hr => c1 r.1 (List.mem_map.2 ⟨r, hr, rfl⟩), hK⟩

theorem frame_shape {df : Frame L ℝ} {ts : List (String × (List ℝ → Option ℝ))} {addAxis : String → Option (List L)} {res : List (String × Arr ℝ)} {axis : List (List L)}
    (hw : WellFormed df.levels df.names (df.rows.map Prod.fst)) (hN : "N" ∉ ts.map Prod.fst) (hts : (ts.map Prod.fst).Nodup) (h : prepareDataframe df ts addAxis = .ok (res, axis)) :
    (res.map Prod.fst).Nodup ∧ (∀ a ∈ axis, a.Nodup) ∧ ∀ l ∈ df.rows.map Prod.fst, List.Forall₂ (fun x a => x ∈ a) l axis := by
  unfold prepareDataframe at h
  split_ifs at h
  simp only [Except.ok.injEq, Prod.mk.injEq] at h
  obtain ⟨rfl, rfl⟩ := h
  refine ⟨?_, buildAxis_nodup hw.2.1, fun l hl => mem_fromProduct.1 (keys_in_product hw.1 (hw.2.2 l hl))⟩
  unfold dictSet
  rw [if_neg (by
    rw [List.any_map]
    simp only [List.any_eq_true, Function.comp, decide_eq_true_eq, not_exists, not_and]
    intro x hx e
    exact hN (List.mem_map.2 ⟨x, hx, e⟩)), List.map_append, List.map_map]
  rw [List.nodup_append]
  refine ⟨hts, by simp, ?_⟩
  intro x hx y hy e
  simp only [List.map_cons, List.map_nil, List.mem_singleton] at hy
  subst hy
  subst e
  exact hN hx

/-- **C75.** Observations with weights: `kwargs, axis = prepare_dataframe(df, w, v, {'X': np.sum})`, `mle.fit(**kwargs)`, for the classes that do not read `Z`. -/
theorem C75_dataframe (hpr : pr.Ok) (k : Kind) (hd : pr.d = k.axes) (hZ : .Z ∉ k.reads) {rows : List (List L × ℝ × ℕ)} {df : Frame L ℝ}
    (hrows : df.rows = rows.map fun r => (r.1, r.2.1, (r.2.2 : ℝ)))
    (hw : WellFormed df.levels df.names (df.rows.map Prod.fst)) {ts : List (String × (List ℝ → Option ℝ))} (hts : (ts.map Prod.fst).Nodup)
    (hN : "N" ∉ ts.map Prod.fst) (tX : .X ∈ k.reads → ("X", npSum) ∈ ts)
    {addAxis : String → Option (List L)} {res : List (String × Arr ℝ)} {axis : List (List L)} (h : prepareDataframe df ts addAxis = .ok (res, axis)) (hax : pr.HasAxes axis)
    (hv : ∀ r ∈ rows, k.Admits r.2.2) (hne : (rows.map fun r => r.2.1).sum ≠ 0)
    {ops : List SessionOp} {a : FitArgs} (ha : a.kwargs = kwargsOf res) {f : TFunc ℝ} (hmod : lastModel ops = some f) {st : Store} {val : Val} (hm : 0 < m)
    {outcomes : Nat → Prop} (hf : Computes pr (cOrder pr m) outcomes st dom f val) (hout : k.SumsOutcomes → ∀ q, pr.n ≤ q → outcomes q) (hone : f.gradOne = false) (ht : st.tot) (hu : ∀ p < m, st.used p) (hc : k.SumsOutcomes → st.clean)
    (hpos : k.IsProbability → ∀ θ, dom θ → ∀ n d, pr.Pos n d → 0 < val θ n d)
    (hcs : List.Forall₂ (fun t g => IsConstraint (cOrder pr m) t g.val g.der) (constraintsOf ops) gs)
    (hrs : List.Forall₂ (fun t φ => IsPenalty (cOrder pr m) t φ.val φ.der φ.hes) (regularizationsOf ops) φs) :
    ∃ (cell : List L → pr.Cell) (K : ℝ), (∀ r ∈ rows, LabelsAt axis (pr.indices (cell r.1)) r.1) ∧
      Solver pr m dom (problemOf k (ops ++ [.fit a])) (fun θ => (rows.map fun r => r.2.1 * k.logProb (valCell pr val θ) (cell r.1) r.2.2).sum + K) gs φs
        (rows.map fun r => r.2.1).sum := by
  obtain ⟨hnd, s2, s3⟩ := frame_shape hw hN hts h
  obtain ⟨cell, c1, c2⟩ := exists_cell hpr hax s2 _ s3
  obtain ⟨⟨aN, n1, n2, -, n4, -⟩, h2, -⟩ := C46_cells_partial hw hts h
  obtain ⟨b1, b2⟩ := prepared_array (pr := pr) hax n2 n4
  have hkeys : ∀ {V : Type} (g : List L × ℝ × ℝ → V) (l : List L), l ∈ (df.rows.map fun r => (r.1, g r)).map Prod.fst ↔ l ∈ df.rows.map Prod.fst := by
    intro V g l
    rw [List.map_map]; rfl
  have hsum : ∀ (g : ℝ × ℝ → ℝ) c labels, LabelsAt axis (pr.indices c) labels → (observationsAt (df.rows.map fun r => (r.1, g r.2)) labels).sum =
      cellSum rows (fun r => cell r.1) (fun r => g (r.2.1, r.2.2)) c := by
    intro g c labels hl
    have := observations_cell (rows := df.rows.map fun r => (r.1, g r.2)) (cell := cell) (c := c) (labels := labels)
      (fun l hl' => c2 c labels hl l ((hkeys (fun r => g r.2) l).1 hl')) fun v => v
    rw [List.map_id'] at this
    rw [this]
    unfold cellSum
    rw [hrows, List.map_map, List.filter_map, List.map_map]
    rfl
  have hX : ∃ vX : NDArray ℝ, .X ∈ k.reads → lastData (ops ++ [.fit a]) .X = some vX ∧ pr.IsData (.tensor ⟨vX, 0, 0, pr.d, [], []⟩) ∧
        ∀ c, pr.val (.tensor ⟨vX, 0, 0, pr.d, [], []⟩) c = cellSum rows (fun r => cell r.1) (fun r => r.2.1 * r.2.2) c := by
    by_cases hr : .X ∈ k.reads
    · obtain ⟨ar, a1, a2, -, a4⟩ := h2 "X" npSum (tX hr) (by decide)
      obtain ⟨d1, d2⟩ := prepared_array (pr := pr) hax a2 a4
      refine ⟨ar.ndarray, fun _ => ⟨lastData_kwargs ha hnd a1, d1, fun c => ?_⟩⟩
      obtain ⟨labels, hl⟩ := labels_of_cell hax c
      rw [d2 c labels hl, cellSpec_sum, hsum (fun z => z.2 * z.1) c labels hl]
      unfold cellSum
      congr 2
      funext r
      exact mul_comm _ _
    · exact ⟨aN.ndarray, fun h => absurd h hr⟩
  obtain ⟨vX, hX⟩ := hX
  obtain ⟨K, hK⟩ := C75_observations (dom := dom) (gs := gs) (φs := φs) hpr k hd (ops ++ [.fit a])
    (fun n => match n with | .X => vX | _ => aN.ndarray)
    (by
      intro n hn
      cases n with
      | X => exact ⟨(hX hn).1, (hX hn).2.1⟩
      | N => exact ⟨lastData_kwargs ha hnd n1, b1⟩
      | Z => exact absurd hn hZ
      | other s => cases k <;> simp [Kind.reads] at hn)
    (f := f) (by rw [show lastModel (ops ++ [.fit a]) = lastModel ops by simp [lastModel]]; exact hmod) hm hf hout hone ht hu hc hpos
    (by rw [show constraintsOf (ops ++ [.fit a]) = constraintsOf ops by simp [constraintsOf]]; exact hcs)
    (by rw [show regularizationsOf (ops ++ [.fit a]) = regularizationsOf ops by simp [regularizationsOf]]; exact hrs)
    rows (fun r => cell r.1) (fun r => r.2.1) (fun r => r.2.2) hv hne
    (fun hr c => (hX hr).2.2 c)
    (fun c => by
      obtain ⟨labels, hl⟩ := labels_of_cell hax c
      rw [b2 c labels hl, hsum (fun z => z.1) c labels hl])
    (fun hr => absurd hr hZ)
  exact ⟨cell, K, fun r hr => c1 r.1 (by rw [hrows, List.map_map]; exact List.mem_map.2 ⟨r, hr, rfl⟩), hK⟩

/-- `ml = Poisson()`, `ml.model = Sum(2).add(X(), 0, 0).add(X(), 1, 1)`, two parameters, `ml.fit(**kwargs)`. -/
noncomputable def exProgram (s : Nat) (b : List ℝ) (first : FitArgs) (res : List (String × Arr ℝ)) : List SessionOp :=
  [.setModel addModel, .addFree (.array [s] (List.replicate s 0)), .addFree (.array [b.length] b), .fit { first with kwargs := kwargsOf res }]

/-- An instance of the hypotheses and of C75: a series of counts with two index levels, prepared with `{'N': np.size, 'X': np.sum}` and fitted with the log-linear Poisson model
`a[i] + b[j]`.  However many Newton fits follow, returning or raising, the product of the Poisson probabilities of the observations does not decrease. -/
theorem C75_example (depth : Nat) {counts : List (List L × ℕ)} {obs : Series L ℝ} (hrows : obs.rows = counts.map fun r => (r.1, (r.2 : ℝ)))
    (hw : WellFormed obs.levels obs.names (obs.rows.map Prod.fst)) (hne : counts ≠ []) {addAxis : String → Option (List L)} {res : List (String × Arr ℝ)} {A B : List L}
    (h : prepareSeries obs [("N", npSize), ("X", npSum)] addAxis = .ok (res, [A, B])) {b : List ℝ} (hb : b.length = B.length) (first : FitArgs)
    (fits : List FitArgs) (hfits : ∀ a ∈ fits, a.kwargs = [] ∧ a.method = .newton) :
    ∃ (θ θ' : Theta) (i j : List L → Nat), (∀ r ∈ counts, LabelsAt [A, B] [i r.1, j r.1] r.1) ∧
      AtPoint (twoFactor A.length B.length) 2 θ ((Session.run (depth + 2) .poisson (exProgram A.length b first res)).params.getD []) ∧
      AtPoint (twoFactor A.length B.length) 2 θ' ((Session.run (depth + 2) .poisson (exProgram A.length b first res ++ fits.map .fit)).params.getD []) ∧
      (counts.map fun r => Real.log (Real.exp (-Real.exp (θ 0 (i r.1) + θ 1 (j r.1))) * Real.exp (θ 0 (i r.1) + θ 1 (j r.1)) ^ r.2 / r.2.factorial)).sum ≤
        (counts.map fun r => Real.log (Real.exp (-Real.exp (θ' 0 (i r.1) + θ' 1 (j r.1))) * Real.exp (θ' 0 (i r.1) + θ' 1 (j r.1)) ^ r.2 / r.2.factorial)).sum := by
  obtain ⟨-, -, s3⟩ := series_shape hw h
  obtain ⟨r0, l0, rfl⟩ := List.exists_cons_of_ne_nil hne
  have hA : A.length ≠ 0 ∧ B.length ≠ 0 := by
    have := s3 r0.1 (by rw [hrows]; simp)
    obtain ⟨r1, r2⟩ := r0
    cases this with
    | cons h1 h2 =>
      cases h2 with
      | cons h2 _ =>
        exact ⟨fun e => by rw [List.length_eq_zero_iff.1 e] at h1; simp at h1, fun e => by rw [List.length_eq_zero_iff.1 e] at h2; simp at h2⟩
  have hpr : (twoFactor A.length B.length).Ok := ⟨by simp [twoFactor], fun k _ => by simp only [twoFactor]; split_ifs; exacts [hA.1, hA.2]⟩
  have hax : (twoFactor A.length B.length).HasAxes [A, B] := by
    refine ⟨rfl, fun k a ha => ?_⟩
    match k, ha with
    | 0, ha => cases ha; rfl
    | 1, ha => cases ha; rfl
  have hops : ∀ op ∈ exProgram A.length b first res, op.Proper (Kind.axes .poisson) := by
    intro op hop
    simp only [exProgram, List.mem_cons, List.not_mem_nil, or_false] at hop
    rcases hop with rfl | rfl | rfl | rfl
    · trivial
    · simp [SessionOp.Proper, Arg.data]
    · simp [SessionOp.Proper, Arg.data]
    · intro x _; exact Nat.zero_le _
  have hpar : initialParams (exProgram A.length b first res) =
      [⟨[A.length], List.replicate A.length 0, List.replicate A.length false⟩, ⟨[b.length], b, List.replicate b.length false⟩] := by
    simp [initialParams, exProgram, Arg.data]
  have hini : AtPoint (twoFactor A.length B.length) 2 (pointOf (initialParams (exProgram A.length b first res))) (initialParams (exProgram A.length b first res)) := by
    rw [hpar]
    refine ⟨rfl, fun p hp => ?_⟩
    have : p = 0 ∨ p = 1 := by omega
    rcases this with rfl | rfl
    · exact ⟨_, rfl, rfl, by simp, by simp, fun a _ => rfl⟩
    · exact ⟨_, rfl, by rw [hb]; rfl, by simp, by simp, fun a _ => rfl⟩
  obtain ⟨cell, K, c1, hS⟩ := C75_series (dom := fun _ => True) (gs := []) (φs := []) hpr .poisson rfl hrows hw (by decide) (by simp) (fun _ => by simp)
    (fun hz => by simp [Kind.reads] at hz) h hax (fun _ _ => trivial) (by simp)
    (ops := [.setModel addModel, .addFree (.array [A.length] (List.replicate A.length 0)), .addFree (.array [b.length] b)])
    (a := { first with kwargs := kwargsOf res }) rfl (f := addModel) (by simp [lastModel]) (m := 2) (by omega) (add_computes hA.1 hA.2) (fun hp => hp.elim) rfl trivial (fun _ _ => trivial)
    (fun hp => hp.elim) (fun hp => hp.elim) (by simp [constraintsOf]) (by simp [regularizationsOf])
  obtain ⟨-, -, -, -, -, h6, -, h8⟩ := C74_history depth .poisson (exProgram A.length b first res) hops
  have hat := hini.layout h6 h8
  obtain ⟨θ', a1, a2, -⟩ := C74_refits depth .poisson _ hops hini (by rw [hpar]; simp [totalFree]; omega) hS (by simp; positivity) fits hfits hat
  refine ⟨_, θ', fun l => (cell l).1 ⟨0, Nat.two_pos⟩, fun l => (cell l).1 ⟨1, Nat.one_lt_two⟩, c1, hat, a1, ?_⟩
  unfold penalised at a2
  simp only [List.map_nil, List.sum_nil, sub_zero] at a2
  exact le_of_add_le_add_right a2

end

end Verif.Tens
