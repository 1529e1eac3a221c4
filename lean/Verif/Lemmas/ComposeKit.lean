import Verif.Lemmas.Stack
import Verif.Props.FuncSumTensor

/-!
# The sums in `Compose`
-/

set_option linter.unusedSectionVars false

namespace Verif.Tens
open Verif.Params (Err)
open NDArray

section
variable {α : Type} [Field α] [DecidableEq α] {E : Type} [AddCommMonoid E]

/-- Arrays with values can be added: `P v a` says that the array `v` has the values `a`. -/
structure Kit (P : Num α → E → Prop) : Prop where
  add : ∀ {v w : Num α} {a b : E}, P v a → P w b → ∃ r, v.bin w .add = .ok r ∧ P r (a + b)
  zero : ∀ {v : Num α} {a : E}, P v a → ∃ r, (Num.tensor (Tensor.const 0)).bin v .add = .ok r ∧ P r a
  num : ∀ {v : Num α} {a : E}, P v a → v.scalarOp .add 0 = .ok v

/-- A summand: an array or the number 0. -/
def Term (P : Num α → E → Prop) (x : Py α) (b : E) : Prop := (x = .num 0 ∧ b = 0) ∨ ∃ w, x = .arr w ∧ P w b

/-- A sum that starts with `Tensor(0)`; if `p`, with at least one array. -/
def Run (P : Num α → E → Prop) (p : Prop) (x : Py α) (a : E) : Prop :=
  (¬ p ∧ x = zeroT ∧ a = 0) ∨ ∃ w, x = .arr w ∧ P w a

variable {P : Num α → E → Prop}

theorem Run.start : Run P False (zeroT : Py α) 0 := Or.inl ⟨id, rfl, rfl⟩

theorem Run.weak {p : Prop} {x : Py α} {a : E} (h : Run P p x a) : Run P False x a := by
  rcases h with h | h
  · exact Or.inl ⟨id, h.2⟩
  · exact Or.inr h

theorem run_term (hk : Kit P) {p : Prop} {x y : Py α} {a b : E} (h : Run P p x a) (ht : Term P y b) :
    ∃ r, x.add y = .ok r ∧ Run P p r (a + b) := by
  rcases h with ⟨hp, rfl, rfl⟩ | ⟨v, rfl, hv⟩
  · rcases ht with ⟨rfl, rfl⟩ | ⟨w, rfl, hw⟩
    · refine ⟨zeroT, ?_, Or.inl ⟨hp, rfl, by simp⟩⟩
      show (Num.scalarOp (.tensor (Tensor.const 0)) .add (0 : α)).map Py.arr = _
      unfold Num.scalarOp Tensor.binScalar
      simp [zeroT, map_ok]
    · obtain ⟨r, r1, r2⟩ := hk.zero hw
      refine ⟨.arr r, ?_, Or.inr ⟨r, rfl, by rwa [zero_add]⟩⟩
      show (Num.bin _ w .add).map Py.arr = _
      rw [r1]; rfl
  · rcases ht with ⟨rfl, rfl⟩ | ⟨w, rfl, hw⟩
    · refine ⟨.arr v, ?_, Or.inr ⟨v, rfl, by rwa [add_zero]⟩⟩
      show (v.scalarOp .add 0).map Py.arr = _
      rw [hk.num hv]; rfl
    · obtain ⟨r, r1, r2⟩ := hk.add hv hw
      refine ⟨.arr r, ?_, Or.inr ⟨r, rfl, r2⟩⟩
      show (v.bin w .add).map Py.arr = _
      rw [r1]; rfl

theorem run_arr (hk : Kit P) {p : Prop} {x : Py α} {w : Num α} {a b : E} (h : Run P p x a) (ht : P w b) :
    ∃ r, x.add (.arr w) = .ok r ∧ Run P True r (a + b) := by
  rcases h with ⟨hp, rfl, rfl⟩ | ⟨v, rfl, hv⟩
  · obtain ⟨r, r1, r2⟩ := hk.zero ht
    refine ⟨.arr r, ?_, Or.inr ⟨r, rfl, by rwa [zero_add]⟩⟩
    show (Num.bin _ w .add).map Py.arr = _
    rw [r1]; rfl
  · obtain ⟨r, r1, r2⟩ := hk.add hv ht
    refine ⟨.arr r, ?_, Or.inr ⟨r, rfl, r2⟩⟩
    show (v.bin w .add).map Py.arr = _
    rw [r1]; rfl

theorem Run.arr {x : Py α} {a : E} (h : Run P True x a) : ∃ w, x = .arr w ∧ P w a := h.resolve_left fun h => h.1 trivial

/-- A loop over `range(r)` -/
theorem run_loop {f : Py α → Nat → Except Err (Py α)} {b : Nat → E} {p : Prop} {x : Py α} {a : E} (h0 : Run P p x a) :
    ∀ {r : Nat}, (∀ k < r, ∀ y c, ∀ p, Run P p y c → ∃ z, f y k = .ok z ∧ Run P True z (c + b k)) →
      ∃ y, (List.range r).foldlM f x = .ok y ∧ Run P (p ∨ 0 < r) y (a + ∑ k ∈ Finset.range r, b k)
  | 0, _ => ⟨x, rfl, by simpa using h0⟩
  | r + 1, h => by
    obtain ⟨y, y1, y2⟩ := run_loop h0 (r := r) fun k hk => h k (by omega)
    obtain ⟨z, z1, z2⟩ := h r (by omega) y _ _ y2
    refine ⟨z, ?_, ?_⟩
    · rw [List.range_succ, List.foldlM_append, y1]
      show (List.foldlM f y [r]) = _
      rw [List.foldlM_cons, z1]; rfl
    · rw [Finset.sum_range_succ, ← add_assoc]
      rcases z2 with z2 | z2
      · exact absurd trivial z2.1
      · exact Or.inr z2

theorem run_loop_true {f : Py α → Nat → Except Err (Py α)} {b : Nat → E} {p : Prop} {x : Py α} {a : E} (h0 : Run P p x a) {r : Nat}
    (h : ∀ k < r + 1, ∀ y c, ∀ p, Run P p y c → ∃ z, f y k = .ok z ∧ Run P True z (c + b k)) :
    ∃ y, (List.range (r + 1)).foldlM f x = .ok y ∧ Run P True y (a + ∑ k ∈ Finset.range (r + 1), b k) := by
  obtain ⟨y, y1, y2⟩ := run_loop h0 h
  have : (p ∨ 0 < r + 1) = True := by simp
  rw [this] at y2
  exact ⟨y, y1, y2⟩

theorem run_loop_arr {f : Py α → Nat → Except Err (Py α)} {b : Nat → E} {r : Nat}
    (h : ∀ k < r + 1, ∀ y c, ∀ p, Run P p y c → ∃ z, f y k = .ok z ∧ Run P True z (c + b k)) :
    ∃ w, (List.range (r + 1)).foldlM f zeroT = .ok (.arr w) ∧ P w (∑ k ∈ Finset.range (r + 1), b k) := by
  obtain ⟨y, y1, y2⟩ := run_loop_true Run.start h
  rw [zero_add] at y2
  obtain ⟨w, rfl, w2⟩ := y2.arr
  exact ⟨w, y1, w2⟩

theorem ex_bind {β γ : Type} {x : Except Err β} {f : β → Except Err γ} {Q : β → Prop} {R : γ → Prop} (h : ∃ u, x = .ok u ∧ Q u)
    (h2 : ∀ u, Q u → ∃ z, f u = .ok z ∧ R z) : ∃ z, (x >>= f) = .ok z ∧ R z := by
  obtain ⟨u, rfl, hu⟩ := h
  exact h2 u hu

/-- `sum(…)` of arrays -/
theorem kit_pySum (hk : Kit P) {w : Nat → Num α} {b : Nat → E} : ∀ {r : Nat}, (∀ k < r + 1, P (w k) (b k)) →
    ∃ v, pySum (row (r + 1) fun k => .arr (w k)) = .ok (.arr v) ∧ P v (∑ k ∈ Finset.range (r + 1), b k)
  | 0, h => by
    refine ⟨w 0, ?_, by simpa using h 0 (by omega)⟩
    show (Py.add (.num 0) (.arr (w 0)) >>= fun s => pure s) = _
    have : Py.add (.num 0) (.arr (w 0)) = (.ok (.arr (w 0)) : Except Err (Py α)) := by
      show ((w 0).scalarOp .add 0).map Py.arr = _
      rw [hk.num (h 0 (by omega))]; rfl
    rw [this]; rfl
  | r + 1, h => by
    obtain ⟨v, v1, v2⟩ := kit_pySum hk (w := w) (b := b) (r := r) fun k hk => h k (by omega)
    obtain ⟨z, z1, z2⟩ := hk.add v2 (h (r + 1) (by omega))
    refine ⟨z, ?_, by rw [Finset.sum_range_succ]; exact z2⟩
    unfold pySum at v1 ⊢
    rw [foldlM_row_succ, v1, ok_bind2]
    show (v.bin (w (r + 1)) .add).map Py.arr = _
    rw [z1]; rfl

end

/-! ### `Compose` -/

section
variable {α : Type} [Field α] [DecidableEq α] {E E' : Nat → Nat → Type} {r m : Nat} {f : TFunc α} {g : Nat → TFunc α} {ps : List (Tensor α)}
  {V : Py α} {Fg : Nat → Num α} {Fh : Nat → Nat → Num α} {U : Nat → Tensor α} {D : Nat → Nat → Num α} {H : Nat → Nat → Nat → Num α} {dg : Nat → Nat → Num α}

theorem pick_row2 {β : Type} {k l r m : Nat} {h : Nat → Nat → β} (hk : k < r) (hl : l < m) : pick2 (row r fun k => row m (h k)) k l = .ok (h k l) := by
  unfold pick2
  rw [pick_range hk, ok_bind']
  exact pick_range hl

/-- The factor `f.hess(us, k, l)`, of which only the lower triangle is computed. -/
def hessFactor (Fh : Nat → Nat → Num α) (k l : Nat) : Num α := if k < l then (Fh l k).transpose else Fh k l

variable {EG : Nat → Type} {EH : Nat → Nat → Type} [∀ i, AddCommMonoid (EG i)] [∀ i j, AddCommMonoid (EH i j)]
  {Pg : ∀ i, Num α → EG i → Prop} {Ph : ∀ i j, Num α → EH i j → Prop} {ag : ∀ i, Nat → EG i} {ar : ∀ i j, Nat → EH i j} {aq : ∀ i j, Nat → Nat → EH i j}

/-- What is known about the factors. -/
structure Factors (r m : Nat) (Fg : Nat → Num α) (Fh : Nat → Nat → Num α) (D dg : Nat → Nat → Num α) (H : Nat → Nat → Nat → Num α)
    (Pg : ∀ i, Num α → EG i → Prop) (Ph : ∀ i j, Num α → EH i j → Prop) (ag : ∀ i, Nat → EG i) (ar : ∀ i j, Nat → EH i j)
    (aq : ∀ i j, Nat → Nat → EH i j) : Prop where
  kg : ∀ i < m, Kit (Pg i)
  kh : ∀ i < m, ∀ j ≤ i, Kit (Ph i j)
  drop : ∀ k < r, ∀ i < m, (D k i).dropDim = .ok (dg k i)
  left : ∀ k < r, ∀ i < m, ∃ w, (Fg k).dotLeft (dg k i) = .ok w ∧ Pg i w (ag i k)
  right : ∀ k < r, ∀ i < m, ∀ j ≤ i, ∃ b x, (H k i j).dropDim = .ok b ∧ (Fg k).dotRight b = .ok x ∧ Term (Ph i j) x (ar i j k)
  quad : ∀ k < r, ∀ l < r, ∀ i < m, ∀ j ≤ i, ∃ w, Tens.quad (.arr (hessFactor Fh k l)) (dg k i) (dg l j) = .ok (.arr w) ∧ Ph i j w (aq i j k l)

theorem composeEval_ok (hf' : f.hessNull = false) (hF : Factors (r + 1) m Fg Fh D dg H Pg Ph ag ar aq) (hps : ps.length = m)
    (hg : ∀ k < r + 1, (g k).eval ps = .ok ⟨.arr (.tensor (U k)), row m fun i => .arr (D k i), triangle m fun i j => .arr (H k i j)⟩)
    (hfe : f.eval (row (r + 1) U) = .ok ⟨V, row (r + 1) fun k => .arr (Fg k), triangle (r + 1) fun k l => .arr (Fh k l)⟩) :
    ∃ (W : Nat → Num α) (Z : Nat → Nat → Num α), composeEval f (row (r + 1) g) ps = .ok ⟨V, row m fun i => .arr (W i), triangle m fun i j => .arr (Z i j)⟩ ∧
      (∀ i < m, Pg i (W i) (∑ k ∈ Finset.range (r + 1), ag i k)) ∧
      ∀ i < m, ∀ j ≤ i, Ph i j (Z i j) (∑ k ∈ Finset.range (r + 1), (ar i j k + ∑ l ∈ Finset.range (r + 1), aq i j k l)) := by
  have : Inhabited (Num α) := ⟨.tensor (Tensor.const 0)⟩
  have hlen : (row (r + 1) g).length = r + 1 := by simp [row]
  have hne : row (r + 1) g ≠ [] := by
    intro h; rw [h] at hlen; simp at hlen
  have hG : ∀ i < m, ∃ w, evalGradEntry (r + 1) (row (r + 1) fun k => .arr (Fg k)) (row (r + 1) fun k => row m (dg k)) i = .ok (.arr w) ∧
      Pg i w (∑ k ∈ Finset.range (r + 1), ag i k) := by
    intro i hi
    have hl : ∀ k < r + 1, ∃ w, (Fg k).dotLeft (dg k i) = .ok w ∧ Pg i w (ag i k) := fun k hk => hF.left k hk i hi
    choose! w w1 w2 using hl
    obtain ⟨v, v1, v2⟩ := kit_pySum (hF.kg i hi) w2
    refine ⟨v, ?_, v2⟩
    unfold evalGradEntry
    rw [mapM_list (g := fun k => .arr (w k)) fun k hk => ?_, ok_bind']
    · exact v1
    · have hk := List.mem_range.1 hk
      rw [pick_range hk, ok_bind', pick_row2 hk hi, ok_bind']
      show ((Fg k).dotLeft (dg k i)).map Py.arr = _
      rw [w1 k hk]; rfl
  have hH : ∀ i < m, ∀ j ≤ i, ∃ w, evalHessEntry (r + 1) (row (r + 1) fun k => .arr (Fg k)) (triangle (r + 1) fun k l => .arr (Fh k l))
      (row (r + 1) fun k => row m (dg k)) (row (r + 1) fun k => triangle m fun i j => .arr (H k i j)) i j = .ok (.arr w) ∧
      Ph i j w (∑ k ∈ Finset.range (r + 1), (ar i j k + ∑ l ∈ Finset.range (r + 1), aq i j k l)) := by
    intro i hi j hj
    unfold evalHessEntry
    refine run_loop_arr fun k hk y c p hy => ?_
    obtain ⟨b, x, b1, b2, b3⟩ := hF.right k hk i hi j hj
    obtain ⟨z, z1, z2⟩ := run_term (hF.kh i hi j hj) hy b3
    have b1' : Py.dropDim (.arr (H k i j)) = .ok b := b1
    have b2' : Py.dotRight (.arr (Fg k)) b = .ok x := b2
    rw [pick_range hk, ok_bind', pick_range hk, ok_bind', pick2_range hi hj, ok_bind', b1', ok_bind', b2', ok_bind', z1, ok_bind', ← add_assoc]
    refine run_loop_true z2 fun l hl y c p hy => ?_
    obtain ⟨w, w1, w2⟩ := hF.quad k hk l hl i hi j hj
    have hk' := pick_row2 (h := dg) hk hi
    have hl' := pick_row2 (h := dg) hl (show j < m by omega)
    unfold hessFactor at w1
    dsimp only
    by_cases c : k < l
    · rw [if_pos c] at w1
      have e : Py.transpose (.arr (Fh l k)) = .ok (.arr (Fh l k).transpose) := rfl
      rw [if_pos c, pick2_range hl (by omega), ok_bind', e, ok_bind', hk', ok_bind', hl', ok_bind', w1, ok_bind']
      exact run_arr (hF.kh i hi j hj) hy w2
    · rw [if_neg c] at w1
      rw [if_neg c, pick2_range hk (by omega), ok_bind', hk', ok_bind', hl', ok_bind', w1, ok_bind']
      exact run_arr (hF.kh i hi j hj) hy w2
  choose! W W1 W2 using hG
  choose! Z Z1 Z2 using hH
  refine ⟨W, Z, ?_, W2, Z2⟩
  unfold composeEval
  rw [if_neg hne, mapM_row hg, ok_bind', hlen]
  rw [mapM_row (f := fun e : Ev3 α => e.grad.mapM Py.dropDim) (g' := fun k => row m (dg k)) fun k hk => mapM_row (f := Py.dropDim) (g := fun i => .arr (D k i)) (g' := dg k) fun i hi => hF.drop k hk i hi, ok_bind']
  rw [mapM_row (f := fun e : Ev3 α => e.val.param) (g' := U) fun k hk => rfl, ok_bind', hfe, ok_bind', hps]
  dsimp only
  rw [show List.map (fun x : Ev3 α => x.hess) (row (r + 1) fun k => ⟨.arr (.tensor (U k)), row m fun i => .arr (D k i), triangle m fun i j => .arr (H k i j)⟩) =
    row (r + 1) fun k => triangle m fun i j => .arr (H k i j) by unfold row; rw [List.map_map]; rfl]
  rw [mapM_list fun i hi => W1 i (List.mem_range.1 hi), ok_bind']
  rw [mapM_list (g := fun i => row (i + 1) fun j => Py.arr (Z i j)) fun i hi => mapM_list (g := fun j => Py.arr (Z i j)) fun j hj => ?_, ok_bind']
  · rfl
  · have hi := List.mem_range.1 hi
    have hj := List.mem_range.1 hj
    rw [if_neg (by rw [hf']; simp)]
    exact Z1 i hi j (by omega)

theorem composeT_sep (hf : f.gradNull = false) (hf' : f.hessNull = false) (hF : Factors (r + 1) m Fg Fh D dg H Pg Ph ag ar aq)
    (hg : ∀ k < r + 1, (g k).call ps = .ok (.arr (.tensor (U k))) ∧ (∀ i < m, (g k).grad ps i = .ok (.arr (D k i))) ∧
      ∀ i < m, ∀ j ≤ i, (g k).hess ps i j = .ok (.arr (H k i j)))
    (hfe : f.call (row (r + 1) U) = .ok V ∧ (∀ k < r + 1, f.grad (row (r + 1) U) k = .ok (.arr (Fg k))) ∧
      ∀ k < r + 1, ∀ l ≤ k, f.hess (row (r + 1) U) k l = .ok (.arr (Fh k l))) :
    ∃ (W : Nat → Num α) (Z : Nat → Nat → Num α), ((composeT f (row (r + 1) g)).call ps = .ok V ∧ (∀ i < m, (composeT f (row (r + 1) g)).grad ps i = .ok (.arr (W i))) ∧
      ∀ i < m, ∀ j ≤ i, (composeT f (row (r + 1) g)).hess ps i j = .ok (.arr (Z i j))) ∧
      (∀ i < m, Pg i (W i) (∑ k ∈ Finset.range (r + 1), ag i k)) ∧
      ∀ i < m, ∀ j ≤ i, Ph i j (Z i j) (∑ k ∈ Finset.range (r + 1), (∑ l ∈ Finset.range (r + 1), aq i j k l + ar i j k)) := by
  have : Inhabited (Num α) := ⟨.tensor (Tensor.const 0)⟩
  have hlen : (row (r + 1) g).length = r + 1 := by simp [row]
  have hus : composeVal (row (r + 1) g) ps = .ok (row (r + 1) U) := by
    unfold composeVal
    refine mapM_row fun k hk => ?_
    rw [(hg k hk).1]; rfl
  have hd : ∀ i < m, composeGrads (row (r + 1) g) ps i = .ok (row (r + 1) fun k => dg k i) := by
    intro i hi
    unfold composeGrads
    refine mapM_row fun k hk => ?_
    rw [(hg k hk).2.1 i hi]
    exact hF.drop k hk i hi
  have hG : ∀ i < m, ∃ w, composeGrad f (row (r + 1) g) ps i = .ok (.arr w) ∧ Pg i w (∑ k ∈ Finset.range (r + 1), ag i k) := by
    intro i hi
    have hl : ∀ k < r + 1, ∃ w, (Fg k).dotLeft (dg k i) = .ok w ∧ Pg i w (ag i k) := fun k hk => hF.left k hk i hi
    choose! w w1 w2 using hl
    obtain ⟨v, v1, v2⟩ := kit_pySum (hF.kg i hi) w2
    refine ⟨v, ?_, v2⟩
    unfold composeGrad
    rw [hf, hlen]
    simp only [Bool.false_eq_true, if_false]
    rw [hus, ok_bind', mapM_list (g := fun k => .arr (w k)) fun k hk => ?_, ok_bind']
    · exact v1
    · have hk := List.mem_range.1 hk
      rw [pick_range hk, ok_bind', hfe.2.1 k hk, ok_bind', (hg k hk).2.1 i hi, ok_bind']
      show ((D k i).dropDim >>= _) = _
      rw [hF.drop k hk i hi, ok_bind']
      show ((Fg k).dotLeft (dg k i)).map Py.arr = _
      rw [w1 k hk]; rfl
  have hH : ∀ i < m, ∀ j ≤ i, ∃ w, composeHess f (row (r + 1) g) ps i j = .ok (.arr w) ∧
      Ph i j w (∑ k ∈ Finset.range (r + 1), (∑ l ∈ Finset.range (r + 1), aq i j k l + ar i j k)) := by
    intro i hi j hj
    unfold composeHess
    rw [hus, ok_bind', hd i hi, ok_bind', hlen]
    have hdj : ∀ {β : Type} (K : List (Num α) → Except Err β), (if i ≠ j then composeGrads (row (r + 1) g) ps j >>= K else .ok (row (r + 1) fun k => dg k i) >>= K) =
        K (row (r + 1) fun k => dg k j) := by
      intro β K
      by_cases c : i = j
      · subst c; simp [ok_bind']
      · rw [if_pos c, hd j (by omega)]; rfl
    dsimp only
    rw [hdj]
    refine run_loop_arr fun k hk y c p hy => ?_
    rw [← add_assoc]
    refine ex_bind (run_loop_true (b := fun l => aq i j k l) hy fun l hl y c p hy => ?_) fun u hu => ?_
    · obtain ⟨w, w1, w2⟩ := hF.quad k hk l hl i hi j hj
      have hk' : pick (row (r + 1) fun k => dg k i) k = .ok (dg k i) := pick_range hk
      have hl' : pick (row (r + 1) fun k => dg k j) l = .ok (dg l j) := pick_range hl
      unfold hessFactor at w1
      by_cases c : k < l
      · rw [if_pos c] at w1
        have e : Py.transpose (.arr (Fh l k)) = .ok (.arr (Fh l k).transpose) := rfl
        rw [if_pos c, hfe.2.2 l hl k (by omega), ok_bind', e, ok_bind', hk', ok_bind', hl', ok_bind', w1, ok_bind']
        exact run_arr (hF.kh i hi j hj) hy w2
      · rw [if_neg c] at w1
        rw [if_neg c, hfe.2.2 k hk l (by omega), ok_bind', hk', ok_bind', hl', ok_bind', w1, ok_bind']
        exact run_arr (hF.kh i hi j hj) hy w2
    · obtain ⟨b, x, b1, b2, b3⟩ := hF.right k hk i hi j hj
      have b1' : Py.dropDim (.arr (H k i j)) = .ok b := b1
      have b2' : Py.dotRight (.arr (Fg k)) b = .ok x := b2
      rw [hfe.2.1 k hk, ok_bind', pick_range hk, ok_bind', (hg k hk).2.2 i hi j hj, ok_bind', b1', ok_bind', b2', ok_bind']
      exact run_term (hF.kh i hi j hj) hu b3
  choose! W W1 W2 using hG
  choose! Z Z1 Z2 using hH
  refine ⟨W, Z, ⟨?_, W1, ?_⟩, W2, Z2⟩
  · show (composeVal (row (r + 1) g) ps >>= _) = _
    rw [hus, ok_bind']; exact hfe.1
  · intro i hi j hj
    show (if f.gradNull then nullFunc else if f.hessNull then _ else composeHess f (row (r + 1) g) ps i j) = _
    rw [hf, hf']
    exact Z1 i hi j hj

end

end Verif.Tens
