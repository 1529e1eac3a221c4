import Verif.Spec.FuncTensor
import Verif.Lemmas.Stored

/-!
# Functions on Tensors: common lemmas
-/

set_option linter.unusedSectionVars false

namespace Verif.Tens
open Verif.Params (Err)
open NDArray

theorem solid_iff {α : Type} [Field α] [DecidableEq α] {K : Nat → Prop} {L : Layout} {v : Num α} :
    Solid K L v ↔ NumSolid K L v := by
  cases v <;> exact Iff.rfl

theorem Num.Spans.live {α : Type} [Field α] [DecidableEq α] {a : Nat} {v : Num α} (h : v.Spans a) : v.Live := by
  cases v with
  | tensor t => exact h.1
  | generic g => trivial

theorem spans_of {α : Type} [Field α] [DecidableEq α] {L : Layout} {v : Num α} {a : Nat} (h0 : NumPiece L v) (h1 : v.Live) (h2 : v.Clean)
    (h3 : v.Wide a) : v.Spans a := by
  cases v with
  | tensor t => exact ⟨h1, h3.resolve_left h1⟩
  | generic g =>
    obtain ⟨e, he⟩ := List.exists_mem_of_ne_nil _ h0.2.2.2.2.1
    obtain ⟨t, rfl, hz⟩ := h2 e he
    obtain ⟨t', e1, hw⟩ := h3 _ he
    cases e1
    exact ⟨t, he, hz, hw.resolve_left hz⟩

/-! ### the three methods -/

theorem mapM_inv {β γ : Type} {f : β → Except Err γ} {g : β → γ} :
    ∀ {l : List β}, l.mapM f = .ok (l.map g) → ∀ x ∈ l, f x = .ok (g x)
  | [], _, x, hx => by cases hx
  | y :: l, h, x, hx => by
    rw [List.mapM_cons] at h
    cases hy : f y with
    | error e => rw [hy] at h; cases h
    | ok b =>
      rw [hy, ok_bind'] at h
      cases hl : l.mapM f with
      | error e => rw [hl] at h; cases h
      | ok bs =>
        rw [hl, ok_bind'] at h
        have h := Except.ok.inj h
        rw [List.map_cons] at h
        obtain ⟨h1, h2⟩ := List.cons.inj h
        rcases List.mem_cons.1 hx with rfl | hx
        · rw [hy, h1]
        · rw [h2] at hl
          exact mapM_inv hl x hx

theorem sep_iff {f : TFunc ℝ} {ps : List (Tensor ℝ)} {m : Nat} (hm : ps.length = m) {v : Py ℝ} {D : Nat → Py ℝ}
    {H : Nat → Nat → Py ℝ} :
    f.sep ps = .ok ⟨v, row m D, triangle m H⟩ ↔
      f.call ps = .ok v ∧ (∀ p < m, f.grad ps p = .ok (D p)) ∧ ∀ p < m, ∀ q ≤ p, f.hess ps p q = .ok (H p q) := by
  subst hm
  constructor
  · intro h
    unfold TFunc.sep at h
    cases h1 : f.call ps with
    | error e => rw [h1] at h; cases h
    | ok v' =>
      rw [h1, ok_bind'] at h
      cases h2 : gradAll f.grad ps with
      | error e => rw [h2] at h; cases h
      | ok g =>
        rw [h2, ok_bind'] at h
        cases h3 : hessAll f.hess ps with
        | error e => rw [h3] at h; cases h
        | ok l =>
          rw [h3, ok_bind'] at h
          have h := Except.ok.inj h
          injection h with e1 e2 e3
          subst e1 e2 e3
          refine ⟨rfl, fun p hp => mapM_inv h2 p (List.mem_range.2 hp), fun p hp q hq => ?_⟩
          have := mapM_inv h3 p (List.mem_range.2 hp)
          exact mapM_inv this q (List.mem_range.2 (by omega))
  · rintro ⟨h1, h2, h3⟩
    unfold TFunc.sep gradAll hessAll
    rw [h1, ok_bind', mapM_list fun i hi => h2 i (List.mem_range.1 hi), ok_bind',
      mapM_list (g := fun i => row (i + 1) (H i)) fun i hi => mapM_list fun j hj =>
        h3 i (List.mem_range.1 hi) j (by have := List.mem_range.1 hj; omega), ok_bind']
    rfl

theorem grads_eq {f : TFunc ℝ} (h : f.gradOne = false) (ps : List (Tensor ℝ)) : f.grads ps = gradAll f.grad ps := by
  unfold TFunc.grads
  rw [h]
  rfl

theorem hesses_eq {f : TFunc ℝ} (h : f.hessOne = false) (ps : List (Tensor ℝ)) : f.hesses ps = hessAll f.hess ps := by
  unfold TFunc.hesses
  rw [h]
  rfl

/-- A class without `eval`: the same as the three methods. -/
theorem ofMethods_eval {α : Type} [Field α] [DecidableEq α] (call : List (Tensor α) → Except Err (Py α)) (grad : List (Tensor α) → Nat → Except Err (Py α))
    (hess : List (Tensor α) → Nat → Nat → Except Err (Py α)) (b c : Bool) (ps : List (Tensor α)) :
    (TFunc.ofMethods call grad hess b c).eval ps = (TFunc.ofMethods call grad hess b c).sep ps := rfl

/-! ### positions -/

theorem Tensor.dense_congr {α : Type} [Field α] [DecidableEq α] {L : Layout} {K : Nat → Prop} {t : Tensor α} (h : OnItem K L t) {x y n n' d d' : Nat → Nat}
    (hn : ∀ k < L.n, n k = n' k) (hd : ∀ k < L.d, d k = d' k) : t.dense ⟨x, y, n, d⟩ = t.dense ⟨x, y, n', d'⟩ := by
  rcases h with h | h
  · rw [h.dense, h.dense]
  · refine t.dense_congr_bcast h.1.wf rfl rfl (fun k hk => Or.inl ?_) fun k hk => Or.inl ?_
    · exact hn k (by rw [← h.1.hn]; exact hk)
    · exact hd k (by rw [← h.2.1]; exact hk)

theorem Num.dense_congr {α : Type} [Field α] [DecidableEq α] {L : Layout} {K : Nat → Prop} {v : Num α} (h : NumSolid K L v) {x y n n' d d' : Nat → Nat}
    (hn : ∀ k < L.n, n k = n' k) (hd : ∀ k < L.d, d k = d' k) : v.dense ⟨x, y, n, d⟩ = v.dense ⟨x, y, n', d'⟩ := by
  cases v with
  | tensor t => exact Tensor.dense_congr h hn hd
  | generic g =>
    show (g.elements.map fun e => elemDense e _).sum = (g.elements.map fun e => elemDense e _).sum
    congr 1
    refine List.map_congr_left fun e he => ?_
    obtain ⟨t, rfl, ht⟩ := h.2 e he
    exact Tensor.dense_congr ht hn hd

theorem through_of {l : List Nat} {n : Nat → Nat} {k : Nat} (h : k < l.length) : through l n k = n (l.getD k 0) := if_pos h

theorem through_ge {l : List Nat} {n : Nat → Nat} {k : Nat} (h : l.length ≤ k) : through l n k = 0 := if_neg (by omega)

section inside
variable {pr0 : Problem} {m0 : Nat} {N0 : Numbering pr0 m0} {pr : Problem} {m : Nat} {N : Numbering pr m}
  {pm fm dm : List Nat}

theorem Inside.pmGet (h : Inside N0 N pm fm dm) {k : Nat} (hk : k < m0) : pm.getD k 0 < m :=
  h.pmLt _ (getD_mem_nat (by rw [h.pmLen]; exact hk))

theorem Inside.pos (h : Inside N0 N pm fm dm) {n d : Nat → Nat} (hp : pr.Pos n d) :
    pr0.Pos (through fm n) (through dm d) := by
  obtain ⟨h1, -, h3, -⟩ := hp
  have e1 := h.fmLen
  have e2 := h.dmLen
  refine ⟨fun k hk => ?_, fun k hk => through_ge (by omega), fun k hk => ?_, fun k hk => through_ge (by omega)⟩
  · rw [through_of (by omega), h.fmS k hk]
    exact h1 _ (h.fmLt _ (getD_mem_nat (by omega)))
  · rw [through_of (by omega), h.dmS k hk]
    exact h3 _ (h.dmLt _ (getD_mem_nat (by omega)))

theorem Inside.entry (h : Inside N0 N pm fm dm) {k : Nat} (hk : k < m0) {x : Nat → Nat} :
    pr0.Entry k x ↔ pr.Entry (pm.getD k 0) x := by
  unfold Problem.Entry
  rw [h.nd k hk]
  refine and_congr (forall_congr' fun j => ?_) Iff.rfl
  constructor
  · intro g hj
    have := g hj
    rwa [h.P k hk j (by rw [h.nd k hk]; exact hj)] at this
  · intro g hj
    rw [h.P k hk j (by rw [h.nd k hk]; exact hj)]
    exact g hj

theorem Inside.embeds (h : Inside N0 N pm fm dm) {k l : Nat} (hk : k < m0) (hl : l < m0) :
    (pr0.layout k l).Embeds (pr.layout (pm.getD k 0) (pm.getD l 0)) fm dm where
  fmN := h.fmN
  fmLt := h.fmLt
  fmLen := h.fmLen
  dmN := h.dmN
  dmLt := h.dmLt
  dmLen := h.dmLen
  fmS k hk := (h.fmS k hk).symm
  dmS k hk := (h.dmS k hk).symm
  ha := (h.nd k hk).symm
  hb := (h.nd l hl).symm
  hX j hj := (h.P k hk j hj).symm
  hY j hj := (h.P l hl j hj).symm

theorem Inside.embedsNoY (h : Inside N0 N pm fm dm) {k : Nat} (hk : k < m0) :
    (pr0.layout k k).noY.Embeds (pr.layout (pm.getD k 0) (pm.getD k 0)).noY fm dm :=
  { h.embeds hk hk with hb := rfl, hY := fun j hj => absurd hj (Nat.not_lt_zero j) }

theorem Inside.params (h : Inside N0 N pm fm dm) {θ : Theta} {ps : List (Tensor ℝ)} (hp : N.IsParams θ ps)
    (fm' : List Nat) (nf : Nat) (dm' : List Nat) (nd : Nat) (fl : List Nat) :
    ∃ qs, (⟨pm, fm', nf, dm', nd, fl⟩ : Wrap).params ps = .ok qs ∧ N0.IsParams (θ.sub pm) qs := by
  obtain ⟨h1, h2⟩ := hp
  have hget : ∀ p ∈ pm, ∃ t, pick ps p = .ok t ∧ ps[p]? = some t := by
    intro p hpm
    have : p < ps.length := by rw [h1]; exact h.pmLt p hpm
    refine ⟨ps[p], ?_, List.getElem?_eq_getElem this⟩
    unfold pick
    rw [List.getElem?_eq_getElem this]
  haveI : Inhabited (Tensor ℝ) := ⟨Tensor.const 0⟩
  choose! g hg1 hg2 using hget
  refine ⟨pm.map g, mapM_list fun p hpm => hg1 p hpm, by rw [List.length_map, h.pmLen], fun k hk => ?_⟩
  have hk' : k < pm.length := by rw [h.pmLen]; exact hk
  have hmem : pm.getD k 0 ∈ pm := getD_mem_nat hk'
  obtain ⟨v, e1, e2, e3, e4⟩ := h2 _ (h.pmGet hk)
  refine ⟨v, ?_, by rw [e2, h.nd k hk], fun j hj => ?_, fun a ha => ?_⟩
  · rw [List.getElem?_map, List.getElem?_eq_getElem hk', ← List.getD_eq_getElem _ 0 hk']
    show some _ = _
    have := hg2 _ hmem
    rw [e1] at this
    exact this.symm
  · rw [h.P k hk j hj]; exact e3 j (by rw [← h.nd k hk]; exact hj)
  · rw [h.e k hk] at ha ⊢
    rw [e4 a ((h.entry hk).1 ha)]
    unfold Theta.sub
    rw [if_pos hk']

/-! ### the index of a parameter -/

theorem findIdx_some {pm : List Nat} {p k : Nat} (h : pm.findIdx? (· == p) = some k) : k < pm.length ∧ pm.getD k 0 = p := by
  obtain ⟨h1, h2, -⟩ := List.findIdx?_eq_some_iff_getElem.1 h
  refine ⟨h1, ?_⟩
  rw [List.getD_eq_getElem _ _ h1]
  simpa using h2

theorem findIdx_none {pm : List Nat} {p : Nat} (h : pm.findIdx? (· == p) = none) : p ∉ pm := by
  intro hp
  have := List.findIdx?_eq_none_iff.1 h p hp
  simp at this

theorem nodup_get {pm : List Nat} (hn : pm.Nodup) {k l : Nat} (hk : k < pm.length) (hl : l < pm.length)
    (h : pm.getD k 0 = pm.getD l 0) : k = l := by
  rw [List.getD_eq_getElem _ _ hk, List.getD_eq_getElem _ _ hl] at h
  exact (hn.getElem_inj_iff).1 h

theorem sorted_get {pm : List Nat} (hs : pm.Pairwise (· < ·)) {k l : Nat} (hk : k < pm.length) (hl : l < pm.length)
    (h : pm.getD l 0 ≤ pm.getD k 0) : l ≤ k := by
  by_contra hc
  have := List.pairwise_iff_getElem.1 hs k l hk hl (by omega)
  rw [List.getD_eq_getElem _ _ hk, List.getD_eq_getElem _ _ hl] at h
  omega

theorem Inside.nodup (h : Inside N0 N pm fm dm) : pm.Nodup := h.pmS.imp fun h => Nat.ne_of_lt h

/-- Changing a parameter of the list. -/
theorem sub_set (hn : pm.Nodup) (θ : Theta) {k : Nat} (hk : k < pm.length) (a : Nat) (t : ℝ) :
    (θ.set (pm.getD k 0) a t).sub pm = (θ.sub pm).set k a t := by
  funext j b
  unfold Theta.sub Theta.set
  dsimp only
  by_cases hj : j < pm.length
  · rw [if_pos hj, if_pos hj]
    by_cases he : j = k
    · subst he; simp
    · have : pm.getD j 0 ≠ pm.getD k 0 := fun h => he (nodup_get hn hj hk h)
      rw [if_neg (fun h => this h.1), if_neg (fun h => he h.1)]
  · rw [if_neg hj, if_neg hj, if_neg]
    rintro ⟨rfl, -⟩
    exact hj hk

/-- Changing another parameter. -/
theorem sub_set_other (θ : Theta) {p : Nat} (hp : p ∉ pm) (a : Nat) (t : ℝ) : (θ.set p a t).sub pm = θ.sub pm := by
  funext j b
  unfold Theta.sub
  by_cases hj : j < pm.length
  · rw [if_pos hj, if_pos hj]
    unfold Theta.set
    rw [if_neg]
    rintro ⟨h, -⟩
    exact hp (h ▸ getD_mem_nat hj)
  · rw [if_neg hj, if_neg hj]

theorem sub_at (θ : Theta) {k : Nat} (hk : k < pm.length) (a : Nat) : θ.sub pm k a = θ (pm.getD k 0) a := by
  unfold Theta.sub; rw [if_pos hk]

/-- The derivative with respect to a parameter of the list. -/
theorem partial_sub (hn : pm.Nodup) {F : Theta → ℝ} {θ : Theta} {k a : Nat} (hk : k < pm.length) {c : ℝ}
    (h : HasPartial F (θ.sub pm) k a c) : HasPartial (fun θ => F (θ.sub pm)) θ (pm.getD k 0) a c := by
  unfold HasPartial at h ⊢
  rw [sub_at θ hk] at h
  simpa only [sub_set hn θ hk] using h

/-- The derivative with respect to another parameter. -/
theorem partial_other {F : Theta → ℝ} {θ : Theta} {p : Nat} (hp : p ∉ pm) (a : Nat) :
    HasPartial (fun θ => F (θ.sub pm)) θ p a 0 := by
  unfold HasPartial
  simp only [sub_set_other θ hp]
  exact hasDerivAt_const _ _

end inside

end Verif.Tens
