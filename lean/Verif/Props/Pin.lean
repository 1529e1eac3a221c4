import Verif.Props.ReparamFit
import Verif.Spec.Pin

/-!
# C85: fixing entries of the parameters, or constraining them
-/

set_option linter.unusedSectionVars false

namespace Verif.Tens
open Verif.Params

/-! ### the Newton system -/

section
variable {ps ps' : List (Param ℝ)} {S : List (Nat × Nat)} {D D' : Nat → Nat → ℝ} {H H' : Nat → Nat → Nat → Nat → ℝ} {ders es : List (Nat → Nat → ℝ)}

/-- `e` is a multiple of the entry `x`. -/
def PinForm (ps' : List (Param ℝ)) (x : Nat × Nat) (e : Nat → Nat → ℝ) : Prop := ∃ w : ℝ, w ≠ 0 ∧ ∀ y : Nat × Nat, isFree ps' y.1 y.2 → e y.1 y.2 = if y = x then w else 0

/-- The derivatives of the two problems. -/
structure PinnedForms (S : List (Nat × Nat)) (ps ps' : List (Param ℝ)) (D : Nat → Nat → ℝ) (H : Nat → Nat → Nat → Nat → ℝ) (D' : Nat → Nat → ℝ) (H' : Nat → Nat → Nat → Nat → ℝ)
    (es : List (Nat → Nat → ℝ)) : Prop where
  released : Released S ps ps'
  first : ∀ x : Nat × Nat, isFree ps' x.1 x.2 → D' x.1 x.2 = D x.1 x.2
  second : ∀ x y : Nat × Nat, isFree ps' x.1 x.2 → isFree ps' y.1 y.2 → bothSides H' x.1 x.2 y.1 y.2 = bothSides H x.1 x.2 y.1 y.2
  pins : List.Forall₂ (PinForm ps') S es

theorem Released.sub (h : Released S ps ps') {i a : Nat} (hx : isFree ps i a) : isFree ps' i a := (h.free i a).2 (Or.inl hx)

theorem Released.mem (h : Released S ps ps') {x : Nat × Nat} (hx : x ∈ S) : isFree ps' x.1 x.2 := (h.free _ _).2 (Or.inr hx)

theorem Released.onFree (h : Released S ps ps') {u : Theta} (hu : OnFree ps u) : OnFree ps' u := fun i a hn => hu i a fun hx => hn (h.sub hx)

theorem lin_sub (h : Released S ps ps') (F : Nat → Nat → ℝ) {u : Theta} (hu : OnFree ps u) : linForm (freeSet ps') F u = linForm (freeSet ps) F u := by
  rw [linForm_apply, linForm_apply]
  refine (Finset.sum_subset (fun x hx => mem_freeSet.2 (h.sub (mem_freeSet.1 hx))) fun x _ hx => ?_).symm
  rw [hu _ _ fun h' => hx (mem_freeSet.2 h'), mul_zero]

theorem lin_pin {x : Nat × Nat} {e : Nat → Nat → ℝ} {w : ℝ} (he : ∀ y : Nat × Nat, isFree ps' y.1 y.2 → e y.1 y.2 = if y = x then w else 0) (hx : isFree ps' x.1 x.2) (u : Theta) :
    linForm (freeSet ps') e u = w * u x.1 x.2 := by
  rw [linForm_apply, Finset.sum_eq_single_of_mem x (mem_freeSet.2 hx)]
  · rw [he x hx, if_pos rfl]
  · intro y hy hne
    rw [he y (mem_freeSet.1 hy), if_neg hne, zero_mul]

/-- The multipliers of the new constraints. -/
noncomputable def pinMult (S : List (Nat × Nat)) (es : List (Nat → Nat → ℝ)) (r : Nat × Nat → ℝ) : List ℝ := (S.zip es).map fun z => r z.1 / z.2 z.1.1 z.1.2

theorem pin_other {y : Nat × Nat} (hy : isFree ps' y.1 y.2) : ∀ {S : List (Nat × Nat)} {es : List (Nat → Nat → ℝ)} (ν : List ℝ), List.Forall₂ (PinForm ps') S es → y ∉ S →
    ((es.zip ν).map fun z => z.1 y.1 y.2 * z.2).sum = 0 := by
  intro S es ν h
  induction h generalizing ν with
  | nil => intro _; rfl
  | @cons x e S es h1 _ ih =>
    intro hn
    obtain ⟨w, -, he⟩ := h1
    cases ν with
    | nil => rfl
    | cons v ν =>
      rw [List.zip_cons_cons, List.map_cons, List.sum_cons, ih ν fun h => hn (List.mem_cons_of_mem _ h)]
      dsimp only
      rw [he y hy, if_neg (fun h : y = x => hn (by rw [h]; exact List.mem_cons_self)), zero_mul, add_zero]

theorem pin_sum {r : Nat × Nat → ℝ} : ∀ {S : List (Nat × Nat)} {es : List (Nat → Nat → ℝ)}, List.Forall₂ (PinForm ps') S es → S.Nodup → (∀ x ∈ S, isFree ps' x.1 x.2) →
    ∀ y ∈ S, ((es.zip (pinMult S es r)).map fun z => z.1 y.1 y.2 * z.2).sum = r y := by
  intro S es h
  induction h with
  | nil => intro _ _ y hy; exact absurd hy List.not_mem_nil
  | @cons x e S es h1 h2 ih =>
    intro hn hf y hy
    obtain ⟨hx, hn⟩ := List.nodup_cons.1 hn
    obtain ⟨w, hw, he⟩ := h1
    have hxf := hf x List.mem_cons_self
    show ((((e, r x / e x.1 x.2)) :: es.zip (pinMult S es r)).map fun z => z.1 y.1 y.2 * z.2).sum = _
    rw [List.map_cons, List.sum_cons]
    rcases List.mem_cons.1 hy with rfl | hy
    · rw [pin_other hxf _ h2 hx, add_zero]
      dsimp only
      rw [he y hxf, if_pos rfl]
      field_simp
    · rw [ih hn (fun x hx => hf x (List.mem_cons_of_mem _ hx)) y hy]
      dsimp only
      rw [he y (hf y (List.mem_cons_of_mem _ hy)), if_neg (fun h : y = x => hx (by rw [← h]; exact hy)), zero_mul, zero_add]

theorem pin_unique : ∀ {S : List (Nat × Nat)} {es : List (Nat → Nat → ℝ)}, List.Forall₂ (PinForm ps') S es → S.Nodup → (∀ x ∈ S, isFree ps' x.1 x.2) →
    ∀ {ν ν' : List ℝ}, ν.length = es.length → ν'.length = es.length →
      (∀ y ∈ S, ((es.zip ν).map fun z => z.1 y.1 y.2 * z.2).sum = ((es.zip ν').map fun z => z.1 y.1 y.2 * z.2).sum) → ν = ν' := by
  intro S es h
  induction h with
  | nil =>
    intro _ _ ν ν' h h' _
    rw [List.length_eq_zero_iff.1 h, List.length_eq_zero_iff.1 h']
  | @cons x e S es h1 h2 ih =>
    intro hn hf ν ν' hl hl' heq
    obtain ⟨hx, hn⟩ := List.nodup_cons.1 hn
    obtain ⟨w, hw, he⟩ := h1
    cases ν with
    | nil => exact absurd hl (by simp)
    | cons v ν =>
      cases ν' with
      | nil => exact absurd hl' (by simp)
      | cons v' ν' =>
        have hxf := hf x List.mem_cons_self
        have e1 := heq x List.mem_cons_self
        rw [List.zip_cons_cons, List.zip_cons_cons, List.map_cons, List.map_cons, List.sum_cons, List.sum_cons, pin_other hxf _ h2 hx, pin_other hxf _ h2 hx, add_zero, add_zero] at e1
        dsimp only at e1
        rw [he x hxf, if_pos rfl] at e1
        have hv : v = v' := mul_left_cancel₀ hw e1
        subst hv
        rw [ih hn (fun x hx => hf x (List.mem_cons_of_mem _ hx)) (Nat.succ.inj hl) (Nat.succ.inj hl') fun y hy => ?_]
        have e2 := heq y (List.mem_cons_of_mem _ hy)
        rw [List.zip_cons_cons, List.zip_cons_cons, List.map_cons, List.map_cons, List.sum_cons, List.sum_cons] at e2
        exact add_left_cancel e2

theorem lin_both (h : PinnedForms S ps ps' D H D' H' es) {x : Nat × Nat} (hx : isFree ps' x.1 x.2) {u : Theta} (hu : OnFree ps u) :
    linForm (freeSet ps') (bothSides H' x.1 x.2) u = linForm (freeSet ps) (bothSides H x.1 x.2) u := by
  rw [lin_sub h.released _ hu, linForm_apply, linForm_apply]
  exact Finset.sum_congr rfl fun y hy => by rw [h.second x y hx (h.released.sub (mem_freeSet.1 hy))]

/-- From the fixed entries to the constrained ones. -/
theorem pin_fwd (hw : ∀ p ∈ ps, p.mask.length = p.shape.prod) (hw' : ∀ p ∈ ps', p.mask.length = p.shape.prod) (h : PinnedForms S ps ps' D H D' H' es) {res step μ : List ℝ}
    (hr : res.length = ders.length) (hn : NewtonStep ps D H ders res step μ) :
    ∃ ν, NewtonStep ps' D' H' (ders ++ es) (res ++ List.replicate es.length 0) (listOf ps' (extDir ps step)) (μ ++ ν) := by
  have hon := extDir_onFree ps step
  have hon' := h.released.onFree hon
  have hlen : S.length = es.length := h.pins.length_eq
  set r : Nat × Nat → ℝ := fun x => D x.1 x.2 - linForm (freeSet ps) (bothSides H x.1 x.2) (extDir ps step) - ((ders.zip μ).map fun z => z.1 x.1 x.2 * z.2).sum with hrdef
  have hνl : (pinMult S es r).length = es.length := by simp [pinMult, hlen]
  refine ⟨pinMult S es r, listOf_length _ _, by simp [hn.multipliers, hνl], fun i a hia => ?_, fun k d ρ hd hρ => ?_⟩
  · rw [freeSum_ext hw', extDir_listOf hon', lin_both h (x := (i, a)) hia hon, List.zip_append hn.multipliers.symm, List.map_append, List.sum_append, h.first (i, a) hia]
    rcases (h.released.free i a).1 hia with hf | hS
    · have hnS : (i, a) ∉ S := fun hS => not_free_of_fixed (h.released.fixed _ hS) hf
      rw [pin_other (y := (i, a)) hia _ h.pins hnS, add_zero]
      have := hn.stationary i a hf
      rw [freeSum_ext hw] at this
      exact this
    · rw [pin_sum h.pins h.released.nodup (fun x hx => h.released.mem hx) (i, a) hS, hrdef]
      dsimp only
      ring
  · rw [freeSum_ext hw', extDir_listOf hon']
    by_cases hk : k < ders.length
    · rw [List.getElem?_append_left hk] at hd
      rw [List.getElem?_append_left (by rw [hr]; exact hk)] at hρ
      rw [lin_sub h.released _ hon, ← freeSum_ext hw]
      exact hn.feasible k d ρ hd hρ
    · rw [List.getElem?_append_right (by omega)] at hd
      rw [List.getElem?_append_right (by omega), List.getElem?_replicate] at hρ
      split_ifs at hρ
      obtain rfl := Option.some.inj hρ
      have hk' : k - ders.length < es.length := (List.getElem?_eq_some_iff.1 hd).1
      have := (List.forall₂_iff_get.1 h.pins).2 (k - ders.length) (by rw [hlen]; exact hk') hk'
      rw [List.get_eq_getElem, List.get_eq_getElem] at this
      obtain ⟨w, -, he⟩ := this
      have e2 : es[k - ders.length]'hk' = d := (List.getElem?_eq_some_iff.1 hd).2
      rw [e2] at he
      have hxS : S[k - ders.length]'(by rw [hlen]; exact hk') ∈ S := List.getElem_mem _
      rw [lin_pin he (h.released.mem hxS), hon _ _ fun hf => not_free_of_fixed (h.released.fixed _ hxS) hf, mul_zero]

/-- The step of the constrained problem does not move the entries. -/
theorem pin_onFree (hw' : ∀ p ∈ ps', p.mask.length = p.shape.prod) (h : PinnedForms S ps ps' D H D' H' es) {res step' μ' : List ℝ} (hr : res.length = ders.length)
    (hn : NewtonStep ps' D' H' (ders ++ es) (res ++ List.replicate es.length 0) step' μ') : OnFree ps (extDir ps' step') := by
  have hlen : S.length = es.length := h.pins.length_eq
  intro i a hia
  by_cases hia' : isFree ps' i a
  · rcases (h.released.free i a).1 hia' with hf | hS
    · exact absurd hf hia
    · obtain ⟨k, hk, hkS⟩ := List.mem_iff_getElem.1 hS
      have hk' : k < es.length := by rw [← hlen]; exact hk
      have := (List.forall₂_iff_get.1 h.pins).2 k hk hk'
      rw [List.get_eq_getElem, List.get_eq_getElem, hkS] at this
      obtain ⟨w, hw0, he⟩ := this
      have hfe := hn.feasible (ders.length + k) es[k] 0 (by rw [List.getElem?_append_right (by omega), Nat.add_sub_cancel_left, List.getElem?_eq_getElem hk'])
        (by rw [List.getElem?_append_right (by omega), hr, Nat.add_sub_cancel_left, List.getElem?_replicate, if_pos hk'])
      rw [freeSum_ext hw', lin_pin he hia'] at hfe
      exact (mul_eq_zero.1 hfe).resolve_left hw0
  · exact extDir_onFree _ _ _ _ hia'

/-- From the constrained entries to the fixed ones. -/
theorem pin_bwd (hw : ∀ p ∈ ps, p.mask.length = p.shape.prod) (hw' : ∀ p ∈ ps', p.mask.length = p.shape.prod) (h : PinnedForms S ps ps' D H D' H' es) {res step' μ' : List ℝ}
    (hr : res.length = ders.length) (hn : NewtonStep ps' D' H' (ders ++ es) (res ++ List.replicate es.length 0) step' μ') :
    NewtonStep ps D H ders res (listOf ps (extDir ps' step')) (μ'.take ders.length) := by
  have hon := pin_onFree hw' h hr hn
  have hml : μ'.length = ders.length + es.length := by rw [hn.multipliers, List.length_append]
  refine ⟨listOf_length _ _, by rw [List.length_take, hml]; omega, fun i a hia => ?_, fun k d ρ hd hρ => ?_⟩
  · have hia' := h.released.sub hia
    have := hn.stationary i a hia'
    have hnS : (i, a) ∉ S := fun hS => not_free_of_fixed (h.released.fixed _ hS) hia
    rw [freeSum_ext hw', lin_both h (x := (i, a)) hia' hon, h.first (i, a) hia', ← List.take_append_drop ders.length μ',
      List.zip_append (by rw [List.length_take, hml]; omega), List.map_append, List.sum_append, pin_other (y := (i, a)) hia' _ h.pins hnS, add_zero] at this
    rw [freeSum_ext hw, extDir_listOf hon]
    exact this
  · rw [freeSum_ext hw, extDir_listOf hon, ← lin_sub h.released _ hon, ← freeSum_ext hw']
    have hk := (List.getElem?_eq_some_iff.1 hd).1
    exact hn.feasible k d ρ (by rw [List.getElem?_append_left hk]; exact hd) (by rw [List.getElem?_append_left (by rw [hr]; exact hk)]; exact hρ)

/-- The multipliers are determined. -/
theorem pin_mult (h : PinnedForms S ps ps' D H D' H' es) {res step' μ' μ'' : List ℝ}
    (hn : NewtonStep ps' D' H' (ders ++ es) (res ++ List.replicate es.length 0) step' μ') (hn' : NewtonStep ps' D' H' (ders ++ es) (res ++ List.replicate es.length 0) step' μ'')
    (ht : μ'.take ders.length = μ''.take ders.length) : μ' = μ'' := by
  have hml : μ'.length = ders.length + es.length := by rw [hn.multipliers, List.length_append]
  have hml' : μ''.length = ders.length + es.length := by rw [hn'.multipliers, List.length_append]
  rw [← List.take_append_drop ders.length μ', ← List.take_append_drop ders.length μ'', ht]
  congr 1
  refine pin_unique h.pins h.released.nodup (fun x hx => h.released.mem hx) (by rw [List.length_drop]; omega) (by rw [List.length_drop]; omega) fun y hy => ?_
  have a := hn.stationary y.1 y.2 (h.released.mem hy)
  have b := hn'.stationary y.1 y.2 (h.released.mem hy)
  rw [← List.take_append_drop ders.length μ', List.zip_append (by rw [List.length_take]; omega), List.map_append, List.sum_append, ht] at a
  rw [← List.take_append_drop ders.length μ'', List.zip_append (by rw [List.length_take]; omega), List.map_append, List.sum_append] at b
  exact add_left_cancel (add_left_cancel (a.trans b.symm))

end

/-! ### the fits -/

section
variable {pr : Problem} {m : Nat} {L L' : Theta → ℝ} {M M' : MaxLikeT ℝ} {gs es : List Con} {φs φs' : List Pen} {T : ℝ} {S : List (Nat × Nat)}
  {pinvh : List (List ℝ) → Except Err (List (List ℝ))} {tol : ℝ}

/-- The problem `M'` is `M` with the additional constraints `es`. -/
structure Constrained (pr : Problem) (m : Nat) (M : MaxLikeT ℝ) (L : Theta → ℝ) (gs : List Con) (φs : List Pen) (M' : MaxLikeT ℝ) (L' : Theta → ℝ) (φs' : List Pen) (es : List Con) (T : ℝ) :
    Prop where
  old : Solver pr m (fun _ => True) M L gs φs T
  new : Solver pr m (fun _ => True) M' L' (gs ++ es) φs' T
  objective : ∀ θ, penalised L' φs' θ = penalised L φs θ
  smooth : ∀ θ, SmoothAt (penalised L φs) θ

theorem pins_val {θ : Theta} {es : List Con} (h : List.Forall₂ (fun x g => Pins x (θ x.1 x.2) g) S es) : (es.map fun c => c.val θ) = List.replicate es.length 0 := by
  induction h with
  | nil => rfl
  | cons h _ ih =>
    obtain ⟨w, -, he⟩ := h
    rw [List.map_cons, ih, he, sub_self, mul_zero]
    rfl

theorem pins_move {θ θ1 : Theta} {es : List Con} (h : List.Forall₂ (fun x g => Pins x (θ x.1 x.2) g) S es) : (∀ x ∈ S, θ1 x.1 x.2 = θ x.1 x.2) →
    List.Forall₂ (fun x g => Pins x (θ1 x.1 x.2) g) S es := by
  induction h with
  | nil => exact fun _ => .nil
  | cons h _ ih => exact fun hx => .cons (by rw [hx _ List.mem_cons_self]; exact h) (ih fun x h => hx x (List.mem_cons_of_mem _ h))

theorem pin_partial {x y : Nat × Nat} {c w d : ℝ} {g : Con} (he : ∀ θ, g.val θ = w * (θ x.1 x.2 - c)) {θ : Theta} (hd : HasPartial g.val θ y.1 y.2 d) : d = if y = x then w else 0 := by
  unfold HasPartial at hd
  have e : (fun t => g.val (θ.set y.1 y.2 t)) = fun t => w * ((if y = x then t else θ x.1 x.2) - c) := by
    funext t
    rw [he]
    unfold Theta.set
    by_cases h : y = x
    · subst h; rw [if_pos ⟨rfl, rfl⟩, if_pos rfl]
    · rw [if_neg fun h' => h (Prod.ext h'.1.symm h'.2.symm), if_neg h]
  rw [e] at hd
  refine hd.unique ?_
  split_ifs
  · simpa using ((hasDerivAt_id (θ y.1 y.2)).sub_const c).const_mul w
  · exact hasDerivAt_const _ _

/-- The derivatives of the two problems at one point. -/
theorem pinned_forms (hc : Constrained pr m M L gs φs M' L' φs' es T) {D D' : Theta → Nat → Nat → ℝ} {H H' : Theta → Nat → Nat → Nat → Nat → ℝ}
    (hD : Derivs pr m (fun _ => True) (penalised L φs) D H) (hD' : Derivs pr m (fun _ => True) (penalised L' φs') D' H') {θ : Theta} {ps ps' : List (Param ℝ)}
    (hat' : AtPoint pr m θ ps') (hre : Released S ps ps') (hpin : List.Forall₂ (fun x g => ∃ c, Pins x c g) S es) :
    PinnedForms S ps ps' (D θ) (H θ) (D' θ) (H' θ) (es.map fun c => c.der θ) := by
  have hP : penalised L' φs' = penalised L φs := funext hc.objective
  rw [hP] at hD'
  have hent : ∀ x : Nat × Nat, isFree ps' x.1 x.2 → pr.HasEntry m x := fun x hx => hat'.free hx
  have hDD : ∀ θ, ∀ x : Nat × Nat, isFree ps' x.1 x.2 → D' θ x.1 x.2 = D θ x.1 x.2 := fun θ x hx =>
    HasDerivAt.unique (hD'.first θ trivial x.1 (hent x hx).1 x.2 (hent x hx).2) (hD.first θ trivial x.1 (hent x hx).1 x.2 (hent x hx).2)
  refine ⟨hre, hDD θ, fun x y hx hy => ?_, ?_⟩
  · have key : ∀ {D : Theta → Nat → Nat → ℝ} {H : Theta → Nat → Nat → Nat → Nat → ℝ}, Derivs pr m (fun _ => True) (penalised L φs) D H →
        HasPartial (fun θ => D θ x.1 x.2) θ y.1 y.2 (bothSides (H θ) x.1 x.2 y.1 y.2) ∨ HasPartial (fun θ => D θ y.1 y.2) θ x.1 x.2 (bothSides (H θ) x.1 x.2 y.1 y.2) := by
      intro D H hD
      unfold bothSides
      split_ifs with hlt
      · exact Or.inl (hD.second θ trivial x.1 (hent x hx).1 y.1 hlt.le x.2 (hent x hx).2 y.2 (hent y hy).2)
      · exact Or.inr (hD.second θ trivial y.1 (hent y hy).1 x.1 (not_lt.1 hlt) y.2 (hent y hy).2 x.2 (hent x hx).2)
    refine both_of hD' (hc.smooth θ).two (hent x hx) (hent y hy) ?_
    rcases key hD with h | h
    · left
      rw [show (fun θ => D' θ x.1 x.2) = fun θ => D θ x.1 x.2 from funext fun θ => hDD θ x hx]
      exact h
    · right
      rw [show (fun θ => D' θ y.1 y.2) = fun θ => D θ y.1 y.2 from funext fun θ => hDD θ y hy]
      exact h
  · have hcs : ∀ c ∈ es, ∃ t, IsConstraint (cOrder pr m) t c.val c.der := fun c h => forall₂_right hc.new.constraints c (List.mem_append_right _ h)
    clear hre hc
    induction hpin with
    | nil => exact .nil
    | @cons x g S es h _ ih =>
      refine .cons ?_ (ih fun c h => hcs c (List.mem_cons_of_mem _ h))
      obtain ⟨c, w, hw, he⟩ := h
      obtain ⟨t, ht⟩ := hcs g List.mem_cons_self
      exact ⟨w, hw, fun y hy => pin_partial he (ht.partials θ y.1 (hent y hy).1 y.2 (entry_iff.2 (hent y hy).2))⟩

/-- The Newton steps of the two problems. -/
theorem newton_pinned (hc : Constrained pr m M L gs φs M' L' φs' es T) {θ : Theta} {ps ps' : List (Param ℝ)} (hat : AtPoint pr m θ ps) (hat' : AtPoint pr m θ ps') (hre : Released S ps ps')
    (hpin : List.Forall₂ (fun x g => Pins x (θ x.1 x.2) g) S es) (hF : 1 ≤ totalFree ps) :
    SameSteps (LinearEquiv.refl ℝ Theta) M M' pinvh tol (penalised L φs θ / T) ps ps' := by
  obtain ⟨D, H, hD, h⟩ := C68_newton_step hc.old
  obtain ⟨D', H', hD', h'⟩ := C68_newton_step hc.new
  have hS := pinned_forms hc hD hD' hat' hre (hpin.imp fun x g h => ⟨_, h⟩)
  have hF' : 1 ≤ totalFree ps' := by
    obtain ⟨i, a, hia, -, -⟩ := pair_of_lt (show 0 < totalFree ps from hF)
    have := rank_lt (hre.sub hia)
    omega
  have h := h pinvh tol θ trivial ps hat hF
  have h' := h' pinvh tol θ trivial ps' hat' hF'
  rw [List.map_append, List.map_append, pins_val hpin, hc.objective] at h'
  rw [show es.length = (es.map fun c => c.der θ).length by rw [List.length_map]] at h'
  have hr : (gs.map fun c => c.val θ).length = (gs.map fun c => c.der θ).length := by simp
  have hmem : ∀ step, OnFree ps' (extDir ps step) := fun step => hre.onFree (extDir_onFree ps step)
  have htake : ∀ {step μ : List ℝ}, NewtonStep ps (D θ) (H θ) (gs.map fun c => c.der θ) (gs.map fun c => c.val θ) step μ → ∀ ν, (μ ++ ν).take (gs.map fun c => c.der θ).length = μ :=
    fun hn ν => by rw [← hn.multipliers, List.take_left']; rfl
  rcases h with ⟨step, μ, v, J, e1, n1, u1⟩ | ⟨e1, u1⟩
  · right
    rcases h' with ⟨step', μ', v', J', e2, n2, u2⟩ | ⟨e2, u2⟩
    · refine ⟨step, step', v, v', J, J', e1, e2, n1.len, n2.len, ?_⟩
      obtain ⟨ν, hν⟩ := pin_fwd hat.masks hat'.masks hS hr n1
      rw [← (u2 _ _ hν).1, extDir_listOf (hmem step)]
      rfl
    · obtain ⟨ν, hν⟩ := pin_fwd hat.masks hat'.masks hS hr n1
      refine absurd ⟨(_, _), hν, fun y hy => ?_⟩ u2
      have hb := u1 _ _ (pin_bwd hat.masks hat'.masks hS hr hy)
      have e : y.1 = listOf ps' (extDir ps step) := by
        rw [← hb.1, extDir_listOf (pin_onFree hat'.masks hS hr hy)]
        exact (listOf_extDir hy.len).symm
      refine Prod.ext e ?_
      have hy' := show NewtonStep ps' (D' θ) (H' θ) _ _ y.1 y.2 from hy
      rw [e] at hy'
      refine pin_mult hS hy' hν ?_
      rw [hb.2, htake n1]
  · left
    refine ⟨e1, ?_⟩
    rcases h' with ⟨step', μ', v', J', e2, n2, u2⟩ | ⟨e2, u2⟩
    · refine absurd ⟨(_, _), pin_bwd hat.masks hat'.masks hS hr n2, fun y hy => ?_⟩ u1
      obtain ⟨ν, hν⟩ := pin_fwd hat.masks hat'.masks hS hr hy
      have hb := u2 _ _ hν
      refine Prod.ext ?_ ?_
      · show y.1 = listOf ps (extDir ps' step')
        rw [← hb.1, extDir_listOf (hmem _)]
        exact (listOf_extDir hy.len).symm
      · show y.2 = μ'.take _
        rw [← hb.2, htake hy]
    · exact e2

theorem Released.layout {ps ps' qs qs' : List (Param ℝ)} (h : Released S qs qs') (hl : SameLayout ps qs) (hl' : SameLayout ps' qs') : Released S ps ps' :=
  ⟨h.nodup, fun x hx => Fit.SameLayout.isFixed hl (h.fixed x hx), fun i a => by rw [layout_free hl', h.free, layout_free hl]⟩

/-- What the two fits have stored comes from the same point. -/
def StoredTogether (pr : Problem) (m : Nat) (M M' : MaxLikeT ℝ) (pinvh : List (List ℝ) → Except Err (List (List ℝ))) (tol : ℝ) (o o' : Fit.Obj ℝ (List (List ℝ)))
    (r r' : Fit.Result ℝ (List (List ℝ))) : Prop := StoredChanged (LinearEquiv.refl ℝ Theta) 0 pr m pr m M M' pinvh tol o o' r r'

/-- **C85.** Entries of the parameters that are fixed at their values, or free and constrained to be equal to these values: a fit with Newton's method tries the same points, prints as many lines, and
returns the same value or raises the same exception, with the same estimates. -/
theorem C85_fit (hc : Constrained pr m M L gs φs M' L' φs' es T) {o o' : Fit.Obj ℝ (List (List ℝ))} {θ : Theta} (hat : AtPoint pr m θ o.params) (hat' : AtPoint pr m θ o'.params)
    (hre : Released S o.params o'.params) (hpin : List.Forall₂ (fun x g => Pins x (θ x.1 x.2) g) S es) (hcv : o'.converged = o.converged) (hF : 1 ≤ totalFree o.params) (maxSteps verbose : Nat) :
    ∀ r r', r = Fit.fit (M.env pinvh tol) o maxSteps verbose .newton → r' = Fit.fit (M'.env pinvh tol) o' maxSteps verbose .newton →
      r'.outcome = r.outcome ∧ r'.prints = r.prints ∧ r'.obj.converged = r.obj.converged ∧ List.Forall₂ (List.Forall₂ (SameValues pr m)) r.trace r'.trace ∧
        SameValues pr m r.obj.params r'.obj.params ∧ StoredTogether pr m M M' pinvh tol o o' r r' := by
  intro r r' hr hr'
  unfold Fit.fit at hr hr'
  rw [flatParams_ok (hat.ne hc.old.pos)] at hr
  rw [flatParams_ok (hat'.ne hc.new.pos)] at hr'
  have e0 : ∀ θ : Theta, (LinearEquiv.refl ℝ Theta) θ + 0 = θ := fun θ => add_zero θ
  have hsv : ∀ {q q' : List (Param ℝ)}, ChangedPoint (LinearEquiv.refl ℝ Theta) 0 pr m pr m q q' → SameValues pr m q q' := fun ⟨θ, h, h'⟩ => ⟨θ, h, by rw [e0] at h'; exact h'⟩
  have hat0 : AtPoint pr m ((LinearEquiv.refl ℝ Theta) θ + 0) o'.params := by rw [e0]; exact hat'
  obtain ⟨j1, j2, j3, j4, j5, j6⟩ := loop_changed (pinvh := pinvh) (tol := tol) (B := LinearEquiv.refl ℝ Theta) (b := 0) ⟨hc.old, hc.new, fun θ => by rw [e0, hc.objective]⟩ hat hat0
    (fun θ1 ps ps' h h' hlay hlay' hfix => newton_pinned hc h (by rw [e0] at h'; exact h') (hre.layout hlay hlay')
      (pins_move hpin fun x hx => hfix _ _ (hre.fixed x hx))
      (by rw [Flat.SameLayout.totalFree hlay]; exact hF)) hcv.symm verbose maxSteps hat hat0 rfl rfl (fun _ _ _ => rfl) (fun _ _ _ => rfl)
    (flatAt_start hat hc.old.pos) (flatAt_start hat0 hc.new.pos) r r' hr hr'
  exact ⟨j1, j2, j3, j4.imp fun _ _ h => h.imp fun _ _ h => hsv h, hsv j5, j6⟩

end

end Verif.Tens
