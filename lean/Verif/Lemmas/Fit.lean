import Verif.Model.Fit
import Verif.Lemmas.Params

namespace Verif.Fit
set_option linter.unusedSectionVars false
open Verif.Params

variable {α G Y D H M : Type} [Add α] [Sub α] [Mul α]

/-- Relation between the parameters before and after: same layout, fixed entries untouched,
well-formed. -/
structure Keeps (before after : List (Param α)) : Prop where
  layout : SameLayout after before
  fixed : ∀ i j, isFixed before i j → entry after i j = entry before i j
  wf : ∀ p ∈ after, p.WF

theorem reshapeParams_keeps (ps : List (Param α)) (flat : List α) (rs : List (Param α))
    (hwf : ∀ p ∈ ps, p.WF) (h : reshapeParams ps flat = .ok rs) : Keeps ps rs := by
  simp only [reshapeParams, npConcatenate, bind, Except.bind] at h
  split at h
  · cases h
  · rename_i v hok
    split at hok
    · cases hok
    · cases hok
      have hl := reshapeArrayFrom_ok_length _ _ 0 0 ps rs hwf (by omega) h
      simp only [reshapeArray] at h
      rw [reshapeArrayFrom_array _ _ _ _ _ hwf hl (by rw [fixed_length _ hwf]; omega)] at h
      cases h
      simp only [List.drop_zero]
      exact ⟨place_layout _ _ _,
        fun i j hf => place_entry_fixed_self _ _ hwf (by omega) i j hf,
        place_wf _ _ _ hwf (by omega) (by rw [fixed_length _ hwf]; omega)⟩

/-- What a successful inner loop returns. -/
theorem inner_some (env : Env α G Y D H M) (vb : Nat) (ps0 : List (Param α)) (flat step : List α) (prevG : G)
    (n : Nat) (mult : α) (flat' : List α) (ps' : List (Param α)) (g : G)
    (h : (inner env vb ps0 flat step prevG n mult).1 = .ok (some (flat', ps', g))) :
    reshapeParams ps0 flat' = .ok ps' ∧ objective env ps' = .ok g ∧ env.ge g prevG = true := by
  induction n generalizing mult with
  | zero => simp [inner] at h
  | succ n ih =>
    simp only [inner] at h
    split at h
    · cases h
    · rename_i newFlat hnf
      split at h
      · cases h
      · rename_i ps hps
        split at h
        · cases h
        · rename_i g1 hg
          split at h
          · rename_i hge
            simp only [Except.ok.injEq, Option.some.injEq, Prod.mk.injEq] at h
            obtain ⟨rfl, rfl, rfl⟩ := h
            exact ⟨hps, hg, hge⟩
          · exact ih _ h

theorem inner_trace_length (env : Env α G Y D H M) (vb : Nat) (ps0 : List (Param α)) (flat step : List α)
    (prevG : G) (n : Nat) (mult : α) : (inner env vb ps0 flat step prevG n mult).2.1.length ≤ n := by
  induction n generalizing mult with
  | zero => simp [inner]
  | succ n ih =>
    simp only [inner]
    split
    · simp
    · split
      · simp
      · split
        · simp
        · split
          · simp
          · simpa using ih _

theorem inner_error_of_total (env : Env α G Y D H M) (vb : Nat) (ps0 : List (Param α)) (flat step : List α)
    (prevG : G) (n : Nat) (mult : α) (e : Err)
    (h : (inner env vb ps0 flat step prevG n mult).1 = .error e) :
    e = .valueError ∨ (∃ f, reshapeParams ps0 f = .error e) ∨
      ∃ ps, objective env ps = .error e := by
  induction n generalizing mult with
  | zero => simp [inner] at h
  | succ n ih =>
    simp only [inner] at h
    split at h
    · rename_i e' he
      cases h
      left
      unfold bzip at he
      split at he
      · cases he
      · split at he <;> cases he
        rfl
    · split at h
      · rename_i e' he; cases h; exact .inr (.inl ⟨_, he⟩)
      · split at h
        · rename_i e' he; cases h; exact .inr (.inr ⟨_, he⟩)
        · split at h
          · cases h
          · exact ih _ h

end Verif.Fit
