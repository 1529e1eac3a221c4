import Verif.Spec.ErrorsTensor
import Verif.Lemmas.FitFull
import Mathlib.LinearAlgebra.Matrix.NonsingularInverse
import Mathlib.LinearAlgebra.Matrix.ToLin

/-!
# Lemmas for C69: the inverse of the stored Hessian
-/

set_option linter.unusedSectionVars false

namespace Verif.Tens
open Verif.Params

/-! ### sums over the free entries -/

/-- The free entries. -/
noncomputable def freeSet (ps : List (Param ℝ)) : Finset (Nat × Nat) := by
  classical exact (Flat.freePairs ps).toFinset

theorem mem_freeSet {ps : List (Param ℝ)} {x : Nat × Nat} : x ∈ freeSet ps ↔ isFree ps x.1 x.2 := by
  classical
  unfold freeSet
  rw [List.mem_toFinset]
  exact ⟨Flat.mem_freePairs, fun h => List.mem_of_getElem? (Flat.freePairs_getElem? ps _ _ h)⟩

theorem freeSum_eq {ps : List (Param ℝ)} (hw : ∀ p ∈ ps, p.mask.length = p.shape.prod) (F : Nat → Nat → ℝ) : freeSum ps F = ∑ x ∈ freeSet ps, F x.1 x.2 := by
  classical
  rw [← freePairs_sum F hw]
  unfold freeSet
  exact (List.sum_toFinset (fun x : Nat × Nat => F x.1 x.2) (freePairsFrom_nodup 0 ps)).symm

/-- The direction with the free entries `v`, in order. -/
noncomputable def dirOf (ps : List (Param ℝ)) (v : List ℝ) : Nat → Nat → ℝ := fun i a => v.getD (freeRank ps i a) 0

open scoped Classical in
/-- The unit direction of one entry. -/
noncomputable def unit (j b : Nat) : Nat → Nat → ℝ := fun i a => if i = j ∧ a = b then 1 else 0

theorem sum_unit {ps : List (Param ℝ)} {j b : Nat} (h : isFree ps j b) (u : Nat → Nat → ℝ) : ∑ x ∈ freeSet ps, u x.1 x.2 * unit j b x.1 x.2 = u j b := by
  rw [Finset.sum_eq_single (j, b)]
  · simp [unit]
  · intro x _ hx
    have : ¬(x.1 = j ∧ x.2 = b) := fun h => hx (Prod.ext h.1 h.2)
    simp [unit, this]
  · intro h'
    exact absurd (mem_freeSet.2 h) h'

/-! ### arrays and matrices -/

theorem dot_sum : ∀ (u v : List ℝ) (n : Nat), u.length = n → v.length = n → Flat.dot u v = ∑ c : Fin n, u.getD c 0 * v.getD c 0
  | [], [], _, rfl, _ => by simp [Flat.dot]
  | x :: u, y :: v, n, h, h' => by
    obtain ⟨k, rfl⟩ : ∃ k, n = k + 1 := ⟨u.length, by simpa using h.symm⟩
    rw [Fin.sum_univ_succ]
    have := dot_sum u v k (by simpa using h) (by simpa using h')
    simp only [Flat.dot] at this
    simp [Flat.dot, this]
  | [], _ :: _, _, rfl, h => by simp at h
  | _ :: _, [], _, rfl, h => by simp at h

/-- A list as a vector. -/
def toVec (n : Nat) (v : List ℝ) : Fin n → ℝ := fun c => v.getD c 0

theorem toVec_ofFn {n : Nat} (z : Fin n → ℝ) : toVec n (List.ofFn z) = z := by
  funext c
  simp [toVec, List.getD_eq_getElem?_getD, List.getElem?_ofFn]

theorem toVec_inj {n : Nat} {u v : List ℝ} (hu : u.length = n) (hv : v.length = n) (h : toVec n u = toVec n v) : u = v := by
  refine List.ext_getElem (hu.trans hv.symm) fun k h1 h2 => ?_
  have := congrFun h ⟨k, by omega⟩
  simpa [toVec, List.getD_eq_getElem?_getD, h1, h2] using this

theorem Square.row {n : Nat} {M : List (List ℝ)} (h : Square n M) {r : Nat} (hr : r < n) : (M.getD r []).length = n := by
  have hr' : r < M.length := by rw [h.1]; exact hr
  rw [List.getD_eq_getElem?_getD, List.getElem?_eq_getElem hr']
  exact h.2 _ (List.getElem_mem hr')

theorem solves_iff {n : Nat} {M : List (List ℝ)} (h : Square n M) {x g : List ℝ} (hx : x.length = n) (hg : g.length = n) :
    Flat.Solves M x g ↔ (toMat n M).mulVec (toVec n x) = toVec n g := by
  constructor
  · intro hs
    funext r
    have hr : r.val < M.length := by rw [h.1]; exact r.isLt
    have hr' : r.val < g.length := by rw [hg]; exact r.isLt
    have := hs.rows r.val _ _ (List.getElem?_eq_getElem hr) (List.getElem?_eq_getElem hr')
    rw [dot_sum _ _ n (h.2 _ (List.getElem_mem hr)) hx] at this
    have e : toVec n g r = g[r.val] := by simp [toVec, hr']
    rw [e, ← this]
    unfold Matrix.mulVec dotProduct
    refine Finset.sum_congr rfl fun c _ => ?_
    simp [toMat, toVec, hr]
  · intro hs
    refine ⟨hx.trans h.1.symm, hg.trans h.1.symm, fun r row gr e1 e2 => ?_⟩
    obtain ⟨hr, rfl⟩ := List.getElem?_eq_some_iff.1 e1
    obtain ⟨hr', rfl⟩ := List.getElem?_eq_some_iff.1 e2
    rw [dot_sum _ _ n (h.2 _ (List.getElem_mem hr)) hx]
    have := congrFun hs ⟨r, by rw [← h.1]; exact hr⟩
    have e : toVec n g ⟨r, by rw [← h.1]; exact hr⟩ = g[r] := by simp [toVec, hr']
    rw [← e, ← this]
    unfold Matrix.mulVec dotProduct
    refine Finset.sum_congr rfl fun c _ => ?_
    simp [toMat, toVec, hr]

/-- The array of a matrix. -/
def ofMat {n : Nat} (A : Matrix (Fin n) (Fin n) ℝ) : List (List ℝ) := List.ofFn fun r => List.ofFn fun c => A r c

theorem ofMat_square {n : Nat} (A : Matrix (Fin n) (Fin n) ℝ) : Square n (ofMat A) := by
  refine ⟨by simp [ofMat], fun l hl => ?_⟩
  obtain ⟨r, rfl⟩ := (List.mem_ofFn' _ _).1 hl
  simp

theorem toMat_ofMat {n : Nat} (A : Matrix (Fin n) (Fin n) ℝ) : toMat n (ofMat A) = A := by
  funext r c
  simp [toMat, ofMat, List.getD_eq_getElem?_getD, List.getElem?_ofFn]

theorem toMat_inj {n : Nat} {A B : List (List ℝ)} (hA : Square n A) (hB : Square n B) (h : toMat n A = toMat n B) : A = B := by
  refine List.ext_getElem (hA.1.trans hB.1.symm) fun r h1 h2 => ?_
  refine toVec_inj (hA.2 _ (List.getElem_mem h1)) (hB.2 _ (List.getElem_mem h2)) ?_
  funext c
  have := congrFun (congrFun h ⟨r, by rw [← hA.1]; exact h1⟩) c
  simpa [toMat, toVec, h1, h2] using this

/-- If one system has exactly one solution, then the matrix is invertible. -/
theorem unit_of_unique {n : Nat} {M : List (List ℝ)} (h : Square n M) {g : List ℝ} (hg : g.length = n) (hu : ∃! x, Flat.Solves M x g) : IsUnit (toMat n M) := by
  rw [← Matrix.mulVec_injective_iff_isUnit]
  obtain ⟨x, x1, x2⟩ := hu
  have hx : x.length = n := x1.len.trans h.1
  intro z w hzw
  have key : ∀ z w : Fin n → ℝ, (toMat n M).mulVec z = (toMat n M).mulVec w → Flat.Solves M (List.ofFn (toVec n x + (z - w))) g := by
    intro z w hzw
    rw [solves_iff h (by simp) hg, toVec_ofFn, Matrix.mulVec_add, Matrix.mulVec_sub, hzw, sub_self, add_zero, ← solves_iff h hx hg]
    exact x1
  have := x2 _ (key z w hzw)
  have e := congrArg (toVec n) this
  rw [toVec_ofFn] at e
  have : z - w = 0 := by
    have := congrArg (fun v => v - toVec n x) e
    simpa using this
  exact sub_eq_zero.1 this

theorem unique_of_unit {n : Nat} {M : List (List ℝ)} (h : Square n M) {g : List ℝ} (hg : g.length = n) (hu : IsUnit (toMat n M)) : ∃! x, Flat.Solves M x g := by
  have hd : IsUnit (toMat n M).det := (Matrix.isUnit_iff_isUnit_det _).1 hu
  refine ⟨List.ofFn ((toMat n M)⁻¹.mulVec (toVec n g)), ?_, fun y hy => ?_⟩
  · dsimp only
    rw [solves_iff h (by simp) hg, toVec_ofFn, Matrix.mulVec_mulVec, Matrix.mul_nonsing_inv _ hd, Matrix.one_mulVec]
  · have hl : y.length = n := hy.len.trans h.1
    refine toVec_inj hl (by simp) ?_
    have hy' := (solves_iff h hl hg).1 hy
    rw [toVec_ofFn, ← hy', Matrix.mulVec_mulVec, Matrix.nonsing_inv_mul _ hd, Matrix.one_mulVec]

theorem exactInv_ok {n : Nat} {M : List (List ℝ)} (h : Square n M) (hu : IsUnit (toMat n M)) :
    ∃ B, exactInv M = .ok B ∧ Square n B ∧ toMat n M * toMat n B = 1 := by
  obtain rfl := h.1
  have hd : IsUnit (toMat M.length M).det := (Matrix.isUnit_iff_isUnit_det _).1 hu
  have hx : Square M.length M ∧ ∃ B, Square M.length B ∧ toMat M.length M * toMat M.length B = 1 :=
    ⟨h, ofMat (toMat M.length M)⁻¹, ofMat_square _, by rw [toMat_ofMat, Matrix.mul_nonsing_inv _ hd]⟩
  refine ⟨hx.2.choose, ?_, hx.2.choose_spec⟩
  unfold exactInv
  rw [dif_pos hx]

theorem exactPinvh_ok {n : Nat} {M : List (List ℝ)} (h : Square n M) (hu : IsUnit (toMat n M)) (hs : (toMat n M).transpose = toMat n M) :
    ∃ B, exactPinvh M = .ok B ∧ Square n B ∧ toMat n M * toMat n B = 1 := by
  obtain rfl := h.1
  have hl : lowerOf (toMat M.length M) = toMat M.length M := by
    funext r c
    unfold lowerOf
    split_ifs
    · rfl
    · exact congrFun (congrFun hs r) c
  have hd : IsUnit (toMat M.length M).det := (Matrix.isUnit_iff_isUnit_det _).1 hu
  have hx : Square M.length M ∧ ∃ B, Square M.length B ∧ IsPinv (lowerOf (toMat M.length M)) (toMat M.length B) := by
    refine ⟨h, ofMat (toMat M.length M)⁻¹, ofMat_square _, ?_⟩
    rw [toMat_ofMat, hl]
    refine ⟨?_, ?_, ?_, ?_⟩
    · rw [Matrix.mul_nonsing_inv _ hd, Matrix.one_mul]
    · rw [Matrix.nonsing_inv_mul _ hd, Matrix.one_mul]
    · rw [Matrix.mul_nonsing_inv _ hd, Matrix.transpose_one]
    · rw [Matrix.nonsing_inv_mul _ hd, Matrix.transpose_one]
  have ho : exactPinvh M = .ok hx.2.choose := by
    unfold exactPinvh
    rw [dif_pos hx]
  obtain ⟨b1, b2⟩ := hx.2.choose_spec
  refine ⟨hx.2.choose, ho, b1, ?_⟩
  · generalize hx.2.choose = B at b2
    rw [hl] at b2
    have e : toMat M.length M * toMat M.length B * toMat M.length M * (toMat M.length M)⁻¹ = toMat M.length M * (toMat M.length M)⁻¹ := by rw [b2.one]
    rwa [Matrix.mul_assoc, Matrix.mul_nonsing_inv _ hd, Matrix.mul_one] at e

/-! ### the stored Hessian -/

variable {ps : List (Param ℝ)} {H : Nat → Nat → Nat → Nat → ℝ} {ders : List (Nat → Nat → ℝ)}

theorem FlatHessIs.square {J : List (List ℝ)} (h : FlatHessIs ps H ders J) : Square (totalFree ps + ders.length) J := ⟨h.rows, h.cols⟩

theorem mat_toMat {n : Nat} {J : List (List ℝ)} (h : Square n J) {r c : Nat} (hr : r < n) (hc : c < n) {x : ℝ} (hx : Flat.mat J r c = some x) :
    toMat n J ⟨r, hr⟩ ⟨c, hc⟩ = x := by
  unfold Flat.mat at hx
  have hr' : r < J.length := by rw [h.1]; exact hr
  rw [List.getElem?_eq_getElem hr', Option.bind_some] at hx
  simp [toMat, List.getD_eq_getElem?_getD, List.getElem?_eq_getElem hr', hx]

theorem FlatHessIs.symm {J : List (List ℝ)} (h : FlatHessIs ps H ders J) (hs : SymmetricHess ps H) :
    (toMat (totalFree ps + ders.length) J).transpose = toMat (totalFree ps + ders.length) J := by
  have hq := h.square
  have key : ∀ r < totalFree ps + ders.length, ∀ c < totalFree ps + ders.length, ∃ x, Flat.mat J r c = some x ∧ Flat.mat J c r = some x := by
    intro r hr c hc
    by_cases h1 : r < totalFree ps
    · obtain ⟨i, a, hf, rfl, -⟩ := pair_of_lt h1
      by_cases h2 : c < totalFree ps
      · obtain ⟨j, b, hf', rfl, -⟩ := pair_of_lt h2
        rcases lt_trichotomy i j with hij | rfl | hij
        · exact ⟨_, h.upper j i b a hij.le hf' hf, h.lower j i b a hij hf' hf⟩
        · refine ⟨H i i b a, h.upper i i b a le_rfl hf' hf, ?_⟩
          rw [h.upper i i a b le_rfl hf hf', hs i a b hf hf']
        · exact ⟨_, h.lower i j a b hij hf hf', h.upper i j a b hij.le hf hf'⟩
      · obtain ⟨l, rfl⟩ := Nat.exists_eq_add_of_le (Nat.le_of_not_lt h2)
        have hl : l < ders.length := by omega
        refine ⟨ders[l] i a, ?_, ?_⟩
        · rw [h.right i a l hf, List.getElem?_eq_getElem hl]; rfl
        · rw [h.below i a l hf, List.getElem?_eq_getElem hl]; rfl
    · obtain ⟨k, rfl⟩ := Nat.exists_eq_add_of_le (Nat.le_of_not_lt h1)
      have hk : k < ders.length := by omega
      by_cases h2 : c < totalFree ps
      · obtain ⟨j, b, hf', rfl, -⟩ := pair_of_lt h2
        refine ⟨ders[k] j b, ?_, ?_⟩
        · rw [h.below j b k hf', List.getElem?_eq_getElem hk]; rfl
        · rw [h.right j b k hf', List.getElem?_eq_getElem hk]; rfl
      · obtain ⟨l, rfl⟩ := Nat.exists_eq_add_of_le (Nat.le_of_not_lt h2)
        exact ⟨0, h.corner k l hk (by omega), h.corner l k (by omega) hk⟩
  funext r c
  obtain ⟨x, x1, x2⟩ := key r r.isLt c c.isLt
  show toMat _ J c r = toMat _ J r c
  rw [mat_toMat hq r.isLt c.isLt x1, mat_toMat hq c.isLt r.isLt x2]

theorem free_lt {i a : Nat} (h : isFree ps i a) : freeRank ps i a < totalFree ps := freeRank_lt ps i a h

/-- A column of the inverse solves the equations of a Newton step with the unit gradient. -/
theorem inv_col (hw : ∀ p ∈ ps, p.mask.length = p.shape.prod) {J B : List (List ℝ)} (hJ : FlatHessIs ps H ders J)
    (hI : toMat (totalFree ps + ders.length) J * toMat (totalFree ps + ders.length) B = 1) {j b : Nat} (hf : isFree ps j b) :
    ∃ v μ, NewtonStep ps (unit j b) H ders (List.replicate ders.length 0) v μ ∧
      ∀ i a, isFree ps i a → (B.getD (freeRank ps i a) []).getD (freeRank ps j b) 0 = dirOf ps v i a := by
  classical
  set n := totalFree ps + ders.length with hn
  have hc : freeRank ps j b < n := by have := free_lt hf; omega
  let x : List ℝ := List.ofFn fun r : Fin n => toMat n B r ⟨freeRank ps j b, hc⟩
  have hx : x.length = n := by simp [x]
  have hE := flatEntries_is ps (unit j b) (List.replicate ders.length 0)
  have hel : (flatEntries ps (unit j b) (List.replicate ders.length 0)).length = n := by rw [hE.length, List.length_replicate]
  have hs : Flat.Solves J x (flatEntries ps (unit j b) (List.replicate ders.length 0)) := by
    rw [solves_iff hJ.square hx hel]
    show _ = toVec n _
    funext r
    have e1 : ((toMat n J).mulVec (toVec n x)) r = (toMat n J * toMat n B) r ⟨freeRank ps j b, hc⟩ := by
      rw [show toVec n x = fun r => toMat n B r ⟨freeRank ps j b, hc⟩ from toVec_ofFn _]
      rfl
    rw [show (toMat (totalFree ps + ders.length) J) = toMat n J from rfl, e1, hI]
    have e2 : toVec n (flatEntries ps (unit j b) (List.replicate ders.length 0)) r = if r.val = freeRank ps j b then 1 else 0 := by
      unfold toVec
      rw [List.getD_eq_getElem?_getD]
      by_cases hr : r.val < totalFree ps
      · obtain ⟨i, a, hf', hra, -⟩ := pair_of_lt hr
        rw [← hra, hE.free i a hf']
        show unit j b i a = _
        by_cases hij : i = j ∧ a = b
        · obtain ⟨rfl, rfl⟩ := hij
          simp [unit]
        · have : freeRank ps i a ≠ freeRank ps j b := by
            intro he
            have h1 := Flat.freePairs_getElem? ps _ _ hf'
            have h2 := Flat.freePairs_getElem? ps _ _ hf
            rw [he, h2] at h1
            simp at h1
            exact hij ⟨h1.1.symm, h1.2.symm⟩
          simp [unit, hij, this]
      · obtain ⟨l, hl⟩ := Nat.exists_eq_add_of_le (Nat.le_of_not_lt hr)
        have hne : ¬ (r.val = freeRank ps j b) := by have := free_lt hf; omega
        rw [hl, hE.rest, ← hl, if_neg hne, List.getElem?_replicate]
        split_ifs <;> rfl
    rw [e2, Matrix.one_apply]
    simp [Fin.ext_iff]
  rw [hJ.eq, system_iff hw (by simp)] at hs
  refine ⟨_, _, hs.2, fun i a hf' => ?_⟩
  have hr := free_lt hf'
  have hr' : freeRank ps i a < n := by omega
  unfold dirOf
  rw [List.getD_eq_getElem?_getD (l := x.take _), List.getElem?_take, if_pos hr]
  simp [x, hr', toMat]

/-! ### the quadratic form -/

theorem curvature_eq (hw : ∀ p ∈ ps, p.mask.length = p.shape.prod) (u w : Nat → Nat → ℝ) :
    curvature ps H u w = ∑ x ∈ freeSet ps, ∑ y ∈ freeSet ps, bothSides H x.1 x.2 y.1 y.2 * u x.1 x.2 * w y.1 y.2 := by
  unfold curvature
  rw [freeSum_eq hw]
  exact Finset.sum_congr rfl fun x _ => freeSum_eq hw _

theorem bothSides_symm (hs : SymmetricHess ps H) {i a j b : Nat} (h : isFree ps i a) (h' : isFree ps j b) : bothSides H i a j b = bothSides H j b i a := by
  unfold bothSides
  rcases lt_trichotomy i j with hij | rfl | hij
  · rw [if_neg (by omega), if_pos hij]
  · rw [if_neg (lt_irrefl _), if_neg (lt_irrefl _)]
    exact hs i b a h' h
  · rw [if_pos hij, if_neg (by omega)]

theorem curvature_symm (hw : ∀ p ∈ ps, p.mask.length = p.shape.prod) (hs : SymmetricHess ps H) (u w : Nat → Nat → ℝ) : curvature ps H u w = curvature ps H w u := by
  rw [curvature_eq hw, curvature_eq hw, Finset.sum_comm]
  refine Finset.sum_congr rfl fun x hx => Finset.sum_congr rfl fun y hy => ?_
  rw [bothSides_symm hs (mem_freeSet.1 hy) (mem_freeSet.1 hx)]
  ring

/-- A step of the system with gradient `D` and residuals 0 keeps the constraints, and its curvature with another such direction is the slope `D` of that direction. -/
theorem step_form (hw : ∀ p ∈ ps, p.mask.length = p.shape.prod) {D : Nat → Nat → ℝ} {v μ : List ℝ}
    (h : NewtonStep ps D H ders (List.replicate ders.length 0) v μ) :
    Tangent ps ders (dirOf ps v) ∧ ∀ u, Tangent ps ders u → curvature ps H u (dirOf ps v) = ∑ x ∈ freeSet ps, u x.1 x.2 * D x.1 x.2 := by
  refine ⟨fun d hd => ?_, fun u hu => ?_⟩
  · obtain ⟨k, hk⟩ := List.mem_iff_getElem?.1 hd
    have hl := (List.getElem?_eq_some_iff.1 hk).1
    exact h.feasible k d 0 hk (by rw [List.getElem?_replicate, if_pos hl])
  · rw [curvature_eq hw]
    have e : ∀ x ∈ freeSet ps, ∑ y ∈ freeSet ps, bothSides H x.1 x.2 y.1 y.2 * u x.1 x.2 * dirOf ps v y.1 y.2 =
        u x.1 x.2 * D x.1 x.2 - u x.1 x.2 * ((ders.zip μ).map fun z => z.1 x.1 x.2 * z.2).sum := by
      intro x hx
      have := h.stationary x.1 x.2 (mem_freeSet.1 hx)
      rw [freeSum_eq hw] at this
      rw [← mul_sub, ← this, add_sub_cancel_right, Finset.mul_sum]
      refine Finset.sum_congr rfl fun y _ => ?_
      unfold dirOf
      ring
    rw [Finset.sum_congr rfl e, Finset.sum_sub_distrib]
    have z : ∀ l : List ((Nat → Nat → ℝ) × ℝ), (∀ z ∈ l, Tangent ps [z.1] u) →
        ∑ x ∈ freeSet ps, u x.1 x.2 * (l.map fun z => z.1 x.1 x.2 * z.2).sum = 0 := by
      intro l
      induction l with
      | nil => intro _; simp
      | cons z l ih =>
        intro hl
        have h1 := hl z (List.mem_cons_self ..) z.1 (List.mem_singleton.2 rfl)
        rw [freeSum_eq hw] at h1
        have h2 := ih fun y hy => hl y (List.mem_cons_of_mem _ hy)
        simp only [List.map_cons, List.sum_cons, mul_add, Finset.sum_add_distrib]
        rw [h2, add_zero]
        calc _ = ∑ x ∈ freeSet ps, z.1 x.1 x.2 * u x.1 x.2 * z.2 := Finset.sum_congr rfl fun x _ => by ring
          _ = 0 := by rw [← Finset.sum_mul, h1, zero_mul]
    rw [z _ fun y hy => ?_, sub_zero]
    intro d hd
    rw [List.mem_singleton.1 hd]
    exact hu _ (List.of_mem_zip hy).1

/-- The system is invertible if the curvature is negative and the constraints are independent. -/
theorem unit_of_concave (hw : ∀ p ∈ ps, p.mask.length = p.shape.prod) {J : List (List ℝ)} (hJ : FlatHessIs ps H ders J) (hc : Concave ps H ders)
    (hi : Independent ps ders) : IsUnit (toMat (totalFree ps + ders.length) J) := by
  have hE := flatEntries_is ps (fun _ _ => 0) (List.replicate ders.length 0)
  have hel : (flatEntries ps (fun _ _ => 0) (List.replicate ders.length 0)).length = totalFree ps + ders.length := by rw [hE.length, List.length_replicate]
  refine unit_of_unique hJ.square hel ⟨List.replicate (totalFree ps + ders.length) 0, ?_, fun x hx => ?_⟩
  · dsimp only
    rw [solves_iff hJ.square (by simp) hel]
    have e : toVec (totalFree ps + ders.length) (List.replicate (totalFree ps + ders.length) 0) = 0 := by
      funext c; simp [toVec, List.getD_eq_getElem?_getD, List.getElem?_replicate]
    rw [e, Matrix.mulVec_zero]
    funext r
    unfold toVec
    rw [List.getD_eq_getElem?_getD]
    by_cases hr : r.val < totalFree ps
    · obtain ⟨i, a, hf', hra, -⟩ := pair_of_lt hr
      rw [← hra, hE.free i a hf']
      rfl
    · obtain ⟨l, hl⟩ := Nat.exists_eq_add_of_le (Nat.le_of_not_lt hr)
      rw [hl, hE.rest, List.getElem?_replicate]
      split_ifs <;> rfl
  · rw [hJ.eq] at hx
    obtain ⟨hl, hx⟩ := (system_iff hw (by simp)).1 hx
    obtain ⟨t1, t2⟩ := step_form hw hx
    have h0 : ∀ i a, isFree ps i a → dirOf ps (x.take (totalFree ps)) i a = 0 := by
      by_contra hne
      push Not at hne
      obtain ⟨i, a, hf, hn⟩ := hne
      have := hc _ t1 ⟨i, a, hf, hn⟩
      rw [t2 _ t1] at this
      simp at this
    have hv : ∀ y ∈ x.take (totalFree ps), y = 0 := by
      intro y hy
      obtain ⟨k, hk⟩ := List.mem_iff_getElem?.1 hy
      have hkl := (List.getElem?_eq_some_iff.1 hk).1
      rw [List.length_take] at hkl
      obtain ⟨i, a, hf, hra, -⟩ := pair_of_lt (ps := ps) (k := k) (by omega)
      have := h0 i a hf
      unfold dirOf at this
      rw [hra, List.getD_eq_getElem?_getD, hk] at this
      exact this
    have hμ := hi _ hx.multipliers fun i a hf => by
      have := hx.stationary i a hf
      rw [freeSum_eq hw, Finset.sum_eq_zero, zero_add] at this
      · exact this
      · intro y hy
        have := h0 y.1 y.2 (mem_freeSet.1 hy)
        unfold dirOf at this
        rw [this, mul_zero]
    refine List.eq_replicate_iff.2 ⟨hl, fun y hy => ?_⟩
    rw [← List.take_append_drop (totalFree ps) x, List.mem_append] at hy
    rcases hy with hy | hy
    · exact hv y hy
    · exact hμ y hy

/-- A covariance matrix in the sense of `IsCovariance` has on its diagonal the squares of the largest values that the entries take in the directions of curvature at
most 1. -/
theorem covariance_greatest (hw : ∀ p ∈ ps, p.mask.length = p.shape.prod) (hs : SymmetricHess ps H) (hc : Concave ps H ders) {E : Nat → Nat → Nat → Nat → ℝ}
    (hE : IsCovariance ps H ders E) {j b : Nat} (hf : isFree ps j b) :
    0 ≤ E j b j b ∧ IsGreatest {x | ∃ u, Tangent ps ders u ∧ -curvature ps H u u ≤ 1 ∧ x = u j b} (Real.sqrt (E j b j b)) := by
  have lin : ∀ (u w z : Nat → Nat → ℝ) (s : ℝ), curvature ps H u (fun i a => w i a + s * z i a) = curvature ps H u w + s * curvature ps H u z := by
    intro u w z s
    rw [curvature_eq hw, curvature_eq hw, curvature_eq hw, Finset.mul_sum, ← Finset.sum_add_distrib]
    refine Finset.sum_congr rfl fun x _ => ?_
    rw [Finset.mul_sum, ← Finset.sum_add_distrib]
    exact Finset.sum_congr rfl fun y _ => by ring
  have tan : ∀ (w z : Nat → Nat → ℝ) (s : ℝ), Tangent ps ders w → Tangent ps ders z → Tangent ps ders (fun i a => w i a + s * z i a) := by
    intro w z s h1 h2 d hd
    have e1 := h1 d hd
    have e2 := h2 d hd
    rw [freeSum_eq hw] at e1 e2 ⊢
    calc _ = ∑ x ∈ freeSet ps, d x.1 x.2 * w x.1 x.2 + s * ∑ x ∈ freeSet ps, d x.1 x.2 * z x.1 x.2 := by
          rw [Finset.mul_sum, ← Finset.sum_add_distrib]
          exact Finset.sum_congr rfl fun x _ => by ring
      _ = 0 := by rw [e1, e2]; ring
  have nonpos : ∀ u, Tangent ps ders u → curvature ps H u u ≤ 0 := by
    intro u hu
    by_cases h : ∃ i a, isFree ps i a ∧ u i a ≠ 0
    · exact (hc u hu h).le
    · push Not at h
      rw [curvature_eq hw, Finset.sum_eq_zero]
      intro x hx
      refine Finset.sum_eq_zero fun y _ => ?_
      rw [h x.1 x.2 (mem_freeSet.1 hx)]
      ring
  set e : Nat → Nat → ℝ := fun i a => E i a j b with he
  have et : Tangent ps ders e := hE.tangent j b hf
  have ei : ∀ u, Tangent ps ders u → curvature ps H u e = -u j b := fun u hu => by have := hE.inverse j b hf u hu; linarith
  have ee : curvature ps H e e = -E j b j b := ei e et
  have h0 : 0 ≤ E j b j b := by have := nonpos e et; linarith
  have zt : Tangent ps ders fun _ _ => 0 := by
    intro d _
    rw [freeSum_eq hw, Finset.sum_eq_zero]
    intro x _; ring
  have quad : ∀ u, Tangent ps ders u → ∀ s : ℝ, curvature ps H u u - 2 * s * u j b - s ^ 2 * E j b j b ≤ 0 := by
    intro u hu s
    have := nonpos _ (tan u e s hu et)
    rw [lin, curvature_symm hw hs (fun i a => u i a + s * e i a) u, lin, curvature_symm hw hs (fun i a => u i a + s * e i a) e, lin, ei u hu,
      curvature_symm hw hs e u, ei u hu, ee] at this
    nlinarith [this]
  refine ⟨h0, ?_, ?_⟩
  · rcases h0.eq_or_lt with hz | hpos
    · refine ⟨fun _ _ => 0, zt, ?_, ?_⟩
      · have : curvature ps H (fun _ _ => 0) (fun _ _ => 0) = 0 := by
          rw [curvature_eq hw]
          exact Finset.sum_eq_zero fun x _ => Finset.sum_eq_zero fun y _ => by ring
        rw [this]; norm_num
      · rw [← hz, Real.sqrt_zero]
    · have hq : 0 < Real.sqrt (E j b j b) := Real.sqrt_pos.2 hpos
      have t2 := tan _ e (1 / Real.sqrt (E j b j b)) zt et
      have c2 : curvature ps H (fun i a => 0 + 1 / Real.sqrt (E j b j b) * e i a) (fun i a => 0 + 1 / Real.sqrt (E j b j b) * e i a) = -1 := by
        rw [lin, curvature_symm hw hs _ e, lin, ee, curvature_symm hw hs e, ei _ zt]
        have hsq := Real.mul_self_sqrt h0
        have hcz : curvature ps H (fun i a => 0 + 1 / Real.sqrt (E j b j b) * e i a) (fun _ _ => 0) = 0 := by
          rw [curvature_eq hw]
          exact Finset.sum_eq_zero fun x _ => Finset.sum_eq_zero fun y _ => by ring
        rw [hcz]
        show 0 + 1 / Real.sqrt (E j b j b) * (-0 + 1 / Real.sqrt (E j b j b) * -E j b j b) = -1
        field_simp
        nlinarith [hsq]
      refine ⟨_, t2, by rw [c2]; norm_num, ?_⟩
      show _ = 0 + 1 / Real.sqrt (E j b j b) * E j b j b
      have hsq := Real.mul_self_sqrt h0
      field_simp
      nlinarith [hsq]
  · rintro x ⟨u, u1, u2, rfl⟩
    rcases h0.eq_or_lt with hz | hpos
    · rw [← hz, Real.sqrt_zero]
      by_contra hx
      push Not at hx
      have := quad u u1 (-(1 / u j b))
      rw [← hz] at this
      have h3 : (1 / u j b) * u j b = 1 := by field_simp
      nlinarith [this]
    · have := quad u u1 (-(u j b / E j b j b))
      have h3 : u j b / E j b j b * u j b = (u j b) ^ 2 / E j b j b := by ring
      have h4 : (u j b / E j b j b) ^ 2 * E j b j b = (u j b) ^ 2 / E j b j b := by field_simp
      have h5 : (u j b) ^ 2 / E j b j b ≤ 1 := by
        have e5 : curvature ps H u u + 2 * (u j b / E j b j b * u j b) - (u j b / E j b j b) ^ 2 * E j b j b ≤ 0 := by nlinarith [this]
        rw [h3, h4] at e5
        linarith
      rw [div_le_one hpos] at h5
      exact Real.le_sqrt_of_sq_le h5

end Verif.Tens
