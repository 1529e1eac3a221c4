import Verif.Spec.Broyden
import Verif.Lemmas.ErrorsTensor
import Verif.Props.ErrorsTensor
import Verif.Props.Criteria
import Mathlib.Analysis.Matrix.Spectrum

/-!
# Lemmas for C71: Broyden's method
-/

set_option linter.unusedSectionVars false

namespace Verif.Tens
open Verif.Params

/-! ### the pseudo-inverse -/

theorem pinv_exists {n : Nat} (A : Matrix (Fin n) (Fin n) ℝ) (hA : A.transpose = A) : ∃ B, IsPinv A B := by
  have hH : A.IsHermitian := by
    unfold Matrix.IsHermitian
    rw [Matrix.conjTranspose_eq_transpose_of_trivial, hA]
  set U : Matrix (Fin n) (Fin n) ℝ := (hH.eigenvectorUnitary : Matrix (Fin n) (Fin n) ℝ) with hU
  set d : Fin n → ℝ := hH.eigenvalues with hd
  have hs : A = U * Matrix.diagonal d * U.transpose := by
    have := hH.spectral_theorem
    rw [Unitary.conjStarAlgAut_apply] at this
    have e : star (hH.eigenvectorUnitary : Matrix (Fin n) (Fin n) ℝ) = U.transpose := by
      rw [Matrix.star_eq_conjTranspose, Matrix.conjTranspose_eq_transpose_of_trivial]
    rw [e] at this
    exact this
  have hUU : U.transpose * U = 1 := by
    have := Unitary.coe_star_mul_self hH.eigenvectorUnitary
    rw [Matrix.star_eq_conjTranspose, Matrix.conjTranspose_eq_transpose_of_trivial] at this
    exact this
  refine ⟨U * Matrix.diagonal (fun i => (d i)⁻¹) * U.transpose, ?_⟩
  have m2 : ∀ e f : Fin n → ℝ, U * Matrix.diagonal e * U.transpose * (U * Matrix.diagonal f * U.transpose) = U * Matrix.diagonal (fun i => e i * f i) * U.transpose := by
    intro e f
    calc U * Matrix.diagonal e * U.transpose * (U * Matrix.diagonal f * U.transpose) = U * Matrix.diagonal e * (U.transpose * U) * Matrix.diagonal f * U.transpose := by
          simp only [Matrix.mul_assoc]
      _ = _ := by rw [hUU, Matrix.mul_one, Matrix.mul_assoc U, Matrix.diagonal_mul_diagonal]
  have tr : ∀ e : Fin n → ℝ, (U * Matrix.diagonal e * U.transpose).transpose = U * Matrix.diagonal e * U.transpose := by
    intro e
    rw [Matrix.transpose_mul, Matrix.transpose_mul, Matrix.transpose_transpose, Matrix.diagonal_transpose, Matrix.mul_assoc]
  have k1 : ∀ x : ℝ, x * x⁻¹ * x = x := fun x => by by_cases h : x = 0 <;> simp [h]
  have k2 : ∀ x : ℝ, x⁻¹ * x * x⁻¹ = x⁻¹ := fun x => by by_cases h : x = 0 <;> simp [h]
  rw [hs]
  constructor
  · rw [m2, m2]; simp only [k1]
  · rw [m2, m2]; simp only [k2]
  · rw [m2, tr]
  · rw [m2, tr]

theorem lowerOf_symm {n : Nat} (A : Matrix (Fin n) (Fin n) ℝ) : (lowerOf A).transpose = lowerOf A := by
  funext r c
  simp only [Matrix.transpose_apply, lowerOf]
  rcases lt_trichotomy r c with h | rfl | h
  · rw [if_pos h.le, if_neg (not_le.2 h)]
  · rfl
  · rw [if_neg (not_le.2 h), if_pos h.le]

/-- `pinvh` of a square array never raises. -/
theorem exactPinvh_total {n : Nat} {M : List (List ℝ)} (h : Square n M) :
    ∃ B, exactPinvh M = .ok B ∧ Square n B ∧ IsPinv (lowerOf (toMat n M)) (toMat n B) := by
  obtain rfl := h.1
  obtain ⟨B, hB⟩ := pinv_exists (lowerOf (toMat M.length M)) (lowerOf_symm _)
  have hx : Square M.length M ∧ ∃ B, Square M.length B ∧ IsPinv (lowerOf (toMat M.length M)) (toMat M.length B) :=
    ⟨h, ofMat B, ofMat_square _, by rw [toMat_ofMat]; exact hB⟩
  unfold exactPinvh
  rw [dif_pos hx]
  exact ⟨_, rfl, hx.2.choose_spec⟩

/-- The pseudo-inverse of an invertible symmetric matrix is its inverse. -/
theorem pinv_unit {n : Nat} {A B : Matrix (Fin n) (Fin n) ℝ} (h : IsPinv A B) (hu : IsUnit A) : B * A = 1 ∧ A * B = 1 := by
  have hd : IsUnit A.det := (Matrix.isUnit_iff_isUnit_det _).1 hu
  have h1 : B * A = 1 := by
    have := congrArg (fun X => A⁻¹ * X) h.one
    simp only [← Matrix.mul_assoc, Matrix.nonsing_inv_mul _ hd, Matrix.one_mul] at this
    exact this
  exact ⟨h1, mul_eq_one_comm.1 h1⟩

theorem lowerOf_of_symm {n : Nat} {A : Matrix (Fin n) (Fin n) ℝ} (h : A.transpose = A) : lowerOf A = A := by
  funext r c
  unfold lowerOf
  split_ifs
  · rfl
  · exact congrFun (congrFun h r) c

/-! ### vectors -/

theorem matVec_ok {n : Nat} {J : List (List ℝ)} (hJ : Square n J) {v : List ℝ} (hv : v.length = n) :
    ∃ w, Flat.matVec J v = .ok w ∧ w.length = n ∧ toVec n w = (toMat n J).mulVec (toVec n v) := by
  refine ⟨J.map fun row => Flat.dot row v, ?_, by rw [List.length_map, hJ.1], ?_⟩
  · unfold Flat.matVec
    rw [if_pos]
    rw [List.all_eq_true]
    intro row hr
    simp [hJ.2 row hr, hv]
  · funext r
    have hr : r.val < J.length := by rw [hJ.1]; exact r.isLt
    simp only [toVec, Matrix.mulVec, dotProduct, toMat]
    rw [List.getD_eq_getElem?_getD, List.getElem?_map, List.getElem?_eq_getElem hr, Option.map_some, Option.getD_some,
      dot_sum _ _ n (hJ.2 _ (List.getElem_mem hr)) hv]
    simp [List.getD_eq_getElem?_getD, List.getElem?_eq_getElem hr]

theorem toVec_neg {n : Nat} {w : List ℝ} (h : w.length = n) : toVec n (w.map (- ·)) = -toVec n w := by
  funext c
  have hc : c.val < w.length := by rw [h]; exact c.isLt
  simp [toVec, List.getD_eq_getElem?_getD, List.getElem?_eq_getElem hc]

theorem toVec_sub {n : Nat} {u w : List ℝ} (hu : u.length = n) (hw : w.length = n) : toVec n (List.zipWith (· - ·) u w) = toVec n u - toVec n w := by
  funext c
  have h1 : c.val < u.length := by rw [hu]; exact c.isLt
  have h2 : c.val < w.length := by rw [hw]; exact c.isLt
  simp [toVec, List.getD_eq_getElem?_getD, List.getElem?_eq_getElem h1, List.getElem?_eq_getElem h2, List.getElem?_zipWith]

theorem ofFn_toVec {n : Nat} {v : List ℝ} (h : v.length = n) : List.ofFn (toVec n v) = v :=
  toVec_inj (by simp) h (toVec_ofFn _)

theorem dot_toVec {n : Nat} {u v : List ℝ} (hu : u.length = n) (hv : v.length = n) : Flat.dot u v = dotProduct (toVec n u) (toVec n v) :=
  dot_sum u v n hu hv

theorem direction_ok {n : Nat} {J : List (List ℝ)} (hJ : Square n J) {v : List ℝ} (hv : v.length = n) :
    ∃ w, Flat.broydenDirection J v = .ok w ∧ w.length = n ∧ toVec n w = -(toMat n J).mulVec (toVec n v) := by
  obtain ⟨w, w1, w2, w3⟩ := matVec_ok hJ hv
  refine ⟨w.map (- ·), ?_, by rw [List.length_map, w2], by rw [toVec_neg w2, w3]⟩
  unfold Flat.broydenDirection
  rw [w1]
  rfl

theorem update_ok {n : Nat} {J : List (List ℝ)} (hJ : Square n J) {s g g' : List ℝ} (hs : s.length = n) (hg : g.length = n) (hg' : g'.length = n)
    (hne : toVec n g' ≠ toVec n g) : ∃ J', Flat.broydenUpdate J s g' g = .ok J' ∧ Square n J' ∧ (toMat n J').mulVec (toVec n g' - toVec n g) = toVec n s ∧
      ∀ z, dotProduct (toVec n g' - toVec n g) z = 0 → (toMat n J').mulVec z = (toMat n J).mulVec z := by
  have hd : (List.zipWith (· - ·) g' g).length = n := by simp [hg, hg']
  obtain ⟨w, w1, w2, -⟩ := matVec_ok hJ hd
  have hex : ∃ J', Flat.broydenUpdate J s g' g = .ok J' ∧ Square n J' := by
    unfold Flat.broydenUpdate
    rw [if_pos ⟨by rw [hg, hg'], by rw [hs, hJ.1]⟩]
    dsimp only
    rw [w1]
    refine ⟨_, rfl, by simp [hJ.1, hs, w2], fun l hl => ?_⟩
    obtain ⟨i, hi, rfl⟩ := List.mem_iff_getElem.1 hl
    rw [List.getElem_zipWith, List.length_zipWith, hd, hJ.2 _ (List.getElem_mem _), min_self]
  obtain ⟨J', e, hq⟩ := hex
  have hne' : ∃ x ∈ List.zipWith (· - ·) g' g, x ≠ 0 := by
    by_contra hcon
    push Not at hcon
    refine hne (sub_eq_zero.1 ?_)
    rw [← toVec_sub hg' hg]
    funext c
    have hc : c.val < (List.zipWith (· - ·) g' g).length := by rw [hd]; exact c.isLt
    have := hcon _ (List.getElem_mem hc)
    simp only [toVec, List.getD_eq_getElem?_getD, List.getElem?_eq_getElem hc, Option.getD_some]
    exact this
  obtain ⟨k1, k2⟩ := Flat.C14_broyden_secant J J' s g' g e hne'
  refine ⟨J', e, hq, ?_, fun z hz => ?_⟩
  · obtain ⟨u, u1, u2, u3⟩ := matVec_ok hq hd
    rw [k1] at u1
    cases u1
    rw [← toVec_sub hg' hg, u3]
  · have hz' : (List.ofFn z).length = n := by simp
    have := k2 (List.ofFn z) (by rw [hz', hg']) (by rw [dot_toVec hd hz', toVec_sub hg' hg, toVec_ofFn]; exact hz)
    obtain ⟨u, u1, u2, u3⟩ := matVec_ok hq hz'
    obtain ⟨u', u1', u2', u3'⟩ := matVec_ok hJ hz'
    rw [u1, u1'] at this
    cases this
    rw [toVec_ofFn] at u3 u3'
    rw [← u3, u3']

end Verif.Tens
