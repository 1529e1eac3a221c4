import Verif.Lemmas.FlatAssembly
import Verif.Lemmas.Markov
import Verif.Lemmas.Cells
import Verif.Props.FuncTensor
import Verif.Props.TensorSum

/-!
# `Linear` and `Quadratic` on Tensors
-/

set_option linter.unusedSectionVars false

namespace Verif.Tens
open Verif.Params
open NDArray

/-! ### sums of arrays -/

theorem sumOver_unravel : ∀ (l : List Nat) (F : List Nat → ℝ),
    sumOver l F = ∑ a ∈ Finset.range l.prod, F ((List.range l.length).map (unravel l a))
  | [], F => by simp [sumOver]
  | s :: l, F => by
    have ih := fun i : Nat => sumOver_unravel l fun k => F (i :: k)
    unfold sumOver
    simp only [ih]
    rw [← Finset.sum_product']
    have hpos : ∀ x : Nat × Nat, x ∈ Finset.range s ×ˢ Finset.range l.prod → x.1 < s ∧ x.2 < l.prod := fun x hx => by
      simpa using hx
    refine Finset.sum_nbij' (fun x => x.1 * l.prod + x.2) (fun a => (a / l.prod, a % l.prod)) (fun x hx => ?_) (fun a ha => ?_)
      (fun x hx => ?_) (fun a ha => ?_) fun x hx => ?_
    · obtain ⟨h1, h2⟩ := hpos x hx
      rw [Finset.mem_range, List.prod_cons]
      calc x.1 * l.prod + x.2 < x.1 * l.prod + l.prod := by omega
        _ = (x.1 + 1) * l.prod := by ring
        _ ≤ s * l.prod := Nat.mul_le_mul_right _ h1
    · rw [Finset.mem_range, List.prod_cons] at ha
      have h0 : 0 < l.prod := Nat.pos_of_ne_zero fun h0 => by rw [h0] at ha; omega
      simp only [Finset.mem_product, Finset.mem_range]
      exact ⟨Nat.div_lt_of_lt_mul (by rw [mul_comm]; exact ha), Nat.mod_lt _ h0⟩
    · obtain ⟨h1, h2⟩ := hpos x hx
      have h0 : 0 < l.prod := by omega
      refine Prod.ext ?_ ?_
      · show (x.1 * l.prod + x.2) / l.prod = x.1
        rw [mul_comm, Nat.mul_add_div h0, Nat.div_eq_of_lt h2, add_zero]
      · show (x.1 * l.prod + x.2) % l.prod = x.2
        rw [mul_comm, Nat.mul_add_mod, Nat.mod_eq_of_lt h2]
    · show a / l.prod * l.prod + a % l.prod = a
      rw [mul_comm]
      exact Nat.div_add_mod a l.prod
    · obtain ⟨h1, h2⟩ := hpos x hx
      have h0 : 0 < l.prod := by omega
      congr 1
      rw [List.length_cons, List.range_succ_eq_map, List.map_cons, List.map_map]
      congr 1
      · show _ = (x.1 * l.prod + x.2) / l.prod
        rw [mul_comm, Nat.mul_add_div h0, Nat.div_eq_of_lt h2, add_zero]
      · refine List.map_congr_left fun k _ => ?_
        show _ = unravel l ((x.1 * l.prod + x.2) % l.prod) k
        rw [mul_comm, Nat.mul_add_mod, Nat.mod_eq_of_lt h2]

theorem arraySum_eq (v : NDArray ℝ) {l : List Nat} (hl : (List.range v.ndim).map v.shape = l) :
    arraySum v = ∑ a ∈ Finset.range l.prod, v.get (unravel l a) := by
  have hlen : l.length = v.ndim := by rw [← hl]; simp
  have h : arraySum v = sumOver l fun k => v.get fun j =>
      if j ∈ List.range v.ndim then k.getD ((List.range v.ndim).idxOf j) 0 else 0 := by
    unfold arraySum sumAxes
    show sumOver ((List.range v.ndim).map v.shape) _ = _
    rw [hl]
    congr 1
    funext k
    apply NDArray.get_congr
    intro j hj
    rw [if_pos (List.mem_range.2 hj), if_pos (List.mem_range.2 hj)]
  rw [h, sumOver_unravel]
  refine Finset.sum_congr rfl fun a _ => ?_
  apply NDArray.get_congr
  intro j hj
  have hi : (List.range v.ndim).idxOf j = j := by
    have := List.nodup_range (n := v.ndim)
    have := this.idxOf_getElem j (by simpa using hj)
    simpa using this
  rw [if_pos (List.mem_range.2 hj), hi, List.getD_eq_getElem _ _ (by simpa [hlen] using hj)]
  simp

/-! ### sums of diagonal Tensors -/

theorem diag_sum (W : NDArray ℝ) {y : Nat} (hy : y = 0 ∨ y = W.ndim) :
    ∃ t r : Tensor ℝ, hessTensor W W.ndim y .diag .diag 0 = .ok t ∧ (Num.tensor t).sumAll = .ok (.tensor r) ∧ r.WF ∧ r.xDim = W.ndim ∧
      r.yDim = y ∧ r.n = 0 ∧ r.dim = 0 ∧ r.xMap = [] ∧ r.yMap = [] ∧ (∀ k < W.ndim, r.values.shape k = W.shape k) ∧
      (∀ k < y, r.values.shape (W.ndim + k) = W.shape k) ∧
      ∀ i : Idx, (∀ k < W.ndim, i.x k < W.shape k) → (∀ k < y, i.y k < W.shape k) →
        r.dense i = if ∀ k < y, i.y k = i.x k then W.get i.x else 0 := by
  obtain ⟨t, t1, t2, t3, t4, t5, t6, t7, t8, t9, t10⟩ := C62_hess_tensor W (xd := W.ndim) (yd := y) (n := W.ndim) (dim := 0)
    (xm := .diag) (ym := .diag) (Nat.le_refl _) (show y ≤ W.ndim by omega) (by simp [MapArg.isNone])
  have e0 : (if MapArg.diag.isNone = true then W.ndim else 0) = 0 := rfl
  have e0' : (if MapArg.diag.isNone = true then y else 0) = 0 := rfl
  rw [e0, e0'] at t9
  simp only [e0, e0'] at t10
  have gx : ∀ d k, k < d → (MapArg.diag.map d).getD k (-1) = (k : Int) := by
    intro d k hk
    simp [MapArg.map, List.getD_eq_getElem?_getD, hk]
  have inj : ∀ d, ((MapArg.diag.map d).filter fun f => 0 ≤ f).Nodup := by
    intro d
    refine List.Nodup.filter _ ?_
    unfold MapArg.map
    exact List.nodup_range.map fun a b h => by exact_mod_cast h
  have hinj : t.MapsInjective := ⟨by rw [t7]; exact inj _, by rw [t8]; exact inj _⟩
  obtain ⟨r, r1, r2, r3, r4, r5, r6, r7, r8, r9, -, r10⟩ := C55_sum_all_partial t2 hinj true
  have hfs : ∀ k, r.fullShape k = r.values.shape k := by
    intro k
    unfold Tensor.fullShape
    rw [r7, r8]
    simp
  have sx : ∀ k < W.ndim, r.values.shape k = W.shape k := by
    intro k hk
    rw [← hfs, r9 k (by omega)]
    unfold Tensor.fullShape
    rw [if_pos (by omega), t7, gx _ _ hk, if_pos (by omega), t3, t4]
    have := t9 k (by omega)
    simpa using this
  have sy : ∀ k < y, r.values.shape (W.ndim + k) = W.shape k := by
    intro k hk
    rw [← hfs, r9 _ (by omega)]
    unfold Tensor.fullShape
    rw [if_neg (by omega), if_pos (by omega), t3, show W.ndim + k - W.ndim = k by omega, t8, gx _ _ hk, if_pos (by omega), t4]
    have := t9 k (by omega)
    simpa using this
  refine ⟨t, r, t1, ?_, r2, by omega, by omega, r5, r6, r7, r8, sx, sy, fun i hx hyy => ?_⟩
  · unfold Num.sumAll Num.sum
    dsimp only
    rw [r1]
  · rw [r10 i]
    · unfold Tensor.sumDense
      rw [t5, t6, if_pos rfl, sumAt_range]
      have hs : ∀ k < W.ndim, t.values.shape (t.xDim + t.yDim + k) = W.shape k := by
        intro k hk
        rw [t3, t4, t9 k (by omega)]
        simp
      have hterm : ∀ (n : Nat → Nat), sumAt (fun k => t.values.shape (t.xDim + t.yDim + W.ndim + k)) (List.range 0) (fun d => t.dense ⟨i.x, i.y, n, d⟩) i.d =
          if (∀ k < W.ndim, i.x k = n k) ∧ ∀ k < y, i.y k = n k then W.bget n else 0 := by
        intro n
        show t.dense ⟨i.x, i.y, n, i.d⟩ = _
        rw [t10]
        simp only [agrees_range]
        have : W.bget (Tens.flat 0 0 W.ndim ⟨i.x, i.y, n, i.d⟩) = W.bget n := by
          apply W.bget_congr'
          intro k hk
          unfold Tens.flat
          simp [hk]
        rw [this]
      simp only [hterm]
      let c0 : ∀ k : Fin W.ndim, Fin (t.values.shape (t.xDim + t.yDim + k)) := fun k => ⟨i.x k, by rw [hs k k.2]; exact hx k k.2⟩
      rw [Finset.sum_eq_single c0]
      · have hext : ∀ k < W.ndim, extend W.ndim (fun f => t.values.shape (t.xDim + t.yDim + f)) c0
            (fun f => i.n (f - ((List.range W.ndim).filter (· < f)).length)) k = i.x k := by
          intro k hk
          unfold extend
          rw [dif_pos hk]
        rw [← get_eq_bget1]
        · by_cases h : ∀ k < y, i.y k = i.x k
          · rw [if_pos h, if_pos ⟨fun k hk => (hext k hk).symm, fun k hk => by rw [h k hk, hext k (by omega)]⟩]
            apply NDArray.get_congr
            intro k hk
            exact hext k hk
          · rw [if_neg h, if_neg]
            rintro ⟨-, h'⟩
            exact h fun k hk => by rw [h' k hk, hext k (by omega)]
        · intro k hk
          rw [hext k hk]
          intro h1
          have := hx k hk
          omega
      · intro c _ hc
        rw [if_neg]
        rintro ⟨h, -⟩
        refine hc (funext fun k => Fin.ext ?_)
        have := h k k.2
        unfold extend at this
        rw [dif_pos k.2] at this
        exact this.symm
      · intro h
        exact absurd (Finset.mem_univ _) h
    · intro k hk
      have hnd : r.values.ndim = W.ndim + y := by
        rw [r2.nd, r3, r4, r5, r6]; simp; omega
      rw [hnd] at hk
      unfold Tensor.flat
      rw [hfs, r3, r4]
      by_cases hk' : k < t.xDim
      · rw [flat_x hk', sx k (by omega)]; exact hx k (by omega)
      · obtain ⟨j, rfl⟩ : ∃ j, k = t.xDim + j := ⟨k - t.xDim, by omega⟩
        rw [flat_y (by omega), t3, sy j (by omega)]; exact hyy j (by omega)

end Verif.Tens
