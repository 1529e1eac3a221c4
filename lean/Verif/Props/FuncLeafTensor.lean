import Verif.Lemmas.PointTensor
import Verif.Model.LeavesTensor
import Verif.Props.Leaves

/-!
# C64: the elementary functions on Tensors
-/

set_option linter.unusedSectionVars false

namespace Verif.Tens
open Verif.Params (Err)
open NDArray

section
variable {pr : Problem} {N : Numbering pr 1}

/-- A parameter given as an array. -/
abbrev asParam (v : NDArray ℝ) : Tensor ℝ := ⟨v, 0, 0, 0, [], []⟩

theorem isParams_one (hP : pr.Pointwise 1) {θ : Theta} {ps : List (Tensor ℝ)} (h : N.IsParams θ ps) :
    ∃ v : NDArray ℝ, ps = [asParam v] ∧ v.ndim = pr.n ∧ (∀ k < pr.n, v.shape k = pr.S k) ∧
      ∀ n d, pr.Pos n d → v.get n = θ 0 (N.num 0 n) := by
  obtain ⟨h1, h2⟩ := h
  obtain ⟨v, v1, v2, v3, v4⟩ := h2 0 (by omega)
  obtain ⟨p1, p2⟩ := hP 0 (by omega)
  refine ⟨v, ?_, by rw [v2, p1], fun k hk => ?_, fun n d hnd => ?_⟩
  · match ps, h1 with
    | [t], _ => simpa using v1
  · rw [v3 k (by omega), p2 k hk]
  · have he := Pos.entry hP hnd (p := 0) (by omega)
    have e := N.e_num 0 (by omega) n he
    have := v4 (N.num 0 n) (by rw [e]; exact he)
    rwa [e] at this

/-- A function of one number, with its first and second derivatives, at the outcomes `O`. -/
structure OneFun (U : ℝ → Prop) (O : (Nat → Nat) → Prop) (φ φ1 φ2 : ℝ → (Nat → Nat) → ℝ) : Prop where
  h1 : ∀ u, U u → ∀ o, O o → HasDerivAt (fun t => φ t o) (φ1 u o) u
  h2 : ∀ u, U u → ∀ o, O o → HasDerivAt (fun t => φ1 t o) (φ2 u o) u

theorem OneFun.point {U : ℝ → Prop} {O : (Nat → Nat) → Prop} {φ φ1 φ2 : ℝ → (Nat → Nat) → ℝ} (h : OneFun U O φ φ1 φ2) :
    PointFun 1 (fun u => U (u 0)) O (fun u o => φ (u 0) o) (fun u _ o => φ1 (u 0) o) fun u _ _ o => φ2 (u 0) o where
  h1 u hu p hp o ho := by
    have : p = 0 := by omega
    subst this
    simpa using h.h1 _ hu o ho
  h2 u hu p hp q hq o ho := by
    have : q = 0 := by omega
    subst this
    simpa using h.h2 _ hu o ho

/-- All entries of the only parameter are in `U`. -/
def allEntries (N : Numbering pr 1) (U : ℝ → Prop) (θ : Theta) : Prop := ∀ n d, pr.Pos n d → U (θ 0 (N.num 0 n))

/-- The value of a function of one number, at the position. -/
def atEntry (N : Numbering pr 1) (φ : ℝ → (Nat → Nat) → ℝ) : Val := fun θ n d => φ (θ 0 (N.num 0 n)) d

theorem leaf_computes (hP : pr.Pointwise 1) {f : TFunc ℝ} (he : ∀ ps, f.eval ps = f.sep ps) (hg : f.gradNull = false)
    {U : ℝ → Prop} {O : (Nat → Nat) → Prop} (hO : ∀ n d, pr.Pos n d → O d) {φ φ1 φ2 : ℝ → (Nat → Nat) → ℝ}
    (hf : OneFun U O φ φ1 φ2) (V G H : NDArray ℝ → NDArray ℝ)
    (hc : ∀ v, f.call [asParam v] = ofArray (V v) pr.d)
    (hd : ∀ v, f.grad [asParam v] 0 = (gradTensor (G v) v.ndim .diag pr.d).map fun t => .arr (.tensor t))
    (hh : f.hessNull = false ∧ (∀ v, f.hess [asParam v] 0 0 =
      (hessTensor (H v) v.ndim v.ndim .diag .diag pr.d).map fun t => .arr (.tensor t)) ∨
      (∀ ps i j, f.hess ps i j = .ok zeroT) ∧ ∀ u o, φ2 u o = 0)
    (hR : ∀ v : NDArray ℝ, v.ndim = pr.n → (∀ k < pr.n, v.shape k = pr.S k) →
      Reads pr (V v) (fun n d => φ (v.get n) d) ∧ Reads pr (G v) (fun n d => φ1 (v.get n) d) ∧
      Reads pr (H v) (fun n d => φ2 (v.get n) d)) :
    Computes pr N (fun _ => True) (Store.leaf pr) (allEntries N U) f (atEntry N φ) := by
  refine ⟨⟨_, _, point_smooth (U := fun u => U (u 0)) hO hf.point, fun θ hθ ps hps => ?_⟩, fun h => (by simp [hg] at h), ?_⟩
  · obtain ⟨v, rfl, v1, v2, v3⟩ := isParams_one hP hps
    obtain ⟨r1, r2, r3⟩ := hR v v1 v2
    have conv : ∀ {w : NDArray ℝ} {ψ : ℝ → (Nat → Nat) → ℝ}, Reads pr w (fun n d => ψ (v.get n) d) →
        Reads pr w fun n d => ψ (atPos N θ n 0) d := by
      intro w ψ h
      refine ⟨h.nd, h.sh, fun n d hnd => ?_⟩
      rw [h.get n d hnd, v3 n d hnd]
      rfl
    obtain ⟨tV, tD, tH, t1, t2, t3, t4, t5⟩ := point_values (N := N) hP θ (fun u o => φ (u 0) o) (fun u _ o => φ1 (u 0) o)
      (fun u _ _ o => φ2 (u 0) o) (V := V v) (G := fun _ => G v) (H := fun _ _ => H v) (conv r1) (fun _ _ => conv r2)
      fun _ _ _ _ => conv r3
    have hnd : v.ndim = pr.nd 0 := by rw [v1, (hP 0 (by omega)).1]
    rw [he, and_self]
    have c1 : f.call [asParam v] = .ok (.arr (.tensor tV)) := by
      rw [hc]
      unfold ofArray
      rw [t1]; rfl
    have c2 : ∀ p < 1, f.grad [asParam v] p = .ok (.arr (.tensor (tD p))) := by
      intro p hp
      have : p = 0 := by omega
      subst this
      rw [hd, hnd, t2 0 hp]; rfl
    rcases hh with ⟨-, hh⟩ | ⟨hh, hz⟩
    · refine ⟨tV, fun p => .tensor (tD p), fun p q => .tensor (tH p q), (sep_iff rfl).2 ⟨c1, c2, ?_⟩, t4, t5⟩
      intro p hp q hq
      have : p = 0 := Nat.lt_one_iff.1 hp
      subst this
      have : q = 0 := by omega
      subst this
      rw [hh, hnd, t3 0 hp 0 hq]; rfl
    · refine ⟨tV, fun p => .tensor (tD p), fun _ _ => zeroN, (sep_iff rfl).2 ⟨c1, c2, fun p _ q _ => hh _ p q⟩,
        t4.withZeroHess ?_, t5.withZeroHess fun _ _ _ _ h => h.elim⟩
      intro p _ q _ a b _ _ n d _
      simp only [hz, ite_self]
  · intro h ps i j
    rcases hh with ⟨hh, -⟩ | ⟨hh, -⟩
    · simp [hh] at h
    · exact hh ps i j

/-! ### functions of each entry -/

theorem reads_map (hd : pr.d = 0) {v : NDArray ℝ} (h1 : v.ndim = pr.n) (h2 : ∀ k < pr.n, v.shape k = pr.S k) (φ : ℝ → ℝ) :
    Reads pr (v.map φ) fun n _ => φ (v.get n) := by
  refine ⟨by rw [hd]; exact h1, fun k hk => h2 k (by omega), fun n d hnd => ?_⟩
  rw [map_get]
  congr 1
  refine get_congr v fun k hk => ?_
  rw [if_pos (by omega)]

theorem reads_self (hd : pr.d = 0) {v : NDArray ℝ} (h1 : v.ndim = pr.n) (h2 : ∀ k < pr.n, v.shape k = pr.S k) :
    Reads pr v fun n _ => v.get n := by
  refine ⟨by rw [hd]; exact h1, fun k hk => h2 k (by omega), fun n d hnd => ?_⟩
  refine get_congr v fun k hk => ?_
  rw [if_pos (by omega)]

theorem entry_computes (hP : pr.Pointwise 1) (hd : pr.d = 0) {U : ℝ → Prop} {φ φ1 φ2 : ℝ → ℝ}
    (h1 : ∀ u, U u → HasDerivAt φ (φ1 u) u) (h2 : ∀ u, U u → HasDerivAt φ1 (φ2 u) u) :
    Computes pr N (fun _ => True) (Store.leaf pr) (allEntries N U) (entryT φ φ1 φ2) (atEntry N fun u _ => φ u) := by
  refine leaf_computes (O := fun _ => True) hP (fun _ => rfl) rfl (fun _ _ _ => trivial)
    (φ1 := fun u _ => φ1 u) (φ2 := fun u _ => φ2 u) ⟨fun u hu _ _ => h1 u hu, fun u hu _ _ => h2 u hu⟩
    (fun v => v.map φ) (fun v => v.map φ1) (fun v => v.map φ2) (fun v => ?_) (fun v => ?_) (Or.inl ⟨rfl, fun v => ?_⟩)
    fun v v1 v2 => ⟨reads_map hd v1 v2 φ, reads_map hd v1 v2 φ1, reads_map hd v1 v2 φ2⟩
  all_goals rw [hd]; rfl

theorem allEntries_true (N : Numbering pr 1) : allEntries N (fun _ => True) = fun _ => True := by
  funext θ
  simp [allEntries]

/-- **C64.** `X` of an array. -/
theorem C64_X (hP : pr.Pointwise 1) (hd : pr.d = 0) :
    Computes pr N (fun _ => True) (Store.leaf pr) (fun _ => True) xT fun θ n _ => θ 0 (N.num 0 n) := by
  rw [← allEntries_true N]
  refine leaf_computes (O := fun _ => True) hP (fun _ => rfl) rfl (fun _ _ _ => trivial)
    (φ := fun u _ => u) (φ1 := fun u _ => 1) (φ2 := fun u _ => 0) ⟨fun u hu _ _ => hasDerivAt_id u, fun u hu _ _ => hasDerivAt_const _ _⟩
    (fun v => v) (fun v => v.map fun _ => 1) (fun v => v.map fun _ => 0) (fun v => ?_) (fun v => ?_)
    (Or.inr ⟨fun _ _ _ => rfl, fun _ _ => rfl⟩)
    fun v v1 v2 => ⟨reads_self hd v1 v2, reads_map hd v1 v2 _, reads_map hd v1 v2 _⟩
  all_goals rw [hd]; rfl

/-- **C64.** `Exp` of an array. -/
theorem C64_Exp (hP : pr.Pointwise 1) (hd : pr.d = 0) :
    Computes pr N (fun _ => True) (Store.leaf pr) (fun _ => True) expT fun θ n _ => Real.exp (θ 0 (N.num 0 n)) := by
  rw [← allEntries_true N]
  exact entry_computes hP hd (fun u _ => Real.hasDerivAt_exp u) fun u _ => Real.hasDerivAt_exp u

/-- **C64.** `Log` of an array, where no entry is zero. -/
theorem C64_Log (hP : pr.Pointwise 1) (hd : pr.d = 0) :
    Computes pr N (fun _ => True) (Store.leaf pr) (fun θ => ∀ n d, pr.Pos n d → θ 0 (N.num 0 n) ≠ 0) logT
      fun θ n _ => Real.log (θ 0 (N.num 0 n)) := by
  refine entry_computes (U := fun u => u ≠ 0) hP hd (fun u hu => ?_) fun u hu => ?_
  · simpa using Real.hasDerivAt_log hu
  · have := hasDerivAt_inv hu
    simp only [one_div]
    refine HasDerivAt.congr_deriv this ?_
    simp [neg_div]

/-- **C64.** `Logistic` of an array. -/
theorem C64_Logistic (hP : pr.Pointwise 1) (hd : pr.d = 0) :
    Computes pr N (fun _ => True) (Store.leaf pr) (fun _ => True) logisticT fun θ n _ => 1 / (1 + Real.exp (-θ 0 (N.num 0 n))) := by
  rw [← allEntries_true N]
  refine entry_computes hP hd (fun u _ => Func.hasDerivAt_expit u) fun u _ => ?_
  have h := Func.hasDerivAt_expit u
  refine HasDerivAt.congr_deriv (h.fun_mul (h.const_sub 1)) ?_
  ring

/-- **C64.** `ArcTan` of an array. -/
theorem C64_ArcTan (hP : pr.Pointwise 1) (hd : pr.d = 0) :
    Computes pr N (fun _ => True) (Store.leaf pr) (fun _ => True) arctanT fun θ n _ => Real.arctan (θ 0 (N.num 0 n)) := by
  rw [← allEntries_true N]
  refine entry_computes hP hd (fun u _ => ?_) fun u _ => ?_
  · refine HasDerivAt.congr_deriv (Real.hasDerivAt_arctan _) ?_
    rw [sq]
  · have hpos : (1 : ℝ) + u * u ≠ 0 := by nlinarith [mul_self_nonneg u]
    have h1 : HasDerivAt (fun z : ℝ => 1 + z * z) (1 * u + u * 1) u :=
      ((hasDerivAt_id u).fun_mul (hasDerivAt_id u)).const_add 1
    refine HasDerivAt.congr_deriv ((hasDerivAt_const u (1 : ℝ)).fun_div h1 hpos) ?_
    congr 1
    ring

/-! ### functions with an outcome axis -/

theorem reads_addAxis (hd : pr.d = 1) {size : Nat} (hs : pr.S pr.n = size) {v : NDArray ℝ} (h1 : v.ndim = pr.n)
    (h2 : ∀ k < pr.n, v.shape k = pr.S k) (row : ℝ → List ℝ) :
    Reads pr (addAxis row size v) fun n d => (row (v.get n)).getD (d 0) 0 := by
  refine ⟨by rw [hd, ← h1]; rfl, fun k hk => ?_, fun n d hnd => ?_⟩
  · show (if k < v.ndim then v.shape k else size) = pr.S k
    rw [h1]
    split_ifs with hc
    · exact h2 k hc
    · rw [show k = pr.n by omega, hs]
  · have e : (v.get fun k => if k < pr.n + 1 then if k < pr.n then n k else d (k - pr.n) else 0) = v.get n := by
      refine get_congr v fun k hk => ?_
      rw [if_pos (by omega), if_pos (by omega)]
    show (row (v.get fun k => if k < v.ndim + 1 then if k < pr.n then n k else d (k - pr.n) else 0)).getD
      (if v.ndim < v.ndim + 1 then if v.ndim < pr.n then n v.ndim else d (v.ndim - pr.n) else 0) 0 = _
    rw [h1, e, if_pos (by omega), if_neg (by omega), Nat.sub_self]

theorem row_computes (hP : pr.Pointwise 1) (hd : pr.d = 1) {size : Nat} (hs : pr.S pr.n = size) {U : ℝ → Prop}
    {row row1 row2 : ℝ → List ℝ} (h1 : ∀ u, U u → ∀ k < size, HasDerivAt (fun t => (row t).getD k 0) ((row1 u).getD k 0) u)
    (h2 : ∀ u, U u → ∀ k < size, HasDerivAt (fun t => (row1 t).getD k 0) ((row2 u).getD k 0) u) :
    Computes pr N (fun _ => True) (Store.leaf pr) (allEntries N U) (rowT row row1 row2 size) (atEntry N fun u d => (row u).getD (d 0) 0) := by
  refine leaf_computes (O := fun o => o 0 < size) hP (fun _ => rfl) rfl (fun n d hnd => ?_)
    (φ1 := fun u d => (row1 u).getD (d 0) 0) (φ2 := fun u d => (row2 u).getD (d 0) 0)
    ⟨fun u hu o ho => h1 u hu _ ho, fun u hu o ho => h2 u hu _ ho⟩
    (addAxis row size) (addAxis row1 size) (addAxis row2 size) (fun v => ?_) (fun v => ?_) (Or.inl ⟨rfl, fun v => ?_⟩)
    fun v v1 v2 => ⟨reads_addAxis hd hs v1 v2 row, reads_addAxis hd hs v1 v2 row1, reads_addAxis hd hs v1 v2 row2⟩
  · have := hnd.2.2.1 0 (by omega)
    rwa [Nat.add_zero, hs] at this
  all_goals rw [hd]; rfl

/-- A function may be replaced by another one with the same values. -/
theorem Computes.congr {m : Nat} {N : Numbering pr m} {K : Nat → Prop} {tot : Store} {dom : Theta → Prop} {f : TFunc ℝ}
    {val val' : Val} (h : Computes pr N K tot dom f val) (he : ∀ θ n d, pr.Pos n d → val θ n d = val' θ n d) :
    Computes pr N K tot dom f val' := by
  obtain ⟨⟨der, hess, hs, hr⟩, h2, h3⟩ := h
  have hR : ∀ {θ x}, Returns pr N K tot θ val der hess x → Returns pr N K tot θ val' der hess x := by
    rintro θ x ⟨V, D, H, e, hv, ht⟩
    exact ⟨V, D, H, e, { hv with v := fun n d hnd x y => by rw [hv.v n d hnd, he θ n d hnd] }, ht⟩
  refine ⟨⟨der, hess, ⟨fun θ hθ p hp a ha n d hnd => ?_, hs.hh⟩, fun θ hθ ps hps => ⟨hR (hr θ hθ ps hps).1, hR (hr θ hθ ps hps).2⟩⟩, h2, h3⟩
  have : (fun θ => val' θ n d) = fun θ => val θ n d := funext fun θ => (he θ n d hnd).symm
  rw [this]
  exact hs.hd θ hθ p hp a ha n d hnd

/-- Less may be said about how the results are stored. -/
theorem Computes.weaken {m : Nat} {N : Numbering pr m} {K : Nat → Prop} {s s' : Store} {dom : Theta → Prop} {f : TFunc ℝ}
    {val : Val} (h : Computes pr N K s dom f val) (h1 : s'.tot → s.tot)
    (h0 : ∀ k < pr.n + pr.d, s'.full k → s.full k) (h2 : s'.mapped → s.mapped) (h3 : ∀ p < m, s'.used p → s.used p)
    (h4 : s'.clean → s.clean) (h5 : ∀ p < m, s'.single p → s.single p) (h6 : ∀ p < m, s'.dead p → s.dead p)
    (h7 : ∀ p < m, ∀ q ≤ p, s'.curved p q → s.curved p q := by intro _ _ _ _ h; exact h.elim) :
    Computes pr N K s' dom f val := by
  obtain ⟨⟨der, hess, hs, hr⟩, g1, g2⟩ := h
  have hR : ∀ {θ x}, Returns pr N K s θ val der hess x → Returns pr N K s' θ val der hess x := by
    rintro θ x ⟨V, D, H, e, hv, ht⟩
    exact ⟨V, D, H, e, hv, fun h => ⟨(ht.tot (h1 h)).1, (ht.tot (h1 h)).2.1, fun k hk hf => (ht.tot (h1 h)).2.2 k hk (h0 k hk hf)⟩, fun h => ht.mapD (h2 h), fun h => ht.mapH (h2 h), fun p hp h => ht.live p hp (h3 p hp h),
      fun h => ht.cleanD (h4 h), fun h => ht.cleanH (h4 h), fun p hp h => ht.single p hp (h5 p hp h), fun p hp h => ht.dead p hp (h6 p hp h),
      fun p hp q hq h => ht.liveH p hp q hq (h7 p hp q hq h), fun h => ht.wide (h4 h)⟩
  exact ⟨⟨der, hess, hs, fun θ hθ ps hps => ⟨hR (hr θ hθ ps hps).1, hR (hr θ hθ ps hps).2⟩⟩, g1, g2⟩

theorem Computes.ofSolid {m : Nat} {N : Numbering pr m} {K S : Nat → Prop} {dom : Theta → Prop} {f : TFunc ℝ}
    {val : Val} (h : Computes pr N K (Store.solid S) dom f val) : Computes pr N K (Store.whole S) dom f val :=
  h.weaken (fun h => h) (fun _ _ h => h) (fun h => h) (fun _ _ h => h) (fun h => h) (fun _ _ h => h) fun _ _ h => h

/-- **C64.** `Poisson(size)`: `a ^ x / x!` for the outcomes `x`. -/
theorem C64_Poisson (hP : pr.Pointwise 1) (hd : pr.d = 1) {size : Nat} (hs : pr.S pr.n = size) :
    Computes pr N (fun _ => True) (Store.leaf pr) (fun _ => True) (poissonT size)
      fun θ n d => (θ 0 (N.num 0 n)) ^ d 0 / ((d 0).factorial : ℝ) := by
  have := row_computes (N := N) (U := fun _ => True) hP hd hs (fun u _ k hk => Func.C30_poisson_grad hk u)
    fun u _ k hk => Func.C30_poisson_hess hk u
  rw [allEntries_true] at this
  refine this.congr fun θ n d hnd => ?_
  have hk := hnd.2.2.1 0 (by omega)
  rw [Nat.add_zero, hs] at hk
  exact Func.poissonRow_get hk _

/-- **C64.** `LogNegativeBinomial(size, r)`, where the entries of the parameter are positive. -/
theorem C64_LogNegativeBinomial (hP : pr.Pointwise 1) (hd : pr.d = 1) {size : Nat} (hs : pr.S pr.n = size) {r : ℝ} (hr : 0 < r) :
    Computes pr N (fun _ => True) (Store.leaf pr) (fun θ => ∀ n d, pr.Pos n d → 0 < θ 0 (N.num 0 n)) (logNegBinT size r)
      fun θ n d => (d 0 : ℝ) * Real.log (θ 0 (N.num 0 n)) + Real.log (Real.Gamma (r + d 0)) - Real.log (Real.Gamma r) +
        r * Real.log r - Real.log ((d 0).factorial : ℝ) - ((d 0 : ℝ) + r) * Real.log (r + θ 0 (N.num 0 n)) := by
  have := row_computes (N := N) (U := fun u => 0 < u) hP hd hs
    (fun u hu k hk => Func.C30_negbin_grad (r := r) hk (ne_of_gt hu) (by positivity))
    fun u hu k hk => Func.C30_negbin_hess (r := r) hk (ne_of_gt hu) (by positivity)
  refine this.congr fun θ n d hnd => ?_
  have hk := hnd.2.2.1 0 (by omega)
  rw [Nat.add_zero, hs] at hk
  exact Func.logNegBin_get hk _ _

end

/-! ### constants and functions of a number -/

section
variable {pr : Problem} {m : Nat} {N : Numbering pr m}

/-- **C64.** `Constant(vector)`, as a function of any number of parameters. -/
theorem C64_Constant (hd : pr.d = 0) {vector : NDArray ℝ} (h1 : vector.ndim = pr.n) (h2 : ∀ k < pr.n, vector.shape k = pr.S k) :
    Computes pr N (fun _ => True) .constant (fun _ => True) (constantT vector) fun _ n _ => vector.get n := by
  obtain ⟨tV, v1, v2, v3, v4, v5⟩ := point_value (reads_self hd h1 h2)
  refine ⟨⟨fun _ _ _ _ _ => 0, fun _ _ _ _ _ _ _ => 0, ⟨fun _ _ _ _ _ _ _ _ _ => hasDerivAt_const _ _,
    fun _ _ _ _ _ _ _ _ _ _ _ _ _ => hasDerivAt_const _ _⟩, fun θ _ ps hps => ?_⟩, fun _ _ _ => rfl, fun _ _ _ _ => rfl⟩
  have he : (constantT vector).eval ps = (constantT vector).sep ps := rfl
  rw [he, and_self]
  refine ⟨tV, fun _ => zeroN, fun _ _ => zeroN, (sep_iff hps.1).2 ⟨?_, fun _ _ => rfl, fun _ _ _ _ => rfl⟩,
    ⟨v3, v4, solid_iff.2 (Or.inr v2), v5, fun _ _ => zeroN_piece, fun _ _ => solid_iff.2 zeroN_solid, fun _ _ _ _ _ _ _ _ => zeroN_dense _,
      fun _ _ _ _ => zeroN_piece, fun _ _ _ _ => solid_iff.2 zeroN_solid, fun _ _ _ _ _ _ _ _ _ _ _ => zeroN_dense _⟩, fun _ => ⟨v2.1, v2.2⟩, fun _ _ _ => zeroN_mapped, fun _ _ _ _ _ => zeroN_mapped,
      fun _ _ h => h.elim, fun _ _ _ => zeroN_clean, fun _ _ _ _ _ => zeroN_clean, fun _ _ _ => zeroN_single, fun _ _ _ => zeroN_dead, fun _ _ _ _ h => h.elim,
      fun _ _ _ => zeroN_wide _⟩
  show ofArray vector 0 = _
  rw [hd] at v1
  unfold ofArray
  rw [v1]; rfl

end

section
variable {pr : Problem} {N : Numbering pr 1}

/-- The only entry of a parameter that is a number. -/
theorem entry_zero (h0 : pr.nd 0 = 0) : pr.Entry 0 fun _ => 0 :=
  ⟨fun k hk => by omega, fun _ _ => rfl⟩

theorem entry_number (h0 : pr.nd 0 = 0) {a : Nat} (ha : pr.Entry 0 (N.e 0 a)) : a = N.num 0 fun _ => 0 := by
  rw [← N.num_e 0 (by omega) a ha]
  congr 1
  funext k
  exact ha.2 k (by omega)

theorem isParams_number (h0 : pr.nd 0 = 0) {θ : Theta} {ps : List (Tensor ℝ)} (h : N.IsParams θ ps) :
    ∃ v : NDArray ℝ, ps = [asParam v] ∧ v.ndim = 0 ∧ ∀ i, v.get i = θ 0 (N.num 0 fun _ => 0) := by
  obtain ⟨h1, h2⟩ := h
  obtain ⟨v, v1, v2, v3, v4⟩ := h2 0 (by omega)
  refine ⟨v, ?_, by rw [v2, h0], fun i => ?_⟩
  · match ps, h1 with
    | [t], _ => simpa using v1
  · have e := N.e_num 0 (by omega) (fun _ => 0) (entry_zero h0)
    have := v4 (N.num 0 fun _ => 0) (by rw [e]; exact entry_zero h0)
    rw [← this]
    exact get_congr v fun k hk => by omega

/-- A function that is linear in a number. -/
theorem number_smooth (h0 : pr.nd 0 = 0) (c : (Nat → Nat) → ℝ) :
    Smooth pr N (fun _ => True) (fun θ n _ => θ 0 (N.num 0 fun _ => 0) * c n) (fun _ _ _ n _ => c n) fun _ _ _ _ _ _ _ => 0 where
  hd θ _ p hp a ha n d _ := by
    have : p = 0 := by omega
    subst this
    obtain rfl := entry_number h0 ha
    unfold HasPartial Theta.set
    simp only [and_self, if_true]
    simpa using (hasDerivAt_id _).mul_const (c n)
  hh θ _ p hp q hq a b ha hb n d _ := hasDerivAt_const _ _

theorem binary_number {α : Type} {f : α → α → α} {a b : NDArray α} (h : a.ndim = 0) :
    ∃ r, NDArray.binary f a b = .ok r ∧ r.ndim = b.ndim ∧ (∀ k < b.ndim, r.shape k = b.shape k) ∧
      ∀ idx, r.bget idx = f (a.get fun _ => 0) (b.bget idx) := by
  have hb := b.padFront_self
  have ha : ∀ k < b.ndim, (a.padFront b.ndim).shape k = 1 := by
    intro k hk
    show (if k < b.ndim - a.ndim then 1 else a.shape (k - (b.ndim - a.ndim))) = 1
    rw [if_pos (by omega)]
  obtain ⟨r, hr⟩ := zipWith_isOk (f := f) (a := a.padFront b.ndim) (b := b.padFront b.ndim) fun k hk => Or.inr (Or.inl (ha k hk))
  obtain ⟨r1, r2, -, r4⟩ := zipWith_ok hr rfl
  refine ⟨r, ?_, r1, fun k hk => by rw [r2, ha k hk, if_pos rfl, hb.2.1], fun idx => ?_⟩
  · unfold NDArray.binary
    rw [h, Nat.zero_max]
    exact hr
  · rw [r4, hb.2.2]
    congr 1
    unfold padFront
    rw [reaxis_bget a (fun j hj => by omega) (fun j hj => by omega)]
    exact get_congr a fun k hk => by omega

/-- **C64.** `Vector(vector)`: the number times the vector. -/
theorem C64_Vector (h0 : pr.nd 0 = 0) (hd : pr.d = 0) {vector : NDArray ℝ} (h1 : vector.ndim = pr.n) (h2 : ∀ k < pr.n, vector.shape k = pr.S k) :
    Computes pr N (fun _ => True) (Store.leaf pr) (fun _ => True) (vectorT vector) fun θ n _ => θ 0 (N.num 0 fun _ => 0) * vector.get n := by
  refine ⟨⟨_, _, number_smooth h0 (vector.get ·), fun θ _ ps hps => ?_⟩, (by intro h; cases h), fun _ _ _ _ => rfl⟩
  have he : (vectorT vector).eval ps = (vectorT vector).sep ps := rfl
  rw [he, and_self]
  obtain ⟨v, rfl, v1, v2⟩ := isParams_number h0 hps
  have hmul : ∃ w, NDArray.binary (· * ·) v vector = .ok w ∧ Reads pr w fun n _ => θ 0 (N.num 0 fun _ => 0) * vector.get n := by
    obtain ⟨w, w1, w2, w3, w4⟩ := binary_number (f := (· * ·)) (a := v) (b := vector) v1
    refine ⟨w, w1, by rw [w2, h1]; omega, fun k hk => by rw [w3 k (by omega), h2 k (by omega)], fun n d hnd => ?_⟩
    have r := reads_self hd h1 h2
    have hin : InRange vector fun k => if k < pr.n then n k else d (k - pr.n) := by
      intro k hk
      rw [h2 k (by omega)]
      dsimp only
      rw [if_pos (by omega)]
      exact hnd.1 k (by omega)
    rw [get_eq_bget, w4, v2, ← get_eq_bget _ hin, r.get n d hnd]
    intro k hk
    rw [w3 k (by omega)]
    exact hin k (by omega)
  obtain ⟨w, w1, w2⟩ := hmul
  obtain ⟨tV, t1, t2, t3, t4, t5⟩ := point_value w2
  obtain ⟨t, g1, g2, g3, g4, g5, g6, g7, g8, g9, g10⟩ := C62_grad_tensor vector (xd := 0) (n := pr.n) (dim := 0) (xm := .none)
    trivial (by rw [h1]; simp [MapArg.isNone])
  have hvec := reads_self hd h1 h2
  have hsz : ∀ k < pr.n + pr.d, t.values.shape (t.xDim + t.yDim + k) = pr.S k := by
    intro k hk
    rw [g3, g4, Nat.add_zero, g9 k (by omega), ← h2 k (by omega)]
    simp [MapArg.isNone]
  have hp : OnPiece (fun _ => True) (pr.layout 0 0).noY t := by
    refine ⟨⟨g2, ⟨by rw [g7]; simp [MapArg.map], by rw [g8]; simp⟩, Or.inl g3, Or.inl g4, g5, Or.inl g6, ?_, ?_, ?_⟩,
      by rw [g6]; exact hd.symm, fun k hk _ => hsz k hk⟩
    · intro k hk
      left
      rw [g6] at hk
      exact hsz k (Nat.lt_of_lt_of_le hk (by show pr.n + 0 ≤ pr.n + pr.d; omega))
    · intro k hk; omega
    · intro k hk; omega
  refine ⟨tV, fun _ => .tensor t, fun _ _ => zeroN, (sep_iff rfl).2 ⟨?_, ?_, fun _ _ _ _ => rfl⟩,
    ⟨t3, t4, solid_iff.2 (Or.inr t2), t5, ?_, ?_, ?_,
      fun _ _ _ _ => zeroN_piece, fun _ _ _ _ => solid_iff.2 zeroN_solid, fun _ _ _ _ _ _ _ _ _ _ _ => zeroN_dense _⟩, fun _ => ⟨t2.1, t2.2⟩,
      fun _ _ _ => Tensor.mapped_novars g3 g4, fun _ _ _ _ _ => zeroN_mapped, fun p hq hu => ⟨live_of hp hu, by rw [show p = 0 by omega, g3, h0]⟩,
      fun _ _ _ => trivial, fun _ _ _ _ _ => trivial, fun _ _ _ => trivial, fun _ _ h => h.elim, fun _ _ _ _ h => h.elim,
      fun _ p hp => Or.inr (by rw [show p = 0 by omega, g3, h0])⟩
  · show (do let w ← NDArray.binary (· * ·) v vector; ofArray w 0) = _
    rw [hd] at t1
    rw [w1, ok_bind']
    unfold ofArray
    rw [t1]; rfl
  · intro p hp
    have : p = 0 := by simpa using hp
    subst this
    show (gradTensor vector v.ndim .none 0).map _ = _
    rw [v1, g1]; rfl
  · intro p hp'
    have : p = 0 := by omega
    subst this
    exact Or.inl hp.1
  · intro p hp'
    have : p = 0 := by omega
    subst this
    exact solid_iff.2 (Or.inr hp)
  · intro p hp' a ha n d hnd y
    show t.dense _ = _
    rw [g10, if_pos (show Agrees (MapArg.map 0 MapArg.none) _ _ from agrees_nil _ _)]
    have : (if MapArg.none.isNone = true then 0 else 0) = 0 := by simp
    rw [this]
    exact hvec.bget hnd _ _

/-- **C64.** `Scalar`: the number. -/
theorem C64_Scalar (h0 : pr.nd 0 = 0) (hn : pr.n = 0) (hd : pr.d = 0) :
    Computes pr N (fun _ => True) (.whole fun _ => True) (fun _ => True) scalarT fun θ _ _ => θ 0 (N.num 0 fun _ => 0) := by
  have hs := number_smooth (N := N) h0 fun _ => 1
  simp only [mul_one] at hs
  refine ⟨⟨_, _, hs, fun θ _ ps hps => ?_⟩, (by intro h; cases h), fun _ _ _ _ => rfl⟩
  have he : (scalarT : TFunc ℝ).eval ps = (scalarT : TFunc ℝ).sep ps := rfl
  rw [he, and_self]
  obtain ⟨v, rfl, v1, v2⟩ := isParams_number h0 hps
  have hV : Reads pr v fun _ _ => θ 0 (N.num 0 fun _ => 0) := ⟨by omega, fun k hk => by omega, fun n d _ => v2 _⟩
  obtain ⟨tV, t1, t2, t3, t4, t5⟩ := point_value hV
  have hp : OnPiece (fun _ => True) (pr.layout 0 0).noY (Tensor.const (1 : ℝ)) := by
    refine ⟨⟨⟨Nat.le_refl _, Nat.le_refl _, Nat.le_refl _, ?_, ?_, ?_, ?_⟩, ⟨by simp [Tensor.const], by simp [Tensor.const]⟩, Or.inl rfl, Or.inl rfl, hn.symm, Or.inl rfl, ?_, ?_, ?_⟩,
      hd.symm, ?_⟩
    · intro f hf; cases hf
    · intro f hf; cases hf
    · intro k hk; exact absurd hk (Nat.not_lt_zero k)
    · intro k hk; exact absurd hk (Nat.not_lt_zero k)
    · intro k hk; exact Or.inr rfl
    · intro k hk; exact absurd hk (Nat.not_lt_zero k)
    · intro k hk; exact absurd hk (Nat.not_lt_zero k)
    · intro k hk
      have : k < pr.n + pr.d := hk
      omega
  refine ⟨tV, fun _ => .tensor (Tensor.const 1), fun _ _ => zeroN, (sep_iff rfl).2 ⟨?_, fun _ _ => rfl, fun _ _ _ _ => rfl⟩,
    ⟨t3, t4, solid_iff.2 (Or.inr t2), t5, ?_, ?_, fun _ _ _ _ _ _ _ _ => const_dense _ _,
      fun _ _ _ _ => zeroN_piece, fun _ _ _ _ => solid_iff.2 zeroN_solid, fun _ _ _ _ _ _ _ _ _ _ _ => zeroN_dense _⟩, fun _ => ⟨t2.1, t2.2⟩,
      fun _ _ _ => Tensor.mapped_const 1, fun _ _ _ _ _ => zeroN_mapped, fun p hp _ => ⟨fun hz => one_ne_zero (α := ℝ) hz.2.2, by rw [show p = 0 by omega, h0]; rfl⟩,
      fun _ _ _ => trivial, fun _ _ _ _ _ => trivial, fun _ _ _ => trivial, fun _ _ h => h.elim, fun _ _ _ _ h => h.elim,
      fun _ p hp => Or.inr (by rw [show p = 0 by omega, h0]; rfl)⟩
  · show ofArray v 0 = _
    rw [hd] at t1
    unfold ofArray
    rw [t1]; rfl
  · intro p hp'
    have : p = 0 := by omega
    subst this
    exact Or.inl hp.1
  · intro p hp'
    have : p = 0 := by omega
    subst this
    exact solid_iff.2 (Or.inr hp)

end

end Verif.Tens
