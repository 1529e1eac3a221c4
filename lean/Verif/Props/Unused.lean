import Verif.Lemmas.Unused
import Verif.Spec.Unused
import Verif.Props.FitFull
import Verif.Props.TwoFactor

/-!
# C68: a parameter that does not occur in the model

If the model does not depend on an array parameter, and no regularisation has it, then `flat_grad` and `fit` raise `IndexError`: `grad_like` returns for this
parameter a Tensor without axes, from which `flat_grad` cannot select the free entries.
-/

namespace Verif.Tens
open Verif.Params (Err Param flatParams npConcatenate)
open NDArray

set_option linter.unusedSectionVars false

section
variable {pr : Problem} {m : Nat} {dom : Theta → Prop} {gs : List Con} {φs : List Pen}

theorem bare_of_data {v : Num ℝ} (h : pr.IsData v) : v.Bare := by
  obtain ⟨t, rfl, ht⟩ := h
  have hw := ht.piece.wf
  exact ⟨t, rfl, ht.hx, ht.hy, List.length_eq_zero_iff.1 (by have := hw.xLen; rw [ht.hx] at this; omega), List.length_eq_zero_iff.1 (by have := hw.yLen; rw [ht.hy] at this; omega)⟩

theorem bare_of_zero {t : Tensor ℝ} (h : t.IsZero) : Num.Bare (.tensor t) := by
  obtain ⟨hw, h1, -⟩ := h
  have a := hw.ndim
  have b := hw.xLen
  have c := hw.yLen
  exact ⟨t, rfl, by omega, by omega, List.length_eq_zero_iff.1 (by omega), List.length_eq_zero_iff.1 (by omega)⟩

theorem cannot_fit (hpr : pr.Ok) {K : Nat → Prop} {ok : (pr.Cell → ℝ) → Prop} {like : Num ℝ → Except Err (Num ℝ)}
    {grad : Num ℝ → List (Num ℝ) → Except Err (List (Num ℝ))}
    {hess : Num ℝ → List (Num ℝ) → List (List (Num ℝ)) → Except Err (List (List (Num ℝ)))}
    {L : (pr.Cell → ℝ) → ℝ} {G : (pr.Cell → ℝ) → Like.Der pr.Cell → Nat → Nat → ℝ}
    {H : (pr.Cell → ℝ) → Like.Der pr.Cell → Like.Hess pr.Cell → Nat → Nat → Nat → Nat → ℝ}
    {C : Prop} (hr : LikeRule pr K C ok like grad hess L G H) (hk : KeepsBare grad) {st : Store} {f : TFunc ℝ} {val : Val}
    (hf : Computes pr (cOrder pr m) K st dom f val) (ht : st.tot) (hc : C → st.clean) (hok : ∀ θ, dom θ → ok (valCell pr val θ))
    {Nw : Num ℝ} (hN : pr.IsData Nw) (hT : ∑ c, pr.val Nw c ≠ 0) {cs rs : List (TTerm ℝ)}
    (hcs : List.Forall₂ (fun t g => IsConstraint (cOrder pr m) t g.val g.der) cs gs)
    (hrs : List.Forall₂ (fun t φ => IsPenalty (cOrder pr m) t φ.val φ.der φ.hes) rs φs)
    {p : Nat} (hp : p < m) (hnd : 0 < pr.nd p) (hdead : st.dead p) (hno : ∀ t ∈ rs, p ∉ t.paramMap) :
    CannotFit pr m dom ⟨f, like, grad, hess, Nw, cs, rs⟩ := by
  intro θ hθ o hat
  have hfit := fit_returns hr hf ht hc hok
  obtain ⟨⟨der, hes, hs, hR⟩, -, -⟩ := hf
  obtain ⟨⟨V, D, Q, e1, hv, ts⟩, -⟩ := hR θ hθ _ hat.isParams
  have ev : pr.val (.tensor V) = valCell pr val θ := funext fun c => hv.v _ _ (cell_pos c) _ _
  obtain ⟨v, v1, v2⟩ := hr.like V (ts.tot ht).1 (ts.tot ht).2.1 hv.vx hv.vy hv.vs (by rw [ev]; exact hok θ hθ)
  rw [ev] at v2
  obtain ⟨g, h, hq, -, -⟩ := hfit
  obtain ⟨⟨v', w1, w2⟩, ⟨R, eR, hR'⟩, -⟩ := hq θ hθ _ hat.isParams
  have hVw := (ts.tot ht).1.wf
  have hVb : Num.Bare (.tensor V) := ⟨V, rfl, hv.vx, hv.vy, List.length_eq_zero_iff.1 (by have := hVw.xLen; rw [hv.vx] at this; omega),
    List.length_eq_zero_iff.1 (by have := hVw.yLen; rw [hv.vy] at this; omega)⟩
  have hDb : (D p).Bare := by
    have := ts.dead p hp hdead
    revert this
    cases D p with
    | generic g => exact False.elim
    | tensor t => exact bare_of_zero
  have eg : modelGrad f grad (o.params.map paramTensor) = grad (.tensor V) (row m D) := by
    unfold modelGrad
    rw [e1, ok_bind']
    show ((row m fun p => Py.arr (D p)).mapM Py.toNum >>= fun der => grad (.tensor V) der) = _
    rw [toNum_row, ok_bind']
  have hrow : ∀ {F : Nat → Num ℝ}, (row m F)[p]? = some (F p) := by intro F; simp [row, hp]
  obtain ⟨q, q1, q2⟩ := hk (eg ▸ eR) hVb hrow hDb
  rw [hrow] at q1
  cases q1
  obtain ⟨r, r1, r2, -⟩ := q2
  have hflat : flatGradM (modelGrad f grad) o.params cs rs = .error .indexError := by
    have e1 : flatGradM (modelGrad f grad) o.params cs rs = flatGradT o.params (row m R) cs rs := by unfold flatGradM; rw [eR]; rfl
    rw [e1]
    exact (flatGradT_eq hat (by omega) hcs hrs hR').2.2 ⟨p, hp, hnd, hno, r, r1, r2⟩
  refine ⟨hflat, fun pinvh tol maxSteps verbose hms => ?_⟩
  have htot := total_of hpr hN
  have hev : evalT ⟨f, like, grad, hess, Nw, cs, rs⟩ o.params = .ok (.tensor V, row m D, triangle m Q) := by
    unfold evalT
    rw [e1, ok_bind']
    show ((row m fun p => Py.arr (D p)).mapM Py.toNum >>= fun der =>
      (triangle m fun p q => Py.arr (Q p q)).mapM (fun l => l.mapM Py.toNum) >>= fun h => pure (Num.tensor V, der, h)) = _
    rw [toNum_row, ok_bind', toNum_triangle, ok_bind']
    rfl
  have hobj : objT ⟨f, like, grad, hess, Nw, cs, rs⟩ o.params (.tensor V) = .ok (penalised (fun θ => L (valCell pr val θ)) φs θ / ∑ c, pr.val Nw c) :=
    objT_of (M := ⟨f, like, grad, hess, Nw, cs, rs⟩) hrs htot hT hat v1 v2
  have hfg : ((MaxLikeT.mk f like grad hess Nw cs rs).env pinvh tol).flatGrad o.params (.tensor V) (row m D) = .error .indexError := by
    rw [← hflat]
    show (grad (.tensor V) (row m D) >>= fun gl => _) = _
    unfold flatGradM
    rw [eg]
  have hstep : Fit.newtonStep ((MaxLikeT.mk f like grad hess Nw cs rs).env pinvh tol) o.params = .error .indexError := by
    unfold Fit.newtonStep
    show (evalT _ _ >>= _) = _
    rw [hev, ok_bind']
    show (objT _ _ _ >>= _) = _
    rw [hobj, ok_bind', hfg]
    rfl
  have hcall : Fit.objective ((MaxLikeT.mk f like grad hess Nw cs rs).env pinvh tol) o.params = .ok (penalised (fun θ => L (valCell pr val θ)) φs θ / ∑ c, pr.val Nw c) := by
    unfold modelLike at w1
    obtain ⟨y0, y1, w1⟩ := Flat.bind_ok w1
    obtain ⟨y, y2, w1⟩ := Flat.bind_ok w1
    unfold Fit.objective
    show (callT _ _ >>= fun y => objT _ _ y) = _
    unfold callT
    rw [y1, ok_bind', y2, ok_bind']
    exact objT_of (M := ⟨f, like, grad, hess, Nw, cs, rs⟩) hrs htot hT hat w1 w2
  have hfl : flatParams o.params = .ok (o.params.map Param.compressed).flatten := by
    unfold flatParams npConcatenate
    rw [if_neg (by simpa using hat.ne (by omega))]
  obtain ⟨k, rfl⟩ := Nat.exists_eq_add_of_le' hms
  have hnew : Fit.fit ((MaxLikeT.mk f like grad hess Nw cs rs).env pinvh tol) o (k + 1) verbose .newton = ⟨.error .indexError, o, [[]], 0⟩ := by
    unfold Fit.fit
    rw [hfl]
    dsimp only
    unfold Fit.newtonLoop
    rw [hstep]
  have hbro : ∃ t n, Fit.fit ((MaxLikeT.mk f like grad hess Nw cs rs).env pinvh tol) o (k + 1) verbose .broyden =
      ⟨.error .indexError, { o with converged := false }, t, n⟩ := by
    have hee : (do
        let (y, der, hh) ← ((MaxLikeT.mk f like grad hess Nw cs rs).env pinvh tol).modelEval o.params
        let gr ← ((MaxLikeT.mk f like grad hess Nw cs rs).env pinvh tol).flatGrad o.params y der
        pure (y, der, hh, gr) : Except Err (Num ℝ × List (Num ℝ) × List (List (Num ℝ)) × List ℝ)) = .error .indexError := by
      show (evalT _ _ >>= _) = _
      rw [hev, ok_bind']
      dsimp only
      rw [hfg]
      rfl
    refine ⟨[], if verbose > 0 then 1 else 0, ?_⟩
    unfold Fit.fit
    rw [hfl]
    dsimp only
    unfold Fit.broyden
    rw [hcall]
    dsimp only
    rw [hee]
  obtain ⟨t, n, hbro⟩ := hbro
  rw [hnew, hbro]
  exact ⟨rfl, rfl, rfl, rfl⟩

/-- **C68.** `Poisson`: With a model that does not depend on the array parameter `p` (its derivative is stored as `Tensor(0)`), and without a regularisation of `p`, `fit` raises `IndexError`. -/
theorem C68_unused_poisson (hpr : pr.Ok) {K : Nat → Prop} {X Nw : Num ℝ} (hX : pr.IsData X) (hN : pr.IsData Nw) {st : Store} {f : TFunc ℝ} {val : Val}
    (hf : Computes pr (cOrder pr m) K st dom f val) (ht : st.tot) (hT : ∑ c, pr.val Nw c ≠ 0)
    {cs rs : List (TTerm ℝ)} (hcs : List.Forall₂ (fun t g => IsConstraint (cOrder pr m) t g.val g.der) cs gs)
    (hrs : List.Forall₂ (fun t φ => IsPenalty (cOrder pr m) t φ.val φ.der φ.hes) rs φs) {p : Nat} (hp : p < m) (hnd : 0 < pr.nd p) (hdead : st.dead p)
    (hno : ∀ t ∈ rs, p ∉ t.paramMap) :
    CannotFit pr m dom ⟨f, PoissonT.like X Nw, PoissonT.gradLike X Nw, PoissonT.hessLike X Nw, Nw, cs, rs⟩ :=
  cannot_fit hpr (rule_poisson hpr hX hN) (poisson_keeps (bare_of_data hX) (bare_of_data hN)) hf ht False.elim (fun _ _ => trivial) hN hT hcs hrs hp hnd hdead hno

/-- **C68.** `ZeroInflatedPoisson`: the same. -/
theorem C68_unused_zeroInflatedPoisson (hpr : pr.Ok) {K : Nat → Prop} (s : ℝ) (hs : 0 ≤ s) {X Nw Z : Num ℝ} (hX : pr.IsData X) (hN : pr.IsData Nw) (hZ : pr.IsData Z) {st : Store} {f : TFunc ℝ} {val : Val}
    (hf : Computes pr (cOrder pr m) K st dom f val) (ht : st.tot) (hT : ∑ c, pr.val Nw c ≠ 0)
    {cs rs : List (TTerm ℝ)} (hcs : List.Forall₂ (fun t g => IsConstraint (cOrder pr m) t g.val g.der) cs gs)
    (hrs : List.Forall₂ (fun t φ => IsPenalty (cOrder pr m) t φ.val φ.der φ.hes) rs φs) {p : Nat} (hp : p < m) (hnd : 0 < pr.nd p) (hdead : st.dead p)
    (hno : ∀ t ∈ rs, p ∉ t.paramMap) :
    CannotFit pr m dom ⟨f, ZeroInflatedPoissonT.like s X Nw Z, ZeroInflatedPoissonT.gradLike s X Nw, ZeroInflatedPoissonT.hessLike s X Nw, Nw, cs, rs⟩ :=
  cannot_fit hpr (rule_zeroInflatedPoisson hpr s hs hX hN hZ) (zip_keeps (bare_of_data hX) (bare_of_data hN)) hf ht False.elim (fun _ _ => trivial) hN hT hcs hrs hp hnd hdead hno

/-- **C68.** `Logistic`: the same. -/
theorem C68_unused_logistic (hpr : pr.Ok) {K : Nat → Prop} {X Nw : Num ℝ} (hX : pr.IsData X) (hN : pr.IsData Nw) {st : Store} {f : TFunc ℝ} {val : Val}
    (hf : Computes pr (cOrder pr m) K st dom f val) (ht : st.tot) (hT : ∑ c, pr.val Nw c ≠ 0)
    {cs rs : List (TTerm ℝ)} (hcs : List.Forall₂ (fun t g => IsConstraint (cOrder pr m) t g.val g.der) cs gs)
    (hrs : List.Forall₂ (fun t φ => IsPenalty (cOrder pr m) t φ.val φ.der φ.hes) rs φs) {p : Nat} (hp : p < m) (hnd : 0 < pr.nd p) (hdead : st.dead p)
    (hno : ∀ t ∈ rs, p ∉ t.paramMap) :
    CannotFit pr m dom ⟨f, LogisticT.like X Nw, LogisticT.gradLike X Nw, LogisticT.hessLike X Nw, Nw, cs, rs⟩ :=
  cannot_fit hpr (rule_logistic hpr hX hN) (logistic_keeps (bare_of_data hX) (bare_of_data hN)) hf ht False.elim (fun _ _ => trivial) hN hT hcs hrs hp hnd hdead hno

/-- **C68.** `NegativeBinomial`: the same. -/
theorem C68_unused_negativeBinomial (hpr : pr.Ok) {K : Nat → Prop} (r : ℝ) (hr : 0 < r) {X Nw : Num ℝ} (hX : pr.IsData X) (hN : pr.IsData Nw) {st : Store} {f : TFunc ℝ} {val : Val}
    (hf : Computes pr (cOrder pr m) K st dom f val) (ht : st.tot) (hT : ∑ c, pr.val Nw c ≠ 0)
    {cs rs : List (TTerm ℝ)} (hcs : List.Forall₂ (fun t g => IsConstraint (cOrder pr m) t g.val g.der) cs gs)
    (hrs : List.Forall₂ (fun t φ => IsPenalty (cOrder pr m) t φ.val φ.der φ.hes) rs φs) {p : Nat} (hp : p < m) (hnd : 0 < pr.nd p) (hdead : st.dead p)
    (hno : ∀ t ∈ rs, p ∉ t.paramMap) :
    CannotFit pr m dom ⟨f, NegativeBinomialT.like r X Nw, NegativeBinomialT.gradLike r X Nw, NegativeBinomialT.hessLike r X Nw, Nw, cs, rs⟩ :=
  cannot_fit hpr (rule_negativeBinomial hpr r hr hX hN) (negativeBinomial_keeps (bare_of_data hX) (bare_of_data hN)) hf ht False.elim (fun _ _ => trivial) hN hT hcs hrs hp hnd hdead hno

/-- **C68.** `NormalizedFinite`: the same. -/
theorem C68_unused_normalizedFinite (hpr : pr.Ok) {K : Nat → Prop} {Nw : Num ℝ} (hN : pr.IsData Nw) {st : Store} {f : TFunc ℝ} {val : Val}
    (hf : Computes pr (cOrder pr m) K st dom f val) (ht : st.tot) (hpos : ∀ θ, dom θ → ∀ n d, pr.Pos n d → 0 < val θ n d) (hT : ∑ c, pr.val Nw c ≠ 0)
    {cs rs : List (TTerm ℝ)} (hcs : List.Forall₂ (fun t g => IsConstraint (cOrder pr m) t g.val g.der) cs gs)
    (hrs : List.Forall₂ (fun t φ => IsPenalty (cOrder pr m) t φ.val φ.der φ.hes) rs φs) {p : Nat} (hp : p < m) (hnd : 0 < pr.nd p) (hdead : st.dead p)
    (hno : ∀ t ∈ rs, p ∉ t.paramMap) :
    CannotFit pr m dom ⟨f, NormalizedFiniteT.like Nw, NormalizedFiniteT.gradLike Nw, NormalizedFiniteT.hessLike Nw, Nw, cs, rs⟩ :=
  cannot_fit hpr (rule_normalizedFinite hpr hN) (normalizedFinite_keeps (bare_of_data hN)) hf ht False.elim (fun θ hθ c => hpos θ hθ _ _ (cell_pos c)) hN hT hcs hrs hp hnd hdead hno

/-- **C68.** `Finite`: the same. -/
theorem C68_unused_finite (hpr : pr.Ok) {K : Nat → Prop} {Nw : Num ℝ} (hN : pr.IsData Nw) {st : Store} {f : TFunc ℝ} {val : Val}
    (hf : Computes pr (cOrder pr m) K st dom f val) (ht : st.tot) (hc : st.clean) (hpos : ∀ θ, dom θ → ∀ n d, pr.Pos n d → 0 < val θ n d) (hT : ∑ c, pr.val Nw c ≠ 0)
    {cs rs : List (TTerm ℝ)} (hcs : List.Forall₂ (fun t g => IsConstraint (cOrder pr m) t g.val g.der) cs gs)
    (hrs : List.Forall₂ (fun t φ => IsPenalty (cOrder pr m) t φ.val φ.der φ.hes) rs φs) {p : Nat} (hp : p < m) (hnd : 0 < pr.nd p) (hdead : st.dead p)
    (hno : ∀ t ∈ rs, p ∉ t.paramMap) (hK : ∀ q, pr.n ≤ q → K q := by exact fun _ _ => trivial) :
    CannotFit pr m dom ⟨f, FiniteT.like Nw, FiniteT.gradLike Nw, FiniteT.hessLike Nw, Nw, cs, rs⟩ :=
  cannot_fit hpr (rule_finite hpr hK hN) (finite_keeps (bare_of_data hN)) hf ht (fun _ => hc) (fun θ hθ c => hpos θ hθ _ _ (cell_pos c)) hN hT hcs hrs hp hnd hdead hno

/-- An instance: the model `FuncWrap(X(), 0, 0)` of two features with two parameters; the second parameter is only constrained. -/
theorem C68_example_unused {s t : Nat} (hs : s ≠ 0) (ht : t ≠ 0) (x w : Nat → Nat → ℝ) (hT : ∑ i ∈ Finset.range s, ∑ j ∈ Finset.range t, w i j ≠ 0) :
    CannotFit (twoFactor s t) 2 (fun _ => True)
      ⟨wrapT xT ⟨[0], [0], 2, [], 0, []⟩, PoissonT.like (twoData s t x) (twoData s t w), PoissonT.gradLike (twoData s t x) (twoData s t w),
        PoissonT.hessLike (twoData s t x) (twoData s t w), twoData s t w, [⟨[1], linearT [1]⟩], []⟩ := by
  have hpr : (twoFactor s t).Ok := ⟨by simp [twoFactor], fun k _ => by simp only [twoFactor]; split_ifs <;> assumption⟩
  have h0 := C64_wrap_partial (K := fun _ => False) hpr (two_inside0 s t) (fun k _ h => h.elim) (C64_X (N := cOrder (oneFactor s) 1) (fun p _ => ⟨rfl, fun _ _ => rfl⟩) rfl)
  refine C68_unused_poisson hpr (two_isData s t x) (two_isData s t w) h0 ⟨trivial, Nat.one_pos⟩ ?_
    (.cons (C67_linear (pm := [1]) (w := [1]) (by simp) (by simp) (by simp) (by simp)) .nil) .nil (p := 1) (by omega) Nat.one_pos (fun k hk e => ?_) (by simp)
  · rw [← two_sum] at hT
    simpa only [two_data_val] using hT
  · have : k = 0 := by simpa using hk
    subst this; simp at e

end

end Verif.Tens
