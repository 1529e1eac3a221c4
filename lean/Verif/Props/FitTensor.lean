import Verif.Model.FitTensor
import Verif.Spec.FitTensor
import Verif.Props.LikeTensorMain
import Verif.Props.FuncLeafTensor
import Verif.Props.FuncSumTensor

/-!
# C64: the likelihood of a model that is a function on Tensors
-/

set_option linter.unusedSectionVars false

namespace Verif.Tens
open Verif.Params (Err)
open NDArray

section
variable {pr : Problem} {m : Nat} {N : Numbering pr m}

theorem cell_pos (c : pr.Cell) : pr.Pos (pr.cellN c) (pr.cellD c) := by
  refine ⟨fun k hk => ?_, fun k hk => ?_, fun k hk => ?_, fun k hk => ?_⟩ <;> simp only [Problem.cellN, Problem.cellD]
  · rw [dif_pos hk]; exact (c.1 ⟨k, hk⟩).2
  · rw [dif_neg (by omega)]
  · rw [dif_pos hk]; exact (c.2 ⟨k, hk⟩).2
  · rw [dif_neg (by omega)]

/-- What is known of a likelihood: its methods return `L`, `G` and `H`, and these are derivatives of each other (if `C`, the arrays that are passed to
it have no element `Tensor(0)`). -/
structure LikeRule (pr : Problem) (K : Nat → Prop) (C : Prop) (ok : (pr.Cell → ℝ) → Prop) (like : Num ℝ → Except Err (Num ℝ))
    (grad : Num ℝ → List (Num ℝ) → Except Err (List (Num ℝ)))
    (hess : Num ℝ → List (Num ℝ) → List (List (Num ℝ)) → Except Err (List (List (Num ℝ))))
    (L : (pr.Cell → ℝ) → ℝ) (G : (pr.Cell → ℝ) → Like.Der pr.Cell → Nat → Nat → ℝ)
    (H : (pr.Cell → ℝ) → Like.Der pr.Cell → Like.Hess pr.Cell → Nat → Nat → Nat → Nat → ℝ) : Prop where
  like : ∀ V, Piece (pr.layout 0 0) V → V.dim = pr.d → V.xDim = 0 → V.yDim = 0 → Solid K (pr.layout 0 0) (.tensor V) →
    ok (pr.val (.tensor V)) → ∃ v, like (.tensor V) = .ok v ∧ IsNumber v (L (pr.val (.tensor V)))
  grad : ∀ V, Piece (pr.layout 0 0) V → V.dim = pr.d → V.xDim = 0 → V.yDim = 0 → Solid K (pr.layout 0 0) (.tensor V) →
    ok (pr.val (.tensor V)) → ∀ m D, (∀ p < m, pr.IsDer p (D p)) → (∀ p < m, Solid K (pr.layout p p).noY (D p)) → (C → ∀ p < m, (D p).Clean) → ∀ e,
    ∃ R, grad (.tensor V) (row m D) = .ok (row m R) ∧ ∀ p < m, (pr.IsGrad e p (R p) fun a =>
      G (pr.val (.tensor V)) (pr.derOf e D) p a) ∧ ((D p).Spans (pr.nd p) → pr.Whole p (R p))
  hess : ∀ V, Piece (pr.layout 0 0) V → V.dim = pr.d → V.xDim = 0 → V.yDim = 0 → Solid K (pr.layout 0 0) (.tensor V) →
    ok (pr.val (.tensor V)) → ∀ m D, (∀ p < m, pr.IsDer p (D p)) → (∀ p < m, Solid K (pr.layout p p).noY (D p)) → (C → ∀ p < m, (D p).Clean) →
    ∀ Q, (∀ p < m, ∀ q ≤ p, pr.IsHess p q (Q p q)) → (∀ p < m, ∀ q ≤ p, Solid K (pr.layout p q) (Q p q)) → (C → ∀ p < m, ∀ q ≤ p, (Q p q).Clean) → ∀ e,
    ∃ R, hess (.tensor V) (row m D) (triangle m Q) = .ok (triangle m R) ∧ ∀ p < m, ∀ q ≤ p, (pr.IsBlock e p q (R p q) fun a b =>
      H (pr.val (.tensor V)) (pr.derOf e D) (pr.hessOf e Q) p q a b) ∧
      ((D p).Spans (pr.nd p) → (D q).Spans (pr.nd q) → pr.Whole2 p q (R p q))
  localG : ∀ y der der' p a, der p a = der' p a → G y der p a = G y der' p a
  localH : ∀ y der der' hess hess' p q a b, der p a = der' p a → der q b = der' q b → hess p q a b = hess' p q a b →
    H y der hess p q a b = H y der' hess' p q a b
  dL : ∀ (model : Theta → pr.Cell → ℝ) der θ p a, ok (model θ) → Like.ModelDer model der θ p a →
    HasPartial (fun θ => L (model θ)) θ p a (G (model θ) der p a)
  dG : ∀ (model : Theta → pr.Cell → ℝ) der hess θ p q a b, ok (model θ) → Like.ModelDer model (der θ) θ q b →
    Like.ModelHess der hess θ p q a b →
    HasPartial (fun θ => G (model θ) (der θ) p a) θ q b (H (model θ) (der θ) hess p q a b)

theorem toNum_row (m : Nat) (D : Nat → Num ℝ) : (row m fun p => (Py.arr (D p) : Py ℝ)).mapM Py.toNum = .ok (row m D) := by
  unfold row
  rw [List.mapM_map]
  exact mapM_list fun p _ => rfl

theorem toNum_triangle (m : Nat) (H : Nat → Nat → Num ℝ) :
    ((triangle m fun p q => (Py.arr (H p q) : Py ℝ)).mapM fun l => l.mapM Py.toNum) = .ok (triangle m H) := by
  unfold triangle
  rw [show (row m fun i => row (i + 1) (H i)) = (List.range m).map fun i => row (i + 1) (H i) from rfl]
  unfold row
  rw [List.mapM_map]
  refine mapM_list fun p _ => ?_
  exact toNum_row _ _

theorem fit_returns {K : Nat → Prop} {ok : (pr.Cell → ℝ) → Prop} {like : Num ℝ → Except Err (Num ℝ)}
    {grad : Num ℝ → List (Num ℝ) → Except Err (List (Num ℝ))}
    {hess : Num ℝ → List (Num ℝ) → List (List (Num ℝ)) → Except Err (List (List (Num ℝ)))}
    {L : (pr.Cell → ℝ) → ℝ} {G : (pr.Cell → ℝ) → Like.Der pr.Cell → Nat → Nat → ℝ}
    {H : (pr.Cell → ℝ) → Like.Der pr.Cell → Like.Hess pr.Cell → Nat → Nat → Nat → Nat → ℝ}
    {C : Prop} (hr : LikeRule pr K C ok like grad hess L G H) {st : Store} {dom : Theta → Prop} {f : TFunc ℝ} {val : Val}
    (hf : Computes pr N K st dom f val) (ht : st.tot) (hc : C → st.clean) (hok : ∀ θ, dom θ → ok (valCell pr val θ)) :
    FitReturns pr N dom (fun θ => L (valCell pr val θ)) (modelLike f like) (modelGrad f grad) (modelHess f hess) := by
  obtain ⟨⟨der, hes, hs, hR⟩, -, -⟩ := hf
  refine ⟨fun θ p a => G (valCell pr val θ) (fun p a c => der θ p a (pr.cellN c) (pr.cellD c)) p a,
    fun θ p q a b => H (valCell pr val θ) (fun p a c => der θ p a (pr.cellN c) (pr.cellD c))
      (fun p q a b c => hes θ p q a b (pr.cellN c) (pr.cellD c)) p q a b, fun θ hθ ps hps => ?_, fun θ hθ p hp a ha => ?_,
    fun θ hθ p hp q hq a b ha hb => ?_⟩
  · obtain ⟨⟨V, D, Q, e1, hv, ts⟩, V', D', Q', e1', hv', ts'⟩ := hR θ hθ ps hps
    have ev : pr.val (.tensor V) = valCell pr val θ := funext fun c => hv.v _ _ (cell_pos c) _ _
    have ev' : pr.val (.tensor V') = valCell pr val θ := funext fun c => hv'.v _ _ (cell_pos c) _ _
    have ed : ∀ p < m, ∀ a, pr.Entry p (N.e p a) → pr.derOf N.e D p a = fun c => der θ p a (pr.cellN c) (pr.cellD c) :=
      fun p hp a ha => funext fun c => hv.d p hp a ha _ _ (cell_pos c) _
    have eh : ∀ p < m, ∀ q ≤ p, ∀ a b, pr.Entry p (N.e p a) → pr.Entry q (N.e q b) →
        pr.hessOf N.e Q p q a b = fun c => hes θ p q a b (pr.cellN c) (pr.cellD c) :=
      fun p hp q hq a b ha hb => funext fun c => hv.h p hp q hq a b ha hb _ _ (cell_pos c)
    refine ⟨?_, ?_, ?_⟩
    · obtain ⟨v, v1, v2⟩ := hr.like V' (ts'.tot ht).1 (ts'.tot ht).2.1 hv'.vx hv'.vy hv'.vs (by rw [ev']; exact hok θ hθ)
      rw [ev'] at v2
      refine ⟨v, ?_, v2⟩
      unfold modelLike
      rw [((sep_iff hps.1).1 e1').1, ok_bind']
      exact v1
    · obtain ⟨R, r1, r2⟩ := hr.grad V (ts.tot ht).1 (ts.tot ht).2.1 hv.vx hv.vy hv.vs (by rw [ev]; exact hok θ hθ) m D hv.dp hv.ds (fun h => ts.cleanD (hc h)) N.e
      refine ⟨R, ?_, fun p hp => ?_⟩
      · unfold modelGrad
        rw [e1, ok_bind']
        show ((row m fun p => Py.arr (D p)).mapM Py.toNum >>= fun der => grad (.tensor V) der) = _
        rw [toNum_row, ok_bind', r1]
      · obtain ⟨t, t1, t2, t3, t4, t5, t6, ts, t7⟩ := (r2 p hp).1
        refine ⟨t, t1, t2, t3, t4, t5, t6, ts, fun a i hi ha => ?_⟩
        rw [t7 a i hi ha, ev]
        exact hr.localG _ _ _ p a (ed p hp a ha)
    · obtain ⟨R, r1, r2⟩ := hr.hess V (ts.tot ht).1 (ts.tot ht).2.1 hv.vx hv.vy hv.vs (by rw [ev]; exact hok θ hθ) m D hv.dp hv.ds (fun h => ts.cleanD (hc h))
        Q hv.hp hv.hs (fun h => ts.cleanH (hc h)) N.e
      refine ⟨R, ?_, fun p hp q hq => ?_⟩
      · unfold modelHess
        rw [e1, ok_bind']
        show ((row m fun p => Py.arr (D p)).mapM Py.toNum >>= fun der =>
          (triangle m fun p q => Py.arr (Q p q)).mapM (fun l => l.mapM Py.toNum) >>= fun h => hess (.tensor V) der h) = _
        rw [toNum_row, ok_bind', toNum_triangle, ok_bind', r1]
      · obtain ⟨t, t1, t2, t3, t4, t5, t6, ts, t7⟩ := (r2 p hp q hq).1
        refine ⟨t, t1, t2, t3, t4, t5, t6, ts, fun a b i hi hj ha hb => ?_⟩
        rw [t7 a b i hi hj ha hb, ev]
        exact hr.localH _ _ _ _ _ p q a b (ed p hp a ha) (ed q (lt_of_le_of_lt hq hp) b hb) (eh p hp q hq a b ha hb)
  · exact hr.dL (valCell pr val) _ θ p a (hok θ hθ) fun c => hs.hd θ hθ p hp a ha _ _ (cell_pos c)
  · exact hr.dG (valCell pr val) (fun θ p a c => der θ p a (pr.cellN c) (pr.cellD c)) _ θ p q a b (hok θ hθ)
      (fun c => hs.hd θ hθ q (lt_of_le_of_lt hq hp) b hb _ _ (cell_pos c))
      fun c => hs.hh θ hθ p hp q hq a b ha hb _ _ (cell_pos c)

/-! ### the six likelihoods -/

theorem fit_whole {K : Nat → Prop} {ok : (pr.Cell → ℝ) → Prop} {like : Num ℝ → Except Err (Num ℝ)}
    {grad : Num ℝ → List (Num ℝ) → Except Err (List (Num ℝ))}
    {hess : Num ℝ → List (Num ℝ) → List (List (Num ℝ)) → Except Err (List (List (Num ℝ)))}
    {L : (pr.Cell → ℝ) → ℝ} {G : (pr.Cell → ℝ) → Like.Der pr.Cell → Nat → Nat → ℝ}
    {H : (pr.Cell → ℝ) → Like.Der pr.Cell → Like.Hess pr.Cell → Nat → Nat → Nat → Nat → ℝ}
    {C : Prop} (hr : LikeRule pr K C ok like grad hess L G H) {st : Store} {dom : Theta → Prop} {f : TFunc ℝ} {val : Val}
    (hf : Computes pr N K st dom f val) (ht : st.tot) (hc : C → st.clean) (hu : ∀ p < m, st.used p) (hok : ∀ θ, dom θ → ok (valCell pr val θ)) :
    FitWhole pr N dom (modelGrad f grad) (modelHess f hess) := by
  obtain ⟨⟨der, hes, hs, hR⟩, -, -⟩ := hf
  intro θ hθ ps hps
  obtain ⟨⟨V, D, Q, e1, hv, ts⟩, -⟩ := hR θ hθ ps hps
  have ev : pr.val (.tensor V) = valCell pr val θ := funext fun c => hv.v _ _ (cell_pos c) _ _
  have sp : ∀ p < m, (D p).Spans (pr.nd p) := fun p hp => ts.live p hp (hu p hp)
  refine ⟨?_, ?_⟩
  · obtain ⟨R, r1, r2⟩ := hr.grad V (ts.tot ht).1 (ts.tot ht).2.1 hv.vx hv.vy hv.vs (by rw [ev]; exact hok θ hθ) m D hv.dp hv.ds (fun h => ts.cleanD (hc h)) N.e
    refine ⟨R, ?_, fun p hp => (r2 p hp).2 (sp p hp)⟩
    unfold modelGrad
    rw [e1, ok_bind']
    show ((row m fun p => Py.arr (D p)).mapM Py.toNum >>= fun der => grad (.tensor V) der) = _
    rw [toNum_row, ok_bind', r1]
  · obtain ⟨R, r1, r2⟩ := hr.hess V (ts.tot ht).1 (ts.tot ht).2.1 hv.vx hv.vy hv.vs (by rw [ev]; exact hok θ hθ) m D hv.dp hv.ds (fun h => ts.cleanD (hc h))
      Q hv.hp hv.hs (fun h => ts.cleanH (hc h)) N.e
    refine ⟨R, ?_, fun p hp q hq => (r2 p hp q hq).2 (sp p hp) (sp q (lt_of_le_of_lt hq hp))⟩
    unfold modelHess
    rw [e1, ok_bind']
    show ((row m fun p => Py.arr (D p)).mapM Py.toNum >>= fun der =>
      (triangle m fun p q => Py.arr (Q p q)).mapM (fun l => l.mapM Py.toNum) >>= fun h => hess (.tensor V) der h) = _
    rw [toNum_row, ok_bind', toNum_triangle, ok_bind', r1]

theorem gradSum_local {ι : Type} [Fintype ι] (der der' : Like.Der ι) (w : ι → ℝ) {p a : Nat} (h : der p a = der' p a) :
    Like.gradSum der w p a = Like.gradSum der' w p a := by
  unfold Like.gradSum; rw [h]

theorem hessSum_local {ι : Type} [Fintype ι] (der der' : Like.Der ι) (hess hess' : Like.Hess ι) (w w' : ι → ℝ) {p q a b : Nat}
    (h : der p a = der' p a) (h2 : der q b = der' q b) (h3 : hess p q a b = hess' p q a b) :
    Like.hessSum der hess w w' p q a b = Like.hessSum der' hess' w w' p q a b := by
  unfold Like.hessSum; rw [h, h2, h3]

theorem model_of {V : Tensor ℝ} (h : Piece (pr.layout 0 0) V) (hx : V.xDim = 0) (hy : V.yDim = 0) : pr.IsModel (.tensor V) :=
  ⟨V, rfl, h, hx, hy⟩

theorem rule_poisson (hpr : pr.Ok) {K : Nat → Prop} {X Nw : Num ℝ} (hX : pr.IsData X) (hN : pr.IsData Nw) :
    LikeRule pr K False (fun _ => True) (PoissonT.like X Nw) (PoissonT.gradLike X Nw) (PoissonT.hessLike X Nw) (Like.Poisson.like (pr.val X) (pr.val Nw)) (Like.Poisson.gradLike (pr.val X) (pr.val Nw))
      (Like.Poisson.hessLike (pr.val X) (pr.val Nw)) := by
  refine ⟨?_, ?_, ?_, ?_, ?_, ?_, ?_⟩
  · intro V h1 h2 h3 h4 h5 _
    exact C63_poisson_like hpr hX hN (model_of h1 h3 h4)
  · intro V h1 h2 h3 h4 h5 _ m D hd _ _ e
    exact C63_poisson_grad hpr hX hN (model_of h1 h3 h4) hd e
  · intro V h1 h2 h3 h4 h5 _ m D hd _ _ Q hq _ _ e
    exact C63_poisson_hess hpr hX hN (model_of h1 h3 h4) hd hq e
  · intro y der der' p a h
    exact gradSum_local _ _ _ h
  · intro y der der' hess hess' p q a b h1 h2 h3
    exact hessSum_local _ _ _ _ _ _ h1 h2 h3
  · intro model der θ p a _ h
    exact Like.C19_poisson _ _ model der θ p a h
  · intro model der hess θ p q a b _ h1 h2
    exact Like.C20_poisson _ _ model der hess θ p q a b h1 h2

/-- **C64.** `Poisson` with the model `f`: its methods return the log likelihood of the values of `f`, with its first and second derivatives. -/
theorem C64_fit_poisson (hpr : pr.Ok) {K : Nat → Prop} {X Nw : Num ℝ} (hX : pr.IsData X) (hN : pr.IsData Nw) {st : Store} {dom : Theta → Prop} {f : TFunc ℝ} {val : Val}
    (hf : Computes pr N K st dom f val) (ht : st.tot) :
    FitReturns pr N dom (fun θ => Like.Poisson.like (pr.val X) (pr.val Nw) (valCell pr val θ)) (modelLike f (PoissonT.like X Nw))
      (modelGrad f (PoissonT.gradLike X Nw)) (modelHess f (PoissonT.hessLike X Nw)) :=
  fit_returns (rule_poisson hpr hX hN) hf ht False.elim fun _ _ => trivial

theorem rule_zeroInflatedPoisson (hpr : pr.Ok) {K : Nat → Prop} (s : ℝ) (hs : 0 ≤ s) {X Nw Z : Num ℝ} (hX : pr.IsData X) (hN : pr.IsData Nw) (hZ : pr.IsData Z) :
    LikeRule pr K False (fun _ => True) (ZeroInflatedPoissonT.like s X Nw Z) (ZeroInflatedPoissonT.gradLike s X Nw) (ZeroInflatedPoissonT.hessLike s X Nw) (Like.ZeroInflatedPoisson.like s (pr.val X) (pr.val Nw) (pr.val Z)) (Like.ZeroInflatedPoisson.gradLike s (pr.val X) (pr.val Nw))
      (Like.ZeroInflatedPoisson.hessLike s (pr.val X) (pr.val Nw)) := by
  refine ⟨?_, ?_, ?_, ?_, ?_, ?_, ?_⟩
  · intro V h1 h2 h3 h4 h5 _
    exact C63_zeroInflatedPoisson_like hpr s hX hN hZ (model_of h1 h3 h4)
  · intro V h1 h2 h3 h4 h5 _ m D hd _ _ e
    exact C63_zeroInflatedPoisson_grad hpr s hs hX hN (model_of h1 h3 h4) hd e
  · intro V h1 h2 h3 h4 h5 _ m D hd _ _ Q hq _ _ e
    exact C63_zeroInflatedPoisson_hess hpr s hs hX hN (model_of h1 h3 h4) hd hq e
  · intro y der der' p a h
    exact gradSum_local _ _ _ h
  · intro y der der' hess hess' p q a b h1 h2 h3
    exact hessSum_local _ _ _ _ _ _ h1 h2 h3
  · intro model der θ p a _ h
    exact Like.C19_zeroInflatedPoisson s hs _ _ _ model der θ p a h
  · intro model der hess θ p q a b _ h1 h2
    exact Like.C20_zeroInflatedPoisson s hs _ _ model der hess θ p q a b h1 h2

/-- **C64.** `ZeroInflatedPoisson` with the model `f`. -/
theorem C64_fit_zeroInflatedPoisson (hpr : pr.Ok) {K : Nat → Prop} (s : ℝ) (hs : 0 ≤ s) {X Nw Z : Num ℝ} (hX : pr.IsData X) (hN : pr.IsData Nw) (hZ : pr.IsData Z)
    {st : Store} {dom : Theta → Prop} {f : TFunc ℝ} {val : Val} (hf : Computes pr N K st dom f val) (ht : st.tot) :
    FitReturns pr N dom (fun θ => Like.ZeroInflatedPoisson.like s (pr.val X) (pr.val Nw) (pr.val Z) (valCell pr val θ))
      (modelLike f (ZeroInflatedPoissonT.like s X Nw Z)) (modelGrad f (ZeroInflatedPoissonT.gradLike s X Nw)) (modelHess f (ZeroInflatedPoissonT.hessLike s X Nw)) :=
  fit_returns (rule_zeroInflatedPoisson hpr s hs hX hN hZ) hf ht False.elim fun _ _ => trivial

theorem rule_logistic (hpr : pr.Ok) {K : Nat → Prop} {X Nw : Num ℝ} (hX : pr.IsData X) (hN : pr.IsData Nw) :
    LikeRule pr K False (fun _ => True) (LogisticT.like X Nw) (LogisticT.gradLike X Nw) (LogisticT.hessLike X Nw) (Like.Logistic.like (pr.val X) (pr.val Nw)) (Like.Logistic.gradLike (pr.val X) (pr.val Nw))
      (Like.Logistic.hessLike (pr.val X) (pr.val Nw)) := by
  refine ⟨?_, ?_, ?_, ?_, ?_, ?_, ?_⟩
  · intro V h1 h2 h3 h4 h5 _
    exact C63_logistic_like hpr hX hN (model_of h1 h3 h4)
  · intro V h1 h2 h3 h4 h5 _ m D hd _ _ e
    exact C63_logistic_grad hpr hX hN (model_of h1 h3 h4) hd e
  · intro V h1 h2 h3 h4 h5 _ m D hd _ _ Q hq _ _ e
    exact C63_logistic_hess hpr hX hN (model_of h1 h3 h4) hd hq e
  · intro y der der' p a h
    exact gradSum_local _ _ _ h
  · intro y der der' hess hess' p q a b h1 h2 h3
    exact hessSum_local _ _ _ _ _ _ h1 h2 h3
  · intro model der θ p a _ h
    exact Like.C19_logistic _ _ model der θ p a h
  · intro model der hess θ p q a b _ h1 h2
    exact Like.C20_logistic _ _ model der hess θ p q a b h1 h2

/-- **C64.** `Logistic` with the model `f`. -/
theorem C64_fit_logistic (hpr : pr.Ok) {K : Nat → Prop} {X Nw : Num ℝ} (hX : pr.IsData X) (hN : pr.IsData Nw)
    {st : Store} {dom : Theta → Prop} {f : TFunc ℝ} {val : Val} (hf : Computes pr N K st dom f val) (ht : st.tot) :
    FitReturns pr N dom (fun θ => Like.Logistic.like (pr.val X) (pr.val Nw) (valCell pr val θ))
      (modelLike f (LogisticT.like X Nw)) (modelGrad f (LogisticT.gradLike X Nw)) (modelHess f (LogisticT.hessLike X Nw)) :=
  fit_returns (rule_logistic hpr hX hN) hf ht False.elim fun _ _ => trivial

theorem rule_negativeBinomial (hpr : pr.Ok) {K : Nat → Prop} (r : ℝ) (hr : 0 < r) {X Nw : Num ℝ} (hX : pr.IsData X) (hN : pr.IsData Nw) :
    LikeRule pr K False (fun _ => True) (NegativeBinomialT.like r X Nw) (NegativeBinomialT.gradLike r X Nw) (NegativeBinomialT.hessLike r X Nw) (Like.NegativeBinomial.like r (pr.val X) (pr.val Nw)) (Like.NegativeBinomial.gradLike r (pr.val X) (pr.val Nw))
      (Like.NegativeBinomial.hessLike r (pr.val X) (pr.val Nw)) := by
  refine ⟨?_, ?_, ?_, ?_, ?_, ?_, ?_⟩
  · intro V h1 h2 h3 h4 h5 _
    exact C63_negativeBinomial_like hpr r hX hN (model_of h1 h3 h4)
  · intro V h1 h2 h3 h4 h5 _ m D hd _ _ e
    exact C63_negativeBinomial_grad hpr r hr hX hN (model_of h1 h3 h4) hd e
  · intro V h1 h2 h3 h4 h5 _ m D hd _ _ Q hq _ _ e
    exact C63_negativeBinomial_hess hpr r hr hX hN (model_of h1 h3 h4) hd hq e
  · intro y der der' p a h
    exact gradSum_local _ _ _ h
  · intro y der der' hess hess' p q a b h1 h2 h3
    simp only [Like.NegativeBinomial.hessLike, h1, h2, h3]
  · intro model der θ p a _ h
    exact Like.C19_negativeBinomial r hr _ _ model der θ p a h
  · intro model der hess θ p q a b _ h1 h2
    exact Like.C20_negativeBinomial r hr _ _ model der hess θ p q a b h1 h2

/-- **C64.** `NegativeBinomial` with the model `f`. -/
theorem C64_fit_negativeBinomial (hpr : pr.Ok) {K : Nat → Prop} (r : ℝ) (hr : 0 < r) {X Nw : Num ℝ} (hX : pr.IsData X) (hN : pr.IsData Nw)
    {st : Store} {dom : Theta → Prop} {f : TFunc ℝ} {val : Val} (hf : Computes pr N K st dom f val) (ht : st.tot) :
    FitReturns pr N dom (fun θ => Like.NegativeBinomial.like r (pr.val X) (pr.val Nw) (valCell pr val θ))
      (modelLike f (NegativeBinomialT.like r X Nw)) (modelGrad f (NegativeBinomialT.gradLike r X Nw)) (modelHess f (NegativeBinomialT.hessLike r X Nw)) :=
  fit_returns (rule_negativeBinomial hpr r hr hX hN) hf ht False.elim fun _ _ => trivial

theorem data_of (hpr : pr.Ok) {V : Tensor ℝ} (h : Piece (pr.layout 0 0) V) (hx : V.xDim = 0) (hy : V.yDim = 0)
    (hs : Solid (fun _ => True) (pr.layout 0 0) (.tensor V)) : pr.IsData (.tensor V) := by
  rcases hs with hs | hs
  · have h1 := h.hn
    have h2 := hs.2.1
    unfold Tensor.n at h1
    have := hpr.1
    have h3 : (pr.layout 0 0).n = pr.n := rfl
    omega
  · exact ⟨V, rfl, h, ⟨hs.2.1, fun k hk => hs.2.2 k hk trivial⟩, hx, hy⟩

theorem outcomes_of_solid {L L' : Layout} {K : Nat → Prop} (hK : ∀ q, L.n ≤ q → K q) (hn : L'.n = L.n) (hd : L'.d = L.d) (hS : L'.S = L.S) {v : Num ℝ} (hp : NumPiece L v)
    (h : Solid K L v) (hc : v.Clean) : OutcomesFull L' v := by
  cases v with
  | tensor t =>
    rcases h with h | h
    · exact Or.inl h
    · refine Or.inr ⟨by rw [hd]; exact h.2.1, fun k hk => ?_⟩
      rw [hn, hS]
      exact h.2.2 _ (by omega) (hK _ (by omega))
  | generic g =>
    obtain ⟨-, -, -, h4, h5, h6⟩ := hp
    refine ⟨?_, fun e he => ?_⟩
    · obtain ⟨e, he⟩ := List.exists_mem_of_ne_nil _ h5
      obtain ⟨t, rfl, -, -, -, t1⟩ := h6 e he
      obtain ⟨t', e', t2⟩ := h.2 _ he
      obtain ⟨t'', e'', hz⟩ := hc _ he
      cases e'
      cases e''
      have t2 := (t2.resolve_left hz).2.1
      omega
    · obtain ⟨t, rfl, ht⟩ := h.2 e he
      obtain ⟨t'', e'', hz⟩ := hc _ he
      cases e''
      obtain ⟨t1, t2, t3⟩ := ht.resolve_left hz
      refine ⟨t, rfl, by rw [hn]; exact t1.hn, by rw [hd]; exact t2, fun k hk => ?_⟩
      rw [hn, hS]
      exact t3 _ (by omega) (hK _ (by omega))

theorem rule_normalizedFinite (hpr : pr.Ok) {K : Nat → Prop} {Nw : Num ℝ} (hN : pr.IsData Nw) :
    LikeRule pr K False (fun y => ∀ c, 0 < y c) (NormalizedFiniteT.like Nw) (NormalizedFiniteT.gradLike Nw) (NormalizedFiniteT.hessLike Nw) (Like.NormalizedFinite.like (pr.val Nw)) (Like.NormalizedFinite.gradLike (pr.val Nw))
      (Like.NormalizedFinite.hessLike (pr.val Nw)) := by
  refine ⟨?_, ?_, ?_, ?_, ?_, ?_, ?_⟩
  · intro V h1 h2 h3 h4 h5 _
    exact C63_normalizedFinite_like hpr hN (model_of h1 h3 h4)
  · intro V h1 h2 h3 h4 h5 ho m D hd hs _ e
    exact C63_normalizedFinite_grad hpr hN (model_of h1 h3 h4) (fun c => (ho c).ne') hd e
  · intro V h1 h2 h3 h4 h5 ho m D hd hs _ Q hq hqs _ e
    exact C63_normalizedFinite_hess hpr hN (model_of h1 h3 h4) (fun c => (ho c).ne') hd hq e
  · intro y der der' p a h
    simp only [Like.NormalizedFinite.gradLike, h]
  · intro y der der' hess hess' p q a b h1 h2 h3
    simp only [Like.NormalizedFinite.hessLike, h1, h2, h3]
  · intro model der θ p a ho h
    exact Like.C19_normalizedFinite _ model der θ p a ho h
  · intro model der hess θ p q a b ho h1 h2
    exact Like.C20_normalizedFinite _ model der hess θ p q a b ho h1 h2

/-- **C64.** `NormalizedFinite` with a model `f` that has positive values. -/
theorem C64_fit_normalizedFinite (hpr : pr.Ok) {K : Nat → Prop} {Nw : Num ℝ} (hN : pr.IsData Nw)
    {st : Store} {dom : Theta → Prop} {f : TFunc ℝ} {val : Val} (hf : Computes pr N K st dom f val) (ht : st.tot)
    (hpos : ∀ θ, dom θ → ∀ n d, pr.Pos n d → 0 < val θ n d) :
    FitReturns pr N dom (fun θ => Like.NormalizedFinite.like (pr.val Nw) (valCell pr val θ))
      (modelLike f (NormalizedFiniteT.like Nw)) (modelGrad f (NormalizedFiniteT.gradLike Nw)) (modelHess f (NormalizedFiniteT.hessLike Nw)) :=
  fit_returns (rule_normalizedFinite hpr hN) hf ht False.elim fun θ hθ c => hpos θ hθ _ _ (cell_pos c)

theorem rule_finite (hpr : pr.Ok) {K : Nat → Prop} (hK : ∀ q, pr.n ≤ q → K q) {Nw : Num ℝ} (hN : pr.IsData Nw) :
    LikeRule pr K True (fun y => ∀ c, 0 < y c) (FiniteT.like Nw) (FiniteT.gradLike Nw) (FiniteT.hessLike Nw) (Like.Finite.like (pr.val Nw)) (Like.Finite.gradLike (pr.val Nw))
      (Like.Finite.hessLike (pr.val Nw)) := by
  refine ⟨?_, ?_, ?_, ?_, ?_, ?_, ?_⟩
  · intro V h1 h2 h3 h4 h5 _
    exact C63_finite_like hpr hN (model_of h1 h3 h4) (outcomes_of_solid hK rfl rfl rfl (Or.inl h1) h5 trivial)
  · intro V h1 h2 h3 h4 h5 ho m D hd hs hcD e
    exact C63_finite_grad hpr hN (model_of h1 h3 h4) (outcomes_of_solid hK rfl rfl rfl (Or.inl h1) h5 trivial) ho hd (fun p hp => outcomes_of_solid hK (L := (pr.layout p p).noY) rfl rfl rfl (hd p hp) (hs p hp) (hcD trivial p hp)) e
  · intro V h1 h2 h3 h4 h5 ho m D hd hs hcD Q hq hqs hcQ e
    exact C63_finite_hess hpr hN (model_of h1 h3 h4) (outcomes_of_solid hK rfl rfl rfl (Or.inl h1) h5 trivial) ho hd (fun p hp => outcomes_of_solid hK (L := (pr.layout p p).noY) rfl rfl rfl (hd p hp) (hs p hp) (hcD trivial p hp)) hq (fun p hp q hqp => outcomes_of_solid hK rfl rfl rfl (hq p hp q hqp) (hqs p hp q hqp) (hcQ trivial p hp q hqp)) e
  · intro y der der' p a h
    simp only [Like.Finite.gradLike, h]
  · intro y der der' hess hess' p q a b h1 h2 h3
    simp only [Like.Finite.hessLike, h1, h2, h3]
  · intro model der θ p a ho h
    exact Like.C19_finite _ model der θ p a ho h
  · intro model der hess θ p q a b ho h1 h2
    exact Like.C20_finite _ model der hess θ p q a b ho h1 h2

/-- **C64.** `Finite` with a model `f` that has positive values. -/
theorem C64_fit_finite (hpr : pr.Ok) {K : Nat → Prop} {Nw : Num ℝ} (hN : pr.IsData Nw)
    {st : Store} {dom : Theta → Prop} {f : TFunc ℝ} {val : Val} (hf : Computes pr N K st dom f val) (ht : st.tot) (hc : st.clean)
    (hpos : ∀ θ, dom θ → ∀ n d, pr.Pos n d → 0 < val θ n d) (hK : ∀ q, pr.n ≤ q → K q := by exact fun _ _ => trivial) :
    FitReturns pr N dom (fun θ => Like.Finite.like (pr.val Nw) (valCell pr val θ))
      (modelLike f (FiniteT.like Nw)) (modelGrad f (FiniteT.gradLike Nw)) (modelHess f (FiniteT.hessLike Nw)) :=
  fit_returns (rule_finite hpr hK hN) hf ht (fun _ => hc) fun θ hθ c => hpos θ hθ _ _ (cell_pos c)

/-- **C67.** `Poisson`: if all parameters occur in the model, then the arrays that `grad_like` and `hess_like` return have their shapes. -/
theorem C67_whole_poisson (hpr : pr.Ok) {K : Nat → Prop} {X Nw : Num ℝ} (hX : pr.IsData X) (hN : pr.IsData Nw) {st : Store} {dom : Theta → Prop}
    {f : TFunc ℝ} {val : Val} (hf : Computes pr N K st dom f val) (ht : st.tot) (hu : ∀ p < m, st.used p) :
    FitWhole pr N dom (modelGrad f (PoissonT.gradLike X Nw)) (modelHess f (PoissonT.hessLike X Nw)) :=
  fit_whole (rule_poisson hpr hX hN) hf ht False.elim hu fun _ _ => trivial

/-- **C67.** `ZeroInflatedPoisson`: if all parameters occur in the model, then the arrays that `grad_like` and `hess_like` return have their shapes. -/
theorem C67_whole_zeroInflatedPoisson (hpr : pr.Ok) {K : Nat → Prop} (s : ℝ) (hs : 0 ≤ s) {X Nw Z : Num ℝ} (hX : pr.IsData X) (hN : pr.IsData Nw) (hZ : pr.IsData Z) {st : Store} {dom : Theta → Prop}
    {f : TFunc ℝ} {val : Val} (hf : Computes pr N K st dom f val) (ht : st.tot) (hu : ∀ p < m, st.used p) :
    FitWhole pr N dom (modelGrad f (ZeroInflatedPoissonT.gradLike s X Nw)) (modelHess f (ZeroInflatedPoissonT.hessLike s X Nw)) :=
  fit_whole (rule_zeroInflatedPoisson hpr s hs hX hN hZ) hf ht False.elim hu fun _ _ => trivial

/-- **C67.** `Logistic`: if all parameters occur in the model, then the arrays that `grad_like` and `hess_like` return have their shapes. -/
theorem C67_whole_logistic (hpr : pr.Ok) {K : Nat → Prop} {X Nw : Num ℝ} (hX : pr.IsData X) (hN : pr.IsData Nw) {st : Store} {dom : Theta → Prop}
    {f : TFunc ℝ} {val : Val} (hf : Computes pr N K st dom f val) (ht : st.tot) (hu : ∀ p < m, st.used p) :
    FitWhole pr N dom (modelGrad f (LogisticT.gradLike X Nw)) (modelHess f (LogisticT.hessLike X Nw)) :=
  fit_whole (rule_logistic hpr hX hN) hf ht False.elim hu fun _ _ => trivial

/-- **C67.** `NegativeBinomial`: if all parameters occur in the model, then the arrays that `grad_like` and `hess_like` return have their shapes. -/
theorem C67_whole_negativeBinomial (hpr : pr.Ok) {K : Nat → Prop} (r : ℝ) (hr : 0 < r) {X Nw : Num ℝ} (hX : pr.IsData X) (hN : pr.IsData Nw) {st : Store} {dom : Theta → Prop}
    {f : TFunc ℝ} {val : Val} (hf : Computes pr N K st dom f val) (ht : st.tot) (hu : ∀ p < m, st.used p) :
    FitWhole pr N dom (modelGrad f (NegativeBinomialT.gradLike r X Nw)) (modelHess f (NegativeBinomialT.hessLike r X Nw)) :=
  fit_whole (rule_negativeBinomial hpr r hr hX hN) hf ht False.elim hu fun _ _ => trivial

/-- **C67.** `NormalizedFinite`: if all parameters occur in the model, then the arrays that `grad_like` and `hess_like` return have their shapes. -/
theorem C67_whole_normalizedFinite (hpr : pr.Ok) {K : Nat → Prop} {Nw : Num ℝ} (hN : pr.IsData Nw) {st : Store} {dom : Theta → Prop}
    {f : TFunc ℝ} {val : Val} (hf : Computes pr N K st dom f val) (ht : st.tot) (hu : ∀ p < m, st.used p) (hpos : ∀ θ, dom θ → ∀ n d, pr.Pos n d → 0 < val θ n d) :
    FitWhole pr N dom (modelGrad f (NormalizedFiniteT.gradLike Nw)) (modelHess f (NormalizedFiniteT.hessLike Nw)) :=
  fit_whole (rule_normalizedFinite hpr hN) hf ht False.elim hu fun θ hθ c => hpos θ hθ _ _ (cell_pos c)

/-- **C67.** `Finite`: if all parameters occur in the model, then the arrays that `grad_like` and `hess_like` return have their shapes. -/
theorem C67_whole_finite (hpr : pr.Ok) {K : Nat → Prop} {Nw : Num ℝ} (hN : pr.IsData Nw) {st : Store} {dom : Theta → Prop}
    {f : TFunc ℝ} {val : Val} (hf : Computes pr N K st dom f val) (ht : st.tot) (hc : st.clean) (hu : ∀ p < m, st.used p) (hpos : ∀ θ, dom θ → ∀ n d, pr.Pos n d → 0 < val θ n d) (hK : ∀ q, pr.n ≤ q → K q := by exact fun _ _ => trivial) :
    FitWhole pr N dom (modelGrad f (FiniteT.gradLike Nw)) (modelHess f (FiniteT.hessLike Nw)) :=
  fit_whole (rule_finite hpr hK hN) hf ht (fun _ => hc) hu fun θ hθ c => hpos θ hθ _ _ (cell_pos c)

end

end Verif.Tens
