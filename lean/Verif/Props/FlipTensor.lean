import Verif.Props.FuncWrapTensor
import Verif.Props.FuncLeafTensor
import Verif.Props.TensorStruct
import Verif.Props.CollapseTerm

/-!
# C64: `FuncWrap` with `feat_flip`

The values are reversed along the flipped features, but there are no derivatives: `flip` refuses Tensors with a parameter axis on a flipped
feature, so that `grad` and `eval` raise NotImplementedError.
-/

set_option linter.unusedSectionVars false

namespace Verif.Tens
open Verif.Params (Err)
open NDArray

section
variable {pr0 : Problem} {m0 : Nat} {N0 : Numbering pr0 m0} {pr : Problem} {m : Nat} {N : Numbering pr m}
  {pm fm dm fl : List Nat} {s : Store} {dom : Theta → Prop} {f : TFunc ℝ} {val : Val}

/-- The position `n` counted from the other end in the features `fl`. -/
def Problem.mirror (pr : Problem) (fl : List Nat) (n : Nat → Nat) : Nat → Nat := fun k => if k ∈ fl then pr.S k - 1 - n k else n k

/-- `_expand` with flips, for the values. -/
theorem expand_flip_value (h : Inside N0 N pm fm dm) {V : Tensor ℝ} (hp : Piece (pr0.layout 0 0) V)
    (hd : V.dim = pr0.d) (hs : ∀ k < pr0.n + pr0.d, V.values.shape (V.xDim + V.yDim + k) = pr0.S k) (hx : V.xDim = 0) (hy : V.yDim = 0)
    (h0 : 0 < pr0.n + pr0.d) (hfn : fl.Nodup) (hfl : ∀ k ∈ fl, k < pr.n) :
    ∃ c, (⟨pm, fm, pr.n, dm, pr.d, fl⟩ : Wrap).expand (.arr (.tensor V)) = .ok (.arr (.tensor c)) ∧ c.xDim = 0 ∧ c.yDim = 0 ∧ c.n = pr.n ∧ c.dim = pr.d ∧
      ∀ i : Idx, c.dense i = V.dense ⟨i.x, i.y, fun k => pr.mirror fl i.n (fm.getD k 0), fun k => i.d (dm.getD k 0)⟩ := by
  have hn : V.n = pr0.n := hp.hn
  have hnd := hp.wf.nd
  obtain ⟨a, a1, a2, a3, a4⟩ := expand_values_full hp.wf h.fmN h.fmLt (by rw [h.fmLen, hn])
  obtain ⟨⟨b1, b2, b3, b4⟩, b5, b6, b7, b8, b9, b10⟩ := a3 fun c => by omega
  have hfl' : ∀ k ∈ fl, k < if false then a.dim else a.n := by rw [b3]; exact hfl
  obtain ⟨b, hb⟩ := (C54_refuses_mapped a2 false hfl').2 (by
    rintro ⟨-, k, -, hk⟩
    have e1 := a2.xLen
    have e2 := a2.yLen
    rw [List.eq_nil_of_length_eq_zero (l := a.xMap) (by omega), List.eq_nil_of_length_eq_zero (l := a.yMap) (by omega)] at hk
    simp at hk)
  obtain ⟨f1, f2, f3, f4, f5, f6, f7⟩ := C54_flip a2 hfn false hfl' hb
  have hbnd := f1.nd
  obtain ⟨c, c1, c2, c3, c4⟩ := expand_dim_full f1 h.dmN h.dmLt (by rw [h.dmLen, f5, b4, hd])
  have h1 := h.fmLen
  have h2 := h.dmLen
  have hbpos : ¬ (b.values.ndim = 0 ∧ b.values.get (fun _ => 0) = 0) := by
    intro hc
    have hbn : b.n = pr.n := by rw [f4, b3]
    have hbd : b.dim = pr0.d := by rw [f5, b4, hd]
    have : 0 < pr0.n → 0 < pr.n := fun hpos => lt_of_le_of_lt (Nat.zero_le _) (h.fmLt _ (getD_mem_nat (l := fm) (k := 0) (by omega)))
    omega
  obtain ⟨⟨d1, d2, d3, d4⟩, -⟩ := c3 hbpos
  refine ⟨c, ?_, by omega, by omega, by omega, d4, fun i => ?_⟩
  · show (do
      let a ← (Num.tensor V).expand fm pr.n false
      let b ← a.flip fl
      let c ← b.expand dm pr.d true
      Except.ok (Py.arr c)) = _
    unfold Num.expand Num.flip
    dsimp only
    rw [a1, map_ok, ok_bind']
    dsimp only
    rw [hb, map_ok, ok_bind']
    dsimp only
    rw [c1]
    rfl
  · rw [c4, f7, a4]
    unfold flipIdx
    simp only [Bool.false_eq_true, if_false]
    refine Tensor.dense_congr (K := fun _ => True) (L := pr0.layout 0 0) (Or.inr ⟨hp, hd, fun k hk _ => hs k hk⟩) (fun k hk => ?_) fun k hk => rfl
    unfold flipPos Problem.mirror
    refine if_congr Iff.rfl ?_ rfl
    have hk : k < pr0.n := hk
    beta_reduce
    rw [b1, b2, b8 k (by omega), hs k (by omega), h.fmS k hk]

/-- **C64 (partial).** `FuncWrap(f, …, feat_flip)(params)`: the function at the position counted from the other end in the flipped features. -/
theorem C64_flip_call_partial (h : Inside N0 N pm fm dm) (hf : Computes pr0 N0 (fun _ => True) s dom f val) (htot : s.tot) (hfull : ∀ k, s.full k)
    (h0 : 0 < pr0.n + pr0.d) (hfn : fl.Nodup) (hfl : ∀ k ∈ fl, k < pr.n) {θ : Theta} (hθ : dom (θ.sub pm)) {ps : List (Tensor ℝ)} (hps : N.IsParams θ ps) :
    ∃ V, (wrapT f ⟨pm, fm, pr.n, dm, pr.d, fl⟩).call ps = .ok (.arr (.tensor V)) ∧ V.xDim = 0 ∧ V.yDim = 0 ∧ V.n = pr.n ∧ V.dim = pr.d ∧
      ∀ n d, pr.Pos n d → ∀ x y, V.dense ⟨x, y, n, d⟩ = val (θ.sub pm) (through fm (pr.mirror fl n)) (through dm d) := by
  obtain ⟨der, hes, -, hret⟩ := hf.ok
  obtain ⟨qs, q1, q2⟩ := h.params hps fm pr.n dm pr.d fl
  obtain ⟨-, V, D, H, h1, h2, h3⟩ := hret _ hθ qs q2
  obtain ⟨c1, -, -⟩ := (sep_iff q2.1).1 h1
  obtain ⟨t1, t2, t3⟩ := h3.tot htot
  obtain ⟨c, e1, e2, e3, e4, e5, e6⟩ := expand_flip_value h t1 t2 (fun k hk => t3 k hk (hfull k)) h2.vx h2.vy h0 hfn hfl
  refine ⟨c, ?_, e2, e3, e4, e5, fun n d hnd x y => ?_⟩
  · show (Wrap.params _ ps >>= fun qs => f.call qs >>= fun v => Wrap.expand _ v) = _
    rw [q1, ok_bind', c1, ok_bind', e1]
  · rw [e6]
    dsimp only
    have hmir : pr.Pos (pr.mirror fl n) d := by
      refine ⟨fun k hk => ?_, fun k hk => ?_, hnd.2.2⟩
      · have := hnd.1 k hk
        unfold Problem.mirror
        split_ifs <;> omega
      · unfold Problem.mirror
        rw [if_neg fun hc => absurd (hfl k hc) (by omega)]
        exact hnd.2.1 k hk
    rw [Tensor.dense_congr (K := fun _ => True) (L := pr0.layout 0 0) (n' := through fm (pr.mirror fl n)) (d' := through dm d)
      (Or.inr ⟨t1, t2, fun k hk _ => t3 k hk (hfull k)⟩)
      (fun k hk => (through_of (by rw [h.fmLen]; exact hk)).symm) (fun k hk => (through_of (by rw [h.dmLen]; exact hk)).symm)]
    exact h2.v _ _ (h.pos hmir) x y

/-- All features are in the map of a parameter that has one axis per feature. -/
theorem mapped_onto {l : List Int} {n : Nat} (hlen : l.length = n) (hr : ∀ f ∈ l, 0 ≤ f ∧ f < (n : Int)) (hn : l.Nodup) {j : Nat} (hj : j < n) : (j : Int) ∈ l := by
  have hinj : Set.InjOn Int.toNat {x | x ∈ l} := fun x hx y hy e => by
    have := hr x hx; have := hr y hy; omega
  have hs : (l.toFinset.image Int.toNat) = Finset.range n := by
    apply Finset.eq_of_subset_of_card_le
    · intro k hk
      obtain ⟨x, hx, rfl⟩ := Finset.mem_image.1 hk
      have := hr x (List.mem_toFinset.1 hx)
      exact Finset.mem_range.2 (by omega)
    · rw [Finset.card_image_of_injOn (fun x hx y hy => hinj (List.mem_toFinset.1 hx) (List.mem_toFinset.1 hy)), List.toFinset_card_of_nodup hn, hlen, Finset.card_range]
  have := Finset.mem_range.2 hj
  rw [← hs] at this
  obtain ⟨x, hx, e⟩ := Finset.mem_image.1 this
  have hx := List.mem_toFinset.1 hx
  have := hr x hx
  rw [show (j : Int) = x by omega]
  exact hx

/-- `_expand` of a derivative with an axis on a flipped feature. -/
theorem expand_flip_der (h : Inside N0 N pm fm dm) {k : Nat} (hk : k < m0) (hnd : pr0.nd k = pr0.n) {t : Tensor ℝ}
    (ht : Piece (pr0.layout k k).noY t) (hx : t.xDim = pr0.nd k) (hm : t.Mapped) (hfl : ∀ k ∈ fl, k < pr.n) {j : Nat} (hj : j < pr0.n) (hjf : fm.getD j 0 ∈ fl) :
    (⟨pm, fm, pr.n, dm, pr.d, fl⟩ : Wrap).expand (.arr (.tensor t)) = .error .notImplemented := by
  have hn : t.n = pr0.n := ht.hn
  have hndim := ht.wf.nd
  obtain ⟨a, a1, a2, a3, -⟩ := expand_values_full ht.wf h.fmN h.fmLt (by rw [h.fmLen, hn])
  obtain ⟨⟨b1, b2, b3, b4⟩, b5, -⟩ := a3 fun c => by omega
  have hfl' : ∀ k ∈ fl, k < if false then a.dim else a.n := by rw [b3]; exact hfl
  have hall : ∀ f ∈ t.xMap, 0 ≤ f := by
    intro f hf
    obtain ⟨i, hi, rfl⟩ := List.getElem_of_mem hf
    have := hm.1 i (lt_of_lt_of_le hi ht.wf.xLen)
    rwa [List.getD_eq_getElem _ _ hi] at this
  have hlen : t.xMap.length = t.xDim := by
    refine le_antisymm ht.wf.xLen (not_lt.1 fun hc => ?_)
    have := hm.1 _ hc
    rw [List.getD_eq_default _ _ le_rfl] at this
    omega
  have hmem : (j : Int) ∈ t.xMap := by
    refine mapped_onto (n := pr0.n) (by rw [hlen, hx, hnd]) (fun f hf => ⟨hall f hf, by rw [← hn]; exact ht.wf.xRange f hf⟩) ?_ hj
    have := ht.inj.1
    rwa [List.filter_eq_self.2 fun f hf => by simpa using hall f hf] at this
  have hmem' : ((fm.getD j 0 : Nat) : Int) ∈ a.xMap := by
    rw [b5.eq, List.mem_map]
    exact ⟨(j : Int), hmem, by simp⟩
  have hb := (C54_refuses_mapped a2 false hfl').1.1 ⟨rfl, _, hjf, Or.inl hmem'⟩
  show (do
      let a ← (Num.tensor t).expand fm pr.n false
      let b ← a.flip fl
      let c ← b.expand dm pr.d true
      Except.ok (Py.arr c)) = _
  unfold Num.expand Num.flip
  dsimp only
  rw [a1, map_ok, ok_bind']
  dsimp only
  rw [hb]
  rfl

theorem mapM_mem_ok {β γ : Type} {f : β → Except Err γ} : ∀ {l : List β} {r : List γ}, l.mapM f = .ok r → ∀ {x : β}, x ∈ l → ∃ y, f x = .ok y
  | [], _, _, _, hx => absurd hx (by simp)
  | a :: l, r, h, x, hx => by
    rw [List.mapM_cons] at h
    cases ha : f a with
    | error e => rw [ha] at h; cases h
    | ok y =>
      rw [ha, ok_bind'] at h
      cases hl : l.mapM f with
      | error e => rw [hl] at h; cases h
      | ok ys =>
        rcases List.mem_cons.1 hx with rfl | hx
        · exact ⟨y, ha⟩
        · exact mapM_mem_ok hl hx

/-- **C64.** With `feat_flip`, `grad` raises NotImplementedError for a parameter with one axis per feature (if its derivative is a Tensor with mapped axes, as
for all elementary functions) as soon as one of the features of the function is flipped. -/
theorem C64_flip_grad (h : Inside N0 N pm fm dm) {K : Nat → Prop} (hf : Computes pr0 N0 K s dom f val) (hg : f.gradNull = false) (hm : s.mapped) {k : Nat} (hk : k < m0) (hu : s.used k)
    (h1 : s.single k) (hnd : pr0.nd k = pr0.n) (hfl : ∀ k ∈ fl, k < pr.n) {j : Nat} (hj : j < pr0.n) (hjf : fm.getD j 0 ∈ fl)
    {θ : Theta} (hθ : dom (θ.sub pm)) {ps : List (Tensor ℝ)} (hps : N.IsParams θ ps) :
    (wrapT f ⟨pm, fm, pr.n, dm, pr.d, fl⟩).grad ps (pm.getD k 0) = .error .notImplemented ∧
      ∀ e, (wrapT f ⟨pm, fm, pr.n, dm, pr.d, fl⟩).eval ps ≠ .ok e := by
  obtain ⟨der, hes, -, hret⟩ := hf.ok
  obtain ⟨qs, q1, q2⟩ := h.params hps fm pr.n dm pr.d fl
  obtain ⟨⟨V', D', H', h1', h2', h3'⟩, V, D, H, h1, h2, h3⟩ := hret _ hθ qs q2
  obtain ⟨-, c2, -⟩ := (sep_iff q2.1).1 h1
  have hkl : k < pm.length := by rw [h.pmLen]; exact hk
  have hidx : (⟨pm, fm, pr.n, dm, pr.d, fl⟩ : Wrap).index (pm.getD k 0) = .ok k := by
    cases hi : pm.findIdx? (· == pm.getD k 0) with
    | none => exact absurd (getD_mem_nat hkl) (findIdx_none hi)
    | some l =>
      obtain ⟨e1, e2⟩ := findIdx_some hi
      rw [index_some hi, nodup_get h.nodup e1 hkl e2]
  have key : ∀ {V D H}, Values pr0 N0 K (θ.sub pm) val der hes V D H → Stored pr0 m0 s V D H →
      (⟨pm, fm, pr.n, dm, pr.d, fl⟩ : Wrap).expand (.arr (D k)) = .error .notImplemented := by
    intro V D H hv hs
    have hsing := hs.single k hk ‹s.single k›
    have hsp := hs.live k hk hu
    have hma := hs.mapD hm k hk
    have hdp := hv.dp k hk
    cases hD : D k with
    | generic g => rw [hD] at hsing; exact absurd hsing id
    | tensor t =>
      rw [hD] at hsp hma hdp
      exact expand_flip_der h hk hnd (hdp.resolve_right hsp.1) hsp.2 hma hfl hj hjf
  refine ⟨?_, ?_⟩
  · show (if f.gradNull then nullFunc else catchValue _) = _
    rw [hg, if_neg (by simp), q1, ok_bind', hidx, ok_bind', c2 k hk, ok_bind', key h2 h3]
    rfl
  · intro e he
    have hp : pm.getD k 0 < ps.length := by rw [hps.1]; exact h.pmLt _ (getD_mem_nat hkl)
    have he : Wrap.eval _ f ps = .ok e := he
    unfold Wrap.eval at he
    rw [q1, ok_bind', h1', ok_bind'] at he
    dsimp only at he
    cases hv : (⟨pm, fm, pr.n, dm, pr.d, fl⟩ : Wrap).expand (.arr (.tensor V')) with
    | error x => rw [hv] at he; cases he
    | ok v =>
      rw [hv, ok_bind'] at he
      have hpick : pick (row m0 fun p => Py.arr (D' p)) k = .ok (.arr (D' k)) := pick_range hk
      cases hn : f.hessNull with
      | true =>
        rw [hn, if_pos rfl] at he
        have hbad : (⟨pm, fm, pr.n, dm, pr.d, fl⟩ : Wrap).evalGrad (row m0 fun p => Py.arr (D' p)) (pm.getD k 0) = .error .notImplemented := by
          unfold Wrap.evalGrad
          rw [hidx, ok_bind', hpick, ok_bind', key h2' h3']
          rfl
        cases hg : (List.range ps.length).mapM ((⟨pm, fm, pr.n, dm, pr.d, fl⟩ : Wrap).evalGrad (row m0 fun p => Py.arr (D' p))) with
        | error x => rw [hg] at he; cases he
        | ok gs =>
          have := mapM_mem_ok hg (List.mem_range.2 hp)
          obtain ⟨y, hy⟩ := this
          rw [hbad] at hy
          cases hy
      | false =>
        rw [hn, if_neg (by simp)] at he
        have hbad : ∀ (r i : Nat) (idxs : List (Option Nat)), i ≤ pm.getD k 0 → pm.getD k 0 < i + r → ∀ x,
            (⟨pm, fm, pr.n, dm, pr.d, fl⟩ : Wrap).evalLoop (row m0 fun p => Py.arr (D' p)) (triangle m0 fun p q => Py.arr (H' p q)) i idxs r ≠ .ok x := by
          intro r
          induction r with
          | zero => intro i idxs h1 h2; omega
          | succ r ih =>
            intro i idxs h1 h2 x hx
            unfold Wrap.evalLoop at hx
            by_cases hi : i = pm.getD k 0
            · subst hi
              rw [hidx] at hx
              dsimp only at hx
              rw [hpick, ok_bind', key h2' h3'] at hx
              cases hx
            · have ih := fun l => ih (i + 1) l (by omega) (by omega)
              dsimp only at hx
              have skip : ∀ (l : List (Option Nat)) (F : _ → Except Err (List (Py ℝ) × List (List (Py ℝ)))) y,
                  (Wrap.evalLoop (⟨pm, fm, pr.n, dm, pr.d, fl⟩ : Wrap) (row m0 fun p => Py.arr (D' p)) (triangle m0 fun p q => Py.arr (H' p q)) (i + 1) l r >>= F) ≠ .ok y := by
                intro l F y hy
                cases hc : Wrap.evalLoop (⟨pm, fm, pr.n, dm, pr.d, fl⟩ : Wrap) (row m0 fun p => Py.arr (D' p)) (triangle m0 fun p q => Py.arr (H' p q)) (i + 1) l r with
                | error e => rw [hc] at hy; cases hy
                | ok z => exact ih l z hc
              split at hx
              · next idx _ =>
                cases hc : pick (row m0 fun p => Py.arr (D' p)) idx with
                | error e => rw [hc] at hx; cases hx
                | ok v =>
                  rw [hc, ok_bind'] at hx
                  split at hx
                  · exact skip _ _ _ hx
                  · cases hx
                  · split at hx
                    · exact skip _ _ _ hx
                    · cases hx
                    · exact skip _ _ _ hx
              · exact skip _ _ _ hx
        cases hl : (⟨pm, fm, pr.n, dm, pr.d, fl⟩ : Wrap).evalLoop (row m0 fun p => Py.arr (D' p)) (triangle m0 fun p q => Py.arr (H' p q)) 0 [] ps.length with
        | error x => rw [hl] at he; cases he
        | ok x => exact hbad _ 0 [] (Nat.zero_le _) (by omega) x hl

/-- The function of one array as a problem of a fit with this parameter. -/
theorem vectorOf_inside (s : Nat) : Inside (cOrder (vectorOf s) 1) (cOrder (vectorOf s) 1) [0] [0] [] where
  pmS := by simp
  pmLt := by simp
  pmLen := rfl
  nd _ _ := rfl
  P _ _ _ _ := rfl
  e _ _ _ := rfl
  fmN := by simp
  fmLt p hp := by
    rw [List.mem_singleton.1 hp]
    exact Nat.one_pos
  fmLen := rfl
  fmS _ _ := rfl
  dmN := by simp
  dmLt := by simp
  dmLen := rfl
  dmS k hk := absurd hk (Nat.not_lt_zero k)

/-- **C64: counterexample.** `FuncWrap(Exp(), 0, 0, 1, feat_flip=[0])` of an array with `s` entries: calling it returns the exponentials of the entries in reverse order, but
`grad` raises NotImplementedError and `eval` does not return. -/
theorem C64_flip_counterexample {s : Nat} {θ : Theta} {v : NDArray ℝ} (hv : v.ndim = 1) (hs : v.shape 0 = s) (hθ : ∀ a < s, v.get (fun k => if k = 0 then a else 0) = θ 0 a) :
    (∃ V, (wrapT expT ⟨[0], [0], 1, [], 0, [0]⟩).call [⟨v, 0, 0, 0, [], []⟩] = .ok (.arr (.tensor V)) ∧ V.n = 1 ∧ V.dim = 0 ∧
      ∀ a < s, ∀ x y, V.dense ⟨x, y, fun k => if k = 0 then a else 0, fun _ => 0⟩ = Real.exp (θ 0 (s - 1 - a))) ∧
    (wrapT expT ⟨[0], [0], 1, [], 0, [0]⟩).grad [⟨v, 0, 0, 0, [], []⟩] 0 = .error .notImplemented ∧
    ∀ e, (wrapT expT ⟨[0], [0], 1, [], 0, [0]⟩).eval [⟨v, 0, 0, 0, [], []⟩] ≠ .ok e := by
  have hin := vectorOf_inside s
  have hf := C64_Exp (pr := vectorOf s) (N := cOrder (vectorOf s) 1) (fun p hp => ⟨rfl, fun k hk => rfl⟩) rfl
  have hentry : ∀ a, (vectorOf s).Entry 0 ((cOrder (vectorOf s) 1).e 0 a) → (cOrder (vectorOf s) 1).e 0 a = (fun k => if k = 0 then a else 0) ∧ a < s := by
    intro a hE
    have e : (cOrder (vectorOf s) 1).e 0 a = unravel [s] a := rfl
    have e' : unravel [s] a = fun k => if k = 0 then a else 0 := by
      funext k
      cases k with
      | zero => simp [unravel]
      | succ k =>
        have := hE.2 (k + 1) (by show k + 1 ≥ 1; omega)
        rw [e] at this
        rw [this]; simp
    refine ⟨by rw [e, e'], ?_⟩
    have := hE.1 0 Nat.one_pos
    rw [e, e'] at this
    exact this
  have hps : (cOrder (vectorOf s) 1).IsParams θ [⟨v, 0, 0, 0, [], []⟩] := by
    refine ⟨rfl, fun p hp => ?_⟩
    obtain rfl : p = 0 := by omega
    refine ⟨v, rfl, hv, fun k hk => ?_, fun a hE => ?_⟩
    · obtain rfl : k = 0 := by have : k < 1 := hk; omega
      exact hs
    · obtain ⟨e1, e2⟩ := hentry a hE
      rw [e1, hθ a e2]
  have hfl : ∀ k ∈ [0], k < (vectorOf s).n := fun k hk => by rw [List.mem_singleton.1 hk]; exact Nat.one_pos
  refine ⟨?_, ?_⟩
  · obtain ⟨V, h1, -, -, h4, h5, h6⟩ := C64_flip_call_partial (fl := [0]) hin hf trivial (fun _ => trivial) Nat.one_pos (by simp) hfl trivial hps
    refine ⟨V, h1, h4, h5, fun a ha x y => ?_⟩
    rw [h6 (fun k => if k = 0 then a else 0) (fun _ => 0) ⟨fun k hk => ?_, fun k hk => ?_, fun k hk => absurd hk (Nat.not_lt_zero k), fun _ _ => rfl⟩ x y]
    · congr 1
      show θ 0 (ravel [s] (through [0] ((vectorOf s).mirror [0] _))) = _
      congr 1
      simp [ravel, through, Problem.mirror, vectorOf]
    · obtain rfl : k = 0 := by have : k < 1 := hk; omega
      exact ha
    · have : k ≥ 1 := hk
      exact if_neg (by omega)
  · exact C64_flip_grad (k := 0) (j := 0) hin hf rfl trivial Nat.one_pos Nat.one_pos trivial rfl hfl Nat.one_pos (by simp) trivial hps

end

end Verif.Tens
