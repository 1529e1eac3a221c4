import Verif.Lemmas.ActsCompose

/-!
# `Compose` with functions of the parameters
-/

set_option linter.unusedSectionVars false

namespace Verif.Tens
open Verif.Params (Err)
open NDArray

section
variable {α : Type} [Field α] [DecidableEq α] {fl : Prop} {S S' : Nat → Nat} {len d A B A' B' : Nat} {X Y X' Y' : List Int → Prop}

theorem Slab.sizes {nx ny : Nat} {xm ym : List Int} {t : Tensor α} {G : (Nat → Nat) → α} (h : Slab S nx ny len d xm ym t G) (hS : ∀ j < len, S' j = S j) :
    Slab S' nx ny len d xm ym t G :=
  { h with
    size := fun j hj => by rw [hS j hj]; exact h.size j hj
    get := fun idx hi => h.get idx fun j hj => by rw [← hS j hj]; exact hi j hj }

theorem Part.mono {t : Tensor α} (h : Part fl S len d X Y t) (hS : ∀ j < len, S' j = S j) (hX : ∀ m, X m → X' m) (hY : ∀ m, Y m → Y' m) :
    Part fl S' len d X' Y' t := by
  obtain ⟨xm, ym, G, h1, h2, h3, h4⟩ := h
  exact ⟨xm, ym, G, h1.sizes hS, fun hf j hj => by rw [hS j hj]; exact h2 hf j hj, hX _ h3, hY _ h4⟩

theorem Stack.mono {v : Num α} (h : Stack fl S len d A B X Y v) (hS : ∀ j < len, S' j = S j) (hX : ∀ m, X m → X' m) (hY : ∀ m, Y m → Y' m)
    (hA : A = A') (hB : B = B') : Stack fl S' len d A' B' X' Y' v := by
  subst hA hB
  cases v with
  | tensor t => exact Part.mono h hS hX hY
  | generic g =>
    obtain ⟨h1, h2, h3, h4, h5, h6⟩ := h
    refine ⟨h1, h2, h3, h4, h5, fun e he => ?_⟩
    obtain ⟨t, t1, t2, t3⟩ := h6 e he
    exact ⟨t, t1, Part.mono t2 hS hX hY, t3⟩

/-- An array without `Tensor(0)` has all `a` axes of the parameter if each part has them. -/
theorem Stack.wide_in {v : Num ℝ} {a : Nat} (h : Stack fl S len d A B X Y v) (hf : v.Firm) (hw : v.Wide a) :
    Stack fl S len d A B (fun l => X l ∧ l.length = a) Y v := by
  have key : ∀ {t : Tensor ℝ}, Part fl S len d X Y t → ¬ t.IsZero → (t.IsZero ∨ t.xDim = a) → Part fl S len d (fun l => X l ∧ l.length = a) Y t := by
    rintro t ⟨xm, ym, G, h1, h2, h3, h4⟩ hz hw
    exact ⟨xm, ym, G, h1, h2, ⟨h3, by rw [← h1.hx]; exact hw.resolve_left hz⟩, h4⟩
  cases v with
  | tensor t => exact key h hf hw
  | generic g =>
    obtain ⟨h1, h2, h3, h4, h5, h6⟩ := h
    refine ⟨h1, h2, h3, h4, h5, fun e he => ?_⟩
    obtain ⟨t, rfl, t2, t3⟩ := h6 e he
    obtain ⟨t', e1, hz⟩ := hf _ he
    cases e1
    obtain ⟨t', e1, hx⟩ := hw _ he
    cases e1
    exact ⟨t, rfl, key t2 hz hx, t3⟩

theorem Stack.wide_out {v : Num ℝ} {a : Nat} (h : Stack fl S len d A B X Y v) (hX : ∀ l, X l → l.length = a) : v.Wide a := by
  have key : ∀ {t : Tensor ℝ}, Part fl S len d X Y t → t.xDim = a := by
    rintro t ⟨xm, ym, G, h1, h2, h3, h4⟩
    rw [h1.hx, hX _ h3]
  cases v with
  | tensor t => exact Or.inr (key h)
  | generic g =>
    intro e he
    obtain ⟨t, rfl, t2, t3⟩ := h.2.2.2.2.2 e he
    exact ⟨t, rfl, Or.inr (key t2)⟩

theorem agrees_congr_iff {m : List Int} (hm : ∀ f ∈ m, 0 ≤ f ∧ f < len) {x s s' : Nat → Nat} (h : ∀ j < len, s j = s' j) : Agrees m x s ↔ Agrees m x s' := by
  have key : ∀ {s s' : Nat → Nat}, (∀ j < len, s j = s' j) → Agrees m x s → Agrees m x s' := by
    intro s s' h ha k hk h0
    have hr := hm _ (List.getElem_mem hk)
    rw [List.getD_eq_getElem _ _ hk] at h0 ⊢
    rw [← h _ (by omega)]
    have := ha k hk
    rw [List.getD_eq_getElem _ _ hk] at this
    exact this h0
  exact ⟨key h, key fun j hj => (h j hj).symm⟩

theorem Part.read_congr {t : Tensor α} (h : Part fl S len d X Y t) (hX : ∀ m, X m → ∀ f ∈ m, 0 ≤ f ∧ f < len) (hY : ∀ m, Y m → ∀ f ∈ m, 0 ≤ f ∧ f < len)
    {s s' : Nat → Nat} (hs : ∀ j < len, s j < S j) (he : ∀ j < len, s j = s' j) (x y : Nat → Nat) : t.read x y s = t.read x y s' := by
  obtain ⟨xm, ym, G, h1, h2, h3, h4⟩ := h
  rw [h1.read hs, h1.read (fun j hj => by rw [← he j hj]; exact hs j hj)]
  simp only [agrees_congr_iff (hX _ h3) he, agrees_congr_iff (hY _ h4) he, cut_congr he]

theorem Stack.read_congr {v : Num α} (h : Stack fl S len d A B X Y v) (hX : ∀ m, X m → ∀ f ∈ m, 0 ≤ f ∧ f < len) (hY : ∀ m, Y m → ∀ f ∈ m, 0 ≤ f ∧ f < len)
    {s s' : Nat → Nat} (hs : ∀ j < len, s j < S j) (he : ∀ j < len, s j = s' j) (x y : Nat → Nat) : v.read x y s = v.read x y s' := by
  cases v with
  | tensor t => exact Part.read_congr h hX hY hs he x y
  | generic g =>
    show readElems _ _ _ _ = readElems _ _ _ _
    unfold readElems
    congr 1
    refine List.map_congr_left fun e hm => ?_
    obtain ⟨t, rfl, ht, -⟩ := h.2.2.2.2.2 e hm
    exact Part.read_congr ht hX hY hs he x y

end

section
variable {L : Layout}

/-- `v` is a derivative array of the problem, with mapped axes in full size, that has the entries `a` (and is not `Tensor(0)`). -/
def IsNum (L : Layout) (v : Num ℝ) (a : Idx → ℝ) : Prop :=
  NumPiece L v ∧ NumSolid (fun _ => True) L v ∧ v.Mapped ∧ v.Firm ∧ ∀ i, L.Within i → v.dense i = a i

theorem kit_num (hL : L.Ok) : Kit (IsNum L) where
  add := by
    rintro v w a b ⟨h1, h2, h3, h4, h5⟩ ⟨k1, k2, k3, k4, k5⟩
    obtain ⟨r, r1, r2, r3, r4⟩ := solid_add hL h1 k1 h2 k2
    exact ⟨r, r1, r2, r3, mapped_bin hL h1 k1 h3 k3 r1, all_add hL (add_notZero hL) h1 k1 h4 k4 r1, fun i hi => by rw [r4, h5 i hi, k5 i hi]; rfl⟩
  zero := by
    rintro w b ⟨k1, k2, k3, k4, k5⟩
    obtain ⟨r, r1, r2, r3, r4⟩ := solid_add hL (v := zeroN) zeroN_piece k1 zeroN_solid k2
    exact ⟨r, r1, r2, r3, mapped_bin hL zeroN_piece k1 zeroN_mapped k3 r1, firm_iff.2 ⟨live_bin hL zeroN_piece k1 (Or.inr (firm_iff.1 k4).1) r1, clean_bin hL zeroN_piece k1 zeroN_clean (firm_iff.1 k4).2 r1⟩,
      fun i hi => by rw [r4, zeroN_dense, k5 i hi, zero_add]⟩
  num := by
    rintro w b ⟨k1, k2, -⟩
    exact scalarOp_zero k1 k2

/-- The same for a sum of `a.2 ≥ 1` arrays with all axes of the parameter; if there is only one summand and `S` holds, it is a Tensor. -/
def IsNumS (L : Layout) (S : Prop) (v : Num ℝ) (a : (Idx → ℝ) × ℕ) : Prop := IsNum L v a.1 ∧ 1 ≤ a.2 ∧ (a.2 = 1 → S → v.Single) ∧ v.Wide L.a

theorem kit_numS (hL : L.Ok) (S : Prop) : Kit (IsNumS L S) where
  add := by
    rintro v w a b ⟨h1, h2, -, h3⟩ ⟨k1, k2, -, k3⟩
    obtain ⟨r, r1, r2⟩ := (kit_num hL).add h1 k1
    have e : (a + b).2 = a.2 + b.2 := rfl
    exact ⟨r, r1, r2, by omega, fun h => by omega, wide_bin hL h1.1 k1.1 h3 k3 r1⟩
  zero := by
    rintro w b ⟨k1, k2, k3, k4⟩
    obtain ⟨r, r1, r2⟩ := (kit_num hL).zero k1
    exact ⟨r, r1, r2, k2, fun h hS => (dead_left hL (v := zeroN) zeroN_dead k1.1 r1).1 (k3 h hS), wide_bin hL zeroN_piece k1.1 (zeroN_wide _) k4 r1⟩
  num := by
    rintro w b ⟨k1, -⟩
    exact (kit_num hL).num k1

/-- An array with the entries `a` in its axes -/
theorem isNum_of_stack (hL : L.Ok) {v : Num ℝ}
    (h : Stack True L.S (L.n + L.d) L.d L.a L.b (Chart L.n L.S L.a L.PX) (Chart L.n L.S L.b L.PY) v) {a : Idx → ℝ}
    (ha : ∀ i, L.Within i → v.read i.x i.y (joinAt L.n i.n i.d) = a i) : IsNum L v a := by
  obtain ⟨h1, h2, h3, h4⟩ := num_of_stack hL h
  refine ⟨h1, h2, h3, h4, fun i hi => ?_⟩
  rw [(stack_of_num h1 h2 h3 h4).2 i]
  exact ha i hi

end

section
variable {pr pr' : Problem} {m : Nat} {N : Numbering pr m} {N' : Numbering pr' m} {δ : Nat} {T : Nat → Nat}

theorem Longer.size (h : Longer N δ T N') {j : Nat} (hj : j < pr'.n + pr'.d) : pr'.S j = joinAt (pr.n + pr.d) pr.S T j := by
  have h1 := h.n
  have h2 := h.d
  by_cases c : j < pr.n + pr.d
  · rw [joinAt_lt c, h.S j c]
  · obtain ⟨i, rfl⟩ : ∃ i, j = pr.n + pr.d + i := ⟨j - (pr.n + pr.d), by omega⟩
    rw [joinAt_ge, h.T i (by omega)]

theorem Longer.chart (h : Longer N δ T N') {p : Nat} (hp : p < m) {l : List Int} (hl : Chart pr.n pr.S (pr.nd p) (pr.P p) l) :
    Chart pr'.n pr'.S (pr'.nd p) (pr'.P p) l := by
  refine ⟨by rw [h.nd p hp]; exact hl.len, by rw [h.n]; exact hl.range, hl.nodup, fun k hk => ?_⟩
  have h1 := hl.getD hk
  have h2 := hl.len
  rw [h.S _ (by omega), h.P p hp k (by omega)]
  exact hl.size k hk

theorem chart_zero {n : Nat} {S P : Nat → Nat} {l : List Int} (h : Chart n S 0 P l) : l = [] :=
  List.length_eq_zero_iff.1 (h.len.elim id id)

theorem chart_range {n n' : Nat} {S : Nat → Nat} {A : Nat} {P : Nat → Nat} (hn : n ≤ n') : ∀ l, Chart n S A P l → ∀ f ∈ l, 0 ≤ f ∧ f < n' :=
  fun l hl f hf => by have := hl.range f hf; omega

theorem Tensor.IsZero.read {t : Tensor ℝ} (h : t.IsZero) (x y s : Nat → Nat) : t.read x y s = 0 := by
  have e : t.dim = 0 := by
    have := h.1.1
    have := h.2.1
    omega
  unfold Tensor.read
  have : t.dropDim = t := by
    unfold Tensor.dropDim
    cases t
    simp only at e
    subst e
    rfl
  rw [this]
  exact h.dense _

/-- A derivative array of the inner function, in the larger problem -/
theorem stack_longer (h : Longer N δ T N') {p : Nat} (hp : p < m) {K : Nat → Prop} {v : Num ℝ} (h1 : NumPiece (pr.layout p p).noY v)
    (h2 : NumSolid K (pr.layout p p).noY v) (h3 : v.Mapped) (h4 : v.Firm) (h5 : v.Wide (pr.nd p)) :
    (∃ r fl, v.dropDim = .ok r ∧ Stack fl pr'.S (pr.n + pr.d) 0 (pr'.nd p) 0 (fun l => Chart pr'.n pr'.S (pr'.nd p) (pr'.P p) l ∧ l.length = pr'.nd p) (· = []) r ∧
      (∀ x y s, r.read x y s = v.read x y s) ∧ (v.Single → r.Single)) := by
  obtain ⟨r, r1, r2, r3, r4⟩ := ((stack_of_num h1 h2 h3 h4).1.wide_in h4 h5).dropDim
  refine ⟨r, _, r1, r2.mono (fun j hj => h.S j hj) (fun l hl => ⟨h.chart hp hl.1, by rw [h.nd p hp]; exact hl.2⟩) (fun l hl => chart_zero hl) (h.nd p hp).symm rfl, r4, fun hs => ?_⟩
  cases v with
  | tensor t => rw [r3 t rfl]; trivial
  | generic g => exact hs.elim

theorem num_factors (hL : Longer N δ T N') (hok : pr'.Ok) {r : Nat} {Fg : Nat → Tensor ℝ} {Fh : Nat → Nat → Tensor ℝ} {f1 : Nat → (Nat → Nat) → ℝ} {f2 : Nat → Nat → (Nat → Nat) → ℝ}
    {D : Nat → Nat → Num ℝ} {H : Nat → Nat → Nat → Num ℝ} {K : Nat → Nat → Prop} {Sg : Nat → Prop}
    (hFg : ∀ k < r, Sheet pr'.S (pr.n + pr.d) 0 (pr'.n + pr'.d) pr'.d (idMap (pr.n + pr.d)) [] (Fg k) (f1 k))
    (hFh : ∀ k < r, ∀ l ≤ k, Sheet pr'.S (pr.n + pr.d) (pr.n + pr.d) (pr'.n + pr'.d) pr'.d (idMap (pr.n + pr.d)) (idMap (pr.n + pr.d)) (Fh k l) (f2 k l))
    (hD : ∀ k < r, ∀ p < m, NumPiece (pr.layout p p).noY (D k p) ∧ NumSolid (K k) (pr.layout p p).noY (D k p) ∧ (D k p).Mapped ∧ (D k p).Firm ∧ (D k p).Wide (pr.nd p))
    (hH : ∀ k < r, ∀ p < m, ∀ o ≤ p, NumPiece (pr.layout p o) (H k p o) ∧ NumSolid (K k) (pr.layout p o) (H k p o) ∧ (H k p o).Mapped ∧ (H k p o).Clean)
    (hSg : ∀ k < r, ∀ p < m, Sg p → (D k p).Single) :
    ∃ dg, Factors r m (fun k => .tensor (Fg k)) (fun k l => .tensor (Fh k l)) D dg H (fun p => IsNumS (pr'.layout p p).noY (Sg p)) (fun p o => IsNum (pr'.layout p o))
      (fun p k => (fun i => f1 k (cut (pr'.n + pr'.d) (joinAt pr'.n i.n i.d)) * (D k p).read i.x (fun _ => 0) (joinAt pr'.n i.n i.d), 1))
      (fun p o k i => f1 k (cut (pr'.n + pr'.d) (joinAt pr'.n i.n i.d)) * (H k p o).read i.x i.y (joinAt pr'.n i.n i.d))
      fun p o k l i => (if k < l then f2 l k (cut (pr'.n + pr'.d) (joinAt pr'.n i.n i.d)) else f2 k l (cut (pr'.n + pr'.d) (joinAt pr'.n i.n i.d))) *
        (D k p).read i.x (fun _ => 0) (joinAt pr'.n i.n i.d) * (D l o).read i.y (fun _ => 0) (joinAt pr'.n i.n i.d) := by
  have hn := hL.n
  have hd := hL.d
  have hn0 := hok.1
  have : Inhabited (Num ℝ) := ⟨.tensor (Tensor.const 0)⟩
  have hOk : ∀ p o, (pr'.layout p o).Ok := fun p o => ⟨hok.2, hok.1⟩
  have hdrop := fun k hk p hp => stack_longer hL hp (hD k hk p hp).1 (hD k hk p hp).2.1 (hD k hk p hp).2.2.1 (hD k hk p hp).2.2.2.1 (hD k hk p hp).2.2.2.2
  choose! dg fl drop stkw rd sgl using hdrop
  have stk := fun k hk p hp => (stkw k hk p hp).mono (fun _ _ => rfl) (fun _ h => h.1) (fun _ h => h) rfl rfl
  have pg : ∀ k < r, Part True pr'.S (pr'.n + pr'.d) pr'.d (· = idMap (pr.n + pr.d)) (· = []) (Fg k) := fun k hk =>
    ⟨_, _, _, by simpa [idMap] using (hFg k hk).toSlab, fun _ => by simpa [idMap] using (hFg k hk).full, rfl, rfl⟩
  have ph : ∀ k < r, ∀ l ≤ k, Part True pr'.S (pr'.n + pr'.d) pr'.d (· = idMap (pr.n + pr.d)) (· = idMap (pr.n + pr.d)) (Fh k l) := fun k hk l hl =>
    ⟨_, _, _, by simpa [idMap] using (hFh k hk l hl).toSlab, fun _ => by simpa [idMap] using (hFh k hk l hl).full, rfl, rfl⟩
  have rg : ∀ k < r, ∀ y s, (∀ j < pr'.n + pr'.d, s j < pr'.S j) → (Fg k).read s y s = f1 k (cut (pr'.n + pr'.d) s) := by
    intro k hk y s hs
    rw [(hFg k hk).toSlab.read hs, if_pos ⟨agrees_idMap s, agrees_nil _ _⟩]
  have rh : ∀ k < r, ∀ l ≤ k, ∀ s, (∀ j < pr'.n + pr'.d, s j < pr'.S j) → (Fh k l).read s s s = f2 k l (cut (pr'.n + pr'.d) s) := by
    intro k hk l hl s hs
    rw [(hFh k hk l hl).toSlab.read hs, if_pos ⟨agrees_idMap s, agrees_idMap s⟩]
  refine ⟨dg, fun p _ => kit_numS ⟨hok.2, hok.1⟩ _, fun p _ o _ => kit_num (hOk p o), drop, fun k hk p hp => ?_, fun k hk p hp o ho => ?_, fun k hk l hl p hp o ho => ?_⟩
  · obtain ⟨w, w1, w2, w3, w4⟩ := stack_dotLeftNum (B := 0) (q := pr.n + pr.d) (by omega) (by omega) (pg k hk) (Or.inl (hFg k hk).hy) (fun l hl => chart_range (by omega) l hl.1) (stkw k hk p hp)
    refine ⟨w, w1, isNum_of_stack (L := (pr'.layout p p).noY) ⟨hok.2, hok.1⟩ (w2.mono (fun _ _ => rfl) (fun _ h => h.1) (fun l hl => by rw [hl]; exact chart_nil) rfl rfl) fun i hi => ?_,
      le_refl _, fun _ hS => ?_, w2.wide_out fun _ h => h.2⟩
    rotate_left
    · have := sgl k hk p hp (hSg k hk p hp hS)
      cases hd' : dg k p with
      | generic g => rw [hd'] at this; exact this.elim
      | tensor o => obtain ⟨w', rfl⟩ := w3 o hd'; trivial
    have hs := Layout.Within.join hi
    rw [w4 _ _ (fun _ => 0) _ hs, rg k hk _ _ hs, rd k hk p hp]
    rfl
  · obtain ⟨h1, h2, h3, h5⟩ := hH k hk p hp o ho
    by_cases h4 : (H k p o).Live
    · obtain ⟨b, b1, b2, -, b4⟩ := (stack_of_num h1 h2 h3 (firm_iff.2 ⟨h4, h5⟩)).1.dropDim
      have b2' := b2.mono (S' := pr'.S) (fun j hj => hL.S j hj) (fun l hl => hL.chart hp hl) (fun l hl => hL.chart (show o < m by omega) hl) (hL.nd p hp).symm (hL.nd o (by omega)).symm
      obtain ⟨w, w1, w2, -, w4⟩ := stack_dotRightNum (q := pr.n + pr.d) (by omega) (by omega) (pg k hk) (chart_range (by omega)) (chart_range (by omega)) b2'
      refine ⟨b, .arr w, b1, w1, Or.inr ⟨w, rfl, isNum_of_stack (L := pr'.layout p o) (hOk p o) w2 fun i hi => ?_⟩⟩
      have hs := Layout.Within.join hi
      rw [w4 _ _ (fun _ => 0) _ hs, rg k hk _ _ hs, b4]
      rfl
    · obtain ⟨t, ht, hz⟩ : ∃ t, H k p o = .tensor t ∧ t.IsZero := by
        cases hH' : H k p o with
        | tensor t => rw [hH'] at h4; exact ⟨t, rfl, not_not.1 h4⟩
        | generic g => rw [hH'] at h4; exact absurd trivial h4
      refine ⟨.tensor t.dropDim, .num 0, by rw [ht]; rfl, ?_, Or.inl ⟨rfl, ?_⟩⟩
      · show Tensor.dotRightNum (Fg k) (.tensor t.dropDim) = _
        unfold Tensor.dotRightNum Tensor.dotRight
        dsimp only
        rw [if_pos ⟨hz.2.1, hz.2.2⟩]
        rfl
      · funext i
        rw [ht]
        show _ * t.read _ _ _ = 0
        rw [hz.read, mul_zero]
  · have hfac : ∃ t, hessFactor (fun k l => Num.tensor (Fh k l)) k l = .tensor t ∧ Part True pr'.S (pr'.n + pr'.d) pr'.d (· = idMap (pr.n + pr.d)) (· = idMap (pr.n + pr.d)) t ∧
        ∀ s, (∀ j < pr'.n + pr'.d, s j < pr'.S j) → t.read s s s = if k < l then f2 l k (cut (pr'.n + pr'.d) s) else f2 k l (cut (pr'.n + pr'.d) s) := by
      unfold hessFactor
      by_cases c : k < l
      · obtain ⟨t1, -, -, t4⟩ := (ph l hl k (by omega)).transpose
        refine ⟨_, if_pos c, t1, fun s hs => ?_⟩
        rw [if_pos c, t4 _ _ _ hs, rh l hl k (by omega) s hs]
      · refine ⟨_, if_neg c, ph k hk l (by omega), fun s hs => ?_⟩
        rw [if_neg c, rh k hk l (by omega) s hs]
    obtain ⟨t, t1, t2, t3⟩ := hfac
    have ty : t.yDim = pr.n + pr.d := by
      obtain ⟨_, _, _, s1, -, -, rfl⟩ := t2
      rw [s1.hy, idMap_length]
    obtain ⟨a, a1, a2, -, a4⟩ := stack_dotLeftNum (q := pr.n + pr.d) (B := pr.n + pr.d) (by omega) (by omega) t2 (Or.inr ty) (chart_range (by omega)) (stk k hk p hp)
    obtain ⟨a5, a6⟩ := a2.transpose
    obtain ⟨b, b1, b2, b3⟩ := stack_dotLeft (L := pr'.layout o p) (hOk o p) (q := pr.n + pr.d) (by omega) (by show pr'.n ≤ _; omega) (by show _ ≤ pr'.n + pr'.d; omega) a5 (stk l hl o (by omega))
    obtain ⟨b4, b5⟩ := b2.transpose
    refine ⟨b.transpose, ?_, isNum_of_stack (L := pr'.layout p o) (hOk p o) b4 fun i hi => ?_⟩
    · unfold Tens.quad
      rw [t1]
      have e1 : Py.dotLeft (.arr (.tensor t)) (dg k p) = .ok (.arr a) := by
        show (Tensor.dotLeftNum _ _).map _ = _
        rw [a1]; rfl
      have e2 : Py.dotLeft (.arr a.transpose) (dg l o) = .ok (.arr b) := by
        show (Num.dotLeft _ _).map _ = _
        rw [b1]; rfl
      rw [e1, ok_bind']
      have e3 : Py.transpose (.arr a) = .ok (.arr a.transpose) := rfl
      rw [e3, ok_bind', e2, ok_bind']
      rfl
    · have hs : ∀ j < pr'.n + pr'.d, joinAt pr'.n i.n i.d j < pr'.S j := Layout.Within.join hi
      show b.transpose.read i.x i.y (joinAt pr'.n i.n i.d) = _
      rw [b5 _ _ _ hs, b3 _ _ _ hs, a6 _ _ _ hs, a4 _ _ (fun _ => 0) _ hs, rd k hk p hp, rd l hl o (by omega), t3 _ hs]

end

end Verif.Tens
