import Verif.Lemmas.Flat

namespace Verif.Flat
open Verif.Params

variable {R : Type}

theorem dot_append [CommRing R] (a b c d : List R) (h : a.length = c.length) :
    dot (a ++ b) (c ++ d) = dot a c + dot b d := by
  unfold dot
  rw [List.zipWith_append h, List.sum_append]

theorem dot_zeros [CommRing R] (n : Nat) (v : List R) : dot (List.replicate n 0) v = 0 := by
  induction n generalizing v with
  | zero => simp [dot]
  | succ n ih =>
    cases v with
    | nil => simp [dot]
    | cons x v =>
      have := ih v
      simp only [dot] at this
      simp [dot, List.replicate_succ, this]

theorem merge_sum [CommRing R] (m : List Bool) (fr fx : List R) (h1 : fr.length = m.count false)
    (h2 : fx.length = m.count true) : (merge m fr fx).sum = fr.sum + fx.sum := by
  induction m generalizing fr fx with
  | nil =>
    have e1 : fr = [] := by simpa using h1
    have e2 : fx = [] := by simpa using h2
    simp [merge, e1, e2]
  | cons b m ih =>
    cases b with
    | true => cases fx with
      | nil => simp at h2
      | cons x fx =>
        simp [merge, ih fr fx (by simpa using h1) (by simpa using h2)]; ring
    | false => cases fr with
      | nil => simp at h1
      | cons x fr =>
        simp [merge, ih fr fx (by simpa using h1) (by simpa using h2)]; ring

/-- The empty parameter, default of total look-ups. -/
def emptyParam : Param R := ⟨[], [], []⟩

/-- Sum of the entries of parameter `i`. -/
def psum [AddCommMonoid R] (ps : List (Param R)) (i : Nat) : R := (ps[i]?.getD emptyParam).values.sum

theorem psum_cons_zero [AddCommMonoid R] (p : Param R) (ps : List (Param R)) :
    psum (p :: ps) 0 = p.values.sum := by simp [psum]

theorem psum_cons_succ [AddCommMonoid R] (p : Param R) (ps : List (Param R)) (i : Nat) :
    psum (p :: ps) (i + 1) = psum ps i := by simp [psum]

/-- Sum of the components of `d` belonging to parameter `i`. -/
def segSum [AddCommMonoid R] (fp : List (Nat × Nat)) (d : List R) (i : Nat) : R :=
  (List.zipWith (fun (x : Nat × Nat) e => if x.1 = i then e else 0) fp d).sum

theorem segSum_append [AddCommMonoid R] (a b : List (Nat × Nat)) (c d : List R) (i : Nat)
    (h : a.length = c.length) : segSum (a ++ b) (c ++ d) i = segSum a c i + segSum b d i := by
  unfold segSum
  rw [List.zipWith_append h, List.sum_append]

theorem segSum_const [AddCommMonoid R] (as : List Nat) (s : Nat) (d : List R) (i : Nat)
    (h : as.length = d.length) :
    segSum (as.map fun a => (s, a)) d i = if s = i then d.sum else 0 := by
  induction as generalizing d with
  | nil =>
    have : d = [] := by cases d with
      | nil => rfl
      | cons => simp at h
    subst this; simp [segSum]
  | cons a as ih =>
    cases d with
    | nil => simp at h
    | cons x d =>
      have := ih d (by simpa using h)
      simp only [segSum, List.map_cons, List.zipWith_cons_cons, List.sum_cons] at this ⊢
      rw [this]
      split <;> simp

theorem segSum_ge [AddCommMonoid R] (s : Nat) (ps : List (Param R)) (d : List R) (i : Nat)
    (h : i < s) : segSum (freePairsFrom s ps) d i = 0 := by
  have : ∀ x ∈ freePairsFrom s ps, x.1 ≠ i := by
    intro x hx
    obtain ⟨k, hk, -⟩ := mem_freePairsFrom hx
    omega
  generalize freePairsFrom s ps = l at this
  induction l generalizing d with
  | nil => simp [segSum]
  | cons x l ih =>
    cases d with
    | nil => simp [segSum]
    | cons e d =>
      have h2 := ih d (fun y hy => this y (by simp [hy]))
      simp only [segSum, List.zipWith_cons_cons, List.sum_cons] at h2 ⊢
      rw [h2, if_neg (this x (by simp)), add_zero]

theorem place_psum [CommRing R] (ps : List (Param R)) (s : Nat) (fx : List R)
    (h2 : totalFixed ps ≤ fx.length) (i : Nat) :
    ∃ c, ∀ fr', fr'.length = totalFree ps →
      psum (place ps fr' fx) i = segSum (freePairsFrom s ps) fr' (s + i) + c := by
  induction ps generalizing s fx i with
  | nil => exact ⟨0, fun fr' _ => by simp [place, psum, segSum, freePairsFrom, emptyParam]⟩
  | cons p ps ih =>
    simp only [totalFixed, List.map_cons, List.sum_cons] at h2
    have hlen : ((freeOf p).map fun a => (s, a)).length = p.mask.count false := by
      simp [freeOf_length]
    have hsplit : ∀ fr' : List R, fr'.length = totalFree (p :: ps) →
        segSum (freePairsFrom s (p :: ps)) fr' (s + i) =
          (if i = 0 then (fr'.take (p.mask.count false)).sum else 0) +
          segSum (freePairsFrom (s + 1) ps) (fr'.drop (p.mask.count false)) (s + i) := by
      intro fr' hfr'
      simp only [totalFree, List.map_cons, List.sum_cons] at hfr'
      rw [freePairsFrom_cons]
      conv => lhs; rw [← List.take_append_drop (p.mask.count false) fr']
      rw [segSum_append _ _ _ _ _ (by rw [hlen, List.length_take]; omega),
        segSum_const _ _ _ _ (by rw [freeOf_length, List.length_take]; omega)]
      congr 1
      by_cases h0 : i = 0 <;> simp [h0]
    cases i with
    | zero =>
      refine ⟨(fx.take (p.mask.count true)).sum, fun fr' hfr' => ?_⟩
      rw [hsplit fr' hfr', segSum_ge _ _ _ _ (by omega)]
      simp only [totalFree, List.map_cons, List.sum_cons] at hfr'
      simp only [place, psum_cons_zero]
      rw [merge_sum _ _ _ (by rw [List.length_take]; omega) (by rw [List.length_take]; omega)]
      simp
    | succ i =>
      obtain ⟨c, hc⟩ := ih (s + 1) (fx.drop (p.mask.count true))
        (by simp only [totalFixed, List.length_drop]; omega) i
      refine ⟨c, fun fr' hfr' => ?_⟩
      rw [hsplit fr' hfr']
      simp only [totalFree, List.map_cons, List.sum_cons] at hfr'
      simp only [place, psum_cons_succ]
      rw [hc _ (by simp only [totalFree, List.length_drop]; omega)]
      simp only [Nat.succ_ne_zero, if_false, zero_add]
      rw [show s + 1 + i = s + (i + 1) by omega]

theorem zip_zipIdx {β γ δ : Type} (l : List β) (w : List γ) (f : β → γ → δ) (d : γ)
    (h : l.length = w.length) :
    (l.zip w).map (fun x => f x.1 x.2) = l.zipIdx.map (fun x => f x.1 (w.getD x.2 d)) := by
  apply List.ext_getElem
  · simp [h]
  · intro n h1 h2
    simp at h1
    simp [List.getD, h1]

theorem argsOf_eq (params : List (Param R)) (pm : List Nat) (h : ∀ k ∈ pm, k < params.length) :
    argsOf params pm = pm.map fun k => params[k]?.getD emptyParam := by
  induction pm with
  | nil => rfl
  | cons k pm ih =>
    have := ih (fun k hk => h k (by simp [hk]))
    simp only [argsOf] at this
    simp [argsOf, h k (by simp), this]

theorem sum_map_mul [CommRing R] {β : Type} (l : List β) (f : β → R) (c : R) :
    (l.map fun x => f x * c).sum = (l.map f).sum * c := by
  induction l with
  | nil => simp
  | cons x l ih => simp only [List.map_cons, List.sum_cons, ih]; ring

/-- Value of `Linear` in terms of the sums of the entries of the parameters. -/
theorem linear_val [CommRing R] (params : List (Param R)) (pm : List Nat) (ws : List R)
    (hv : ∀ k ∈ pm, k < params.length) (hw : ws.length = pm.length) :
    (linearTerm pm ws).val (argsOf params pm) =
      (pm.zipIdx.map fun x => psum params x.1 * ws.getD x.2 0).sum := by
  simp only [linearTerm]
  rw [argsOf_eq params pm hv]
  have h1 : ((pm.map fun k => params[k]?.getD emptyParam).zip ws).map
      (fun x => (x.1.values.map fun v => v * x.2).sum) =
      (pm.zip ws).map fun x => psum params x.1 * x.2 := by
    rw [List.zip_map_left, List.map_map]
    apply List.map_congr_left
    rintro ⟨k, w⟩ _
    simp only [Function.comp, Prod.map, psum, id]
    rw [sum_map_mul]; simp
  have h2 := zip_zipIdx pm ws (fun k w => psum params k * w) (0 : R) hw.symm
  rw [← h2, ← h1]

theorem linear_termGrad [CommRing R] (params : List (Param R)) (pm : List Nat) (ws : List R)
    (i a : Nat) : termGrad params (linearTerm pm ws) i a =
      (pm.zipIdx.map fun x => if x.1 = i then ws.getD x.2 0 else 0).sum := rfl

theorem sum_add_map [CommRing R] {β : Type} (l : List β) (f g : β → R) :
    (l.map fun x => f x + g x).sum = (l.map f).sum + (l.map g).sum := by
  induction l with
  | nil => simp
  | cons x l ih => simp only [List.map_cons, List.sum_cons, ih]; ring

/-- Exchange of sums: border row times a vector. -/
theorem border_dot [CommRing R] (l : List (Nat × Nat)) (wt : Nat → R) (fp : List (Nat × Nat))
    (d : List R) :
    dot (fp.map fun x => (l.map fun y => if y.1 = x.1 then wt y.2 else 0).sum) d =
      (l.map fun y => segSum fp d y.1 * wt y.2).sum := by
  induction fp generalizing d with
  | nil =>
    simp [dot, segSum]
  | cons x fp ih =>
    cases d with
    | nil => simp [dot, segSum]
    | cons e d =>
      have := ih d
      simp only [dot] at this
      simp only [dot, List.map_cons, List.zipWith_cons_cons, List.sum_cons, this, segSum]
      rw [← sum_map_mul, ← sum_add_map]
      congr 1
      apply List.map_congr_left
      intro y _
      by_cases h : y.1 = x.1
      · simp [h]; ring
      · have h' : ¬ x.1 = y.1 := fun e => h e.symm
        simp [h, h']

theorem segSum_lin [CommRing R] (fp : List (Nat × Nat)) (u s : List R) (m : R) (i : Nat)
    (h1 : u.length = fp.length) (h2 : s.length = fp.length) :
    segSum fp (List.zipWith (· - ·) u (s.map (m * ·))) i = segSum fp u i - m * segSum fp s i := by
  induction fp generalizing u s with
  | nil => simp [segSum]
  | cons x fp ih =>
    cases u with
    | nil => simp at h1
    | cons a u =>
      cases s with
      | nil => simp at h2
      | cons b s =>
        have := ih u s (by simpa using h1) (by simpa using h2)
        simp only [segSum] at this
        simp only [segSum, List.map_cons, List.zipWith_cons_cons, List.sum_cons, this]
        split <;> ring

theorem freePairs_layout {ps qs : List (Param R)} (h : SameLayout ps qs) (s : Nat) :
    freePairsFrom s ps = freePairsFrom s qs := by
  unfold SameLayout at h
  induction ps generalizing qs s with
  | nil =>
    cases qs with
    | nil => rfl
    | cons => simp at h
  | cons p ps ih =>
    cases qs with
    | nil => simp at h
    | cons q qs =>
      simp only [List.map_cons, List.cons.injEq, Prod.mk.injEq] at h
      rw [freePairsFrom_cons, freePairsFrom_cons, ih h.2]
      simp only [freeOf, h.1.2]

theorem SameLayout.length {ps qs : List (Param R)} (h : SameLayout ps qs) :
    ps.length = qs.length := by
  have := congrArg List.length h
  simpa using this

theorem SameLayout.totalFree {ps qs : List (Param R)} (h : SameLayout ps qs) :
    Verif.Params.totalFree ps = Verif.Params.totalFree qs := by
  rw [← freePairsFrom_length 0 ps, ← freePairsFrom_length 0 qs, freePairs_layout h]

/-- The change of a linear function when only the free entries move. -/
theorem linear_place [CommRing R] (base : List (Param R)) (pm : List Nat) (ws : List R)
    (hv : ∀ k ∈ pm, k < base.length) (hw : ws.length = pm.length) (fx : List R)
    (hfx : totalFixed base ≤ fx.length) (u s : List R) (m : R)
    (hu : u.length = totalFree base) (hs : s.length = totalFree base) :
    (linearTerm pm ws).val
        (argsOf (place base (List.zipWith (· - ·) u (s.map (m * ·))) fx) pm) =
      (linearTerm pm ws).val (argsOf (place base u fx) pm) -
        m * dot ((freePairs base).map fun x => termGrad base (linearTerm pm ws) x.1 x.2) s := by
  have hlu := SameLayout.length (place_layout base u fx)
  have hlu' := SameLayout.length
    (place_layout base (List.zipWith (· - ·) u (s.map (m * ·))) fx)
  rw [linear_val _ pm ws (by intro k hk; rw [hlu']; exact hv k hk) hw,
    linear_val _ pm ws (by intro k hk; rw [hlu]; exact hv k hk) hw]
  have hd : dot ((freePairs base).map fun x => termGrad base (linearTerm pm ws) x.1 x.2) s =
      (pm.zipIdx.map fun y => segSum (freePairs base) s y.1 * ws.getD y.2 0).sum := by
    exact border_dot pm.zipIdx (fun k => ws.getD k 0) (freePairs base) s
  rw [hd]
  have key : ∀ i, psum (place base (List.zipWith (· - ·) u (s.map (m * ·))) fx) i =
      psum (place base u fx) i - m * segSum (freePairs base) s i := by
    intro i
    obtain ⟨c, hc⟩ := place_psum base 0 fx hfx i
    rw [hc u hu, hc _ (by simp; omega)]
    simp only [Nat.zero_add]
    have := segSum_lin (freePairs base) u s m i
      (by unfold freePairs; rw [freePairsFrom_length, hu])
      (by unfold freePairs; rw [freePairsFrom_length, hs])
    unfold freePairs at this
    rw [this]
    unfold freePairs
    ring
  have h2 : (pm.zipIdx.map fun x =>
      psum (place base (List.zipWith (· - ·) u (s.map (m * ·))) fx) x.1 * ws.getD x.2 0) =
      pm.zipIdx.map fun x => psum (place base u fx) x.1 * ws.getD x.2 0 +
        (segSum (freePairs base) s x.1 * ws.getD x.2 0) * (-m) := by
    apply List.map_congr_left
    intro x _
    rw [key]; ring
  rw [h2, sum_add_map, sum_map_mul]
  ring

end Verif.Flat
