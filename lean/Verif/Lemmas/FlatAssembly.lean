import Verif.Lemmas.FlatHessMain

/-!
# `flat_hess` on Tensors: the assembled matrix
-/

set_option linter.unusedSectionVars false

namespace Verif.Tens
open Verif.Params
open NDArray

section
variable {pr : Problem} {m : Nat} {θ : Theta} {params : List (Param ℝ)}

/-- The entries of the flat Hessian. -/
def flatMatrix (params : List (Param ℝ)) (h : Nat → Nat → Nat → Nat → ℝ) (ders : List (Nat → Nat → ℝ)) : List (List ℝ) :=
  ((Flat.freePairs params).map fun x => ((Flat.freePairs params).map fun y => Flat.fullEntry h x y) ++ ders.map fun d => d x.1 x.2) ++
    ders.map fun d => ((Flat.freePairs params).map fun x => d x.1 x.2) ++ List.replicate ders.length 0

theorem zipIdx_row {β : Type} {f : Nat → β} (m s : Nat) : ((List.range' s m).map f).zipIdx s = (List.range' s m).map fun p => (f p, p) := by
  induction m generalizing s with
  | zero => rfl
  | succ m ih => rw [List.range'_succ, List.map_cons, List.zipIdx_cons, ih (s + 1), List.map_cons]

theorem zipIdx_row0 {β : Type} {f : Nat → β} {m : Nat} : (row m f).zipIdx = (List.range m).map fun p => (f p, p) := by
  unfold row
  rw [List.range_eq_range', zipIdx_row]

theorem transposeRows_map {u w : List Nat} (F : Nat → Nat → ℝ) :
    transposeRows w.length (u.map fun a => w.map fun b => F a b) = w.map fun b => u.map fun a => F a b := by
  unfold transposeRows
  apply List.ext_getElem
  · simp
  · intro n h1 h2
    simp only [List.length_map, List.length_range] at h1
    simp only [List.getElem_map, List.getElem_range, List.map_map]
    apply List.map_congr_left
    intro a _
    simp [h1]

theorem assemble (hat : AtPoint pr m θ params) (h : Nat → Nat → Nat → Nat → ℝ) {blocks : List (List (List (List ℝ)))}
    (hb : ∀ i < m, ∀ j ≤ i, ∀ u w, params[i]? = some u → params[j]? = some w →
      (blocks.getD i []).getD j [] = (Flat.freeOf u).map fun a => (Flat.freeOf w).map fun b => h i j a b) :
    (((List.range m).map fun i => Flat.hstack ((params[i]?.map fun p => (Flat.freeOf p).length).getD 0) ((List.range m).map fun j =>
      if j < i then (blocks.getD i []).getD j []
      else transposeRows ((params[i]?.map fun p => (Flat.freeOf p).length).getD 0) ((blocks.getD j []).getD i []))).flatten) =
    (Flat.freePairs params).map fun x => (Flat.freePairs params).map fun y => Flat.fullEntry h x y := by
  rw [← Flat.rows_eq]
  obtain ⟨Q, hQ, -⟩ := hat.asRow
  have hget : ∀ i < m, params[i]? = some (Q i) := fun i hi => by rw [hQ, row_getElem? hi]
  congr 1
  have e : params.zipIdx = (List.range m).map fun p => (Q p, p) := by rw [hQ, zipIdx_row0]
  rw [e, List.map_map]
  refine List.map_congr_left fun i hi => ?_
  have hi := List.mem_range.1 hi
  rw [hget i hi]
  show Flat.hstack (Flat.freeOf (Q i)).length _ = Flat.hstack (Flat.freeOf (Q i)).length _
  congr 1
  rw [List.map_map]
  refine List.map_congr_left fun j hj => ?_
  have hj := List.mem_range.1 hj
  show _ = Flat.fullBlock h i j (Q i) (Q j)
  unfold Flat.fullBlock
  split_ifs with c
  · exact hb i hi j (by omega) _ _ (hget i hi) (hget j hj)
  · rw [hb j hj i (by omega) _ _ (hget j hj) (hget i hi)]
    exact transposeRows_map _

theorem border_ok (hat : AtPoint pr m θ params) : ∀ {Bs : List (Nat → NDArray ℝ)} {gs : List Con},
    List.Forall₂ (fun B g => ∀ x ∈ params.zipIdx, maskSelect (B x.2) x.1 = .ok ((Flat.freeOf x.1).map (g.der θ x.2))) Bs gs →
    ((Bs.map (row m)).mapM fun c => (c.zip params).mapM fun x => maskSelect x.1 x.2) =
      .ok (gs.map fun g => params.zipIdx.map fun x => (Flat.freeOf x.1).map (g.der θ x.2))
  | [], _, .nil => rfl
  | B :: Bs, _, .cons (b := g) (l₂ := gs) h hs => by
    have ih := border_ok hat hs
    have h1 : ((row m B).zip params).mapM (fun x => maskSelect x.1 x.2) =
        .ok (params.zipIdx.map fun x => (Flat.freeOf x.1).map (g.der θ x.2)) := by
      rw [zip_row0 hat.len, List.mapM_map]
      exact mapM_list fun x hx => h x hx
    rw [List.map_cons, List.mapM_cons, h1, ok_bind', ih]
    rfl

theorem selectBlock_ok (hat : AtPoint pr m θ params) {H : Nat → Nat → Num ℝ} {h : Nat → Nat → Nat → Nat → ℝ}
    (hH : ∀ p < m, ∀ q ≤ p, pr.IsBlock (cOrder pr m).e p q (H p q) (h p q)) {i j : Nat} (hi : i < m) (hj : j ≤ i) {u w : Param ℝ}
    (hu : params[i]? = some u) (hw : params[j]? = some w) :
    (selectBlock params (triangle m fun p q => .arr (H p q)) i j = .ok ((Flat.freeOf u).map fun a => (Flat.freeOf w).map fun b => h i j a b) ∨
      selectBlock params (triangle m fun p q => .arr (H p q)) i j = .error .indexError) ∧
    (pr.Whole2 i j (H i j) → selectBlock params (triangle m fun p q => .arr (H p q)) i j =
      .ok ((Flat.freeOf u).map fun a => (Flat.freeOf w).map fun b => h i j a b)) := by
  obtain ⟨r, hr, -⟩ := id (hH i hi j hj)
  have hB := hH i hi j hj
  rw [hr] at hB
  obtain ⟨q, q1, q2, q3, -⟩ := hat.each i hi
  rw [hu] at q1
  obtain rfl := Option.some.inj q1
  obtain ⟨q', q1', q2', q3', -⟩ := hat.each j (by omega)
  rw [hw] at q1'
  obtain rfl := Option.some.inj q1'
  have e : selectBlock params (triangle m fun p q => .arr (H p q)) i j = outerSelect r.values u w := by
    unfold selectBlock triangle
    rw [pick_range hi, ok_bind', pick_range (by omega), ok_bind']
    dsimp only
    rw [hr]
    show (Except.ok r.values >>= _) = _
    rw [ok_bind']
    unfold pick
    rw [hu, hw]
    rfl
  rw [e, hr]
  exact outerSelect_hess q2 q3 q2' q3' hB

theorem flatHessT_eq (hat : AtPoint pr m θ params) (h0 : 0 < m) {cs rs : List (TTerm ℝ)} {gs : List Con} {φs : List Pen}
    (hcs : List.Forall₂ (fun t g => IsConstraint (cOrder pr m) t g.val g.der) cs gs)
    (hrs : List.Forall₂ (fun t φ => IsPenalty (cOrder pr m) t φ.val φ.der φ.hes) rs φs) {H : Nat → Nat → Num ℝ} {h : Nat → Nat → Nat → Nat → ℝ}
    (hH : ∀ p < m, ∀ q ≤ p, pr.IsBlock (cOrder pr m).e p q (H p q) (h p q)) :
    (flatHessT params (triangle m H) cs rs =
      .ok (flatMatrix params (fun p q a b => h p q a b - (φs.map fun φ => φ.hes θ p q a b).sum) (gs.map fun c => c.der θ)) ∨
      flatHessT params (triangle m H) cs rs = .error .indexError) ∧
    ((∀ p < m, ∀ q ≤ p, pr.Whole2 p q (H p q)) → flatHessT params (triangle m H) cs rs =
      .ok (flatMatrix params (fun p q a b => h p q a b - (φs.map fun φ => φ.hes θ p q a b).sum) (gs.map fun c => c.der θ))) := by
  obtain ⟨R, hR⟩ : ∃ R : Nat → Nat → Tensor ℝ, ∀ p < m, ∀ q ≤ p, H p q = .tensor (R p q) := by
    have : ∀ p q, ∃ r, p < m → q ≤ p → H p q = .tensor r := fun p q => by
      by_cases hp : p < m ∧ q ≤ p
      · obtain ⟨r, hr, -⟩ := hH p hp.1 q hp.2
        exact ⟨r, fun _ _ => hr⟩
      · exact ⟨Tensor.const 0, fun c c' => absurd ⟨c, c'⟩ hp⟩
    choose R hR using this
    exact ⟨R, fun p hp q hq => hR p q hp hq⟩
  have e0 : (triangle m H).map (fun l => l.map Py.arr) = triangle m fun p q => .arr (.tensor (R p q)) := by
    unfold triangle
    rw [row_map]
    refine row_congr fun p hp => ?_
    rw [row_map]
    exact row_congr fun q hq => by rw [hR p hp q (by omega)]
  obtain ⟨Bs, e1, e1'⟩ := hessCons_ok hat hcs R
  obtain ⟨H', e2, e3⟩ := hessRegs_ok hat hrs (H := fun p q => .tensor (R p q)) (h := h) fun p hp q hq => by
    rw [← hR p hp q hq]; exact hH p hp q hq
  set h' : Nat → Nat → Nat → Nat → ℝ := fun p q a b => h p q a b - (φs.map fun φ => φ.hes θ p q a b).sum with hh'
  obtain ⟨Q, hQ, -⟩ := hat.asRow
  have hget : ∀ i < m, params[i]? = some (Q i) := fun i hi => by rw [hQ, row_getElem? hi]
  have hlen : cs.length = (gs.map fun c => c.der θ).length := by rw [List.length_map]; exact hcs.length_eq
  have key : flatHessT params (triangle m H) cs rs =
      ((List.range m).mapM fun i => (List.range (i + 1)).mapM fun j => selectBlock params (triangle m fun p q => .arr (H' p q)) i j) >>=
      fun blocks => if m = 0 then throw Err.valueError else
        let rows := (((List.range m).map fun i => Flat.hstack ((params[i]?.map fun p => (Flat.freeOf p).length).getD 0) ((List.range m).map fun j =>
          if j < i then (blocks.getD i []).getD j []
          else transposeRows ((params[i]?.map fun p => (Flat.freeOf p).length).getD 0) ((blocks.getD j []).getD i []))).flatten)
        let lines : List (List ℝ) := (gs.map fun g => params.zipIdx.map fun x => (Flat.freeOf x.1).map (g.der θ x.2)).map List.flatten
        if cs.isEmpty then pure rows
        else pure (rows.zipIdx.map (fun x => x.1 ++ lines.map fun b => b.getD x.2 0) ++
          lines.map fun b => b ++ List.replicate cs.length 0) := by
    unfold flatHessT
    rw [e0, e1, ok_bind']
    dsimp only
    rw [e2, ok_bind', hat.len]
    refine bind_congr fun blocks => ?_
    rw [border_ok hat e1', ok_bind']
    have : params.isEmpty = decide (m = 0) := by
      rw [← hat.len]
      cases params <;> simp
    by_cases c : m = 0
    · rw [this, if_pos c]
      simp only [c, decide_true, if_true]
      rfl
    · rw [this, if_neg c]
      simp only [c, decide_false]
      rfl
  have hlines : (gs.map fun g => params.zipIdx.map fun x => (Flat.freeOf x.1).map (g.der θ x.2)).map List.flatten =
      (gs.map fun c => c.der θ).map fun d => (Flat.freePairs params).map fun x => d x.1 x.2 := by
    rw [List.map_map, List.map_map]
    exact List.map_congr_left fun g _ => Flat.flatten_free 0 params (g.der θ)
  have hfin : ∀ blocks : List (List (List (List ℝ))), (∀ i < m, ∀ j ≤ i, ∀ u w, params[i]? = some u → params[j]? = some w →
      (blocks.getD i []).getD j [] = (Flat.freeOf u).map fun a => (Flat.freeOf w).map fun b => h' i j a b) →
      (let rows := (((List.range m).map fun i => Flat.hstack ((params[i]?.map fun p => (Flat.freeOf p).length).getD 0) ((List.range m).map fun j =>
          if j < i then (blocks.getD i []).getD j []
          else transposeRows ((params[i]?.map fun p => (Flat.freeOf p).length).getD 0) ((blocks.getD j []).getD i []))).flatten)
        let lines : List (List ℝ) := (gs.map fun g => params.zipIdx.map fun x => (Flat.freeOf x.1).map (g.der θ x.2)).map List.flatten
        if cs.isEmpty then (pure rows : Except Err _)
        else pure (rows.zipIdx.map (fun x => x.1 ++ lines.map fun b => b.getD x.2 0) ++
          lines.map fun b => b ++ List.replicate cs.length 0)) = .ok (flatMatrix params h' (gs.map fun c => c.der θ)) := by
    intro blocks hb
    dsimp only
    rw [assemble hat h' hb, hlines]
    generalize gs.map (fun c => c.der θ) = ders at hlen
    unfold flatMatrix
    cases cs with
    | nil =>
      obtain rfl : ders = [] := List.eq_nil_of_length_eq_zero hlen.symm
      simp
      rfl
    | cons c cs' =>
      rw [if_neg (by simp)]
      show Except.ok _ = Except.ok _
      congr 2
      · apply List.ext_getElem
        · simp
        · intro n h1 h2
          simp only [List.length_map] at h2
          simp only [List.getElem_map, List.getElem_zipIdx, Nat.zero_add, List.map_map]
          congr 1
          apply List.map_congr_left
          intro t _
          simp [List.getD, h2]
      · rw [List.map_map]
        apply List.map_congr_left
        intro t _
        simp only [Function.comp, hlen]
  have hblk : ∀ blocks : List (List (List (List ℝ))),
      blocks = (List.range m).map (fun i => (List.range (i + 1)).map fun j =>
        (Flat.freeOf (Q i)).map fun a => (Flat.freeOf (Q j)).map fun b => h' i j a b) →
      ∀ i < m, ∀ j ≤ i, ∀ u w, params[i]? = some u → params[j]? = some w →
      (blocks.getD i []).getD j [] = (Flat.freeOf u).map fun a => (Flat.freeOf w).map fun b => h' i j a b := by
    rintro _ rfl i hi j hj u w hu hw
    rw [hget i hi] at hu
    rw [hget j (by omega)] at hw
    obtain rfl := Option.some.inj hu
    obtain rfl := Option.some.inj hw
    have e1 : ((List.range m).map (fun i => (List.range (i + 1)).map fun j =>
        (Flat.freeOf (Q i)).map fun a => (Flat.freeOf (Q j)).map fun b => h' i j a b)).getD i [] = (List.range (i + 1)).map fun j =>
        (Flat.freeOf (Q i)).map fun a => (Flat.freeOf (Q j)).map fun b => h' i j a b := by
      rw [List.getD_eq_getElem?_getD, List.getElem?_map, List.getElem?_range hi]; rfl
    rw [e1, List.getD_eq_getElem?_getD, List.getElem?_map, List.getElem?_range (by omega)]; rfl
  refine ⟨?_, fun hw => ?_⟩
  · rw [key]
    rcases mapM_det (l := List.range m) (e := .indexError) (f := fun i => (List.range (i + 1)).mapM fun j =>
        selectBlock params (triangle m fun p q => .arr (H' p q)) i j) (g := fun i => (List.range (i + 1)).map fun j =>
          (Flat.freeOf (Q i)).map fun a => (Flat.freeOf (Q j)).map fun b => h' i j a b) (fun i hi => by
            have hi := List.mem_range.1 hi
            exact mapM_det fun j hj => by
              have hj := List.mem_range.1 hj
              exact (selectBlock_ok hat (fun p hp q hq => (e3 p hp q hq).1) hi (by omega) (hget i hi) (hget j (by omega))).1) with hd | hd
    · rw [hd, ok_bind', if_neg (by omega)]
      exact Or.inl (hfin _ (hblk _ rfl))
    · rw [hd]
      exact Or.inr rfl
  · rw [key]
    have hd := mapM_list (l := List.range m) (f := fun i => (List.range (i + 1)).mapM fun j =>
        selectBlock params (triangle m fun p q => .arr (H' p q)) i j) (g := fun i => (List.range (i + 1)).map fun j =>
          (Flat.freeOf (Q i)).map fun a => (Flat.freeOf (Q j)).map fun b => h' i j a b) (fun i hi => by
            have hi := List.mem_range.1 hi
            exact mapM_list fun j hj => by
              have hj := List.mem_range.1 hj
              refine (selectBlock_ok hat (fun p hp q hq => (e3 p hp q hq).1) hi (by omega) (hget i hi) (hget j (by omega))).2 ?_
              refine (e3 i hi j (by omega)).2 ?_
              rw [← hR i hi j (by omega)]
              exact hw i hi j (by omega))
    rw [hd, ok_bind', if_neg (by omega)]
    exact hfin _ (hblk _ rfl)

end

end Verif.Tens
