import Verif.Lemmas.FlatTensor

/-!
# The loops of `flat_grad` and `flat_hess`
-/

set_option linter.unusedSectionVars false

namespace Verif.Tens
open Verif.Params
open NDArray

section
variable {β : Type}

theorem row_getElem? {m : Nat} {g : Nat → β} {p : Nat} (hp : p < m) : (row m g)[p]? = some (g p) := by
  unfold row
  rw [List.getElem?_map, List.getElem?_range hp]; rfl

theorem row_set {m : Nat} {g : Nat → β} {p : Nat} {x : β} : (row m g).set p x = row m (Function.update g p x) := by
  unfold row
  apply List.ext_getElem
  · simp
  · intro k h1 h2
    simp only [List.length_map, List.length_range] at h2
    rw [List.getElem_set]
    simp only [List.getElem_map, List.getElem_range]
    split_ifs with c
    · subst c; simp
    · rw [Function.update_of_ne (Ne.symm c)]

theorem row_congr {m : Nat} {g g' : Nat → β} (h : ∀ p < m, g p = g' p) : row m g = row m g' := by
  unfold row
  exact List.map_congr_left fun p hp => h p (List.mem_range.1 hp)

theorem updateAt_row {m : Nat} {g : Nat → β} {p : Nat} (hp : p < m) {f : β → Except Err β} {x : β} (h : f (g p) = .ok x) :
    updateAt (row m g) p f = .ok (row m (Function.update g p x)) := by
  unfold updateAt
  rw [row_getElem? hp]
  dsimp only
  rw [h]
  show Except.ok ((row m g).set p x) = _
  rw [row_set]

/-- A loop that updates every element once. -/
theorem fold_update {m : Nat} {F : Nat × Nat → β → Except Err β} : ∀ (l : List (Nat × Nat)) (g g' : Nat → β),
    (l.map Prod.fst).Nodup → (∀ x ∈ l, x.1 < m ∧ F x (g x.1) = .ok (g' x.1)) → (∀ p, p ∉ l.map Prod.fst → g' p = g p) →
    l.foldlM (fun h x => updateAt h x.1 (F x)) (row m g) = .ok (row m g')
  | [], g, g', _, _, h => by
    have : g' = g := funext fun p => h p (by simp)
    rw [this]; rfl
  | x :: l, g, g', hn, hF, h => by
    rw [List.map_cons, List.nodup_cons] at hn
    obtain ⟨h1, h2⟩ := hF x (by simp)
    rw [List.foldlM_cons, updateAt_row h1 h2]
    refine fold_update l _ g' hn.2 (fun y hy => ?_) fun p hp => ?_
    · obtain ⟨y1, y2⟩ := hF y (by simp [hy])
      have : y.1 ≠ x.1 := fun e => hn.1 (by rw [← e]; exact List.mem_map_of_mem (f := Prod.fst) hy)
      exact ⟨y1, by rw [Function.update_of_ne this]; exact y2⟩
    · by_cases c : p = x.1
      · subst c; simp
      · rw [Function.update_of_ne c]
        exact h p (by
          rw [List.map_cons, List.mem_cons, not_or]
          exact ⟨c, hp⟩)

theorem updateAt_triangle {m : Nat} {H : Nat → Nat → β} {p q : Nat} (hp : p < m) (hq : q ≤ p) {f : β → Except Err β} {x : β}
    (h : f (H p q) = .ok x) :
    updateAt (triangle m H) p (fun r => updateAt r q f) =
      .ok (triangle m fun i j => if i = p ∧ j = q then x else H i j) := by
  unfold triangle
  rw [updateAt_row (x := row (p + 1) (Function.update (H p) q x)) hp (updateAt_row (by omega) h)]
  refine congrArg _ (row_congr fun i hi => ?_)
  unfold Function.update
  split_ifs with c
  · subst c
    refine row_congr fun j hj => ?_
    by_cases c : j = q <;> simp [c]
  · exact row_congr fun j hj => by simp [c]

/-- The same for the lower triangle. -/
theorem fold_update2 {m : Nat} {F : (Nat × Nat) × (Nat × Nat) → β → Except Err β} :
    ∀ (l : List ((Nat × Nat) × (Nat × Nat))) (H H' : Nat → Nat → β),
    (l.map fun z => (z.1.1, z.2.1)).Nodup → (∀ z ∈ l, z.1.1 < m ∧ z.2.1 ≤ z.1.1 ∧ F z (H z.1.1 z.2.1) = .ok (H' z.1.1 z.2.1)) →
    (∀ p q, (p, q) ∉ l.map (fun z => (z.1.1, z.2.1)) → H' p q = H p q) →
    l.foldlM (fun h z => updateAt h z.1.1 fun r => updateAt r z.2.1 (F z)) (triangle m H) = .ok (triangle m H')
  | [], H, H', _, _, h => by
    have : H' = H := funext fun p => funext fun q => h p q (by simp)
    rw [this]; rfl
  | z :: l, H, H', hn, hF, h => by
    rw [List.map_cons, List.nodup_cons] at hn
    obtain ⟨h1, h2, h3⟩ := hF z (by simp)
    rw [List.foldlM_cons, updateAt_triangle h1 h2 h3]
    refine fold_update2 l _ H' hn.2 (fun y hy => ?_) fun p q hp => ?_
    · obtain ⟨y1, y2, y3⟩ := hF y (by simp [hy])
      refine ⟨y1, y2, ?_⟩
      have : ¬(y.1.1 = z.1.1 ∧ y.2.1 = z.2.1) := fun e => hn.1 (by
        rw [← e.1, ← e.2]; exact List.mem_map_of_mem (f := fun z : (Nat × Nat) × (Nat × Nat) => (z.1.1, z.2.1)) hy)
      rw [if_neg this]; exact y3
    · by_cases c : p = z.1.1 ∧ q = z.2.1
      · rw [if_pos c, c.1, c.2]
      · rw [if_neg c]
        refine h p q ?_
        rw [List.map_cons, List.mem_cons, not_or]
        exact ⟨fun e => c ⟨congrArg Prod.fst e, congrArg Prod.snd e⟩, hp⟩

theorem foldlM_nested {γ δ : Type} {f : β → γ → δ → Except Err β} {K : γ → List δ} : ∀ (l : List γ) (h : β),
    l.foldlM (fun h x => (K x).foldlM (fun h y => f h x y) h) h =
      (l.flatMap fun x => (K x).map fun y => (x, y)).foldlM (fun h z => f h z.1 z.2) h
  | [], h => rfl
  | x :: l, h => by
    rw [List.foldlM_cons, List.flatMap_cons, List.foldlM_append, List.foldlM_map]
    refine bind_congr fun h' => ?_
    exact foldlM_nested l h'

end

/-- The pairs of positions of `updateBlocks`. -/
def blockPairs (pm : List Nat) : List ((Nat × Nat) × (Nat × Nat)) :=
  pm.zipIdx.flatMap fun x => (pm.take (x.2 + 1)).zipIdx.map fun y => (x, y)

theorem mem_blockPairs {pm : List Nat} {z : (Nat × Nat) × (Nat × Nat)} :
    z ∈ blockPairs pm ↔ pm[z.1.2]? = some z.1.1 ∧ pm[z.2.2]? = some z.2.1 ∧ z.2.2 ≤ z.1.2 := by
  unfold blockPairs
  simp only [List.mem_flatMap, List.mem_map, List.mem_zipIdx_iff_getElem?]
  constructor
  · rintro ⟨x, hx, y, hy, rfl⟩
    rw [List.getElem?_take] at hy
    split_ifs at hy with c
    · exact ⟨hx, hy, by dsimp only; omega⟩
  · rintro ⟨h1, h2, h3⟩
    refine ⟨z.1, h1, z.2, ?_, rfl⟩
    rw [List.getElem?_take, if_pos (by omega)]
    exact h2

theorem zipIdx_map_fst {β : Type} (l : List β) (k : Nat) : (l.zipIdx k).map Prod.fst = l := by
  simp

theorem blockPairs_nodup {pm : List Nat} (h : pm.Nodup) : ((blockPairs pm).map fun z => (z.1.1, z.2.1)).Nodup := by
  unfold blockPairs
  rw [List.map_flatMap, List.nodup_flatMap]
  refine ⟨fun x _ => ?_, ?_⟩
  · rw [List.map_map]
    have : ((fun z : (Nat × Nat) × (Nat × Nat) => (z.1.1, z.2.1)) ∘ fun y => (x, y)) = (fun q => (x.1, q)) ∘ Prod.fst := rfl
    rw [this, ← List.map_map, zipIdx_map_fst]
    refine List.Nodup.map (fun a b e => congrArg Prod.snd e) ?_
    exact (List.take_sublist _ _).nodup h
  · have : (pm.zipIdx).Pairwise fun x y => x.1 ≠ y.1 := by
      have := h
      rw [← zipIdx_map_fst pm 0, List.Nodup, List.pairwise_map] at this
      exact this
    refine this.imp fun {x y} hxy => ?_
    rw [Function.onFun, List.disjoint_left]
    simp only [List.mem_map]
    rintro _ ⟨_, ⟨u, _, rfl⟩, rfl⟩ ⟨_, ⟨w, _, rfl⟩, e⟩
    exact hxy (congrArg Prod.fst e).symm

theorem getD_of_getElem? {β : Type} {l : List β} {k : Nat} {x d : β} (h : l[k]? = some x) : l.getD k d = x := by
  rw [List.getD_eq_getElem?_getD, h]; rfl

section
variable {pm : List Nat} {m : Nat}

/-- `updateBlocks` changes the blocks of the parameters in `pm`, and no other. -/
theorem updateBlocks_ok (hinc : pm.Pairwise (· < ·)) (hlt : ∀ p ∈ pm, p < m) {D : Nat → Nat → Py ℝ} {op : Py ℝ → Py ℝ → Except Err (Py ℝ)}
    {H H' : Nat → Nat → Py ℝ}
    (h1 : ∀ k < pm.length, ∀ l ≤ k, op (H (pm.getD k 0) (pm.getD l 0)) (D k l) = .ok (H' (pm.getD k 0) (pm.getD l 0)))
    (h2 : ∀ p q, p ∉ pm ∨ q ∉ pm ∨ p < q → H' p q = H p q) :
    updateBlocks pm (triangle pm.length D) op (triangle m H) = .ok (triangle m H') := by
  unfold updateBlocks
  rw [foldlM_nested (f := fun h (x y : Nat × Nat) => updateAt h x.1 fun row => updateAt row y.1 fun z => do
    let line ← pick (triangle pm.length D) x.2
    let d ← pick line y.2
    op z d)]
  have hn : pm.Nodup := hinc.imp fun h => Nat.ne_of_lt h
  refine fold_update2 (blockPairs pm) H H' (blockPairs_nodup hn) (fun z hz => ?_) fun p q hpq => ?_
  · obtain ⟨z1, z2, z3⟩ := mem_blockPairs.1 hz
    obtain ⟨l1, e1⟩ := List.getElem?_eq_some_iff.1 z1
    obtain ⟨l2, e2⟩ := List.getElem?_eq_some_iff.1 z2
    refine ⟨hlt _ (List.mem_of_getElem? z1), ?_, ?_⟩
    · rcases Nat.lt_or_eq_of_le z3 with c | c
      · have := List.pairwise_iff_getElem.1 hinc z.2.2 z.1.2 l2 l1 c
        omega
      · have : z.2.1 = z.1.1 := by rw [← e1, ← e2]; simp only [c]
        omega
    · have hp : (pick (triangle pm.length D) z.1.2 >>= fun line => pick line z.2.2) = .ok (D z.1.2 z.2.2) :=
        pick2_range l1 z3
      have := h1 z.1.2 l1 z.2.2 z3
      rw [getD_of_getElem? z1, getD_of_getElem? z2] at this
      rw [← this]
      unfold triangle
      rw [pick_range l1]
      show (do let d ← pick (row (z.1.2 + 1) (D z.1.2)) z.2.2; op (H z.1.1 z.2.1) d) = _
      rw [pick_range (by omega)]
      rfl
  · refine h2 p q ?_
    by_contra c
    simp only [not_or, not_not, not_lt] at c
    obtain ⟨c1, c2, c3⟩ := c
    obtain ⟨k, hk⟩ := List.getElem?_of_mem c1
    obtain ⟨l, hl⟩ := List.getElem?_of_mem c2
    refine hpq (List.mem_map.2 ⟨((p, k), (q, l)), mem_blockPairs.2 ⟨hk, hl, ?_⟩, rfl⟩)
    obtain ⟨l1, e1⟩ := List.getElem?_eq_some_iff.1 hk
    obtain ⟨l2, e2⟩ := List.getElem?_eq_some_iff.1 hl
    by_contra c
    have := List.pairwise_iff_getElem.1 hinc k l l1 l2 (by dsimp only at c; omega)
    omega

/-- The loops of `flat_grad` over one term. -/
theorem updateRow_ok {β γ : Type} (hn : pm.Nodup) (hlt : ∀ p ∈ pm, p < m) {D : Nat → γ} {op : β → γ → Except Err β} {g g' : Nat → β}
    (h1 : ∀ k < pm.length, op (g (pm.getD k 0)) (D k) = .ok (g' (pm.getD k 0))) (h2 : ∀ p, p ∉ pm → g' p = g p) :
    pm.zipIdx.foldlM (fun h x => updateAt h x.1 fun y => do
      let d ← pick (row pm.length D) x.2
      op y d) (row m g) = .ok (row m g') := by
  refine fold_update (F := fun x y => do
      let d ← pick (row pm.length D) x.2
      op y d) pm.zipIdx g g' (by rw [zipIdx_map_fst]; exact hn) (fun x hx => ?_) fun p hp => ?_
  · have hx := List.mem_zipIdx_iff_getElem?.1 hx
    obtain ⟨l1, e1⟩ := List.getElem?_eq_some_iff.1 hx
    refine ⟨hlt _ (List.mem_of_getElem? hx), ?_⟩
    rw [pick_range l1]
    have := h1 x.2 l1
    rw [getD_of_getElem? hx] at this
    exact this
  · rw [zipIdx_map_fst] at hp
    exact h2 p hp

end

end Verif.Tens
