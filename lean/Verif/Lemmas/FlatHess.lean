import Verif.Lemmas.Flat

namespace Verif.Flat
open Verif.Params

variable {R : Type}

theorem StrictlyIncreasing.nonDecreasing {pm : List Nat} (h : StrictlyIncreasing pm) :
    NonDecreasing pm := List.Pairwise.imp (fun h => Nat.le_of_lt h) h

theorem StrictlyIncreasing.lt_iff {pm : List Nat} (h : StrictlyIncreasing pm) {x y : Nat × Nat}
    (hx : x ∈ pm.zipIdx) (hy : y ∈ pm.zipIdx) : x.2 < y.2 → x.1 < y.1 := by
  intro hlt
  have hx := List.mem_zipIdx_iff_getElem?.mp hx
  have hy := List.mem_zipIdx_iff_getElem?.mp hy
  obtain ⟨hxl, hx'⟩ := List.getElem?_eq_some_iff.mp hx
  obtain ⟨hyl, hy'⟩ := List.getElem?_eq_some_iff.mp hy
  have := (List.pairwise_iff_getElem.mp h) x.2 y.2 hxl hyl hlt
  rw [hx', hy'] at this; exact this

theorem sum_map_zero [AddCommMonoid R] {β : Type} (l : List β) (f : β → R)
    (h : ∀ x ∈ l, f x = 0) : (l.map f).sum = 0 := by
  induction l with
  | nil => rfl
  | cons x l ih =>
    simp only [List.map_cons, List.sum_cons]
    rw [h x (by simp), ih (fun y hy => h y (by simp [hy])), add_zero]

theorem sum_add_map' [AddCommMonoid R] {β : Type} (l : List β) (f g : β → R) :
    (l.map fun x => f x + g x).sum = (l.map f).sum + (l.map g).sum := by
  induction l with
  | nil => simp
  | cons x l ih => simp only [List.map_cons, List.sum_cons, ih]; exact add_add_add_comm ..

theorem sum_swap [AddCommMonoid R] {β γ : Type} (l : List β) (k : List γ) (f : β → γ → R) :
    (l.map fun x => (k.map fun y => f x y).sum).sum =
      (k.map fun y => (l.map fun x => f x y).sum).sum := by
  induction l with
  | nil => simp
  | cons x l ih =>
    simp only [List.map_cons, List.sum_cons, ih]
    rw [← sum_add_map']

theorem termHess_lower [AddCommMonoid R] (pm : List Nat) (hpm : StrictlyIncreasing pm)
    (v : Nat → Nat → Nat → Nat → R) (i j a b : Nat) (hij : j ≤ i) :
    termHess pm v i j a b = (pm.zipIdx.map fun x => (pm.zipIdx.map fun y =>
      if x.1 = i ∧ y.1 = j then symBlocks v x.2 y.2 a b else 0).sum).sum := by
  unfold termHess
  congr 1
  apply List.map_congr_left
  intro x hx
  have hsplit : pm.zipIdx = (pm.take (x.2 + 1)).zipIdx ++
      (pm.drop (x.2 + 1)).zipIdx (pm.take (x.2 + 1)).length := by
    conv => lhs; rw [← List.take_append_drop (x.2 + 1) pm]
    rw [List.zipIdx_append]; simp
  have hx2 : x.2 < pm.length :=
    (List.getElem?_eq_some_iff.mp (List.mem_zipIdx_iff_getElem?.mp hx)).1
  have hmem : ∀ y ∈ (pm.drop (x.2 + 1)).zipIdx (pm.take (x.2 + 1)).length, y ∈ pm.zipIdx := by
    intro y hy; rw [hsplit]; exact List.mem_append_right _ hy
  conv => rhs; rw [hsplit]
  rw [List.map_append, List.sum_append, sum_map_zero
    ((pm.drop (x.2 + 1)).zipIdx (pm.take (x.2 + 1)).length) _ ?_, add_zero]
  · congr 1
    apply List.map_congr_left
    intro y hy
    have : y.2 ≤ x.2 := by
      have := (List.getElem?_eq_some_iff.mp (List.mem_zipIdx_iff_getElem?.mp hy)).1
      simp at this; omega
    simp [symBlocks, this]
  · intro y hy
    have h2 : x.2 < y.2 := by
      have := List.le_snd_of_mem_zipIdx hy
      simp at this; omega
    have h3 := hpm.lt_iff hx (hmem y hy) h2
    rw [if_neg]
    rintro ⟨rfl, rfl⟩
    omega

/-- The completed matrix entry for one term. -/
theorem fullEntry_term [AddCommMonoid R] (params : List (Param R)) (t : Term R)
    (hpm : StrictlyIncreasing t.paramMap)
    (hd : ∀ k a b, t.hess (argsOf params t.paramMap) k k a b =
      t.hess (argsOf params t.paramMap) k k b a) (x y : Nat × Nat) :
    fullEntry (termHess t.paramMap (t.hess (argsOf params t.paramMap))) x y =
      termHessFull params t x.1 x.2 y.1 y.2 := by
  unfold fullEntry termHessFull
  split
  · rw [termHess_lower _ hpm _ _ _ _ _ (by omega)]
  · rw [termHess_lower _ hpm _ _ _ _ _ (by omega), sum_swap]
    congr 1
    apply List.map_congr_left
    intro u _
    congr 1
    apply List.map_congr_left
    intro w _
    by_cases hc : u.1 = x.1 ∧ w.1 = y.1
    · rw [if_pos hc, if_pos ⟨hc.2, hc.1⟩]
      unfold symBlocks
      rcases Nat.lt_trichotomy u.2 w.2 with h | h | h
      · rw [if_pos (by omega), if_neg (by omega)]
      · rw [if_pos (by omega), if_pos (by omega), h, hd]
      · rw [if_neg (by omega), if_pos (by omega)]
    · rw [if_neg hc, if_neg (fun h => hc ⟨h.2, h.1⟩)]

theorem fullEntry_like (hl : Nat → Nat → Nat → Nat → R)
    (hd : ∀ k a b, hl k k a b = hl k k b a) (x y : Nat × Nat) :
    fullEntry hl x y = symBlocks hl x.1 y.1 x.2 y.2 := by
  unfold fullEntry symBlocks
  rcases Nat.lt_trichotomy x.1 y.1 with h | h | h
  · rw [if_neg (by omega), if_neg (by omega)]
  · rw [if_neg (by omega), if_pos (by omega), h, hd]
  · rw [if_pos (by omega), if_pos (by omega)]

theorem fullEntry_sub [CommRing R] (params : List (Param R)) (hl h : Nat → Nat → Nat → Nat → R)
    (rs : List (Term R)) (hr : ∀ t ∈ rs, StrictlyIncreasing t.paramMap ∧
      ∀ k a b, t.hess (argsOf params t.paramMap) k k a b =
        t.hess (argsOf params t.paramMap) k k b a)
    (hd : ∀ k a b, hl k k a b = hl k k b a)
    (e : ∀ i j a b, h i j a b = hl i j a b - (rs.map fun t =>
        termHess t.paramMap (t.hess (argsOf params t.paramMap)) i j a b).sum) (x y : Nat × Nat) :
    fullEntry h x y = symBlocks hl x.1 y.1 x.2 y.2 -
      (rs.map fun t => termHessFull params t x.1 x.2 y.1 y.2).sum := by
  have h1 : fullEntry h x y = fullEntry hl x y - (rs.map fun t =>
      fullEntry (termHess t.paramMap (t.hess (argsOf params t.paramMap))) x y).sum := by
    unfold fullEntry
    split <;> rw [e]
  rw [h1, fullEntry_like hl hd]
  congr 2
  apply List.map_congr_left
  intro t ht
  exact fullEntry_term params t (hr t ht).1 (hr t ht).2 x y

theorem termHessFull_symm [AddCommMonoid R] (params : List (Param R)) (t : Term R)
    (hd : ∀ k a b, t.hess (argsOf params t.paramMap) k k a b =
      t.hess (argsOf params t.paramMap) k k b a) (i a j b : Nat) :
    termHessFull params t i a j b = termHessFull params t j b i a := by
  unfold termHessFull
  rw [sum_swap]
  congr 1
  apply List.map_congr_left
  intro u _
  congr 1
  apply List.map_congr_left
  intro w _
  by_cases hc : u.1 = j ∧ w.1 = i
  · rw [if_pos hc, if_pos ⟨hc.2, hc.1⟩]
    unfold symBlocks
    rcases Nat.lt_trichotomy u.2 w.2 with h | h | h
    · rw [if_pos (by omega), if_neg (by omega)]
    · rw [if_pos (by omega), if_pos (by omega), h, hd]
    · rw [if_neg (by omega), if_pos (by omega)]
  · rw [if_neg hc, if_neg (fun h => hc ⟨h.2, h.1⟩)]

theorem symBlocks_symm (hl : Nat → Nat → Nat → Nat → R)
    (hd : ∀ k a b, hl k k a b = hl k k b a) (i j a b : Nat) :
    symBlocks hl i j a b = symBlocks hl j i b a := by
  unfold symBlocks
  rcases Nat.lt_trichotomy i j with h | h | h
  · rw [if_neg (by omega), if_pos (by omega)]
  · rw [if_pos (by omega), if_pos (by omega), h, hd]
  · rw [if_pos (by omega), if_neg (by omega)]

end Verif.Flat
