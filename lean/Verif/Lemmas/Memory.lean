import Verif.Spec.Memory

/-!
# Arrays and memory
-/

namespace Verif.Memory
open Verif.Params

section
variable {α : Type} {m : Mem α} {r : Nat}

/-- Every array lies inside its buffer and has as many entries as its shape says. -/
def Mem.Ok (m : Mem α) : Prop :=
  ∀ (r : Nat) a, m.arrs[r]? = some a → ∃ b, m.bufs[a.buf]? = some b ∧ (∀ q ∈ a.pos, q < b.length) ∧ a.pos.length = a.shape.prod

/-- The array exists and no array can write into its memory. -/
def Guarded (m : Mem α) (r : Nat) : Prop := ∃ a, m.arrs[r]? = some a ∧ ∀ (r' : Nat) a', m.arrs[r']? = some a' → a'.buf = a.buf → a'.writeable = false

theorem Guarded.lt (h : Guarded m r) : r < m.arrs.length := by
  obtain ⟨a, h, -⟩ := h
  exact (List.getElem?_eq_some_iff.1 h).1

theorem read_some {a : ArrObj} (h : m.arrs[r]? = some a) : m.read r = a.pos.filterMap fun k => (m.bufs.getD a.buf [])[k]? := by
  unfold Mem.read
  rw [h]

theorem read_congr {m m' : Mem α} {a a' : ArrObj} (h : m.arrs[r]? = some a) (h' : m'.arrs[r]? = some a') (hp : a'.pos = a.pos)
    (hb : m'.bufs.getD a'.buf [] = m.bufs.getD a.buf []) : m'.read r = m.read r := by
  rw [read_some h, read_some h', hp, hb]

theorem read_length (hm : m.Ok) (h : r < m.arrs.length) : (m.read r).length = (m.shape r).prod := by
  have h1 := List.getElem?_eq_getElem h
  obtain ⟨b, h2, h3, h4⟩ := hm r _ h1
  rw [read_some h1, Mem.shape, h1, List.getD_eq_getElem?_getD, h2]
  simp only [Option.getD_some, Option.map_some]
  rw [← h4]
  generalize (m.arrs[r]).pos = l at h3
  induction l with
  | nil => rfl
  | cons q l ih =>
    rw [List.filterMap_cons, List.getElem?_eq_getElem (h3 q List.mem_cons_self)]
    simp [ih fun x hx => h3 x (List.mem_cons_of_mem _ hx)]

/-! ### New arrays -/

theorem alloc_arr_old (s : List Nat) (d : List α) (h : r < m.arrs.length) : (m.alloc s d).arrs[r]? = m.arrs[r]? := List.getElem?_append_left h

theorem alloc_arr_new (s : List Nat) (d : List α) : (m.alloc s d).arrs[m.arrs.length]? = some ⟨m.bufs.length, List.range d.length, s, true⟩ := by
  simp [Mem.alloc]

theorem alloc_cases {s : List Nat} {d : List α} {a : ArrObj} (h : (m.alloc s d).arrs[r]? = some a) :
    (r < m.arrs.length ∧ m.arrs[r]? = some a) ∨ (r = m.arrs.length ∧ a = ⟨m.bufs.length, List.range d.length, s, true⟩) := by
  have hl := (List.getElem?_eq_some_iff.1 h).1
  have : (m.alloc s d).arrs.length = m.arrs.length + 1 := by simp [Mem.alloc]
  by_cases hr : r < m.arrs.length
  · exact .inl ⟨hr, by rw [← h, alloc_arr_old s d hr]⟩
  · obtain rfl : r = m.arrs.length := by omega
    rw [alloc_arr_new] at h
    exact .inr ⟨rfl, (Option.some.inj h).symm⟩

theorem alloc_buf (s : List Nat) (d : List α) {b : Nat} (h : b < m.bufs.length) : (m.alloc s d).bufs[b]? = m.bufs[b]? := List.getElem?_append_left h

theorem Mem.Ok.buf (hm : m.Ok) {a : ArrObj} (h : m.arrs[r]? = some a) : a.buf < m.bufs.length := by
  obtain ⟨b, h1, -⟩ := hm r a h
  exact (List.getElem?_eq_some_iff.1 h1).1

theorem alloc_read (hm : m.Ok) (s : List Nat) (d : List α) (h : r < m.arrs.length) : (m.alloc s d).read r = m.read r := by
  have h1 := List.getElem?_eq_getElem h
  refine read_congr h1 ((alloc_arr_old s d h).trans h1) rfl ?_
  rw [List.getD_eq_getElem?_getD, List.getD_eq_getElem?_getD, alloc_buf s d (hm.buf h1)]

theorem alloc_read_new (s : List Nat) (d : List α) : (m.alloc s d).read m.arrs.length = d := by
  rw [read_some (alloc_arr_new s d)]
  simp only [Mem.alloc, List.getD_eq_getElem?_getD, List.getElem?_append_right (le_refl _), Nat.sub_self, List.getElem?_cons_zero, Option.getD_some]
  induction d using List.reverseRecOn with
  | nil => rfl
  | append_singleton l x ih =>
    rw [List.length_append, List.length_singleton, List.range_succ, List.filterMap_append]
    have : (List.range l.length).filterMap (fun k => (l ++ [x])[k]?) = (List.range l.length).filterMap fun k => l[k]? :=
      List.filterMap_congr fun k hk => List.getElem?_append_left (List.mem_range.1 hk)
    rw [this, ih]
    simp

theorem alloc_shape (s : List Nat) (d : List α) (h : r < m.arrs.length) : (m.alloc s d).shape r = m.shape r := by
  unfold Mem.shape
  rw [alloc_arr_old s d h]

theorem alloc_shape_new (s : List Nat) (d : List α) : (m.alloc s d).shape m.arrs.length = s := by
  unfold Mem.shape
  rw [alloc_arr_new]
  rfl

theorem alloc_ok (hm : m.Ok) {s : List Nat} {d : List α} (h : d.length = s.prod) : (m.alloc s d).Ok := by
  intro r a ha
  rcases alloc_cases ha with ⟨-, ha⟩ | ⟨-, rfl⟩
  · obtain ⟨b, h1, h2, h3⟩ := hm r a ha
    exact ⟨b, by rw [alloc_buf s d (hm.buf ha)]; exact h1, h2, h3⟩
  · exact ⟨d, by simp [Mem.alloc], fun q hq => List.mem_range.1 hq, by simp [h]⟩

theorem alloc_guarded (hm : m.Ok) (s : List Nat) (d : List α) (h : Guarded m r) : Guarded (m.alloc s d) r := by
  obtain ⟨a, h1, h2⟩ := h
  refine ⟨a, (alloc_arr_old s d (List.getElem?_eq_some_iff.1 h1).1).trans h1, fun r' a' h' hb => ?_⟩
  rcases alloc_cases h' with ⟨-, h'⟩ | ⟨-, rfl⟩
  · exact h2 r' a' h' hb
  · exact absurd hb (hm.buf h1).ne'

/-! ### Views -/

/-- A new array on the memory of an existing one, with its flag. -/
theorem view_cases {a b : ArrObj} {r' : Nat} (h : (⟨m.bufs, m.arrs ++ [b]⟩ : Mem α).arrs[r']? = some a) : (m.arrs[r']? = some a) ∨ (r' = m.arrs.length ∧ a = b) := by
  have hl := (List.getElem?_eq_some_iff.1 h).1
  rw [List.length_append, List.length_singleton] at hl
  by_cases hr : r' < m.arrs.length
  · exact .inl (by rw [← h]; exact (List.getElem?_append_left hr).symm)
  · obtain rfl : r' = m.arrs.length := by omega
    exact .inr ⟨rfl, by simpa using h.symm⟩

theorem view_arr (b : ArrObj) (h : r < m.arrs.length) : (⟨m.bufs, m.arrs ++ [b]⟩ : Mem α).arrs[r]? = m.arrs[r]? := List.getElem?_append_left h

theorem view_read (b : ArrObj) (h : r < m.arrs.length) : (⟨m.bufs, m.arrs ++ [b]⟩ : Mem α).read r = m.read r :=
  read_congr (List.getElem?_eq_getElem h) ((view_arr b h).trans (List.getElem?_eq_getElem h)) rfl rfl

theorem view_shape (b : ArrObj) (h : r < m.arrs.length) : (⟨m.bufs, m.arrs ++ [b]⟩ : Mem α).shape r = m.shape r := by
  unfold Mem.shape
  rw [view_arr b h]

theorem view_guarded {b a0 : ArrObj} {r0 : Nat} (h0 : m.arrs[r0]? = some a0) (hb : b.buf = a0.buf) (hw : b.writeable = a0.writeable) (h : Guarded m r) :
    Guarded ⟨m.bufs, m.arrs ++ [b]⟩ r := by
  obtain ⟨a, h1, h2⟩ := h
  refine ⟨a, (view_arr b (List.getElem?_eq_some_iff.1 h1).1).trans h1, fun r' a' h' hb' => ?_⟩
  rcases view_cases h' with h' | ⟨-, rfl⟩
  · exact h2 r' a' h' hb'
  · rw [hw]
    exact h2 r0 a0 h0 (hb.symm.trans hb')

theorem view_ok (hm : m.Ok) {b a0 : ArrObj} {r0 : Nat} (h0 : m.arrs[r0]? = some a0) (hb : b.buf = a0.buf) (hp : ∀ q ∈ b.pos, q ∈ a0.pos) (hs : b.pos.length = b.shape.prod) :
    (⟨m.bufs, m.arrs ++ [b]⟩ : Mem α).Ok := by
  intro r a ha
  rcases view_cases ha with ha | ⟨-, rfl⟩
  · exact hm r a ha
  · obtain ⟨l, h1, h2, -⟩ := hm r0 a0 h0
    exact ⟨l, by rw [hb]; exact h1, fun q hq => h2 q (hp q hq), hs⟩

/-! ### Flags -/

theorem freeze_arr (k r : Nat) : (m.freeze k).arrs[r]? = (m.arrs[r]?).map fun a => if k = r then { a with writeable := false } else a := by
  unfold Mem.freeze
  rw [List.getElem?_modify]
  cases m.arrs[r]? <;> split_ifs <;> rfl

theorem freeze_length (k : Nat) : (m.freeze k).arrs.length = m.arrs.length := by simp [Mem.freeze]

theorem freeze_some {k : Nat} {a : ArrObj} (h : (m.freeze k).arrs[r]? = some a) :
    ∃ a0, m.arrs[r]? = some a0 ∧ a.buf = a0.buf ∧ a.pos = a0.pos ∧ a.shape = a0.shape ∧ (a.writeable = true → a0.writeable = true ∧ k ≠ r) := by
  rw [freeze_arr] at h
  cases h0 : m.arrs[r]? with
  | none => rw [h0] at h; exact absurd h (by simp)
  | some a0 =>
    rw [h0] at h
    have h := (Option.some.inj h).symm
    refine ⟨a0, rfl, ?_⟩
    split_ifs at h with hk
    · subst h; exact ⟨rfl, rfl, rfl, fun h => absurd h (by simp)⟩
    · subst h; exact ⟨rfl, rfl, rfl, fun h => ⟨h, hk⟩⟩

theorem freeze_read (k r : Nat) : (m.freeze k).read r = m.read r := by
  cases h : m.arrs[r]? with
  | none =>
    unfold Mem.read
    rw [freeze_arr, h]
    rfl
  | some a =>
    refine read_congr h (by rw [freeze_arr, h]; rfl) ?_ ?_ <;> dsimp only <;> split_ifs <;> rfl

theorem freeze_shape (k r : Nat) : (m.freeze k).shape r = m.shape r := by
  unfold Mem.shape
  rw [freeze_arr]
  cases m.arrs[r]? with
  | none => rfl
  | some a => simp only [Option.map_some, Option.getD_some]; split_ifs <;> rfl

theorem freeze_ok (hm : m.Ok) (k : Nat) : (m.freeze k).Ok := by
  intro r a h
  obtain ⟨a0, h0, h1, h2, h3, -⟩ := freeze_some h
  rw [h1, h2, h3]
  exact hm r a0 h0

theorem freeze_guarded (k : Nat) (h : Guarded m r) : Guarded (m.freeze k) r := by
  obtain ⟨a, h1, h2⟩ := h
  refine ⟨_, by rw [freeze_arr, h1]; rfl, fun r' a' h' hb => ?_⟩
  obtain ⟨a0, g0, g1, -, -, g4⟩ := freeze_some h'
  have hb' : a0.buf = a.buf := by rw [← g1, hb]; split_ifs <;> rfl
  by_contra hw
  have := (g4 (by simpa using hw)).1
  rw [h2 r' a0 g0 hb'] at this
  exact absurd this (by simp)

/-- After `freeze r` nothing can write into the memory of `r`, if no other array could. -/
theorem freeze_sole (h : r < m.arrs.length) (hs : Sole m r) : Guarded (m.freeze r) r := by
  have h1 := List.getElem?_eq_getElem h
  refine ⟨_, by rw [freeze_arr, h1]; rfl, fun r' a' h' hb => ?_⟩
  obtain ⟨a0, g0, g1, -, -, g4⟩ := freeze_some h'
  have hb' : a0.buf = m.arrs[r].buf := by rw [← g1, hb]; simp
  by_contra hw
  obtain ⟨hw, hne⟩ := g4 (by simpa using hw)
  rw [hs r' a0 ⟨_, _, h1, g0, hb'⟩ (Ne.symm hne) g0] at hw
  exact absurd hw (by simp)

/-! ### Assignments -/

theorem assign_ok (hm : m.Ok) (r k : Nat) (v : α) : (m.assign r k v).2.Ok := by
  unfold Mem.assign
  cases h : m.arrs[r]? with
  | none => exact hm
  | some a =>
    dsimp only
    split_ifs
    · cases hq : a.pos[k]? with
      | none => exact hm
      | some q =>
        intro r' a' h'
        obtain ⟨b, h1, h2, h3⟩ := hm r' a' h'
        refine ⟨if a.buf = a'.buf then b.set q v else b, ?_, ?_, h3⟩
        · show (m.bufs.modify a.buf _)[a'.buf]? = _
          rw [List.getElem?_modify, h1]
          rfl
        · intro x hx
          split_ifs
          · rw [List.length_set]; exact h2 x hx
          · exact h2 x hx
    · exact hm

theorem assign_arrs (r k : Nat) (v : α) : (m.assign r k v).2.arrs = m.arrs := by
  unfold Mem.assign
  cases m.arrs[r]? with
  | none => rfl
  | some a =>
    dsimp only
    split_ifs
    · cases a.pos[k]? <;> rfl
    · rfl

theorem assign_shape (r k : Nat) (v : α) (r' : Nat) : (m.assign r k v).2.shape r' = m.shape r' := by
  unfold Mem.shape
  rw [assign_arrs]

/-- An assignment changes only arrays with the same memory. -/
theorem assign_read {r k r' : Nat} (v : α) (h : ¬SameBuffer m r r') : (m.assign r k v).2.read r' = m.read r' := by
  unfold Mem.assign
  cases h1 : m.arrs[r]? with
  | none => rfl
  | some a =>
    dsimp only
    split_ifs
    · cases hq : a.pos[k]? with
      | none => rfl
      | some q =>
        cases h2 : m.arrs[r']? with
        | none =>
          unfold Mem.read
          rw [h2]
        | some a' =>
          refine read_congr (m' := ⟨m.bufs.modify a.buf fun l => l.set q v, m.arrs⟩) h2 h2 rfl ?_
          have hb : a.buf ≠ a'.buf := fun e => h ⟨a, a', h1, h2, e.symm⟩
          show (m.bufs.modify a.buf _).getD a'.buf [] = _
          rw [List.getD_eq_getElem?_getD, List.getD_eq_getElem?_getD, List.getElem?_modify]
          simp [hb]
    · rfl

theorem assign_guarded {r k r' : Nat} (v : α) (h : Guarded m r') : (m.assign r k v).2.read r' = m.read r' := by
  obtain ⟨a', h1, h2⟩ := h
  cases h3 : m.arrs[r]? with
  | none => unfold Mem.assign; rw [h3]
  | some a =>
    by_cases hb : a.buf = a'.buf
    · have := h2 r a h3 hb
      unfold Mem.assign
      rw [h3]
      simp [this]
    · refine assign_read v ?_
      rintro ⟨x, y, hx, hy, e⟩
      rw [h3] at hx
      rw [h1] at hy
      exact hb (by rw [Option.some.inj hx, Option.some.inj hy, e])

end

end Verif.Memory
