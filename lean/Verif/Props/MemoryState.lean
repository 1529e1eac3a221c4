import Verif.Props.Memory

/-!
# C84: the object and the user's arrays
-/

set_option linter.unusedSectionVars false

namespace Verif.Memory
open Verif.Params
open Verif.Tens (Session SessionOp FitArgs Name Kind NDArray mkTensor)

theorem new_inv (k : Kind) : Inv (World.new k) :=
  ⟨fun r a h => absurd h (by simp [World.new]), fun r a h => absurd h (by simp [World.new]), fun ps h => absurd h (by simp [World.new]), fun n r h => absurd h (by simp [World.new])⟩

theorem run_spec (depth : Nat) : ∀ (ops : List Op) {w : World}, Inv w → CarefulRun w ops →
    Inv (w.run ops) ∧ (w.run ops).session = (w.calls ops).foldl (Session.step (depth + 2)) w.session := by
  intro ops
  induction ops with
  | nil => exact fun hI _ => ⟨hI, rfl⟩
  | cons op ops ih =>
    intro w hI hc
    obtain ⟨h1, h2⟩ := step_spec depth hI op hc.1
    obtain ⟨k1, k2⟩ := ih h1 hc.2
    refine ⟨k1, ?_⟩
    show ((w.step op).2.run ops).session = _
    rw [k2, h2]
    show _ = ((w.call op).toList ++ (w.step op).2.calls ops).foldl _ _
    rw [List.foldl_append]
    cases w.call op <;> rfl

/-- **C84.** A careful program: whatever else it does with its arrays, the state of the object (and so what `fit` does) is that after the same method calls on the contents that the arguments had when
the calls were made. -/
theorem C84_state (depth : Nat) (k : Kind) (ops : List Op) (hc : CarefulRun (World.new k) ops) :
    ((World.new k).run ops).session = ((World.new k).calls ops).foldl (Session.step (depth + 2)) (Session.new k) :=
  (run_spec depth ops (new_inv k) hc).2

/-- The outcome of `fit` in such a program. -/
theorem C84_fit (k : Kind) (ops : List Op) (hc : CarefulRun (World.new k) ops) (kw : List (Name × Nat)) (a : FitArgs)
    (hkw : ∀ x ∈ kw, x.2 < ((World.new k).run ops).vals.arrs.length ∧ Sole ((World.new k).run ops).vals x.2) :
    (((World.new k).run ops).step (.fit kw a)).1 =
      (Session.fit (((World.new k).calls ops).foldl (Session.step 2) (Session.new k)) { a with kwargs := kw.map fun x => (x.1, ((World.new k).run ops).vals.array x.2) }).1.map fun _ => () := by
  obtain ⟨h1, h2⟩ := run_spec 0 ops (new_inv k) hc
  have := (step_fit h1 kw a (fun x hx => (hkw x hx).2) fun x hx => (hkw x hx).1).2.1
  rw [h2] at this
  exact this

/-! ### Without any hypothesis on the program -/

section
variable {α : Type} {m : Mem α} {r : Nat}

/-- Every array has a buffer. -/
def BufOk (m : Mem α) : Prop := ∀ (r : Nat) a, m.arrs[r]? = some a → a.buf < m.bufs.length

/-- The array is read-only. -/
def Locked (m : Mem α) (r : Nat) : Prop := ∃ a, m.arrs[r]? = some a ∧ a.writeable = false

/-- Nothing is written: the old arrays are there with their contents, and those that were read-only are read-only. -/
structure Keeps (m m' : Mem α) : Prop where
  buf : BufOk m'
  len : m.arrs.length ≤ m'.arrs.length
  read : ∀ r, r < m.arrs.length → m'.read r = m.read r
  shape : ∀ r, r < m.arrs.length → m'.shape r = m.shape r
  locked : ∀ r, Locked m r → Locked m' r

theorem Locked.lt (h : Locked m r) : r < m.arrs.length := by
  obtain ⟨a, h, -⟩ := h
  exact (List.getElem?_eq_some_iff.1 h).1

theorem Keeps.refl (hm : BufOk m) : Keeps m m := ⟨hm, le_rfl, fun _ _ => rfl, fun _ _ => rfl, fun _ h => h⟩

theorem Keeps.trans {m' m'' : Mem α} (h : Keeps m m') (h' : Keeps m' m'') : Keeps m m'' :=
  ⟨h'.buf, h.len.trans h'.len, fun r hr => (h'.read r (hr.trans_le h.len)).trans (h.read r hr), fun r hr => (h'.shape r (hr.trans_le h.len)).trans (h.shape r hr), fun r hr => h'.locked r (h.locked r hr)⟩

theorem keeps_alloc (hm : BufOk m) (s : List Nat) (d : List α) : Keeps m (m.alloc s d) := by
  refine ⟨fun r a h => ?_, by simp [Mem.alloc], fun r hr => ?_, fun r hr => alloc_shape s d hr, fun r hr => ?_⟩
  · have e : (m.alloc s d).bufs.length = m.bufs.length + 1 := by simp [Mem.alloc]
    rcases alloc_cases h with h | ⟨-, rfl⟩
    · have := hm r a h.2; omega
    · simp only; omega
  · have h0 := List.getElem?_eq_getElem hr
    refine read_congr h0 ((alloc_arr_old s d hr).trans h0) rfl ?_
    rw [List.getD_eq_getElem?_getD, List.getD_eq_getElem?_getD, alloc_buf s d (hm _ _ h0)]
  · obtain ⟨a, h, ha⟩ := hr
    exact ⟨a, (alloc_arr_old s d (List.getElem?_eq_some_iff.1 h).1).trans h, ha⟩

theorem keeps_view (hm : BufOk m) {b a0 : ArrObj} {r0 : Nat} (h0 : m.arrs[r0]? = some a0) (hb : b.buf = a0.buf) : Keeps m ⟨m.bufs, m.arrs ++ [b]⟩ := by
  refine ⟨fun r a h => ?_, by simp, fun r hr => view_read b hr, fun r hr => view_shape b hr, fun r hr => ?_⟩
  · rcases view_cases h with h | ⟨-, rfl⟩
    · exact hm r a h
    · show a.buf < m.bufs.length
      rw [hb]; exact hm _ _ h0
  · obtain ⟨a, h, ha⟩ := hr
    exact ⟨a, (view_arr b (List.getElem?_eq_some_iff.1 h).1).trans h, ha⟩

theorem keeps_freeze (hm : BufOk m) (k : Nat) : Keeps m (m.freeze k) := by
  refine ⟨fun r a h => ?_, (freeze_length k).ge, fun r _ => freeze_read k r, fun r _ => freeze_shape k r, fun r hr => ?_⟩
  · rw [freeze_arr] at h
    obtain ⟨b, hb, rfl⟩ := Option.map_eq_some_iff.1 h
    show _ < m.bufs.length
    split_ifs <;> exact hm r b hb
  · obtain ⟨a, h, ha⟩ := hr
    refine ⟨if k = r then { a with writeable := false } else a, by rw [freeze_arr, h]; rfl, ?_⟩
    split_ifs
    · rfl
    · exact ha

theorem freeze_locked (h : r < m.arrs.length) : Locked (m.freeze r) r :=
  ⟨{ m.arrs[r] with writeable := false }, by rw [freeze_arr, List.getElem?_eq_getElem h]; simp, rfl⟩

theorem keeps_new (hm : BufOk m) (s : List Nat) (d : List α) : Keeps m (m.new s d).2 := by
  unfold Mem.new
  split_ifs
  · exact keeps_alloc hm s d
  · exact .refl hm

theorem keeps_slice (hm : BufOk m) (r0 : Nat) (idx s : List Nat) : Keeps m (m.slice r0 idx s).2 := by
  unfold Mem.slice
  cases h0 : m.arrs[r0]? with
  | none => exact .refl hm
  | some a =>
    dsimp only
    cases idx.mapM fun k => a.pos[k]? with
    | none => exact .refl hm
    | some pos =>
      dsimp only
      split_ifs
      · exact keeps_view hm h0 rfl
      · exact .refl hm

theorem keeps_whole (hm : BufOk m) (r0 : Nat) : Keeps m (m.whole r0) := by
  unfold Mem.whole
  cases h0 : m.arrs[r0]? with
  | none => exact .refl hm
  | some a => exact keeps_view hm h0 rfl

theorem keeps_wholes {β : Type} (f : β → Nat) (ps : List β) : ∀ {m : Mem α}, BufOk m → Keeps m (ps.foldl (fun m p => m.whole (f p)) m) := by
  induction ps with
  | nil => exact fun hm => .refl hm
  | cons p ps ih => exact fun hm => (keeps_whole hm (f p)).trans (ih (keeps_whole hm (f p)).buf)

end

/-- Nothing is written, in both memories. -/
structure WKeeps (w w' : World) : Prop where
  vals : Keeps w.vals w'.vals
  masks : Keeps w.masks w'.masks

theorem WKeeps.trans {w w' w'' : World} (h : WKeeps w w') (h' : WKeeps w' w'') : WKeeps w w'' := ⟨h.vals.trans h'.vals, h.masks.trans h'.masks⟩

/-- Every array has a buffer; the values of the parameters are read-only. -/
structure Sound (w : World) : Prop where
  vals : BufOk w.vals
  masks : BufOk w.masks
  params : ∀ ps, w.params = some ps → ∀ p ∈ ps, Locked w.vals p.values

theorem Sound.keeps {w : World} (h : Sound w) : WKeeps w w := ⟨.refl h.vals, .refl h.masks⟩

/-- Same parameters. -/
theorem Sound.of_keeps {w w' : World} (h : Sound w) (hk : WKeeps w w') (hp : w'.params = w.params) : Sound w' :=
  ⟨hk.vals.buf, hk.masks.buf, fun ps hps p hpp => hk.vals.locked _ (h.params ps (hp ▸ hps) p hpp)⟩

theorem addParam_keeps {w : World} (h : Sound w) (v : Nat) (fixed : Option Nat) : WKeeps w (w.addParam v fixed).2 ∧ Sound (w.addParam v fixed).2 ∧
    ((w.addParam v fixed).1 = .ok () → Locked (w.addParam v fixed).2.vals v) := by
  unfold World.addParam
  cases hv : w.vals.arrs[v]? with
  | none => exact ⟨h.keeps, h, fun h => absurd h (by simp)⟩
  | some a =>
    have hlt := (List.getElem?_eq_some_iff.1 hv).1
    have hold : ∀ p ∈ w.params.getD [], Locked (w.vals.freeze v) p.values := fun p hp => by
      cases hps : w.params with
      | none => rw [hps] at hp; exact absurd hp List.not_mem_nil
      | some ps => rw [hps] at hp; exact (keeps_freeze h.vals v).locked _ (h.params ps hps p hp)
    have hadd : ∀ (k : Nat) ps, some (w.params.getD [] ++ [(⟨v, k, w.vals.shape v⟩ : ParamRef)]) = some ps → ∀ p ∈ ps, Locked (w.vals.freeze v) p.values := fun k ps hps p hp => by
      obtain rfl := Option.some.inj hps
      rcases List.mem_append.1 hp with hp | hp
      · exact hold p hp
      · rw [List.mem_singleton.1 hp]; exact freeze_locked hlt
    cases fixed with
    | none =>
      have hk := keeps_alloc h.masks (w.vals.shape v) (List.replicate (w.vals.read v).length false)
      exact ⟨⟨keeps_freeze h.vals v, hk⟩, ⟨(keeps_freeze h.vals v).buf, hk.buf, hadd _⟩, fun _ => freeze_locked hlt⟩
    | some r =>
      dsimp only
      cases hr : w.masks.arrs[r]? with
      | none => exact ⟨h.keeps, h, fun h => absurd h (by simp)⟩
      | some b =>
        dsimp only
        split_ifs
        · exact ⟨⟨keeps_freeze h.vals v, .refl h.masks⟩, ⟨(keeps_freeze h.vals v).buf, h.masks, hadd _⟩, fun _ => freeze_locked hlt⟩
        · refine ⟨⟨.refl h.vals, .refl h.masks⟩, ⟨h.vals, h.masks, fun ps hps p hp => ?_⟩, fun h => absurd h (by simp)⟩
          obtain rfl := Option.some.inj hps
          cases hps : w.params with
          | none => rw [hps] at hp; exact absurd hp List.not_mem_nil
          | some ps => rw [hps] at hp; exact h.params ps hps p hp

theorem setData_keeps : ∀ (kw : List (Name × Nat)) {w : World}, Sound w → (∀ x ∈ kw, x.2 < w.vals.arrs.length) → WKeeps w (w.setData kw).2 ∧ Sound (w.setData kw).2 ∧
    ((w.setData kw).1 = .ok () → ∀ x ∈ kw, Locked (w.setData kw).2.vals x.2) := by
  intro kw
  induction kw with
  | nil => exact fun h _ => ⟨h.keeps, h, fun _ x hx => absurd hx List.not_mem_nil⟩
  | cons x kw ih =>
    obtain ⟨n, r⟩ := x
    intro w h hex
    have hr : r < w.vals.arrs.length := hex _ List.mem_cons_self
    unfold World.setData
    cases mkTensor (w.vals.array r) 0 0 w.base.kind.dim [] [] with
    | error e =>
      have hk : WKeeps w { w with vals := w.vals.freeze r } := ⟨keeps_freeze h.vals r, .refl h.masks⟩
      exact ⟨hk, h.of_keeps hk rfl, fun h => absurd h (by simp)⟩
    | ok t =>
      dsimp only
      have hk : WKeeps w { w with vals := w.vals.freeze r, data := Function.update w.data n (some r) } := ⟨keeps_freeze h.vals r, .refl h.masks⟩
      obtain ⟨h1, h2, h3⟩ := ih (h.of_keeps hk rfl) fun x hx => by
        show x.2 < (w.vals.freeze r).arrs.length
        rw [freeze_length]; exact hex x (List.mem_cons_of_mem _ hx)
      refine ⟨hk.trans h1, h2, fun hok x hx => ?_⟩
      rcases List.mem_cons.1 hx with rfl | hx
      · exact h1.vals.locked _ (freeze_locked hr)
      · exact h3 hok x hx

theorem store_keeps : ∀ (refs : List ParamRef) (ps : List (Param ℝ)) {m : Mem ℝ}, BufOk m → Keeps m (storeParams m refs ps).1 ∧ ∀ p ∈ (storeParams m refs ps).2, Locked (storeParams m refs ps).1 p.values := by
  intro refs
  induction refs with
  | nil => exact fun ps m hm => ⟨.refl hm, fun p hp => absurd hp List.not_mem_nil⟩
  | cons p refs ih =>
    intro ps m hm
    cases ps with
    | nil => exact ⟨.refl hm, fun p hp => absurd hp List.not_mem_nil⟩
    | cons q qs =>
      have k1 := keeps_alloc hm p.shape q.values
      have k2 := keeps_freeze k1.buf m.arrs.length
      obtain ⟨h1, h2⟩ := ih qs k2.buf
      refine ⟨(k1.trans k2).trans h1, fun p' hp' => ?_⟩
      rcases List.mem_cons.1 hp' with rfl | hp'
      · exact h1.locked _ (freeze_locked (by simp [Mem.alloc]))
      · exact h2 p' hp'

theorem fit_keeps {w : World} (h : Sound w) (kw : List (Name × Nat)) (a : FitArgs) : WKeeps w (w.fit kw a).2 ∧ Sound (w.fit kw a).2 ∧
    ((w.fit kw a).1 = .ok () → ∀ x ∈ kw, Locked (w.fit kw a).2.vals x.2) := by
  unfold World.fit
  split_ifs with hex
  · have hex' : ∀ x ∈ kw, x.2 < w.vals.arrs.length := fun x hx => by simpa using List.all_eq_true.1 hex x hx
    obtain ⟨h1, h2, h3⟩ := setData_keeps kw h hex'
    revert h1 h2 h3
    generalize w.setData kw = R
    obtain ⟨e, w1⟩ := R
    intro h1 h2 h3
    cases e with
    | error e => exact ⟨h1, h2, fun h => absurd h (by simp)⟩
    | ok u =>
      dsimp only at h1 h2 h3 ⊢
      generalize w1.session.fit { a with kwargs := [] } = F
      obtain ⟨o, s⟩ := F
      dsimp only
      have triv : ∀ s : Session, WKeeps w1 { w1 with base := s } ∧ Sound { w1 with base := s } := fun s => ⟨⟨.refl h2.vals, .refl h2.masks⟩, ⟨h2.vals, h2.masks, h2.params⟩⟩
      cases hp : w1.params with
      | none => 
        have := triv s
        rw [hp] at this
        exact ⟨h1.trans this.1, this.2, fun _ => h3 rfl⟩
      | some refs =>
        cases hs : s.params with
        | none =>
          have := triv s
          rw [hp] at this
          exact ⟨h1.trans this.1, this.2, fun _ => h3 rfl⟩
        | some ps =>
          obtain ⟨k1, k2⟩ := store_keeps refs ps h2.vals
          refine ⟨h1.trans ⟨k1, .refl h2.masks⟩, ⟨k1.buf, h2.masks, fun ps' hps' p hp => ?_⟩, fun _ x hx => k1.locked _ (h3 rfl x hx)⟩
          obtain rfl := Option.some.inj hps'
          exact k2 p hp
  · exact ⟨h.keeps, h, fun h => absurd h (by simp)⟩

/-- Every operation except an assignment keeps all arrays. -/
theorem step_keeps {w : World} (h : Sound w) (op : Op) (hv : ∀ r k x, op ≠ .assignValues r k x) (hm : ∀ r k x, op ≠ .assignMask r k x) :
    WKeeps w (w.step op).2 ∧ Sound (w.step op).2 := by
  have key : ∀ {w' : World}, WKeeps w w' → w'.params = w.params → WKeeps w w' ∧ Sound w' := fun hk hp => ⟨hk, h.of_keeps hk hp⟩
  cases op with
  | newValues s d => exact key ⟨keeps_new h.vals s d, .refl h.masks⟩ rfl
  | newMask s d => exact key ⟨.refl h.vals, keeps_new h.masks s d⟩ rfl
  | sliceValues r i s => exact key ⟨keeps_slice h.vals r i s, .refl h.masks⟩ rfl
  | sliceMask r i s => exact key ⟨.refl h.vals, keeps_slice h.masks r i s⟩ rfl
  | assignValues r k v => exact absurd rfl (hv r k v)
  | assignMask r k v => exact absurd rfl (hm r k v)
  | addParam v fixed => exact ⟨(addParam_keeps h v fixed).1, (addParam_keeps h v fixed).2.1⟩
  | getParams =>
    show WKeeps w w.getParams.2 ∧ Sound w.getParams.2
    unfold World.getParams
    cases hp : w.params with
    | none => exact ⟨h.keeps, h⟩
    | some ps => exact key ⟨keeps_wholes ParamRef.values ps h.vals, keeps_wholes ParamRef.mask ps h.masks⟩ hp.symm
  | resetParams => exact ⟨⟨.refl h.vals, .refl h.masks⟩, ⟨h.vals, h.masks, fun ps hps p hp => by obtain rfl := Option.some.inj hps; exact absurd hp List.not_mem_nil⟩⟩
  | setModel f => exact key ⟨.refl h.vals, .refl h.masks⟩ rfl
  | addConstraint pm g => exact key ⟨.refl h.vals, .refl h.masks⟩ rfl
  | addRegularization pm f => exact key ⟨.refl h.vals, .refl h.masks⟩ rfl
  | fit kw a => exact ⟨(fit_keeps h kw a).1, (fit_keeps h kw a).2.1⟩

theorem assign_bufOk {α : Type} {m : Mem α} (hm : BufOk m) (r k : Nat) (v : α) : BufOk (m.assign r k v).2 := by
  intro r' a ha
  rw [assign_arrs] at ha
  have := hm r' a ha
  unfold Mem.assign
  cases m.arrs[r]? with
  | none => exact this
  | some b =>
    dsimp only
    split_ifs
    · cases b.pos[k]? with
      | none => exact this
      | some q => simpa using this
    · exact this

theorem step_sound {w : World} (h : Sound w) (op : Op) : Sound (w.step op).2 ∧ ∀ r, Locked w.vals r → Locked (w.step op).2.vals r := by
  by_cases hv : ∃ r k x, op = .assignValues r k x
  · obtain ⟨r, k, x, rfl⟩ := hv
    have hl : ∀ r', Locked w.vals r' → Locked (w.vals.assign r k x).2 r' := fun r' hr => by unfold Locked; rw [assign_arrs]; exact hr
    exact ⟨⟨assign_bufOk h.vals r k x, h.masks, fun ps hps p hp => hl _ (h.params ps hps p hp)⟩, hl⟩
  · by_cases hm : ∃ r k x, op = .assignMask r k x
    · obtain ⟨r, k, x, rfl⟩ := hm
      exact ⟨⟨h.vals, assign_bufOk h.masks r k x, h.params⟩, fun _ hr => hr⟩
    · obtain ⟨h1, h2⟩ := step_keeps h op (fun r k x e => hv ⟨r, k, x, e⟩) fun r k x e => hm ⟨r, k, x, e⟩
      exact ⟨h2, h1.vals.locked⟩

theorem run_sound : ∀ (ops : List Op) {w : World}, Sound w → Sound (w.run ops) ∧ ∀ r, Locked w.vals r → Locked (w.run ops).vals r := by
  intro ops
  induction ops with
  | nil => exact fun h => ⟨h, fun _ h => h⟩
  | cons op ops ih =>
    intro w h
    obtain ⟨h1, h2⟩ := step_sound h op
    obtain ⟨k1, k2⟩ := ih h1
    exact ⟨k1, fun r hr => k2 r (h2 r hr)⟩

theorem new_sound (k : Kind) : Sound (World.new k) := ⟨fun r a h => absurd h (by simp [World.new]), fun r a h => absurd h (by simp [World.new]), fun ps h => absurd h (by simp [World.new])⟩

/-- **C84, no writes.** In any program, no method of the object writes into an array that exists: only the user's own assignments do. -/
theorem C84_methods_do_not_write (k : Kind) (ops : List Op) (op : Op) (hv : ∀ r k x, op ≠ .assignValues r k x) (hm : ∀ r k x, op ≠ .assignMask r k x) :
    let w := (World.new k).run ops
    (∀ r, r < w.vals.arrs.length → (w.step op).2.vals.read r = w.vals.read r ∧ (w.step op).2.vals.shape r = w.vals.shape r) ∧
      ∀ r, r < w.masks.arrs.length → (w.step op).2.masks.read r = w.masks.read r ∧ (w.step op).2.masks.shape r = w.masks.shape r := by
  have h := (step_keeps (run_sound ops (new_sound k)).1 op hv hm).1
  exact ⟨fun r hr => ⟨h.vals.read r hr, h.vals.shape r hr⟩, fun r hr => ⟨h.masks.read r hr, h.masks.shape r hr⟩⟩

theorem locked_assign {m : Mem ℝ} {r : Nat} (h : Locked m r) (i : Nat) (x : ℝ) : (m.assign r i x) = (.error .valueError, m) := by
  obtain ⟨a, h, ha⟩ := h
  unfold Mem.assign
  rw [h]
  dsimp only
  rw [if_neg (by rw [ha]; exact Bool.false_ne_true)]

/-- **C84, read-only.** In any program: once an array of values has been accepted by `add_param`, every later assignment through it raises ValueError, and changes nothing. -/
theorem C84_values_frozen (k : Kind) (ops : List Op) (v : Nat) (fixed : Option Nat) (hok : (((World.new k).run ops).step (.addParam v fixed)).1 = .ok ()) (later : List Op) (i : Nat) (x : ℝ) :
    let w := (((World.new k).run ops).step (.addParam v fixed)).2.run later
    w.step (.assignValues v i x) = (.error .valueError, w) := by
  intro w
  obtain ⟨-, h2, h3⟩ := addParam_keeps (run_sound ops (new_sound k)).1 v fixed
  have hl := (run_sound later h2).2 v (h3 hok)
  show (((w.vals.assign v i x).1, { w with vals := (w.vals.assign v i x).2 }) : Except Err Unit × World) = _
  rw [locked_assign (m := w.vals) hl]

/-- The same for the data given to `fit`. -/
theorem C84_data_frozen (k : Kind) (ops : List Op) (kw : List (Name × Nat)) (a : FitArgs) (hok : (((World.new k).run ops).step (.fit kw a)).1 = .ok ()) (n : Name) (v : Nat) (hv : (n, v) ∈ kw)
    (later : List Op) (i : Nat) (x : ℝ) :
    let w := (((World.new k).run ops).step (.fit kw a)).2.run later
    w.step (.assignValues v i x) = (.error .valueError, w) := by
  intro w
  obtain ⟨-, h2, h3⟩ := fit_keeps (run_sound ops (new_sound k)).1 kw a
  have hl := (run_sound later h2).2 v (h3 hok _ hv)
  show (((w.vals.assign v i x).1, { w with vals := (w.vals.assign v i x).2 }) : Except Err Unit × World) = _
  rw [locked_assign (m := w.vals) hl]

theorem wholes_arr : ∀ (ps : List ParamRef) (m : Mem ℝ), (∀ p ∈ ps, p.values < m.arrs.length) → ∀ (i : Nat) p, ps[i]? = some p →
    (ps.foldl (fun m p => m.whole p.values) m).arrs[m.arrs.length + i]? = m.arrs[p.values]? ∧ (ps.foldl (fun m p => m.whole p.values) m).bufs = m.bufs := by
  intro ps
  induction ps with
  | nil => intro m _ i p hi; exact absurd hi (by simp)
  | cons q ps ih =>
    intro m hm i p hi
    have hq := hm q List.mem_cons_self
    have e : m.whole q.values = ⟨m.bufs, m.arrs ++ [m.arrs[q.values]]⟩ := by unfold Mem.whole; rw [List.getElem?_eq_getElem hq]
    have hm' : ∀ p ∈ ps, p.values < (m.whole q.values).arrs.length := fun p hp => by
      rw [e]; have := hm p (List.mem_cons_of_mem _ hp); simp; omega
    have key : ∀ (ps : List ParamRef) (m : Mem ℝ), (∀ p ∈ ps, p.values < m.arrs.length) → (ps.foldl (fun m p => m.whole p.values) m).bufs = m.bufs ∧
        ∀ r, r < m.arrs.length → (ps.foldl (fun m p => m.whole p.values) m).arrs[r]? = m.arrs[r]? := by
      intro ps
      induction ps with
      | nil => exact fun m _ => ⟨rfl, fun _ _ => rfl⟩
      | cons q ps ih =>
        intro m hm
        have hq := hm q List.mem_cons_self
        have e : m.whole q.values = ⟨m.bufs, m.arrs ++ [m.arrs[q.values]]⟩ := by unfold Mem.whole; rw [List.getElem?_eq_getElem hq]
        obtain ⟨h1, h2⟩ := ih (m.whole q.values) fun p hp => by
          rw [e]; have := hm p (List.mem_cons_of_mem _ hp); simp; omega
        rw [List.foldl_cons]
        refine ⟨h1.trans (by rw [e]), fun r hr => (h2 r (by rw [e]; simp; omega)).trans ?_⟩
        rw [e]
        exact List.getElem?_append_left hr
    rw [List.foldl_cons]
    obtain ⟨b1, b2⟩ := key ps _ hm'
    cases i with
    | zero =>
      obtain rfl := Option.some.inj hi
      refine ⟨?_, b1.trans (by rw [e])⟩
      rw [b2 _ (by rw [e]; simp), e]
      simp [List.getElem?_eq_getElem hq]
    | succ i =>
      obtain ⟨h1, -⟩ := ih _ hm' i p hi
      refine ⟨?_, b1.trans (by rw [e])⟩
      have hp := hm p (List.mem_cons_of_mem _ (List.mem_of_getElem? hi))
      rw [show m.arrs.length + (i + 1) = (m.whole q.values).arrs.length + i by rw [e]; simp; omega, h1, e]
      exact List.getElem?_append_left hp

/-- **C84, results.** In any program: the arrays of values that `get_params` returns have the contents of the parameters, and they are read-only (for ever). -/
theorem C84_get_params_read_only (k : Kind) (ops : List Op) (ps : List ParamRef) (hps : ((World.new k).run ops).params = some ps) (j : Nat) (p : ParamRef) (hj : ps[j]? = some p) :
    let w := (World.new k).run ops
    let w' := (w.step .getParams).2
    w'.vals.read (w.vals.arrs.length + j) = (w.param p).values ∧
      ∀ (later : List Op) (i : Nat) (x : ℝ), (w'.run later).step (.assignValues (w.vals.arrs.length + j) i x) = (.error .valueError, w'.run later) := by
  intro w w'
  have hS : Sound w := (run_sound ops (new_sound k)).1
  have hlt : ∀ p ∈ ps, p.values < w.vals.arrs.length := fun p hp => (hS.params ps hps p hp).lt
  have ew : w'.vals = ps.foldl (fun m p => m.whole p.values) w.vals := by
    show w.getParams.2.vals = _
    unfold World.getParams
    rw [show w.params = some ps from hps]
  obtain ⟨h1, h2⟩ := wholes_arr ps w.vals hlt j p hj
  obtain ⟨a, ha, hw⟩ := hS.params ps hps p (List.mem_of_getElem? hj)
  have hl : Locked w'.vals (w.vals.arrs.length + j) := by rw [ew]; exact ⟨a, h1.trans ha, hw⟩
  refine ⟨?_, fun later i x => ?_⟩
  · rw [ew]
    show _ = w.vals.read p.values
    rw [read_some (h1.trans ha), read_some ha, h2]
  · have hl' := (run_sound later (step_sound hS .getParams).1).2 _ hl
    show ((((w'.run later).vals.assign _ i x).1, { w'.run later with vals := ((w'.run later).vals.assign _ i x).2 }) : Except Err Unit × World) = _
    rw [locked_assign (m := (w'.run later).vals) hl']

end Verif.Memory
