import Verif.Lemmas.Memory
import Verif.Props.Session

/-!
# C84: the state of the object does not depend on the user's arrays
-/

set_option linter.unusedSectionVars false

namespace Verif.Memory
open Verif.Params
open Verif.Tens (Session SessionOp FitArgs Name Kind NDArray mkTensor)

/-- `r` is the same array in both memories. -/
structure Same {α : Type} (m m' : Mem α) (r : Nat) : Prop where
  exist : r < m.arrs.length → r < m'.arrs.length
  read : m'.read r = m.read r
  shape : m'.shape r = m.shape r

/-- What holds between the calls. -/
structure Inv (w : World) : Prop where
  vals : w.vals.Ok
  masks : w.masks.Ok
  params : ∀ ps, w.params = some ps → ∀ p ∈ ps, Guarded w.vals p.values ∧ w.vals.shape p.values = p.shape ∧ p.mask < w.masks.arrs.length ∧ w.masks.shape p.mask = p.shape
  data : ∀ n r, w.data n = some r → Guarded w.vals r

section
variable {α : Type} {m : Mem α}

theorem new_same (hm : m.Ok) (s : List Nat) (d : List α) : (m.new s d).2.Ok ∧ (∀ r, r < m.arrs.length → Same m (m.new s d).2 r) ∧ ∀ r, Guarded m r → Guarded (m.new s d).2 r := by
  unfold Mem.new
  split_ifs with h
  · exact ⟨alloc_ok hm h, fun r hr => ⟨fun _ => by simp [Mem.alloc]; omega, alloc_read hm s d hr, alloc_shape s d hr⟩, fun r hr => alloc_guarded hm s d hr⟩
  · exact ⟨hm, fun r _ => ⟨id, rfl, rfl⟩, fun r hr => hr⟩

theorem mapM_mem {l : List Nat} {pos : List Nat} : ∀ {idx : List Nat}, (idx.mapM fun k => l[k]?) = some pos → ∀ q ∈ pos, q ∈ l := by
  intro idx
  induction idx generalizing pos with
  | nil =>
    intro h q hq
    simp at h
    subst h
    exact absurd hq List.not_mem_nil
  | cons k idx ih =>
    intro h q hq
    rw [List.mapM_cons] at h
    cases h1 : l[k]? with
    | none => rw [h1] at h; simp at h
    | some x =>
      rw [h1] at h
      cases h2 : idx.mapM fun k => l[k]? with
      | none => rw [h2] at h; simp at h
      | some ys =>
        rw [h2] at h
        simp at h
        subst h
        rcases List.mem_cons.1 hq with rfl | hq
        · exact List.mem_of_getElem? h1
        · exact ih h2 q hq

theorem slice_same (hm : m.Ok) (r0 : Nat) (idx s : List Nat) :
    (m.slice r0 idx s).2.Ok ∧ (∀ r, r < m.arrs.length → Same m (m.slice r0 idx s).2 r) ∧ ∀ r, Guarded m r → Guarded (m.slice r0 idx s).2 r := by
  have triv : m.Ok ∧ (∀ r, r < m.arrs.length → Same m m r) ∧ ∀ r, Guarded m r → Guarded m r := ⟨hm, fun r _ => ⟨id, rfl, rfl⟩, fun r hr => hr⟩
  unfold Mem.slice
  cases h0 : m.arrs[r0]? with
  | none => exact triv
  | some a =>
    dsimp only
    cases hi : idx.mapM fun k => a.pos[k]? with
    | none => exact triv
    | some pos =>
      dsimp only
      split_ifs with hp
      · exact ⟨view_ok hm h0 rfl (mapM_mem hi) hp, fun r hr => ⟨fun _ => by simp; omega, view_read _ hr, view_shape _ hr⟩, fun r hr => view_guarded h0 rfl rfl hr⟩
      · exact triv

theorem whole_same (hm : m.Ok) (r0 : Nat) : (m.whole r0).Ok ∧ (∀ r, r < m.arrs.length → Same m (m.whole r0) r) ∧ ∀ r, Guarded m r → Guarded (m.whole r0) r := by
  unfold Mem.whole
  cases h0 : m.arrs[r0]? with
  | none => exact ⟨hm, fun r _ => ⟨id, rfl, rfl⟩, fun r hr => hr⟩
  | some a =>
    obtain ⟨b, h1, h2, h3⟩ := hm r0 a h0
    exact ⟨view_ok hm h0 rfl (fun q hq => hq) h3, fun r hr => ⟨fun _ => by simp; omega, view_read _ hr, view_shape _ hr⟩, fun r hr => view_guarded h0 rfl rfl hr⟩

theorem wholes_same {β : Type} (f : β → Nat) (ps : List β) : ∀ {m : Mem α}, m.Ok → (ps.foldl (fun m p => m.whole (f p)) m).Ok ∧
    (∀ r, r < m.arrs.length → Same m (ps.foldl (fun m p => m.whole (f p)) m) r) ∧ ∀ r, Guarded m r → Guarded (ps.foldl (fun m p => m.whole (f p)) m) r := by
  induction ps with
  | nil => exact fun hm => ⟨hm, fun r _ => ⟨id, rfl, rfl⟩, fun r hr => hr⟩
  | cons p ps ih =>
    intro m hm
    obtain ⟨h1, h2, h3⟩ := whole_same hm (f p)
    obtain ⟨k1, k2, k3⟩ := ih h1
    refine ⟨k1, fun r hr => ?_, fun r hr => k3 r (h3 r hr)⟩
    have a := h2 r hr
    have b := k2 r (a.exist hr)
    exact ⟨fun _ => b.exist (a.exist hr), b.read.trans a.read, b.shape.trans a.shape⟩

end

/-- Changes of the memory that the object does not see. -/
theorem unseen {w : World} (hI : Inv w) {v : Mem ℝ} {k : Mem Bool} (hv : v.Ok) (hk : k.Ok) (hvs : ∀ r, Guarded w.vals r → Same w.vals v r ∧ Guarded v r)
    (hks : ∀ ps, w.params = some ps → ∀ p ∈ ps, Same w.masks k p.mask) : Inv { w with vals := v, masks := k } ∧ ({ w with vals := v, masks := k } : World).session = w.session := by
  refine ⟨⟨hv, hk, fun ps hps p hp => ?_, fun n r hr => (hvs r (hI.data n r hr)).2⟩, ?_⟩
  · obtain ⟨h1, h2, h3, h4⟩ := hI.params ps hps p hp
    have hs := hks ps hps p hp
    exact ⟨(hvs _ h1).2, (hvs _ h1).1.shape.trans h2, hs.exist h3, hs.shape.trans h4⟩
  · have e1 : ({ w with vals := v, masks := k } : World).readParams = w.readParams := by
      unfold World.readParams
      dsimp only
      cases hps : w.params with
      | none => rfl
      | some ps =>
        refine congrArg some (List.map_congr_left fun p hp => ?_)
        unfold World.param
        dsimp only
        rw [(hvs _ (hI.params ps hps p hp).1).1.read, (hks ps hps p hp).read]
    have e2 : ({ w with vals := v, masks := k } : World).readData = w.readData := by
      funext n
      unfold World.readData
      dsimp only
      cases hn : w.data n with
      | none => rfl
      | some r =>
        have hs := (hvs r (hI.data n r hn)).1
        simp only [Option.map_some, Mem.array, hs.read, hs.shape]
    unfold World.session
    rw [e1, e2]

theorem Inv.wf {w : World} (hI : Inv w) {ps : List ParamRef} (h : w.params = some ps) : ∀ q ∈ ps.map w.param, q.WF := by
  intro q hq
  obtain ⟨p, hp, rfl⟩ := List.mem_map.1 hq
  obtain ⟨h1, h2, h3, h4⟩ := hI.params ps h p hp
  exact ⟨by show (w.vals.read p.values).length = p.shape.prod; rw [read_length hI.vals h1.lt, h2],
    by show (w.masks.read p.mask).length = p.shape.prod; rw [read_length hI.masks h3, h4]⟩

theorem add_ref {w : World} (hI : Inv w) {p : ParamRef} (h : Guarded w.vals p.values ∧ w.vals.shape p.values = p.shape ∧ p.mask < w.masks.arrs.length ∧ w.masks.shape p.mask = p.shape) :
    Inv { w with params := some (w.params.getD [] ++ [p]) } ∧
      ({ w with params := some (w.params.getD [] ++ [p]) } : World).session = { w.session with params := some (w.session.params.getD [] ++ [w.param p]) } := by
  refine ⟨⟨hI.vals, hI.masks, fun ps hps q hq => ?_, hI.data⟩, ?_⟩
  · obtain rfl := Option.some.inj hps
    rcases List.mem_append.1 hq with hq | hq
    · cases hp : w.params with
      | none => rw [hp] at hq; exact absurd hq List.not_mem_nil
      | some ps => rw [hp] at hq; exact hI.params ps hp q hq
    · rw [List.mem_singleton.1 hq]
      exact h
  · unfold World.session World.readParams
    dsimp only
    cases w.params <;> simp [World.param, World.readData]
    all_goals rfl

theorem step_addFree (depth : Nat) (s : Session) (sh : List Nat) (v : List ℝ) :
    Session.step (depth + 2) s (.addFree (.array sh v)) = { s with params := some (s.params.getD [] ++ [⟨sh, v, List.replicate v.length false⟩]) } := by
  cases h : s.params <;> simp [Session.step, h, Params.addParam, mkParam, Arg.data]

theorem step_addMasked (depth : Nat) (s : Session) (sh ms : List Nat) (v : List ℝ) (k : List Bool) :
    Session.step (depth + 2) s (.addMasked sh v ms k) = { s with params := some (if ms = sh then s.params.getD [] ++ [⟨sh, v, k⟩] else s.params.getD []) } := by
  by_cases hs : ms = sh <;> cases h : s.params <;>
    simp [Session.step, h, Params.addParam, mkParam, Arg.data, Arg.shapeAttr, hs, bind, Except.bind, pure, Except.pure, throw, throwThe, MonadExceptOf.throw]

theorem freeze_seen {w : World} (hI : Inv w) (v : Nat) : ∀ r, Guarded w.vals r → Same w.vals (w.vals.freeze v) r ∧ Guarded (w.vals.freeze v) r :=
  fun r hr => ⟨⟨fun h => by rw [freeze_length]; exact h, freeze_read v r, freeze_shape v r⟩, freeze_guarded v hr⟩

theorem step_add {w : World} (hI : Inv w) (depth v : Nat) (fixed : Option Nat) (hc : Sole w.vals v) :
    Inv (w.addParam v fixed).2 ∧ (w.addParam v fixed).2.session = ((w.call (.addParam v fixed)).elim w.session fun c => Session.step (depth + 2) w.session c) := by
  unfold World.addParam
  cases h0 : w.vals.arrs[v]? with
  | none =>
    have hv : ¬v < w.vals.arrs.length := by simpa using h0
    refine ⟨hI, ?_⟩
    cases fixed with
    | none => simp [World.call, hv]
    | some r => simp [World.call, hv]
  | some a =>
    have hv : v < w.vals.arrs.length := (List.getElem?_eq_some_iff.1 h0).1
    have hl := read_length hI.vals hv
    dsimp only
    cases fixed with
    | none =>
      have hk : (w.masks.alloc (w.vals.shape v) (List.replicate (w.vals.read v).length false)).Ok := alloc_ok hI.masks (by simpa using hl)
      obtain ⟨h1, h2⟩ := unseen hI (freeze_ok hI.vals v) hk (freeze_seen hI v) (fun ps hps p hp => by
        have := (hI.params ps hps p hp).2.2.1
        exact ⟨fun _ => by simp [Mem.alloc]; omega, alloc_read hI.masks _ _ this, alloc_shape _ _ this⟩)
      obtain ⟨h3, h4⟩ := add_ref h1 (p := ⟨v, w.masks.arrs.length, w.vals.shape v⟩)
        ⟨freeze_sole hv hc, freeze_shape _ _, by simp [Mem.alloc], alloc_shape_new _ _⟩
      refine ⟨h3, ?_⟩
      rw [show w.call (.addParam v none) = some (.addFree (.array (w.vals.shape v) (w.vals.read v))) by simp [World.call, hv], Option.elim_some, step_addFree]
      refine h4.trans ?_
      rw [h2]
      congr 4
      unfold World.param
      dsimp only
      rw [freeze_read, alloc_read_new]
    | some r =>
      dsimp only
      cases g0 : w.masks.arrs[r]? with
      | none =>
        have hr : ¬r < w.masks.arrs.length := by simpa using g0
        exact ⟨hI, by simp [World.call, hr]⟩
      | some b =>
        have hr : r < w.masks.arrs.length := (List.getElem?_eq_some_iff.1 g0).1
        rw [show w.call (.addParam v (some r)) = some (.addMasked (w.vals.shape v) (w.vals.read v) (w.masks.shape r) (w.masks.read r)) by simp [World.call, hv, hr],
          Option.elim_some, step_addMasked]
        dsimp only
        split_ifs with hs
        · obtain ⟨h1, h2⟩ := unseen hI (freeze_ok hI.vals v) hI.masks (freeze_seen hI v) (fun ps hps p hp => ⟨id, rfl, rfl⟩)
          obtain ⟨h3, h4⟩ := add_ref h1 (p := ⟨v, r, w.vals.shape v⟩) ⟨freeze_sole hv hc, freeze_shape _ _, hr, hs⟩
          refine ⟨h3, h4.trans ?_⟩
          rw [h2]
          congr 4
          unfold World.param
          dsimp only
          rw [freeze_read]
        · refine ⟨⟨hI.vals, hI.masks, fun ps hps p hp => ?_, hI.data⟩, ?_⟩
          · obtain rfl := Option.some.inj hps
            cases hp' : w.params with
            | none => rw [hp'] at hp; exact absurd hp List.not_mem_nil
            | some ps => rw [hp'] at hp; exact hI.params ps hp' p hp
          · unfold World.session World.readParams
            dsimp only
            cases w.params <;> simp [World.param, World.readData]
            all_goals rfl

theorem freeze_array (m : Mem ℝ) (k r : Nat) : (m.freeze k).array r = m.array r := by
  unfold Mem.array
  rw [freeze_read, freeze_shape]

theorem freeze_keeps_sole {m : Mem ℝ} {r : Nat} (k : Nat) (h : Sole m r) : Sole (m.freeze k) r := by
  rintro r' a' ⟨a, b, h1, h2, e⟩ hne h'
  obtain ⟨a0, g0, g1, -⟩ := freeze_some h1
  obtain ⟨b0, k0, k1, -, -, k4⟩ := freeze_some h'
  rw [h'] at h2
  obtain rfl := Option.some.inj h2
  by_contra hw
  have hw := (k4 (by simpa using hw)).1
  rw [h r' b0 ⟨a0, b0, g0, k0, by rw [← k1, ← g1, e]⟩ hne k0] at hw
  exact absurd hw (by simp)

theorem step_data : ∀ (kw : List (Name × Nat)) {w : World}, Inv w → (∀ x ∈ kw, x.2 < w.vals.arrs.length) → (∀ x ∈ kw, Sole w.vals x.2) →
    Inv (w.setData kw).2 ∧ (w.setData kw).2.base = w.base ∧
      w.session.setData (kw.map fun x => (x.1, w.vals.array x.2)) = ((w.setData kw).1, (w.setData kw).2.session)
  | [], w, hI, _, _ => ⟨hI, rfl, rfl⟩
  | (k, r) :: kw, w, hI, hex, hso => by
    have hr := hex (k, r) List.mem_cons_self
    have hs := hso (k, r) List.mem_cons_self
    obtain ⟨h1, h2⟩ := unseen hI (freeze_ok hI.vals r) hI.masks (freeze_seen hI r) (fun ps hps p hp => ⟨id, rfl, rfl⟩)
    unfold World.setData
    rw [List.map_cons]
    unfold Session.setData
    rw [show w.session.kind = w.base.kind from rfl]
    cases ht : mkTensor (w.vals.array r) 0 0 w.base.kind.dim [] [] with
    | error e => exact ⟨h1, rfl, by rw [← h2]⟩
    | ok t =>
      dsimp only
      have hI' : Inv { w with vals := w.vals.freeze r, data := Function.update w.data k (some r) } := by
        refine ⟨h1.vals, h1.masks, h1.params, fun n q hn => ?_⟩
        dsimp only at hn
        by_cases hnk : n = k
        · subst hnk
          rw [show Function.update w.data n (some r) n = some r from Function.update_self ..] at hn
          obtain rfl := Option.some.inj hn
          exact freeze_sole hr hs
        · rw [show Function.update w.data k (some r) n = w.data n from Function.update_of_ne hnk ..] at hn
          exact h1.data n q hn
      have ht' : t = ⟨w.vals.array r, 0, 0, w.base.kind.dim, [], []⟩ := by
        unfold mkTensor at ht
        split_ifs at ht
        exact (Except.ok.inj ht).symm
      have hses : ({ w with vals := w.vals.freeze r, data := Function.update w.data k (some r) } : World).session =
          { w.session with data := Function.update w.session.data k (some t) } := by
        have e1 : ({ w with vals := w.vals.freeze r, data := Function.update w.data k (some r) } : World).readParams = w.session.params := by
          rw [← h2]; rfl
        have e2 : ({ w with vals := w.vals.freeze r, data := Function.update w.data k (some r) } : World).readData = Function.update w.session.data k (some t) := by
          funext n
          unfold World.readData
          dsimp only
          by_cases hnk : n = k
          · subst hnk
            rw [Function.update_self, Function.update_self, Option.map_some, freeze_array, ht']
          · rw [Function.update_of_ne hnk, Function.update_of_ne hnk]
            show _ = w.readData n
            unfold World.readData
            cases w.data n with
            | none => rfl
            | some q => simp only [Option.map_some, freeze_array]
        unfold World.session at e1 e2 ⊢
        rw [e1, e2]
      obtain ⟨k1, k2, k3⟩ := step_data kw hI' (fun x hx => by
        show x.2 < (w.vals.freeze r).arrs.length
        rw [freeze_length]; exact hex x (List.mem_cons_of_mem _ hx)) fun x hx => freeze_keeps_sole r (hso x (List.mem_cons_of_mem _ hx))
      refine ⟨k1, k2, ?_⟩
      rw [← k3, hses]
      congr 1
      exact List.map_congr_left fun x _ => by rw [freeze_array]

theorem store_ok : ∀ (refs : List ParamRef) (ps : List (Param ℝ)) {m : Mem ℝ}, m.Ok → List.Forall₂ (fun p (q : Param ℝ) => q.values.length = p.shape.prod) refs ps →
    (storeParams m refs ps).1.Ok ∧ (∀ r, r < m.arrs.length → Same m (storeParams m refs ps).1 r) ∧ (∀ r, Guarded m r → Guarded (storeParams m refs ps).1 r) ∧
      List.Forall₂ (fun (p' : ParamRef) (x : ParamRef × Param ℝ) => Guarded (storeParams m refs ps).1 p'.values ∧ (storeParams m refs ps).1.shape p'.values = p'.shape ∧
        (storeParams m refs ps).1.read p'.values = x.2.values ∧ p'.mask = x.1.mask ∧ p'.shape = x.1.shape) (storeParams m refs ps).2 (refs.zip ps)
  | [], [], m, hm, _ => ⟨hm, fun r _ => ⟨id, rfl, rfl⟩, fun r h => h, .nil⟩
  | p :: refs, q :: ps, m, hm, h => by
    obtain ⟨hq, h⟩ := List.forall₂_cons.1 h
    have hm0 := alloc_ok hm hq
    have hm1 := freeze_ok hm0 m.arrs.length
    obtain ⟨k1, k2, k3, k4⟩ := store_ok refs ps hm1 h
    have hl : ((m.alloc p.shape q.values).freeze m.arrs.length).arrs.length = m.arrs.length + 1 := by rw [freeze_length]; simp [Mem.alloc]
    have hg : Guarded ((m.alloc p.shape q.values).freeze m.arrs.length) m.arrs.length := by
      refine freeze_sole (by simp [Mem.alloc]) ?_
      rintro r' a' ⟨a, b, h1, h2, e⟩ hne h'
      rw [alloc_arr_new] at h1
      obtain rfl := Option.some.inj h1
      rw [h'] at h2
      obtain rfl := Option.some.inj h2
      rcases alloc_cases h' with ⟨hr, h''⟩ | ⟨rfl, -⟩
      · exact absurd e (hm.buf h'').ne
      · exact absurd rfl hne
    have hsame := k2 m.arrs.length (by omega)
    unfold storeParams
    refine ⟨k1, fun r hr => ?_, fun r hr => k3 r (freeze_guarded _ (alloc_guarded hm _ _ hr)), .cons ⟨k3 _ hg, ?_, ?_, rfl, rfl⟩ k4⟩
    · have := k2 r (by omega)
      exact ⟨fun _ => this.exist (by omega), by rw [this.read, freeze_read, alloc_read hm _ _ hr], by rw [this.shape, freeze_shape, alloc_shape _ _ hr]⟩
    · dsimp only
      rw [hsame.shape, freeze_shape, alloc_shape_new]
    · dsimp only
      rw [hsame.read, freeze_read, alloc_read_new]

theorem step_fit {w : World} (hI : Inv w) (kw : List (Name × Nat)) (a : FitArgs) (hc : ∀ x ∈ kw, Sole w.vals x.2) (hex : ∀ x ∈ kw, x.2 < w.vals.arrs.length) :
    Inv (w.fit kw a).2 ∧ (w.fit kw a).1 = (w.session.fit { a with kwargs := kw.map fun x => (x.1, w.vals.array x.2) }).1.map (fun _ => ()) ∧
      (w.fit kw a).2.session = (w.session.fit { a with kwargs := kw.map fun x => (x.1, w.vals.array x.2) }).2 := by
  obtain ⟨h1, -, h3⟩ := step_data kw hI hex hc
  unfold World.fit
  rw [if_pos (List.all_eq_true.2 fun x hx => by simpa using hex x hx)]
  unfold Session.fit
  dsimp only
  rw [h3]
  revert h1
  generalize w.setData kw = R
  obtain ⟨e, w1⟩ := R
  intro h1
  cases e with
  | error e => exact ⟨h1, rfl, rfl⟩
  | ok u =>
    dsimp only
    rw [show w1.session.setData [] = (.ok (), w1.session) from rfl]
    dsimp only
    cases hp : w1.params with
    | none =>
      have hsp : w1.session.params = none := by show w1.readParams = none; unfold World.readParams; rw [hp]; rfl
      rw [hsp]
      dsimp only
      refine ⟨⟨h1.vals, h1.masks, fun ps hps => ?_, h1.data⟩, rfl, ?_⟩
      · exact absurd hps (by simp)
      · have e1 : ({ w1 with base := w1.session, params := none } : World).readParams = w1.session.params := by rw [hsp]; rfl
        have e2 : ({ w1 with base := w1.session, params := none } : World).readData = w1.session.data := rfl
        unfold World.session at e1 e2 ⊢
        rw [e1, e2]
    | some refs =>
      have hsp : w1.session.params = some (refs.map w1.param) := by show w1.readParams = _; unfold World.readParams; rw [hp]; rfl
      rw [hsp]
      dsimp only
      have hwf := h1.wf hp
      have hL := Fit.C02_fixed_unchanged (w1.session.problem.env a.pinvh a.tol) ⟨refs.map w1.param, w1.session.flatHess, w1.session.converged⟩ a.maxSteps a.verbose a.method hwf
      revert hL
      generalize Fit.fit (w1.session.problem.env a.pinvh a.tol) ⟨refs.map w1.param, w1.session.flatHess, w1.session.converged⟩ a.maxSteps a.verbose a.method = R
      rintro ⟨hlay, -, hwf'⟩
      dsimp only at hlay hwf'
      have hf : List.Forall₂ (fun (p : ParamRef) (q : Param ℝ) => q.shape = p.shape ∧ q.mask = w1.masks.read p.mask ∧ q.values.length = p.shape.prod) refs R.obj.params := by
        unfold SameLayout at hlay
        rw [List.map_map] at hlay
        generalize R.obj.params = qs at hlay hwf'
        clear hwf hp hsp
        induction refs generalizing qs with
        | nil =>
          cases qs with
          | nil => exact .nil
          | cons _ _ => exact absurd hlay (by simp)
        | cons p refs ih =>
          cases qs with
          | nil => exact absurd hlay (by simp)
          | cons q qs =>
            rw [List.map_cons, List.map_cons, List.cons.injEq] at hlay
            obtain ⟨e, hlay⟩ := hlay
            obtain ⟨e1, e2⟩ := Prod.mk.inj e
            refine .cons ⟨e1, e2, ?_⟩ (ih qs hlay fun q hq => hwf' q (List.mem_cons_of_mem _ hq))
            rw [(hwf' q List.mem_cons_self).1, e1]
            rfl
      obtain ⟨k1, k2, k3, k4⟩ := store_ok refs R.obj.params h1.vals (hf.imp fun _ _ h => h.2.2)
      have hmem : ∀ p' ∈ (storeParams w1.vals refs R.obj.params).2, ∃ p ∈ refs, Guarded (storeParams w1.vals refs R.obj.params).1 p'.values ∧
          (storeParams w1.vals refs R.obj.params).1.shape p'.values = p'.shape ∧ p'.mask = p.mask ∧ p'.shape = p.shape := by
        intro p' hp'
        obtain ⟨i, hi, rfl⟩ := List.mem_iff_getElem.1 hp'
        have hi' : i < (refs.zip R.obj.params).length := by rw [← k4.length_eq]; exact hi
        have := k4.get hi hi'
        rw [List.get_eq_getElem, List.get_eq_getElem] at this
        obtain ⟨a1, a2, -, a4, a5⟩ := this
        exact ⟨_, (List.of_mem_zip (List.getElem_mem hi')).1, a1, a2, a4, a5⟩
      refine ⟨⟨k1, h1.masks, fun ps hps p hpp => ?_, fun n r hn => k3 r (h1.data n r hn)⟩, rfl, ?_⟩
      · obtain rfl := Option.some.inj hps
        obtain ⟨p0, hp0, a1, a2, a3, a4⟩ := hmem p hpp
        obtain ⟨-, -, b3, b4⟩ := h1.params refs hp p0 hp0
        exact ⟨a1, a2, by rw [a3]; exact b3, by rw [a3, a4]; exact b4⟩
      · have e1 : ((storeParams w1.vals refs R.obj.params).2.map fun p => (⟨p.shape, (storeParams w1.vals refs R.obj.params).1.read p.values, w1.masks.read p.mask⟩ : Param ℝ)) =
            R.obj.params := by
          refine List.ext_getElem (by rw [List.length_map, k4.length_eq, List.length_zip, hf.length_eq, min_self]) fun i h1 h2 => ?_
          rw [List.length_map] at h1
          have hi' : i < (refs.zip R.obj.params).length := by rw [← k4.length_eq]; exact h1
          have := k4.get h1 hi'
          rw [List.get_eq_getElem, List.get_eq_getElem, List.getElem_zip] at this
          obtain ⟨-, -, a3, a4, a5⟩ := this
          have hf := hf.get (i := i) (by rw [hf.length_eq]; exact h2) h2
          rw [List.get_eq_getElem, List.get_eq_getElem] at hf
          obtain ⟨b1, b2, -⟩ := hf
          rw [List.getElem_map, a3, a4, a5, ← b1, ← b2]
        have e2 : (fun n => (w1.data n).map fun r => (⟨(storeParams w1.vals refs R.obj.params).1.array r, 0, 0, w1.base.kind.dim, [], []⟩ : Verif.Tens.Tensor ℝ)) = w1.session.data := by
          funext n
          show _ = w1.readData n
          unfold World.readData
          cases hn : w1.data n with
          | none => rfl
          | some r =>
            have hs := k2 r (h1.data n r hn).lt
            simp only [Option.map_some, Mem.array, hs.read, hs.shape]
        have e3 := congrArg some e1
        show ({ w1.session with
          params := some ((storeParams w1.vals refs R.obj.params).2.map fun p => (⟨p.shape, (storeParams w1.vals refs R.obj.params).1.read p.values, w1.masks.read p.mask⟩ : Param ℝ))
          data := fun n => (w1.data n).map fun r => (⟨(storeParams w1.vals refs R.obj.params).1.array r, 0, 0, w1.base.kind.dim, [], []⟩ : Verif.Tens.Tensor ℝ)
          flatHess := R.obj.flatHess, converged := R.obj.converged } : Session) = _
        rw [e3, e2]

/-- The object does not see what a careful program does with its arrays; a call does what it does to the values. -/
theorem step_spec (depth : Nat) {w : World} (hI : Inv w) (op : Op) (hc : Careful w op) :
    Inv (w.step op).2 ∧ (w.step op).2.session = (w.call op).elim w.session fun c => Session.step (depth + 2) w.session c := by
  cases op with
  | newValues s d =>
    obtain ⟨h1, h2, h3⟩ := new_same hI.vals s d
    exact unseen hI h1 hI.masks (fun r hr => ⟨h2 r hr.lt, h3 r hr⟩) fun ps hps p hp => ⟨id, rfl, rfl⟩
  | newMask s d =>
    obtain ⟨h1, h2, h3⟩ := new_same hI.masks s d
    exact unseen hI hI.vals h1 (fun r hr => ⟨⟨id, rfl, rfl⟩, hr⟩) fun ps hps p hp => h2 _ (hI.params ps hps p hp).2.2.1
  | sliceValues r i s =>
    obtain ⟨h1, h2, h3⟩ := slice_same hI.vals r i s
    exact unseen hI h1 hI.masks (fun r hr => ⟨h2 r hr.lt, h3 r hr⟩) fun ps hps p hp => ⟨id, rfl, rfl⟩
  | sliceMask r i s =>
    obtain ⟨h1, h2, h3⟩ := slice_same hI.masks r i s
    exact unseen hI hI.vals h1 (fun r hr => ⟨⟨id, rfl, rfl⟩, hr⟩) fun ps hps p hp => h2 _ (hI.params ps hps p hp).2.2.1
  | assignValues r k v =>
    refine unseen hI (assign_ok hI.vals r k v) hI.masks (fun r' hr => ⟨⟨fun h => by rw [assign_arrs]; exact h, assign_guarded v hr, assign_shape r k v r'⟩, ?_⟩)
      fun ps hps p hp => ⟨id, rfl, rfl⟩
    unfold Guarded
    rw [assign_arrs]
    exact hr
  | assignMask r k v =>
    exact unseen hI hI.vals (assign_ok hI.masks r k v) (fun r hr => ⟨⟨id, rfl, rfl⟩, hr⟩)
      fun ps hps p hp => ⟨fun h => by rw [assign_arrs]; exact h, assign_read v (hc ps hps p hp), assign_shape r k v _⟩
  | addParam v fixed => exact step_add hI depth v fixed hc
  | getParams =>
    show Inv w.getParams.2 ∧ w.getParams.2.session = w.session
    unfold World.getParams
    cases hp : w.params with
    | none => exact ⟨hI, rfl⟩
    | some ps =>
      obtain ⟨h1, h2, h3⟩ := wholes_same ParamRef.values ps hI.vals
      obtain ⟨k1, k2, k3⟩ := wholes_same ParamRef.mask ps hI.masks
      have := unseen hI h1 k1 (fun r hr => ⟨h2 r hr.lt, h3 r hr⟩) fun ps hps p hp => k2 _ (hI.params ps hps p hp).2.2.1
      rw [hp] at this
      exact this
  | resetParams =>
    refine ⟨⟨hI.vals, hI.masks, fun ps hps p hp => ?_, hI.data⟩, rfl⟩
    obtain rfl := Option.some.inj hps
    exact absurd hp List.not_mem_nil
  | setModel f => exact ⟨⟨hI.vals, hI.masks, hI.params, hI.data⟩, rfl⟩
  | addConstraint pm g => exact ⟨⟨hI.vals, hI.masks, hI.params, hI.data⟩, rfl⟩
  | addRegularization pm h => exact ⟨⟨hI.vals, hI.masks, hI.params, hI.data⟩, rfl⟩
  | fit kw a =>
    by_cases hex : ∀ x ∈ kw, x.2 < w.vals.arrs.length
    · obtain ⟨h1, -, h3⟩ := step_fit hI kw a hc hex
      refine ⟨h1, ?_⟩
      rw [show w.call (.fit kw a) = some (.fit { a with kwargs := kw.map fun x => (x.1, w.vals.array x.2) }) from if_pos hex]
      exact h3
    · have h0 : (w.fit kw a) = (.error .nameError, w) := by
        unfold World.fit
        rw [if_neg]
        intro h
        exact hex fun x hx => by simpa using List.all_eq_true.1 h x hx
      show Inv (w.fit kw a).2 ∧ (w.fit kw a).2.session = _
      rw [h0, show w.call (.fit kw a) = none from if_neg hex]
      exact ⟨hI, rfl⟩

end Verif.Memory
