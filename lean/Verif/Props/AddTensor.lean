import Verif.Model.AddTensor
import Verif.Props.FuncSumTensor
import Verif.Props.TestModels
import Verif.Props.TensorExpand

/-!
# C64: `Sum.add` takes sums apart, on Tensors
-/

namespace Verif.Tens
open Verif.Params (Err)
open Verif.Func (mapThrough)

/-- The elements of `m` at the indices `l`. -/
def pickAll (l m : List Nat) : List Nat := l.map fun k => m.getD k 0

theorem pickAll_getD {l m : List Nat} {k : Nat} (hk : k < l.length) : (pickAll l m).getD k 0 = m.getD (l.getD k 0) 0 := by
  unfold pickAll
  rw [List.getD_eq_getElem _ _ (by simpa using hk), List.getD_eq_getElem _ _ hk, List.getElem_map]

theorem mapThrough_ok {m : List Nat} : ∀ {l : List Nat}, (∀ k ∈ l, k < m.length) → mapThrough l m = .ok (pickAll l m)
  | [], _ => rfl
  | k :: l, h => by
    unfold mapThrough
    have hk := h k List.mem_cons_self
    rw [List.getElem?_eq_getElem hk, mapThrough_ok fun j hj => h j (List.mem_cons_of_mem _ hj)]
    show Except.ok _ = _
    unfold pickAll
    rw [List.map_cons, List.getD_eq_getElem _ _ hk]

theorem through_pickAll {l m : List Nat} (h : ∀ k ∈ l, k < m.length) (n : Nat → Nat) : through l (through m n) = through (pickAll l m) n := by
  funext k
  unfold through
  have hl : (pickAll l m).length = l.length := by simp [pickAll]
  rw [hl]
  by_cases hk : k < l.length
  · rw [if_pos hk, if_pos hk, if_pos (h _ (by rw [List.getD_eq_getElem _ _ hk]; exact List.getElem_mem hk)), pickAll_getD hk]
  · rw [if_neg hk, if_neg hk]

theorem sub_pickAll {l m : List Nat} (h : ∀ k ∈ l, k < m.length) (θ : Theta) : (θ.sub m).sub l = θ.sub (pickAll l m) := by
  funext k
  unfold Theta.sub
  have hl : (pickAll l m).length = l.length := by simp [pickAll]
  rw [hl]
  by_cases hk : k < l.length
  · rw [if_pos hk, if_pos hk, if_pos (h _ (by rw [List.getD_eq_getElem _ _ hk]; exact List.getElem_mem hk)), pickAll_getD hk]
  · rw [if_neg hk, if_neg hk]

theorem nodup_pickAll {l m : List Nat} (hl : l.Nodup) (hm : m.Nodup) (h : ∀ k ∈ l, k < m.length) : (pickAll l m).Nodup := by
  unfold pickAll
  refine List.Nodup.map_on (fun x hx y hy e => ?_) hl
  rw [List.getD_eq_getElem _ _ (h x hx), List.getD_eq_getElem _ _ (h y hy)] at e
  exact (List.Nodup.getElem_inj_iff hm).1 e

theorem Inside.trans {pr0 pr1 pr : Problem} {m0 m1 m : Nat} {N0 : Numbering pr0 m0} {N1 : Numbering pr1 m1} {N : Numbering pr m} {pm fm dm PM FM DM : List Nat}
    (h : Inside N0 N1 pm fm dm) (h' : Inside N1 N PM FM DM) : Inside N0 N (pickAll pm PM) (pickAll fm FM) (pickAll dm DM) := by
  have p : ∀ k ∈ pm, k < PM.length := fun k hk => by rw [h'.pmLen]; exact h.pmLt k hk
  have f : ∀ k ∈ fm, k < FM.length := fun k hk => by rw [h'.fmLen]; exact h.fmLt k hk
  have d : ∀ k ∈ dm, k < DM.length := fun k hk => by rw [h'.dmLen]; exact h.dmLt k hk
  have pg : ∀ k < m0, pm.getD k 0 < m1 := fun k hk => h.pmLt _ (getD_mem_nat (by rw [h.pmLen]; exact hk))
  have fg : ∀ k < pr0.n, fm.getD k 0 < pr1.n := fun k hk => h.fmLt _ (getD_mem_nat (by rw [h.fmLen]; exact hk))
  have dg : ∀ k < pr0.d, dm.getD k 0 < pr1.d := fun k hk => h.dmLt _ (getD_mem_nat (by rw [h.dmLen]; exact hk))
  have ep : ∀ k < m0, (pickAll pm PM).getD k 0 = PM.getD (pm.getD k 0) 0 := fun k hk => pickAll_getD (by rw [h.pmLen]; exact hk)
  have ef : ∀ k < pr0.n, (pickAll fm FM).getD k 0 = FM.getD (fm.getD k 0) 0 := fun k hk => pickAll_getD (by rw [h.fmLen]; exact hk)
  have ed : ∀ k < pr0.d, (pickAll dm DM).getD k 0 = DM.getD (dm.getD k 0) 0 := fun k hk => pickAll_getD (by rw [h.dmLen]; exact hk)
  refine ⟨?_, ?_, by simp [pickAll, h.pmLen], ?_, ?_, ?_, nodup_pickAll h.fmN h'.fmN f, ?_, by simp [pickAll, h.fmLen], ?_, nodup_pickAll h.dmN h'.dmN d, ?_,
    by simp [pickAll, h.dmLen], ?_⟩
  · unfold pickAll
    rw [List.pairwise_map]
    refine h.pmS.imp_of_mem fun {a b} ha hb hab => ?_
    rw [List.getD_eq_getElem _ _ (p a ha), List.getD_eq_getElem _ _ (p b hb)]
    exact List.pairwise_iff_getElem.1 h'.pmS _ _ _ _ hab
  · intro q hq
    obtain ⟨k, hk, rfl⟩ := List.mem_map.1 hq
    exact h'.pmLt _ (getD_mem_nat (p k hk))
  · intro k hk
    rw [ep k hk, h.nd k hk, h'.nd _ (pg k hk)]
  · intro k hk j hj
    rw [ep k hk, h.P k hk j hj, h'.P _ (pg k hk) j (by rw [← h.nd k hk]; exact hj)]
  · intro k hk a
    rw [ep k hk, h.e k hk, h'.e _ (pg k hk)]
  · intro q hq
    obtain ⟨k, hk, rfl⟩ := List.mem_map.1 hq
    exact h'.fmLt _ (getD_mem_nat (f k hk))
  · intro k hk
    rw [ef k hk, h.fmS k hk, h'.fmS _ (fg k hk)]
  · intro q hq
    obtain ⟨k, hk, rfl⟩ := List.mem_map.1 hq
    exact h'.dmLt _ (getD_mem_nat (d k hk))
  · intro k hk
    rw [ed k hk, h.dmS k hk, h'.dmS _ (dg k hk)]

/-- The first `r` of `f`, then `g`. -/
def splice {β : Type} (r : Nat) (f g : Nat → β) (i : Nat) : β := if i < r then f i else g (i - r)

theorem row_splice {β : Type} (r r' : Nat) (f g : Nat → β) : row r f ++ row r' g = row (r + r') (splice r f g) := by
  unfold row
  rw [List.range_add, List.map_append, List.map_map]
  congr 1
  · refine List.map_congr_left fun i hi => ?_
    unfold splice
    rw [if_pos (List.mem_range.1 hi)]
  · refine List.map_congr_left fun i _ => ?_
    simp [splice]

theorem addAtoms_ok (s : SumObj ℝ) {PM FM DM : List Nat} (W : ℝ) :
    ∀ (l : Atoms ℝ), (∀ a ∈ l, (∀ k ∈ a.2.2.pm, k < PM.length) ∧ (∀ k ∈ a.2.2.fm, k < FM.length) ∧ ∀ k ∈ a.2.2.dm, k < DM.length) →
    s.addAtoms PM FM DM W l = .ok { s with atoms := s.atoms ++ l.map fun a =>
      (a.1 * W, a.2.1, ⟨pickAll a.2.2.pm PM, pickAll a.2.2.fm FM, s.nFeat, pickAll a.2.2.dm DM, s.nDim, []⟩) }
  | [], _ => by simp [SumObj.addAtoms]
  | (w, f, g) :: l, h => by
    obtain ⟨h1, h2, h3⟩ := h _ List.mem_cons_self
    unfold SumObj.addAtoms
    rw [mapThrough_ok h1, mapThrough_ok h2, mapThrough_ok h3]
    show SumObj.addAtoms _ PM FM DM W l = _
    rw [addAtoms_ok _ W l fun a ha => h a (List.mem_cons_of_mem _ ha)]
    simp

/-- **C64.** `s.add(foo, PM, FM, DM, W)` for a `Sum` `foo` of functions without an offset: `s` then computes its function plus `W` times the function that `foo` computes,
of the parameters `PM`, at the features `FM` and the outcomes `DM`; with its derivatives.  (`foo` is taken apart; the weights are multiplied and the maps composed.) -/
theorem C64_add_sum {pr prg : Problem} (hpr : pr.Ok) {m mg : Nat} {N : Numbering pr m} {Ng : Numbering prg mg} {K : Nat → Prop}
    {r : Nat} {w : Nat → ℝ} {f : Nat → TFunc ℝ} {g : Nat → Wrap} {st : Nat → Store} {dom : Nat → Theta → Prop} {val : Nat → Val}
    (hf : ∀ i < r, Computes pr N K (st i) (dom i) (wrapT (f i) (g i)) (val i))
    {r' : Nat} (hr : 0 < r + r') {w' : Nat → ℝ} {f' : Nat → TFunc ℝ} {pm fm dm : Nat → List Nat} {pr' : Nat → Problem} {m' : Nat → Nat}
    {N' : ∀ i, Numbering (pr' i) (m' i)} {K' : Nat → Nat → Prop} {st' : Nat → Store} {dom' : Nat → Theta → Prop} {val' : Nat → Val}
    {PM FM DM : List Nat} (hg : Inside Ng N PM FM DM) (hin : ∀ i < r', Inside (N' i) Ng (pm i) (fm i) (dm i))
    (hK : ∀ i < r', Carries (pr' i) pr (pickAll (fm i) FM) (pickAll (dm i) DM) (K' i) K)
    (hf' : ∀ i < r', Computes (pr' i) (N' i) (K' i) (st' i) (dom' i) (f' i) (val' i)) (W : ℝ) :
    ∃ s : SumObj ℝ, SumObj.add ⟨row r fun i => (w i, f i, g i), 0, pr.n, pr.d⟩
        (.sum (row r' fun i => (w' i, f' i, ⟨pm i, fm i, prg.n, dm i, prg.d, []⟩)) 0) PM FM DM W = .ok s ∧
      Computes pr N K (Store.sum (r + r') fun i => (splice r st (fun i => (st' i).wrap (pr' i) pr (pickAll (pm i) PM) (pickAll (fm i) FM) (pickAll (dm i) DM)) i).times
          (splice r w (fun i => w' i * W) i))
        (fun θ => (∀ i < r, dom i θ) ∧ ∀ i < r', dom' i ((θ.sub PM).sub (pm i))) s.func
        fun θ n d => (∑ i ∈ Finset.range r, w i * val i θ n d) +
          W * ∑ i ∈ Finset.range r', w' i * val' i ((θ.sub PM).sub (pm i)) (through (fm i) (through FM n)) (through (dm i) (through DM d)) := by
  have p : ∀ i < r', ∀ k ∈ pm i, k < PM.length := fun i hi k hk => by rw [hg.pmLen]; exact (hin i hi).pmLt k hk
  have q : ∀ i < r', ∀ k ∈ fm i, k < FM.length := fun i hi k hk => by rw [hg.fmLen]; exact (hin i hi).fmLt k hk
  have u : ∀ i < r', ∀ k ∈ dm i, k < DM.length := fun i hi k hk => by rw [hg.dmLen]; exact (hin i hi).dmLt k hk
  have e := addAtoms_ok (PM := PM) (FM := FM) (DM := DM) ⟨row r fun i => (w i, f i, g i), 0 + 0, pr.n, pr.d⟩ W
    (row r' fun i => (w' i, f' i, ⟨pm i, fm i, prg.n, dm i, prg.d, []⟩)) fun a ha => by
      obtain ⟨i, hi, rfl⟩ := List.mem_map.1 ha
      have hi := List.mem_range.1 hi
      exact ⟨p i hi, q i hi, u i hi⟩
  refine ⟨_, by unfold SumObj.add; exact e, ?_⟩
  · unfold SumObj.func
    dsimp only
    have hw : ∀ i < r', Computes pr N K ((st' i).wrap (pr' i) pr (pickAll (pm i) PM) (pickAll (fm i) FM) (pickAll (dm i) DM))
        (fun θ => dom' i ((θ.sub PM).sub (pm i))) (wrapT (f' i) ⟨pickAll (pm i) PM, pickAll (fm i) FM, pr.n, pickAll (dm i) DM, pr.d, []⟩)
        (fun θ n d => val' i ((θ.sub PM).sub (pm i)) (through (fm i) (through FM n)) (through (dm i) (through DM d))) := fun i hi => by
      have := C64_wrap_partial hpr ((hin i hi).trans hg) (hK i hi) (hf' i hi)
      simpa only [sub_pickAll (p i hi), through_pickAll (q i hi), through_pickAll (u i hi)] using this
    have key := C64_sum_partial (N := N) (K := K) hpr hr (w := splice r w fun i => w' i * W) (f := splice r f f')
      (g := splice r g fun i => ⟨pickAll (pm i) PM, pickAll (fm i) FM, pr.n, pickAll (dm i) DM, pr.d, []⟩)
      (st := splice r st fun i => (st' i).wrap (pr' i) pr (pickAll (pm i) PM) (pickAll (fm i) FM) (pickAll (dm i) DM))
      (dom := splice r dom fun i θ => dom' i ((θ.sub PM).sub (pm i)))
      (val := splice r val fun i θ n d => val' i ((θ.sub PM).sub (pm i)) (through (fm i) (through FM n)) (through (dm i) (through DM d)))
      (fun i hi => by
        unfold splice
        split_ifs with h
        · exact hf i h
        · exact hw (i - r) (by omega))
    have ea : (row r fun i => (w i, f i, g i)) ++ List.map (fun a => (a.1 * W, a.2.1,
          (⟨pickAll a.2.2.pm PM, pickAll a.2.2.fm FM, pr.n, pickAll a.2.2.dm DM, pr.d, []⟩ : Wrap)))
          (row r' fun i => (w' i, f' i, (⟨pm i, fm i, prg.n, dm i, prg.d, []⟩ : Wrap))) =
        row (r + r') fun i => (splice r w (fun i => w' i * W) i, splice r f f' i,
          splice r g (fun i => (⟨pickAll (pm i) PM, pickAll (fm i) FM, pr.n, pickAll (dm i) DM, pr.d, []⟩ : Wrap)) i) := by
      have : List.map (fun a : ℝ × TFunc ℝ × Wrap => (a.1 * W, a.2.1,
          (⟨pickAll a.2.2.pm PM, pickAll a.2.2.fm FM, pr.n, pickAll a.2.2.dm DM, pr.d, []⟩ : Wrap)))
          (row r' fun i => (w' i, f' i, (⟨pm i, fm i, prg.n, dm i, prg.d, []⟩ : Wrap))) =
          row r' fun i => (w' i * W, f' i, (⟨pickAll (pm i) PM, pickAll (fm i) FM, pr.n, pickAll (dm i) DM, pr.d, []⟩ : Wrap)) := by
        unfold row
        rw [List.map_map]
        rfl
      rw [this, row_splice]
      unfold row
      refine List.map_congr_left fun i _ => ?_
      unfold splice
      split_ifs <;> rfl
    rw [ea, zero_add]
    refine (Computes.congr (key.mono fun θ h i hi => ?_) fun θ n d _ => ?_)
    · unfold splice
      split_ifs with h'
      · exact h.1 i h'
      · exact h.2 (i - r) (by omega)
    · rw [Finset.sum_range_add, Finset.mul_sum]
      congr 1
      · refine Finset.sum_congr rfl fun i hi => ?_
        unfold splice
        rw [if_pos (Finset.mem_range.1 hi), if_pos (Finset.mem_range.1 hi)]
      · refine Finset.sum_congr rfl fun i _ => ?_
        unfold splice
        rw [if_neg (by omega), if_neg (by omega), Nat.add_sub_cancel_left]
        ring

/-- **C64.** The same for `a * foo`, an `Affine` over a `Sum`: it is the `Sum` with the weight `W * a`. -/
theorem C64_add_affine_sum (s : SumObj ℝ) (base : Addend ℝ) (a W : ℝ) (PM FM DM : List Nat) :
    s.add (.affine base a 0) PM FM DM W = s.add base PM FM DM (W * a) := by
  show SumObj.add { s with b := s.b + 0 } base PM FM DM (W * a) = _
  rw [add_zero]

/-- `f = Sum(2); f.add(X(), 0, 0); g = Sum(2); g.add(X(), 0, 0); g.add(X(), 1, 1, -1); f.add(g, [0, 1, 2], [1, 0], weight=3)`: the sum is
`x0[n0] + 3 * (x0[n1] - x1[n0])`. -/
example {s : Nat} (hs : s ≠ 0) : ∃ t : SumObj ℝ, SumObj.add ⟨[(1, xT, ⟨[0], [0], 2, [], 0, []⟩)], 0, 2, 0⟩
    (.sum [(1, xT, ⟨[0], [0], 2, [], 0, []⟩), (-1, xT, ⟨[1], [1], 2, [], 0, []⟩)] 0) [0, 1, 2] [1, 0] [] 3 = .ok t ∧
    ∃ st dom, dom (fun _ _ => 0) ∧ Computes (square s) (cOrder (square s) 3) (fun _ => False) st dom t.func
      fun θ n _ => θ 0 (n 0) + 3 * (θ 0 (n 1) - θ 1 (n 0)) := by
  have hpr := square_ok hs
  have hP : (oneFactor s).Pointwise 1 := fun p _ => ⟨rfl, fun _ _ => rfl⟩
  have hX := C64_X (N := cOrder (oneFactor s) 1) hP rfl
  obtain ⟨t, e, h⟩ := C64_add_sum (K := fun _ => False) hpr (r := 1) (r' := 2) (N := cOrder (square s) 3) (w := fun _ => 1) (f := fun _ => xT)
    (g := fun _ => ⟨[0], [0], 2, [], 0, []⟩) (fun _ _ => C64_wrap_partial hpr (square_inside (s := s) Nat.two_pos) (fun k _ h => h.elim) hX)
    (by omega) (w' := fun i => if i = 0 then 1 else -1) (f' := fun _ => xT) (square_whole (s := s) (i := 1))
    (pm := fun i => [i]) (fm := fun i => [i]) (dm := fun _ => []) (fun i hi => square_inside (s := s) hi) (fun _ _ k _ h => h.elim) (fun _ _ => hX) 3
  refine ⟨t, ?_, _, _, ?_, h.congr fun θ n d _ => ?_⟩
  · simpa [row, List.range_succ, square] using e
  · simp
  · simp [Finset.sum_range_succ, Theta.sub, through, cOrder, Problem.sizes, oneFactor, ravel]
    ring

end Verif.Tens
