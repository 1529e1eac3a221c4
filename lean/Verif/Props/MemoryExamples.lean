import Verif.Props.MemoryState

/-!
# C84: programs that are not careful, and one that is
-/

namespace Verif.Memory
open Verif.Params
open Verif.Tens (Session SessionOp FitArgs Name Kind NDArray mkTensor)

/-- A free parameter, given with a mask; the user then reuses the mask for something else. -/
def maskProgram : List Op := [.newValues [2] [1, 2], .newMask [2] [false, false], .addParam 0 (some 0)]

/-- **C84 is false for masks.** `add_param` keeps the user's array `fixed` and leaves it writeable: a later assignment to it succeeds, and fixes an entry that was added as a free one. -/
theorem C84_mask_counterexample (k : Kind) :
    ((World.new k).run maskProgram).session.params = some [⟨[2], [1, 2], [false, false]⟩] ∧
      (((World.new k).run maskProgram).step (.assignMask 0 0 true)).1 = .ok () ∧
      (((World.new k).run maskProgram).step (.assignMask 0 0 true)).2.session.params = some [⟨[2], [1, 2], [true, false]⟩] := ⟨rfl, rfl, rfl⟩

/-- One mask array filled in turn for two parameters: the first parameter gets the mask of the second. -/
theorem C84_reused_mask_counterexample (k : Kind) :
    ((World.new k).run [.newValues [2] [1, 2], .newValues [2] [3, 4], .newMask [2] [true, false], .addParam 0 (some 0), .assignMask 0 0 false, .assignMask 0 1 true,
      .addParam 1 (some 0)]).session.params = some [⟨[2], [1, 2], [false, true]⟩, ⟨[2], [3, 4], [false, true]⟩] := rfl

/-- A parameter added with `fixed=None`; the masked array that `get_params` returns has a view of the object's mask: a write to `get_params()[0].mask` fixes an entry of the parameter. -/
theorem C84_result_mask_counterexample (k : Kind) :
    ((World.new k).run [.newValues [2] [1, 2], .addParam 0 none]).session.params = some [⟨[2], [1, 2], [false, false]⟩] ∧
      ((World.new k).run [.newValues [2] [1, 2], .addParam 0 none, .getParams, .assignMask 1 0 true]).session.params = some [⟨[2], [1, 2], [true, false]⟩] := ⟨rfl, rfl⟩

/-- The values of a parameter are a slice of an array: a write into that array is not refused, and it changes the parameter. -/
def viewProgram : List Op := [.newValues [2, 2] [1, 2, 3, 4], .sliceValues 0 [0, 1] [2], .addParam 1 none]

/-- **C84 is false for views.** Only the array that was passed is made read-only. -/
theorem C84_view_counterexample (k : Kind) :
    ((World.new k).run viewProgram).session.params = some [⟨[2], [1, 2], [false, false]⟩] ∧
      (((World.new k).run viewProgram).step (.assignValues 1 0 7)).1 = .error .valueError ∧
      (((World.new k).run viewProgram).step (.assignValues 0 0 7)).1 = .ok () ∧
      (((World.new k).run viewProgram).step (.assignValues 0 0 7)).2.session.params = some [⟨[2], [7, 2], [false, false]⟩] := ⟨rfl, rfl, rfl, rfl⟩

/-- A rejected `add_param` (the mask has another shape) leaves the array writeable; an accepted one does not. -/
theorem C84_example_rejected (k : Kind) :
    ((World.new k).run [.newValues [2] [1, 2], .newMask [1] [false]]).addParam 0 (some 0) = (.error .assertion, { (World.new k).run [.newValues [2] [1, 2], .newMask [1] [false]] with params := some [] }) ∧
      ((World.new k).run [.newValues [2] [1, 2], .newMask [1] [false], .addParam 0 (some 0), .assignValues 0 0 7]).vals.read 0 = [7, 2] := ⟨rfl, rfl⟩

theorem sole_of_all {m : Mem ℝ} {r : Nat} (h : ∀ r', r' < m.arrs.length → r' ≠ r → ∀ a a', m.arrs[r]? = some a → m.arrs[r']? = some a' → a'.buf = a.buf → a'.writeable = false) : Sole m r := by
  rintro r' a' ⟨b, b', hb, hb', e⟩ hne ha'
  obtain rfl := Option.some.inj (hb'.symm.trans ha')
  exact h r' (List.getElem?_eq_some_iff.1 hb').1 hne b b' hb hb' e

/-- A careful program: a partly fixed parameter, a rejected write to its values, a write to another mask, a free parameter whose values were changed before, the returned arrays and a rejected write to
one of them, a fit. -/
def carefulProgram (a : FitArgs) : List Op :=
  [.newValues [2] [1, 2], .newMask [2] [false, true], .newMask [2] [false, true], .addParam 0 (some 0), .assignValues 0 0 9, .assignMask 1 0 true, .newValues [2] [3, 4], .assignValues 1 0 5,
    .addParam 1 none, .getParams, .assignValues 2 1 8, .newValues [3] [0, 1, 2], .fit [(.X, 4)] a, .resetParams]

private def st (k : Kind) (vb : List (List ℝ)) (va : List ArrObj) (mb : List (List Bool)) (ma : List ArrObj) (ps : Option (List ParamRef)) : World :=
  ⟨⟨vb, va⟩, ⟨mb, ma⟩, Session.new k, ps, fun _ => none⟩

private def ar (b n : Nat) (w : Bool) : ArrObj := ⟨b, List.range n, [n], w⟩

private theorem careful_next {w w' : World} {op : Op} {ops : List Op} (h : Careful w op) (e : (w.step op).2 = w') (h' : CarefulRun w' ops) : CarefulRun w (op :: ops) := ⟨h, e ▸ h'⟩

private theorem calls_next {w w' : World} {op : Op} {ops : List Op} {c c' : List SessionOp} (h : (w.call op).toList = c) (e : (w.step op).2 = w') (h' : w'.calls ops = c') :
    w.calls (op :: ops) = c ++ c' := by
  show (w.call op).toList ++ (w.step op).2.calls ops = _
  rw [h, e, h']

private theorem run_next {w w' w'' : World} {op : Op} {ops : List Op} (e : (w.step op).2 = w') (h' : w'.run ops = w'') : w.run (op :: ops) = w'' := by
  show (w.step op).2.run ops = _
  rw [e, h']

section
variable (k : Kind)

private def w1 := st k [[1, 2]] [ar 0 2 true] [] [] none
private def w2 := st k [[1, 2]] [ar 0 2 true] [[false, true]] [ar 0 2 true] none
private def w3 := st k [[1, 2]] [ar 0 2 true] [[false, true], [false, true]] [ar 0 2 true, ar 1 2 true] none
private def w4 := st k [[1, 2]] [ar 0 2 false] [[false, true], [false, true]] [ar 0 2 true, ar 1 2 true] (some [⟨0, 0, [2]⟩])
private def w6 := st k [[1, 2]] [ar 0 2 false] [[false, true], [true, true]] [ar 0 2 true, ar 1 2 true] (some [⟨0, 0, [2]⟩])
private def w7 := st k [[1, 2], [3, 4]] [ar 0 2 false, ar 1 2 true] [[false, true], [true, true]] [ar 0 2 true, ar 1 2 true] (some [⟨0, 0, [2]⟩])
private def w8 := st k [[1, 2], [5, 4]] [ar 0 2 false, ar 1 2 true] [[false, true], [true, true]] [ar 0 2 true, ar 1 2 true] (some [⟨0, 0, [2]⟩])
private def w9 := st k [[1, 2], [5, 4]] [ar 0 2 false, ar 1 2 false] [[false, true], [true, true], [false, false]] [ar 0 2 true, ar 1 2 true, ar 2 2 true] (some [⟨0, 0, [2]⟩, ⟨1, 2, [2]⟩])
private def w10 := st k [[1, 2], [5, 4]] [ar 0 2 false, ar 1 2 false, ar 0 2 false, ar 1 2 false] [[false, true], [true, true], [false, false]]
  [ar 0 2 true, ar 1 2 true, ar 2 2 true, ar 0 2 true, ar 2 2 true] (some [⟨0, 0, [2]⟩, ⟨1, 2, [2]⟩])
private def w12 := st k [[1, 2], [5, 4], [0, 1, 2]] [ar 0 2 false, ar 1 2 false, ar 0 2 false, ar 1 2 false, ar 2 3 true] [[false, true], [true, true], [false, false]]
  [ar 0 2 true, ar 1 2 true, ar 2 2 true, ar 0 2 true, ar 2 2 true] (some [⟨0, 0, [2]⟩, ⟨1, 2, [2]⟩])

theorem C84_example_careful (a : FitArgs) : CarefulRun (World.new k) (carefulProgram a) ∧
    (World.new k).calls ((carefulProgram a).take 12) = [.addMasked [2] [1, 2] [2] [false, true], .addFree (.array [2] [5, 4])] ∧
    ((World.new k).run ((carefulProgram a).take 12)).session.params = some [⟨[2], [1, 2], [false, true]⟩, ⟨[2], [5, 4], [false, false]⟩] := by
  have s1 : ((World.new k).step (.newValues [2] [1, 2])).2 = w1 k := rfl
  have s2 : ((w1 k).step (.newMask [2] [false, true])).2 = w2 k := rfl
  have s3 : ((w2 k).step (.newMask [2] [false, true])).2 = w3 k := rfl
  have s4 : ((w3 k).step (.addParam 0 (some 0))).2 = w4 k := rfl
  have s5 : ((w4 k).step (.assignValues 0 0 9)).2 = w4 k := rfl
  have s6 : ((w4 k).step (.assignMask 1 0 true)).2 = w6 k := rfl
  have s7 : ((w6 k).step (.newValues [2] [3, 4])).2 = w7 k := rfl
  have s8 : ((w7 k).step (.assignValues 1 0 5)).2 = w8 k := rfl
  have s9 : ((w8 k).step (.addParam 1 none)).2 = w9 k := rfl
  have s10 : ((w9 k).step .getParams).2 = w10 k := rfl
  have s11 : ((w10 k).step (.assignValues 2 1 8)).2 = w10 k := rfl
  have s12 : ((w10 k).step (.newValues [3] [0, 1, 2])).2 = w12 k := rfl
  refine ⟨?_, ?_, ?_⟩
  · refine careful_next trivial s1 <| careful_next trivial s2 <| careful_next trivial s3 <| careful_next ?_ s4 <| careful_next trivial s5 <| careful_next ?_ s6 <| careful_next trivial s7 <|
      careful_next trivial s8 <| careful_next ?_ s9 <| careful_next trivial s10 <| careful_next trivial s11 <| careful_next trivial s12 <| careful_next ?_ rfl ⟨trivial, trivial⟩
    · refine sole_of_all fun r' hr hne => ?_
      have : r' < 1 := hr
      omega
    · rintro ps hps p hp ⟨b, b', hb, hb', e⟩
      obtain rfl := Option.some.inj hps
      obtain rfl := List.mem_singleton.1 hp
      obtain rfl := Option.some.inj hb
      obtain rfl := Option.some.inj hb'
      exact absurd e (by decide)
    · refine sole_of_all fun r' hr hne b b' hb hb' e => ?_
      have : r' < 2 := hr
      obtain rfl : r' = 0 := by omega
      obtain rfl := Option.some.inj hb'
      rfl
    · intro x hx
      obtain rfl := List.mem_singleton.1 hx
      refine sole_of_all fun r' hr hne b b' hb hb' e => ?_
      have : r' < 5 := hr
      obtain rfl := Option.some.inj hb
      rcases (by omega : r' = 0 ∨ r' = 1 ∨ r' = 2 ∨ r' = 3 ∨ r' = 4) with rfl | rfl | rfl | rfl | rfl <;> obtain rfl := Option.some.inj hb' <;> first | rfl | exact absurd rfl hne
  · exact calls_next (c := []) rfl s1 <| calls_next (c := []) rfl s2 <| calls_next (c := []) rfl s3 <| calls_next (c := [_]) rfl s4 <| calls_next (c := []) rfl s5 <| calls_next (c := []) rfl s6 <|
      calls_next (c := []) rfl s7 <| calls_next (c := []) rfl s8 <| calls_next (c := [_]) rfl s9 <| calls_next (c := []) rfl s10 <| calls_next (c := []) rfl s11 <| calls_next (c := []) rfl s12 rfl
  · have := run_next s1 <| run_next s2 <| run_next s3 <| run_next s4 <| run_next s5 <| run_next s6 <| run_next s7 <| run_next s8 <| run_next s9 <| run_next s10 <| run_next s11 <| run_next (ops := []) (w'' := w12 k) s12 rfl
    rw [show (carefulProgram a).take 12 = [.newValues [2] [1, 2], .newMask [2] [false, true], .newMask [2] [false, true], .addParam 0 (some 0), .assignValues 0 0 9, .assignMask 1 0 true,
      .newValues [2] [3, 4], .assignValues 1 0 5, .addParam 1 none, .getParams, .assignValues 2 1 8, .newValues [3] [0, 1, 2]] from rfl, this]
    rfl

end

end Verif.Memory
