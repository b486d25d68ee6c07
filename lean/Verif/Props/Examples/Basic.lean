import Verif.Model.Examples.Basic
import Verif.Proofs.Examples.Common
import Verif.Props.MacroSample
import Verif.Props.MacroOrder
import Verif.Props.Values
/-!
# The example `basic`: C63
-/
namespace Statig.Examples.Basic
open Statig.Macro

theorem gen_eq : expand Sample.syn Sample.forwards source = .ok gen := by decide +kernel
theorem compiles : gen.Compiles := by decide +kernel

/-- The name of a state in the generated enum. -/
def State.name : State → Ident
  | .on => "On"
  | .off => "Off"

/-- The data of the two versions correspond: the states have the same names, and the LED is
on in both or in neither. -/
def sameNames : Rel (gen.iface.sig types) sig where
  M := Eq
  St s s' := s.variant = s'.name
  Sup _ _ := False
  Ev := Eq
  Ctx := Eq
  In := Eq

theorem respects : Respects sameNames (gen.iface.machine env) machine where
  discr := by
    intro a a' b b' ha hb
    show a.variant = b.variant ↔ a' = b'
    have ha : a.variant = a'.name := ha
    have hb : b.variant = b'.name := hb
    rw [ha, hb]
    cases a' <;> cases b' <;> decide
  supDiscr := by intro a a' b b' ha hb; exact ha.elim
  handler := by
    intro s s' x x' e e' c c' hs hx he hc
    have hs : s.variant = s'.name := hs
    cases he; cases hc; cases hx
    cases s' <;> (simp only [Iface.machine, hs, State.name]; eval_gen [gen, env, userHandler, source, stateMethod]) <;>
      cases e <;> exact .done ⟨hs, rfl, rfl⟩ (.transition rfl)
  entry := by
    intro s s' x x' c c' hs hx hc
    have hs : s.variant = s'.name := hs
    cases s' <;> (simp only [Iface.machine, hs, State.name]; eval_gen [gen]) <;> exact .done ⟨hs, hx, hc⟩ rfl
  exit := by
    intro s s' x x' c c' hs hx hc
    have hs : s.variant = s'.name := hs
    cases s' <;> (simp only [Iface.machine, hs, State.name]; eval_gen [gen]) <;> exact .done ⟨hs, hx, hc⟩ rfl
  superstate := by
    intro s s' hs
    have hs : s.variant = s'.name := hs
    cases s' <;> (simp only [Iface.machine, hs, State.name]; eval_gen [gen]) <;> exact .none
  supHandler := by intro v v' x x' e e' c c' hv; exact hv.elim
  supEntry := by intro v v' x x' c c' hv; exact hv.elim
  supExit := by intro v v' x x' c c' hv; exact hv.elim
  supSuperstate := by intro v v' hv; exact hv.elim
  beforeDispatch := by intros; exact .done ‹_› rfl
  afterDispatch := by intros; exact .done ‹_› rfl
  beforeTransition := by intros; exact .done ‹_› rfl
  afterTransition := by intro x x' a a' b b' hx ha hb; exact .done hx rfl

end Statig.Examples.Basic

namespace Statig
open Examples.Basic Statig.Macro

/-- C63, the example `basic`.  In whatever order the macro iterates over its hash maps, it accepts the impl block and
what it generates compiles; and the generated machine cannot be told apart from the hand-written one: whatever calls
are made on both, they have the same outcomes and run the same callbacks in the same order, on states of the same
names, with the same LED. -/
theorem C63_basic (ord) (led : Bool) :
    ∃ g, expand Sample.syn ord source = .ok g ∧ g.Compiles ∧ g.iface = gen.iface ∧
      ∀ {cmds cmds'}, ListRel sameNames.Command cmds cmds' →
        ListRel (CallRel sameNames sameNames.Machine)
          (callAll .blocking (gen.iface.machine env) (stateMachine (gen.iface.machine env) led) cmds)
          (callAll .blocking machine (stateMachine machine led) cmds') := by
  obtain ⟨g, h, -⟩ := C46_items gen_eq ord
  obtain ⟨h1, h2⟩ := C46_behaviour gen_eq h compiles
  refine ⟨g, h, h1, h2, fun hc => C50_representation_independence respects ?_ hc⟩
  exact ⟨⟨rfl, rfl⟩, rfl⟩

end Statig
