import Verif.Model.Examples.Blinky
import Verif.Proofs.Examples.Common
import Verif.Props.MacroSample
import Verif.Props.MacroOrder
import Verif.Props.Values
/-!
# The example `blinky`: C63
-/
namespace Statig.Examples.Blinky
open Statig.Macro

theorem gen_eq : expand Sample.syn Sample.forwards source = .ok gen := by decide +kernel
theorem compiles : gen.Compiles := by decide +kernel

/-- The name of a state in the generated enum. -/
def State.name : State → Ident
  | .ledOn => "LedOn"
  | .ledOff => "LedOff"
  | .notBlinking => "NotBlinking"

/-- The data of the two versions correspond: the states have the same names. -/
def sameNames : Rel (gen.iface.sig types) sig where
  M := Eq
  St s s' := s.variant = s'.name
  Sup v _ := v.variant = "Blinking"
  Ev := Eq
  Ctx := Eq
  In := Eq

theorem respects : Respects sameNames (gen.iface.machine env) machine where
  discr := by
    intro a a' b b' ha hb
    show a.variant = b.variant ↔ a' = b'
    have ha : a.variant = a'.name := ha
    have hb : b.variant = b'.name := hb
    rw [ha, hb]
    cases a' <;> cases b' <;> decide
  supDiscr := by
    intro a a' b b' ha hb
    have ha : a.variant = "Blinking" := ha
    have hb : b.variant = "Blinking" := hb
    show a.variant = b.variant ↔ a' = b'
    rw [ha, hb]; cases a'; cases b'; simp
  handler := by
    intro s s' x x' e e' c c' hs hx he hc
    have hs : s.variant = s'.name := hs
    cases he; cases hc
    cases s' <;> (simp only [Iface.machine, hs, State.name]; eval_gen [gen, env, userHandler, source, method]) <;>
      cases e <;> exact .done ⟨hs, hx, rfl⟩ (by first | exact .super | exact .transition rfl)
  entry := by
    intro s s' x x' c c' hs hx hc
    have hs : s.variant = s'.name := hs
    cases s' <;> (simp only [Iface.machine, hs, State.name]; eval_gen [gen]) <;> exact .done ⟨hs, hx, hc⟩ rfl
  exit := by
    intro s s' x x' c c' hs hx hc
    have hs : s.variant = s'.name := hs
    cases s' <;> (simp only [Iface.machine, hs, State.name]; eval_gen [gen]) <;> exact .done ⟨hs, hx, hc⟩ rfl
  superstate := by
    intro s s' hs
    have hs : s.variant = s'.name := hs
    have key : gen.iface.superstate s.variant = some ⟨⟨s.variant, []⟩, some ⟨"Blinking", []⟩⟩ → superstate s' = some .blinking →
        OptRel (ViewRel sameNames.St sameNames.Sup) ((gen.iface.machine env).superstate s) (machine.superstate s') := by
      intro h1 h2
      obtain ⟨v, back, h3, h4, h5⟩ := view_unit (I := gen.iface) (T := types) (t := "Blinking") (bound := []) (s := s) rfl
      simp only [Iface.machine, machine, h1, h2, runSuperstate, h3]
      exact .some ⟨h4, fun w w' _ => (h5 w).trans hs⟩
    cases s'
    case notBlinking =>
      simp only [Iface.machine, hs, State.name]
      eval_gen [gen]
      exact .none
    all_goals exact key (by rw [hs]; rfl) rfl
  supHandler := by
    intro v v' x x' e e' c c' hv hx he hc
    have hv : v.variant = "Blinking" := hv
    cases he; cases hc
    simp only [Iface.machine, hv]
    eval_gen [gen, env, userHandler, source, method]
    cases e <;> exact .done ⟨hv, hx, rfl⟩ (by first | exact .super | exact .transition rfl)
  supEntry := by
    intro v v' x x' c c' hv hx hc
    have hv : v.variant = "Blinking" := hv
    simp only [Iface.machine, hv]
    eval_gen [gen]
    exact .done ⟨hv, hx, hc⟩ rfl
  supExit := by
    intro v v' x x' c c' hv hx hc
    have hv : v.variant = "Blinking" := hv
    simp only [Iface.machine, hv]
    eval_gen [gen]
    exact .done ⟨hv, hx, hc⟩ rfl
  supSuperstate := by
    intro v v' hv
    have hv : v.variant = "Blinking" := hv
    simp only [Iface.machine, hv]
    eval_gen [gen]
    exact .none
  beforeDispatch := by intros; exact .done ‹_› rfl
  afterDispatch := by intros; exact .done ‹_› rfl
  beforeTransition := by intros; exact .done ‹_› rfl
  afterTransition := by intro x x' a a' b b' hx ha hb; exact .done hx rfl

end Statig.Examples.Blinky

namespace Statig
open Examples.Blinky Statig.Macro

/-- C63, the example `blinky`.  In whatever order the macro iterates over its hash maps, it accepts the impl block and
what it generates compiles; and the generated machine cannot be told apart from the hand-written one: whatever calls
are made on both, they have the same outcomes and run the same callbacks in the same order, on states of the same
names. -/
theorem C63_blinky (ord) :
    ∃ g, expand Sample.syn ord source = .ok g ∧ g.Compiles ∧ g.iface = gen.iface ∧
      ∀ {cmds cmds'}, ListRel sameNames.Command cmds cmds' →
        ListRel (CallRel sameNames sameNames.Machine)
          (callAll .blocking (gen.iface.machine env) (stateMachine (gen.iface.machine env) ()) cmds)
          (callAll .blocking machine (stateMachine machine ()) cmds') := by
  obtain ⟨g, h, -⟩ := C46_items gen_eq ord
  obtain ⟨h1, h2⟩ := C46_behaviour gen_eq h compiles
  refine ⟨g, h, h1, h2, fun hc => C50_representation_independence respects ?_ hc⟩
  exact ⟨⟨rfl, rfl⟩, rfl⟩

end Statig
