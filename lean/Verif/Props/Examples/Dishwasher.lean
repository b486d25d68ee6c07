import Verif.Model.Examples.Dishwasher
import Verif.Proofs.Examples.Common
import Verif.Props.MacroSample
import Verif.Props.MacroOrder
import Verif.Props.Values
import Verif.Props.Tracking
import Verif.Spec.Examples.Dishwasher
/-!
# The dishwasher example: C63, C64
-/
namespace Statig.Examples.Dishwasher
open Statig.Macro

theorem gen_eq : expand Sample.syn Sample.forwards source = .ok gen := by decide +kernel
theorem compiles : gen.Compiles := by decide +kernel

/-! ## The two versions agree -/

/-- The data of the two versions correspond: the states, and the previous states in the shared storage, have the same
names. -/
def sameNames : Rel (gen.iface.sig types) sig where
  M s s' := s.variant = s'.name
  St s s' := s.variant = s'.name
  Sup v _ := v.variant = "DoorClosed"
  Ev := Eq
  Ctx := Eq
  In := Eq

theorem respects : Respects sameNames (gen.iface.machine env) machine where
  discr := by
    intro a a' b b' ha hb
    show a.variant = b.variant ↔ a' = b'
    have ha : a.variant = a'.name := ha
    have hb : b.variant = b'.name := hb
    rw [ha, hb]
    cases a' <;> cases b' <;> decide
  supDiscr := by
    intro a a' b b' ha hb
    have ha : a.variant = "DoorClosed" := ha
    have hb : b.variant = "DoorClosed" := hb
    show a.variant = b.variant ↔ a' = b'
    rw [ha, hb]; cases a'; cases b'; simp
  handler := by
    intro s s' x x' e e' c c' hs hx he hc
    have hs : s.variant = s'.name := hs
    cases he; cases hc
    cases s' <;> (simp only [Iface.machine, hs, State.name]; eval_gen [gen, env, userHandler, source, stateMethod]) <;>
      cases e <;>
      exact .done ⟨hs, hx, rfl⟩ (by first | exact .super | exact .transition rfl | exact .transition hx)
  entry := by
    intro s s' x x' c c' hs hx hc
    have hs : s.variant = s'.name := hs
    cases s' <;> (simp only [Iface.machine, hs, State.name]; eval_gen [gen]) <;> exact .done ⟨hs, hx, hc⟩ rfl
  exit := by
    intro s s' x x' c c' hs hx hc
    have hs : s.variant = s'.name := hs
    cases s' <;> (simp only [Iface.machine, hs, State.name]; eval_gen [gen]) <;> exact .done ⟨hs, hx, hc⟩ rfl
  superstate := by
    intro s s' hs
    have hs : s.variant = s'.name := hs
    have key : gen.iface.superstate s.variant = some ⟨⟨s.variant, []⟩, some ⟨"DoorClosed", []⟩⟩ → superstate s' = some .doorClosed →
        OptRel (ViewRel sameNames.St sameNames.Sup) ((gen.iface.machine env).superstate s) (machine.superstate s') := by
      intro h1 h2
      obtain ⟨v, back, h3, h4, h5⟩ := view_unit (I := gen.iface) (T := types) (t := "DoorClosed") (bound := []) (s := s) rfl
      simp only [Iface.machine, machine, h1, h2, runSuperstate, h3]
      exact .some ⟨h4, fun w w' _ => (h5 w).trans hs⟩
    cases s'
    case doorOpened =>
      simp only [Iface.machine, hs, State.name]
      eval_gen [gen]
      exact .none
    all_goals exact key (by rw [hs]; rfl) rfl
  supHandler := by
    intro v v' x x' e e' c c' hv hx he hc
    have hv : v.variant = "DoorClosed" := hv
    cases he; cases hc
    simp only [Iface.machine, hv]
    eval_gen [gen, env, userHandler, source, stateMethod]
    cases e <;> exact .done ⟨hv, hx, rfl⟩ (by first | exact .super | exact .transition rfl)
  supEntry := by
    intro v v' x x' c c' hv hx hc
    have hv : v.variant = "DoorClosed" := hv
    simp only [Iface.machine, hv]
    eval_gen [gen]
    exact .done ⟨hv, hx, hc⟩ rfl
  supExit := by
    intro v v' x x' c c' hv hx hc
    have hv : v.variant = "DoorClosed" := hv
    simp only [Iface.machine, hv]
    eval_gen [gen]
    exact .done ⟨hv, hx, hc⟩ rfl
  supSuperstate := by
    intro v v' hv
    have hv : v.variant = "DoorClosed" := hv
    simp only [Iface.machine, hv]
    eval_gen [gen]
    exact .none
  beforeDispatch := by intros; exact .done ‹_› rfl
  afterDispatch := by intros; exact .done ‹_› rfl
  beforeTransition := by intros; exact .done ‹_› rfl
  afterTransition := by intro x x' a a' b b' hx ha hb; exact .done ha rfl

/-! ## What the hand-written version does -/

/-- The hierarchy of the states. -/
def forest : Forest State Superstate where
  leafParent := superstate
  supParent _ := none
  supAnc _ := []
  supAnc_eq _ := rfl

theorem follows : Follows machine forest where
  leaf s := by cases s <;> rfl
  sup v := rfl
  leaf_back := by
    intro s v back w h _
    cases hs : superstate s with
    | none => simp [machine, hs] at h
    | some w =>
      simp only [machine, hs, Option.map_some, Option.some.injEq, Prod.mk.injEq] at h
      obtain ⟨-, h⟩ := h; subst h; rfl
  sup_back := by intro u v back w h; cases h
  handler s sh ev c := .done rfl
  entry s sh c := .done rfl
  exit s sh c := .done rfl
  supHandler v sh ev c := .done rfl
  supEntry v sh c := .done rfl
  supExit v sh c := .done rfl

def closedPath : State → State → Option (Out (Nat × Nat))
  | .doorOpened, .doorOpened => some (.ok (1, 1))
  | .doorOpened, _ => some (.ok (1, 2))
  | _, .doorOpened => some (.ok (2, 1))
  | _, _ => some (.ok (1, 1))

theorem transitionPath_closed : transitionPath machine = closedPath := by
  funext s t
  by_cases h : s = t
  · rw [transitionPath_of_eq s t h]; subst h; cases s <;> rfl
  · rw [transitionPath_of_ne follows s t h]
    cases s <;> cases t <;> first | rfl | exact absurd rfl h

def closedDepth : State → Option Nat
  | .doorOpened => some 1
  | _ => some 2

theorem depth_closed : depth machine = closedDepth := by
  funext s; rw [depth_eq follows s]; cases s <;> rfl

def next (p s : State) : Event → State × State
  | .startProgram => if s = .idle then (.idle, .soap) else (p, s)
  | .timerElapsed =>
    match s with
    | .soap => (.soap, .rinse)
    | .rinse => (.rinse, .dry)
    | .dry => (.dry, .idle)
    | s => (p, s)
  | .doorOpened => if s = .doorOpened then (p, s) else (s, .doorOpened)
  | .doorClosed => if s = .doorOpened then (s, p) else (p, s)

theorem handle_eq (b : Bool) (p s : State) (ev : Event) :
    ∃ c, (⟨⟨p, s⟩, b⟩ : StateMachine sig).handleWithContext .blocking machine ev () [] = some c ∧
      c.out = .ok () ∧ c.self.initialized = true ∧ c.self.inner.shared = (next p s ev).1 ∧ c.self.inner.state = (next p s ev).2 := by
  simp only [StateMachine.handleWithContext, Inner.handle, Inner.init,
    Blocking.handleEvent, Blocking.handle, Blocking.transition, Blocking.init,
    transitionPath_closed, depth_closed]
  (try rw [Blocking.supHandle])
  apply witness
  cases b <;> cases s <;> cases ev <;> cases p <;> decide +kernel

theorem init_eq (b : Bool) (p s : State) :
    ∃ c, (⟨⟨p, s⟩, b⟩ : StateMachine sig).initWithContext .blocking machine () [] = some c ∧
      c.out = .ok () ∧ c.self.initialized = true ∧ c.self.inner.shared = p ∧ c.self.inner.state = s := by
  simp only [StateMachine.initWithContext, Inner.init, Blocking.init, depth_closed]
  apply witness
  cases b <;> cases s <;> cases p <;> decide +kernel

/-- The machine is in the state that shows the appliance, and while the door is open it remembers the step. -/
def Tracks (sm : StateMachine sig) (a : Appliance) : Prop :=
  sm.inner.state = a.shown ∧ (a.doorOpen = true → sm.inner.shared = ({ a with doorOpen := false } : Appliance).shown)

theorem next_tracks {p s : State} {a : Appliance} (h1 : s = a.shown)
    (h2 : a.doorOpen = true → p = ({ a with doorOpen := false } : Appliance).shown) (ev : Event) :
    (next p s ev).2 = (a.next ev).shown ∧ ((a.next ev).doorOpen = true →
      (next p s ev).1 = ({ a.next ev with doorOpen := false } : Appliance).shown) := by
  obtain ⟨pr, b⟩ := a
  subst h1
  cases b
  · cases pr <;> cases ev <;> simp [next, Appliance.next, Appliance.shown, Program.start, Program.tick]
  · have := h2 rfl
    subst this
    cases pr <;> cases ev <;> simp [next, Appliance.next, Appliance.shown]

theorem exec_tracks {sm : StateMachine sig} {a : Appliance} (h : Tracks sm a) (cmd : Command sig) :
    ∃ c, cmd.exec .blocking machine sm = some c ∧ c.out = .ok () ∧ Tracks c.self (a.call (event? cmd)) := by
  obtain ⟨⟨p, s⟩, b⟩ := sm
  obtain ⟨h1, h2⟩ := h
  cases cmd with
  | init ctx l =>
    have : l = [] := by cases l with | nil => rfl | cons i _ => exact i.elim
    subst this
    obtain ⟨c, h3, h4, -, h5, h6⟩ := init_eq b p s
    exact ⟨c, h3, h4, h6.trans h1, fun h => h5.trans (h2 h)⟩
  | handle ev ctx l =>
    have : l = [] := by cases l with | nil => rfl | cons i _ => exact i.elim
    subst this
    obtain ⟨c, h3, h4, -, h5, h6⟩ := handle_eq b p s ev
    obtain ⟨h7, h8⟩ := next_tracks h1 h2 ev
    exact ⟨c, h3, h4, h6.trans h7, fun h => h5.trans (h8 h)⟩

theorem calls_track {sm : StateMachine sig} {a : Appliance} (h : Tracks sm a) (cmds : List (Command sig)) :
    (callAll .blocking machine sm cmds).map (fun c => (c.out, c.self.inner.state)) =
      (a.calls (cmds.map event?)).map fun a => (.ok (), a.shown) := by
  induction cmds generalizing sm a with
  | nil => rfl
  | cons cmd cmds ih =>
    obtain ⟨c, h1, h2, h3⟩ := exec_tracks h cmd
    simp only [callAll, h1, List.map_cons, Appliance.calls, ih h3, h2, h3.1]

end Statig.Examples.Dishwasher

namespace Statig
open Examples.Dishwasher Statig.Macro

/-- C63, the dishwasher.  In whatever order the macro iterates over its hash maps, it accepts the impl block of
`examples/macro/history`, and what it generates compiles; and the machine it generates cannot be told apart from the
hand-written one of `examples/no_macro/history`: whatever calls are made on both, they have the same outcomes and
run the same callbacks in the same order, on states of the same names. -/
theorem C63_dishwasher (ord) :
    ∃ g, expand Sample.syn ord source = .ok g ∧ g.Compiles ∧ g.iface = gen.iface ∧
      ∀ {cmds cmds'}, ListRel sameNames.Command cmds cmds' →
        ListRel (CallRel sameNames sameNames.Machine)
          (callAll .blocking (gen.iface.machine env)
            (stateMachine (gen.iface.machine env) (unitState "Idle" (by decide +kernel))) cmds)
          (callAll .blocking machine (stateMachine machine .idle) cmds') := by
  obtain ⟨g, h, -⟩ := C46_items gen_eq ord
  obtain ⟨h1, h2⟩ := C46_behaviour gen_eq h compiles
  refine ⟨g, h, h1, h2, fun hc => C50_representation_independence respects ?_ hc⟩
  exact ⟨⟨rfl, rfl⟩, rfl⟩

/-- C64, without the macro.  Whatever calls are made on the dishwasher, each returns, and the machine is in the state
that shows what the appliance is meant to do: the program is paused while the door is open and goes on where it was
when the door is closed. -/
theorem C64_dishwasher (cmds : List (Command sig)) :
    (callAll .blocking machine (stateMachine machine .idle) cmds).map (fun c => (c.out, c.self.inner.state)) =
      (Appliance.calls ⟨.idle, false⟩ (cmds.map event?)).map fun a => (.ok (), a.shown) :=
  calls_track ⟨rfl, by simp⟩ cmds

/-- C64, with the macro. -/
theorem C64_dishwasher_macro (cmds : List (Command (gen.iface.sig types))) :
    (callAll .blocking (gen.iface.machine env)
        (stateMachine (gen.iface.machine env) (unitState "Idle" (by decide +kernel))) cmds).map
        (fun c => (c.out, c.self.inner.state.variant)) =
      (Appliance.calls ⟨.idle, false⟩ (cmds.map event?)).map fun a => (.ok (), a.shown.name) := by
  let f : Command (gen.iface.sig types) → Command sig := fun
    | .init c l => .init c l
    | .handle e c l => .handle e c l
  have hf : ListRel sameNames.Command cmds (cmds.map f) := by
    induction cmds with
    | nil => exact .nil
    | cons cmd cmds ih =>
      refine .cons ?_ ih
      cases cmd with
      | init c l => exact .init rfl (ListRel.refl (fun _ => rfl) l)
      | handle e c l => exact .handle rfl rfl (ListRel.refl (fun _ => rfl) l)
  obtain ⟨-, -, -, -, h⟩ := C63_dishwasher Sample.forwards
  have h := h hf
  have h' := C64_dishwasher (cmds.map f)
  have he : (cmds.map f).map event? = cmds.map event? := by
    rw [List.map_map]
    apply List.map_congr_left
    intro cmd _
    cases cmd <;> rfl
  rw [he] at h'
  have h4 : (callAll .blocking (gen.iface.machine env)
        (stateMachine (gen.iface.machine env) (unitState "Idle" (by decide +kernel))) cmds).map
        (fun c => (c.out, c.self.inner.state.variant)) =
      (callAll .blocking machine (stateMachine machine .idle) (cmds.map f)).map
        fun c => (c.out, c.self.inner.state.name) :=
    ListRel.map_eq h fun c d hcd => Prod.ext hcd.out hcd.self.1.2
  rw [h4]
  have h5 := congrArg (List.map fun p : Out Unit × Examples.Dishwasher.State => (p.1, p.2.name)) h'
  simpa only [List.map_map, Function.comp_def] using h5

/-- C64 at work: the run of the example (`examples/macro/history/src/main.rs:77-110`). -/
example : (Appliance.calls ⟨.idle, false⟩ ([.startProgram, .timerElapsed, .timerElapsed, .doorOpened, .doorClosed,
      .timerElapsed].map some)).map Appliance.shown = [.soap, .rinse, .dry, .doorOpened, .dry, .idle] := rfl

/-- C62 applies to the dishwasher: `previous_state` is the state that was left last. -/
theorem Examples.Dishwasher.recordsSource : RecordsSource machine id where
  handler s sh ev c := .done rfl
  entry s sh c := .done rfl
  exit s sh c := .done rfl
  supHandler v sh ev c := .done rfl
  supEntry v sh c := .done rfl
  supExit v sh c := .done rfl
  beforeDispatch sh n ev := .done rfl
  afterDispatch sh n ev := .done rfl
  beforeTransition sh a b := .done rfl
  afterTransition sh a b := .done rfl

end Statig
