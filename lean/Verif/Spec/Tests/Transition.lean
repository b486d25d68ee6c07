import Verif.Model.Tests.Transition
import Verif.Spec.History
/-!
# What the machine of the transition tests is meant to do
-/
namespace Statig.Tests.Transition

/-- The transition an event requests in a state, if any. -/
def requested : State → Event → Option State
  | .s11, .A => some .s11
  | .s11, .B => some .s12
  | .s12, .C => some .s211
  | .s211, .D => some .s11
  | _, _ => none

/-- A state and the superstates it is in, from the inside out. -/
def active : State → List (StateWrapper State Superstate)
  | .s11 => [.leaf .s11, .super .s1, .super .s]
  | .s12 => [.leaf .s12, .super .s1, .super .s]
  | .s211 => [.leaf .s211, .super .s21, .super .s2, .super .s]

/-- What a transition records: the exits of what is left, from the inside out, and the entries of what is entered,
from the outside in.  A transition to the same state leaves it and enters it again. -/
def recorded (source target : State) : Path :=
  if source = target then [(.leaf source, .exit), (.leaf source, .entry)] else
    ((active source).filter (· ∉ active target)).map (·, .exit) ++
      (((active target).filter (· ∉ active source)).map (·, .entry)).reverse

/-- What can be seen of a machine: whether it has been initialized, its state and the recorded path. -/
structure View where
  initialized : Bool
  state : State
  path : Path
deriving DecidableEq

/-- The initialization records the entries of the initial state, from the outside in. -/
def View.init (v : View) : View :=
  if v.initialized then v else ⟨true, v.state, v.path ++ ((active v.state).map (·, .entry)).reverse⟩

/-- The effect of an event on an initialized machine. -/
def View.next (v : View) (event : Event) : View :=
  match requested v.state event with
  | none => v
  | some target => ⟨v.initialized, target, v.path ++ recorded v.state target⟩

/-- The effect of a call: handling an event initializes the machine first. -/
def View.call (v : View) : Option Event → View
  | none => v.init
  | some event => v.init.next event

/-- The views after each of a sequence of calls. -/
def View.calls (v : View) : List (Option Event) → List View
  | [] => []
  | call :: calls => v.call call :: (v.call call).calls calls

/-- Of a call on a machine: the event, if it is not only an initialization. -/
def event? {S : Sig} : Command S → Option S.Ev
  | .init _ _ => none
  | .handle event _ _ => some event

/-- What can be seen of the hand-written machine. -/
def view (sm : StateMachine sig) : View := ⟨sm.initialized, sm.inner.state, sm.inner.shared⟩

/-- The name of a state in the generated enum. -/
def State.name : State → Macro.Ident
  | .s11 => "S11"
  | .s12 => "S12"
  | .s211 => "S211"

/-- The name of a superstate in the generated enum. -/
def Superstate.name : Superstate → Macro.Ident
  | .s => "S"
  | .s1 => "S1"
  | .s2 => "S2"
  | .s21 => "S21"

/-- The names along a path. -/
def StateWrapper.map {A B C D : Type} (f : A → C) (g : B → D) : StateWrapper A B → StateWrapper C D
  | .leaf a => .leaf (f a)
  | .super b => .super (g b)

/-- What can be seen by name: initialized or not, the state, the path. -/
abbrev NamedView := Bool × Macro.Ident × List (StateWrapper Macro.Ident Macro.Ident × Action)

/-- The view, by name. -/
def View.named (v : View) : NamedView :=
  (v.initialized, v.state.name, v.path.map fun p => (p.1.map State.name Superstate.name, p.2))

/-- What can be seen of the generated machine, by name. -/
def named {b : Bool} (sm : StateMachine ((gen b).iface.sig (types b))) : NamedView :=
  (sm.initialized, sm.inner.state.variant,
    sm.inner.shared.map fun p => (p.1.map (fun s : MState b => s.variant) (fun s : MSuperstate b => s.variant), p.2))

/-- `expected_path` in `test_transition_path` (`statig/tests/transition.rs:287-305`). -/
def expectedPath : Path := [
  (.super .s, .entry),
  (.super .s1, .entry),
  (.leaf .s11, .entry),
  (.leaf .s11, .exit),
  (.leaf .s11, .entry),
  (.leaf .s11, .exit),
  (.leaf .s12, .entry),
  (.leaf .s12, .exit),
  (.super .s1, .exit),
  (.super .s2, .entry),
  (.super .s21, .entry),
  (.leaf .s211, .entry),
  (.leaf .s211, .exit),
  (.super .s21, .exit),
  (.super .s2, .exit),
  (.super .s1, .entry),
  (.leaf .s11, .entry)]

/-- Handle events one after the other, as long as the calls return normally. -/
def handleAll (mode : Mode) : InitializedStateMachine sig → List Event → Option (InitializedStateMachine sig)
  | sm, [] => some sm
  | sm, event :: events => do
    let c ← sm.handle mode machine () event []
    match c.out with
    | .ok () => handleAll mode c.self events
    | _ => none

/-- `Foo::default().uninitialized_state_machine().init()`, followed by a sequence of events
(`statig/tests/transition.rs:280-285`, `statig/tests/async_transition.rs:309-319`): the resulting machine. -/
def run (mode : Mode) (events : List Event) : Option (InitializedStateMachine sig) := do
  let c ← (uninitializedStateMachine machine []).init mode machine () []
  match c.out, c.self with
  | .ok (), some sm => handleAll mode sm events
  | _, _ => none

end Statig.Tests.Transition
