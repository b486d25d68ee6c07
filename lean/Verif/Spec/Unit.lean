import Verif.Model.Unit
/-!
# What a machine without superstates should do

An ordinary state machine: a list of callbacks to make, one after the other.  A callback that panics, or is dropped,
ends the list.
-/
namespace Statig
variable {S : Sig} (m : Machine S)

/-- Initialization makes the initial state's entry action. -/
def plainInit : Eff S S.St Unit := callEntry m

/-- An event: it is given to the current state, between the dispatch hooks.  If the answer is a transition the current
state is exited, replaced by the target as given, and that is entered, whether or not they are the same state, between
the transition hooks.  (In blocking mode the first of these gets its arguments in the wrong order, see C13.) -/
def plainHandle (mode : Mode) (ev : S.Ev) : Eff S S.St Unit := do
  hookBeforeDispatch m ev
  let response ← callHandler m ev
  hookAfterDispatch m ev
  match response with
  | .handled => pure ()
  | .super => pure ()
  | .transition target =>
    let source ← Eff.self
    match mode with
    | .blocking => hookBeforeTransition m target source
    | .awaitable => hookBeforeTransition m source target
    callExit m
    let source ← Eff.swap target
    callEntry m
    let target ← Eff.self
    hookAfterTransition m source target

variable {M St Ev Ctx In D : Type} [DecidableEq D]

/-- The same machine, with `superstate` returning `None`. -/
def UnitMachine.bare (f : UnitMachine M St Ev Ctx In D) : UnitMachine M St Ev Ctx In D :=
  { f with nested := fun _ => false }

/-- The dispatch hooks do nothing when they are told that the event is dispatched to a superstate. -/
structure UnitMachine.HooksForStates (f : UnitMachine M St Ev Ctx In D) : Prop where
  before : ∀ sh ev, f.beforeDispatch sh (.superstate ()) ev = .done sh ()
  after : ∀ sh ev, f.afterDispatch sh (.superstate ()) ev = .done sh ()

end Statig
