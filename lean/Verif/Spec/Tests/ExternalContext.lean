import Verif.Model.Tests.ExternalContext
import Verif.Spec.History
/-!
# What the counter of the test of external contexts is meant to do

It counts up after an even number of timer events and down after an odd number.
-/
namespace Statig.Tests.ExternalContext
open Statig.Macro

/-- The direction after the given events. -/
def goesUp (past : List Event) : Bool := past.count .timerElapsed % 2 == 0

/-- A press of the button counts, in the direction that past events determine; nothing else changes the context. -/
def counted (max : Nat) (past : List Event) (event : Event) (c : Context) : Context :=
  match event with
  | .buttonPressed => if goesUp past then ⟨min (c.a + 1) max, c.b⟩ else ⟨c.a - 1, c.b⟩
  | .timerElapsed => c

/-- The name of the state after the given events. -/
def stateName (past : List Event) : Ident := if goesUp past then "Up" else "Down"

/-- What is expected of a sequence of calls, each with a context of its own: how they end, the state they leave, and
what they do to the context they get. -/
def expected (max : Nat) (past : List Event) : List (Command (gen.iface.sig types)) → List (Out Unit × Ident × Context)
  | [] => []
  | .init c _ :: cmds => (.ok (), stateName past, c) :: expected max past cmds
  | .handle event c _ :: cmds =>
    (.ok (), stateName (past ++ [event]), counted max past event c) :: expected max (past ++ [event]) cmds

/-- What is expected of handling events with one and the same context. -/
def total (max : Nat) (past : List Event) (c : Context) : List Event → Context
  | [] => c
  | event :: events => total max (past ++ [event]) (counted max past event c) events

/-- `for event in &events { blinky.handle_with_context(event, &mut external_context); }`
(`statig/tests/external_context.rs:56-58, 69-71`), as long as the calls return normally. -/
def handleAll (max : Nat) (sm : InitializedStateMachine (gen.iface.sig types)) (c : Context) :
    List Event → Option (InitializedStateMachine (gen.iface.sig types) × Context)
  | [] => some (sm, c)
  | event :: events => do
    let r ← sm.handleWithContext gen.mode (machine max) event c []
    match r.out with
    | .ok () => handleAll max r.self r.ctx events
    | _ => none

/-- `Counter.uninitialized_state_machine().init_with_context(&mut external_context)`
(`statig/tests/external_context.rs:46-48`), and then a sequence of events. -/
def run (max : Nat) (c : Context) (events : List Event) :
    Option (InitializedStateMachine (gen.iface.sig types) × Context) := do
  let r ← (uninitializedStateMachine (machine max) ()).initWithContext gen.mode (machine max) c []
  match r.out, r.self with
  | .ok (), some sm => handleAll max sm r.ctx events
  | _, _ => none

end Statig.Tests.ExternalContext
