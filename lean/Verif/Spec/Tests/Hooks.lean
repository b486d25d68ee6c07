import Verif.Model.Tests.Hooks
import Verif.Spec.History
/-!
# What the machines of the tests of hooks are meant to do

Every event is a transition to the other state, and runs all four hooks.
-/
namespace Statig.Tests.Hooks
open Statig.Macro

/-- The name of the state after a number of events. -/
def stateName (events : Nat) : Ident := if events % 2 = 0 then "Foo" else "Bar"

/-- The flags after a number of events: all hooks have run as soon as there was an event, and none before. -/
def flags (events : Nat) : FooBar := ⟨0 < events, 0 < events, 0 < events, 0 < events⟩

/-- What is expected of a sequence of calls: how they end, the state, and the flags. -/
def expected {S : Sig} (events : Nat) : List (Command S) → List (Out Unit × Ident × FooBar)
  | [] => []
  | .init _ _ :: cmds => (.ok (), stateName events, flags events) :: expected events cmds
  | .handle _ _ _ :: cmds => (.ok (), stateName (events + 1), flags (events + 1)) :: expected (events + 1) cmds

end Statig.Tests.Hooks
