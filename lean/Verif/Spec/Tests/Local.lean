import Verif.Model.Tests.Local
import Verif.Spec.History
/-!
# What the machines of the tests of state-local storage are meant to do
-/
namespace Statig.Tests.LocalStorage

/-- The state after a number of events, with its local storage. -/
def stateAfter (events : Nat) : State :=
  if events = 0 then .on false 23 else if events % 2 = 1 then .off false else .on true 34

/-- What is expected of a sequence of calls: how they end, and the state. -/
def expected (events : Nat) : List (Command sig) → List (Out Unit × State)
  | [] => []
  | .init _ _ :: cmds => (.ok (), stateAfter events) :: expected events cmds
  | .handle _ _ _ :: cmds => (.ok (), stateAfter (events + 1)) :: expected (events + 1) cmds

end Statig.Tests.LocalStorage
