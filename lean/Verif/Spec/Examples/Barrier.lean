import Verif.Model.Examples.Barrier
import Verif.Spec.History
/-!
# What the machine of the example `barrier` is meant to do

It waits until certain events have been received, in any order.
-/
namespace Statig.Examples.Barrier

/-- Of a call on a machine: the event, if it is not only an initialization. -/
def event? {S : Sig} : Command S → Option S.Ev
  | .init _ _ => none
  | .handle event _ _ => some event

/-- The state after a sequence of calls: initialized once `B` and `C` have been received, before that a record of
what has been received.  `A` is taken as received from the start (`#[default = "true"]`). -/
def after (calls : List (Option Event)) : MState :=
  if some .B ∈ calls ∧ some .C ∈ calls then initialized
  else initializing true (some .B ∈ calls) (some .C ∈ calls)

end Statig.Examples.Barrier
