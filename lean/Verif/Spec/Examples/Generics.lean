import Verif.Model.Examples.Generics
import Verif.Spec.History
/-!
# What the example `generics` is meant to do
-/
namespace Statig.Examples.Generic
open Statig.Macro

/-- A machine that has nothing, or has a value, with a buffer. -/
inductive Place (T : Type) where
  | nothing
  | holds (value : T) (buffer : List T)

/-- The state that shows it. -/
def Place.state {T : Type} : Place T → MState T
  | .nothing => stateFoo
  | .holds value buffer => stateBar value buffer

/-- What a call does (`none` is `init`): an event `Bar` is taken when there is nothing, and the buffer is filled with
`size` defaults; an event `Foo` takes away what is held; everything else is ignored. -/
def Place.call {T : Type} (zero : T) (size : Nat) : Place T → Option (Event T) → Place T
  | .nothing, some (.bar value) => .holds value (List.replicate size zero)
  | .holds _ _, some .foo => .nothing
  | p, _ => p

/-- The values that are printed during a call. -/
def Place.prints {T : Type} : Place T → Option (Event T) → List T
  | .nothing, some (.bar value) => [value]
  | _, _ => []

/-- The outcome of a call: it panics if a value that is to be printed cannot be. -/
def Place.outcome {T : Type} (debug : Dbg T) (p : Place T) (call : Option (Event T)) : Out Unit :=
  if (p.prints call).all fun v => (debug false v).ok then .ok () else .panic

/-- Outcomes, states and printed values of a sequence of calls. -/
def Place.calls {T : Type} (debug : Dbg T) (zero : T) (size : Nat) (p : Place T) :
    List (Option (Event T)) → List (Out Unit × MState T × List T)
  | [] => []
  | call :: calls =>
    (p.outcome debug call, (p.call zero size call).state, p.prints call) ::
      Place.calls debug zero size (p.call zero size call) calls

/-- Of a call on a machine: the event, if it is not only an initialization. -/
def called {S : Sig} : Command S → Option S.Ev
  | .init _ _ => none
  | .handle event _ _ => some event

/-- Of what is observed: the value for which the entry action of `bar` runs, which prints it. -/
def entered {T : Type} : Obs (gen.iface.sig (types T)) → Option T
  | .entry (.state s) =>
    match s.get "value" with
    | some (.value v) => some v
    | _ => none
  | _ => none

end Statig.Examples.Generic
