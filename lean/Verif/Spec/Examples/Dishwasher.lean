import Verif.Model.Examples.Dishwasher
import Verif.Spec.History
/-!
# What the dishwasher of the example `history` is meant to do

A dishwasher runs a program in steps.  While its door is open the program is paused; when the door is closed the
program goes on with the step it was in.
-/
namespace Statig.Examples.Dishwasher

/-- The steps of the program. -/
inductive Program where
  | idle
  | soap
  | rinse
  | dry
deriving DecidableEq

/-- The step of the program, and whether the door is open. -/
structure Appliance where
  program : Program
  doorOpen : Bool
deriving DecidableEq

/-- Starting the program has an effect only when it is not running. -/
def Program.start : Program → Program
  | .idle => .soap
  | p => p

/-- When the timer elapses a running program goes on to the next step. -/
def Program.tick : Program → Program
  | .idle => .idle
  | .soap => .rinse
  | .rinse => .dry
  | .dry => .idle

/-- What an event does. -/
def Appliance.next (a : Appliance) : Event → Appliance
  | .startProgram => if a.doorOpen then a else { a with program := a.program.start }
  | .timerElapsed => if a.doorOpen then a else { a with program := a.program.tick }
  | .doorOpened => { a with doorOpen := true }
  | .doorClosed => { a with doorOpen := false }

/-- What is shown of the appliance: that the door is open, or the step of the program. -/
def Appliance.shown (a : Appliance) : State :=
  if a.doorOpen then .doorOpened else
    match a.program with
    | .idle => .idle
    | .soap => .soap
    | .rinse => .rinse
    | .dry => .dry

/-- What a call does: initializing the machine does nothing to the appliance. -/
def Appliance.call (a : Appliance) : Option Event → Appliance
  | none => a
  | some event => a.next event

/-- The appliance after each of a sequence of calls. -/
def Appliance.calls (a : Appliance) : List (Option Event) → List Appliance
  | [] => []
  | call :: calls => a.call call :: (a.call call).calls calls

/-- The name of a state in the generated enum. -/
def State.name : State → Macro.Ident
  | .idle => "Idle"
  | .soap => "Soap"
  | .rinse => "Rinse"
  | .dry => "Dry"
  | .doorOpened => "DoorOpened"

/-- Of a call on a machine: the event, if it is not only an initialization. -/
def event? {S : Sig} : Command S → Option S.Ev
  | .init _ _ => none
  | .handle event _ _ => some event

end Statig.Examples.Dishwasher
