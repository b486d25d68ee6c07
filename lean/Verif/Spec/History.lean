import Verif.Model.Api
import Verif.Spec.Log
/-!
# Vocabulary of the properties: histories of API calls
-/
namespace Statig
variable {S : Sig}

/-- A call a user can make on a `StateMachine`, with the context it passes and the poll schedule the call
meets. -/
inductive Command (S : Sig) where
  | init (ctx : S.Ctx) (sched : List S.In)
  | handle (ev : S.Ev) (ctx : S.Ctx) (sched : List S.In)

/-- Make the call. -/
def Command.exec (mode : Mode) (m : Machine S) (sm : StateMachine S) :
    Command S → Option (Call S (StateMachine S))
  | .init ctx sched => sm.initWithContext mode m ctx sched
  | .handle ev ctx sched => sm.handleWithContext mode m ev ctx sched

/-- The results of making calls one after the other, as long as they return. -/
def callAll (mode : Mode) (m : Machine S) :
    StateMachine S → List (Command S) → List (Call S (StateMachine S))
  | _, [] => []
  | sm, cmd :: cmds =>
    match cmd.exec mode m sm with
    | none => []
    | some c => c :: callAll mode m c.self cmds

/-- `History mode m sm l sm'`: starting with `sm` the calls in `l` were made in order, with the listed
results, leaving `sm'`. -/
inductive History (mode : Mode) (m : Machine S) :
    StateMachine S → List (Command S × Call S (StateMachine S)) → StateMachine S → Prop where
  | nil {sm} : History mode m sm [] sm
  | cons {sm cmd c l sm'} : cmd.exec mode m sm = some c → History mode m c.self l sm' →
      History mode m sm ((cmd, c) :: l) sm'

/-- All the callbacks of a history, at the level of variants. -/
def historySteps (m : Machine S) (l : List (Command S × Call S (StateMachine S))) :
    List (Step S.D S.E S.Ev S.St) := l.flatMap fun p => m.steps p.2.trace

/-- Replay a log of entry and exit actions on a stack of active nodes (innermost on top): entering a node
pushes it and is legal only directly inside its parent; leaving a node pops it and is legal only if it is on
top. -/
def replay {D E : Type} [DecidableEq D] [DecidableEq E] (F : Forest D E) :
    List (Act D E) → List (Node D E) → Option (List (Node D E))
  | [], stack => some stack
  | .enter n :: rest, stack =>
    if F.parent n = stack.head? then replay F rest (n :: stack) else none
  | .leave n :: rest, stack =>
    if stack.head? = some n then replay F rest stack.tail else none

end Statig
