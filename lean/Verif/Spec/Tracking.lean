import Verif.Spec.History
/-!
# Vocabulary of the properties: invariants of the shared storage

What a user has to check of single callbacks to know something about the shared storage after any history.
-/
namespace Statig
variable {S : Sig}

/-- The observation is the start of a callback. -/
def Obs.isStart : Obs S → Bool
  | .returned _ _ => false
  | _ => true

/-- The callbacks started in a trace, in order, with their arguments. -/
def started (T : List (Obs S)) : List (Obs S) := T.filter Obs.isStart

/-- The callbacks started in a history, in order, with their arguments. -/
def historyStarted (l : List (Command S × Call S (StateMachine S))) : List (Obs S) :=
  l.flatMap fun p => started p.2.trace

/-- Every single callback maintains the relation `P` between the callbacks started so far and the shared storage:
if `P` holds when it is started then `P` holds, with this callback added, whenever it returns, panics or is
suspended. -/
structure Maintains (m : Machine S) (P : List (Obs S) → S.M → Prop) : Prop where
  handler : ∀ T s sh ev c, P T sh → (m.handler s sh ev c).All fun w => P (T ++ [.handler (.state s) ev]) w.2.1
  entry : ∀ T s sh c, P T sh → (m.entry s sh c).All fun w => P (T ++ [.entry (.state s)]) w.2.1
  exit : ∀ T s sh c, P T sh → (m.exit s sh c).All fun w => P (T ++ [.exit (.state s)]) w.2.1
  supHandler : ∀ T v sh ev c, P T sh →
    (m.supHandler v sh ev c).All fun w => P (T ++ [.handler (.superstate v) ev]) w.2.1
  supEntry : ∀ T v sh c, P T sh → (m.supEntry v sh c).All fun w => P (T ++ [.entry (.superstate v)]) w.2.1
  supExit : ∀ T v sh c, P T sh → (m.supExit v sh c).All fun w => P (T ++ [.exit (.superstate v)]) w.2.1
  beforeDispatch : ∀ T sh n ev, P T sh → (m.beforeDispatch sh n ev).All fun sh' => P (T ++ [.beforeDispatch n ev]) sh'
  afterDispatch : ∀ T sh n ev, P T sh → (m.afterDispatch sh n ev).All fun sh' => P (T ++ [.afterDispatch n ev]) sh'
  beforeTransition : ∀ T sh a b, P T sh →
    (m.beforeTransition sh a b).All fun sh' => P (T ++ [.beforeTransition a b]) sh'
  afterTransition : ∀ T sh a b, P T sh → (m.afterTransition sh a b).All fun sh' => P (T ++ [.afterTransition a b]) sh'

/-- The shared storage has a part `prev` in which `after_transition` stores the state that was left and which no
other callback changes (`examples/macro/history/src/main.rs:21-24`). -/
structure RecordsSource (m : Machine S) (prev : S.M → S.St) : Prop where
  handler : ∀ s sh ev c, (m.handler s sh ev c).All fun w => prev w.2.1 = prev sh
  entry : ∀ s sh c, (m.entry s sh c).All fun w => prev w.2.1 = prev sh
  exit : ∀ s sh c, (m.exit s sh c).All fun w => prev w.2.1 = prev sh
  supHandler : ∀ v sh ev c, (m.supHandler v sh ev c).All fun w => prev w.2.1 = prev sh
  supEntry : ∀ v sh c, (m.supEntry v sh c).All fun w => prev w.2.1 = prev sh
  supExit : ∀ v sh c, (m.supExit v sh c).All fun w => prev w.2.1 = prev sh
  beforeDispatch : ∀ sh n ev, (m.beforeDispatch sh n ev).All fun sh' => prev sh' = prev sh
  afterDispatch : ∀ sh n ev, (m.afterDispatch sh n ev).All fun sh' => prev sh' = prev sh
  beforeTransition : ∀ sh a b, (m.beforeTransition sh a b).All fun sh' => prev sh' = prev sh
  afterTransition : ∀ sh a b, (m.afterTransition sh a b).All fun sh' => prev sh' = a

/-- The state an observed transition left. -/
def leftState : Obs S → Option S.St
  | .afterTransition a _ => some a
  | _ => none

/-- The state left by the last transition among the observed callbacks. -/
def lastLeft (T : List (Obs S)) : Option S.St := (T.filterMap leftState).getLast?

end Statig
