import Verif.Spec.Forest
/-!
# Vocabulary of the properties: logs

The log of a call at the level of variants, its projections, and the logs allowed for a complete call.
-/
namespace Statig

/-- An observation in which the nodes are reduced to their variants.  `V` is the event type and `T` the type
of transition targets: what a handler returned is kept exactly. -/
inductive Step (D E V T : Type) where
  | handler (n : Node D E) (ev : V)
  | returned (n : Node D E) (r : Response T)
  | entry (n : Node D E)
  | exit (n : Node D E)
  | beforeDispatch (n : Node D E) (ev : V)
  | afterDispatch (n : Node D E) (ev : V)
  | beforeTransition (a b : D)
  | afterTransition (a b : D)

variable {S : Sig}

/-- The node of a state or superstate value. -/
def Machine.node (m : Machine S) : StateOrSuperstate S.St S.Sup → Node S.D S.E
  | .state s => .leaf (m.discr s)
  | .superstate v => .sup (m.supDiscr v)

/-- Reduce an observation to variants. -/
def Machine.step (m : Machine S) : Obs S → Step S.D S.E S.Ev S.St
  | .handler n ev => .handler (m.node n) ev
  | .returned n r => .returned (m.node n) r
  | .entry n => .entry (m.node n)
  | .exit n => .exit (m.node n)
  | .beforeDispatch n ev => .beforeDispatch (m.node n) ev
  | .afterDispatch n ev => .afterDispatch (m.node n) ev
  | .beforeTransition a b => .beforeTransition (m.discr a) (m.discr b)
  | .afterTransition a b => .afterTransition (m.discr a) (m.discr b)

/-- The log of a call at the level of variants. -/
def Machine.steps (m : Machine S) (l : List (Obs S)) : List (Step S.D S.E S.Ev S.St) := l.map m.step

section projections
variable {D E V T : Type}

/-- Nodes whose handlers were called, in order. -/
def handlersOf (l : List (Step D E V T)) : List (Node D E) :=
  l.filterMap fun | .handler n _ => some n | _ => none

/-- Events the handlers were called with, in order. -/
def eventsOf (l : List (Step D E V T)) : List V :=
  l.filterMap fun | .handler _ ev => some ev | _ => none

/-- Handlers that returned, with their responses, in order. -/
def responsesOf (l : List (Step D E V T)) : List (Node D E × Response T) :=
  l.filterMap fun | .returned n r => some (n, r) | _ => none

/-- Nodes whose entry actions were called, in order. -/
def entriesOf (l : List (Step D E V T)) : List (Node D E) :=
  l.filterMap fun | .entry n => some n | _ => none

/-- Nodes whose exit actions were called, in order. -/
def exitsOf (l : List (Step D E V T)) : List (Node D E) :=
  l.filterMap fun | .exit n => some n | _ => none

/-- An entry or exit action. -/
inductive Act (D E : Type) where
  | enter (n : Node D E)
  | leave (n : Node D E)
deriving DecidableEq

/-- Entry and exit actions called, in order. -/
def actionsOf (l : List (Step D E V T)) : List (Act D E) :=
  l.filterMap fun | .entry n => some (.enter n) | .exit n => some (.leave n) | _ => none

/-- The steps that belong to a transition: entry and exit actions and the transition hooks. -/
def Step.ofTransition : Step D E V T → Bool
  | .entry _ | .exit _ | .beforeTransition _ _ | .afterTransition _ _ => true
  | _ => false

/-- A call of `before_transition`. -/
def Step.isBeforeTransition : Step D E V T → Bool
  | .beforeTransition _ _ => true
  | _ => false

/-- A call of `after_transition`. -/
def Step.isAfterTransition : Step D E V T → Bool
  | .afterTransition _ _ => true
  | _ => false

/-- An entry or exit action. -/
def Step.isAction : Step D E V T → Bool
  | .entry _ | .exit _ => true
  | _ => false

/-- `Climb path cl`: the handlers of the nodes of `path` are called one after the other with the responses
recorded in `cl`; a `super` response moves one node up (or ends the climb at the top), any other response
ends the climb. -/
inductive Climb : List (Node D E) → List (Node D E × Response T) → Prop where
  | stop {n path r} : r ≠ .super → Climb (n :: path) [(n, r)]
  | top {n} : Climb [n] [(n, .super)]
  | up {n path cl} : Climb path cl → Climb (n :: path) ((n, .super) :: cl)

/-- The response of the last handler called. -/
def lastResponse (cl : List (Node D E × Response T)) : Option (Response T) :=
  cl.getLast?.map (·.2)

/-- Awaitable dispatch log: every level is announced, handled and closed before the next. -/
def sequentialLog (ev : V) : List (Node D E × Response T) → List (Step D E V T)
  | [] => []
  | (n, r) :: rest =>
    [.beforeDispatch n ev, .handler n ev, .returned n r, .afterDispatch n ev] ++ sequentialLog ev rest

/-- Superstate part of the blocking dispatch log: a level is closed only after all the levels above it. -/
def nestedLog (ev : V) : List (Node D E × Response T) → List (Step D E V T)
  | [] => []
  | (n, r) :: rest =>
    [.beforeDispatch n ev, .handler n ev, .returned n r] ++ nestedLog ev rest ++ [.afterDispatch n ev]

/-- Blocking dispatch log: the leaf is announced, handled and closed; then the superstates, nested. -/
def blockingLog (ev : V) : List (Node D E × Response T) → List (Step D E V T)
  | [] => []
  | (n, r) :: rest =>
    [.beforeDispatch n ev, .handler n ev, .returned n r, .afterDispatch n ev] ++ nestedLog ev rest

/-- Dispatch log of the given mode. -/
def dispatchLog : Mode → V → List (Node D E × Response T) → List (Step D E V T)
  | .blocking => blockingLog
  | .awaitable => sequentialLog

/-- Log of a complete transition from variant `d` to variant `t`.  The order in which `before_transition`
receives the two states differs between the modes (see C13). -/
def transitionLog [DecidableEq D] [DecidableEq E] (mode : Mode) (F : Forest D E) (d t : D) :
    List (Step D E V T) :=
  (match mode with
    | .blocking => .beforeTransition t d
    | .awaitable => .beforeTransition d t) ::
  ((F.exits d t).map .exit ++ (F.entries d t).map .entry ++ [.afterTransition d t])

/-- Log of a complete `handle` call in variant `d`, given the handlers called with their responses. -/
def handleLog [DecidableEq D] [DecidableEq E] (mode : Mode) (F : Forest D E) (variant : T → D) (d : D)
    (ev : V) (cl : List (Node D E × Response T)) : List (Step D E V T) :=
  dispatchLog mode ev cl ++
    match lastResponse cl with
    | some (.transition t) => transitionLog mode F d (variant t)
    | _ => []

/-- Log of a complete initialization in variant `d`. -/
def initLog (F : Forest D E) (d : D) : List (Step D E V T) := (F.path d).reverse.map .entry

end projections
end Statig
