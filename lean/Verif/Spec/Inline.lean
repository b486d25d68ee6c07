import Verif.Spec.History
/-!
# Vocabulary of the properties: what is done with an event, by state and superstates together

The point of superstates is that states share behaviour: what a state does not handle is left to its superstate.  Here
it is said what the state and its superstates do together, as if it were one handler of the state.
-/
namespace Statig

/-- First `f`, and, if its response is `Super`, `next` in the world that `f` left. -/
def Fut.deferred {In W T : Type} (f : Fut In W (Response T)) (next : W → Fut In W (Response T)) :
    Fut In W (Response T) :=
  match f with
  | .done w .super => next w
  | .done w r => .done w r
  | .panic w => .panic w
  | .pending w k => .pending w fun i => (k i).deferred next

/-- The same, seen by the owner of what it works on. -/
def Fut.within {In V W α : Type} (put : V → W) : Fut In V α → Fut In W α
  | .done v a => .done (put v) a
  | .panic v => .panic (put v)
  | .pending v k => .pending (put v) fun i => (k i).within put

variable {S : Sig}

/-- What handlers are: something done with an event, in `σ`, the shared storage and the context. -/
abbrev Handling (S : Sig) (σ : Type) := σ → S.M → S.Ev → S.Ctx → Fut S.In (σ × S.M × S.Ctx) (Response S.St)

/-- What is done by a superstate that may be there: it works on a view of `σ`. -/
def Machine.leftTo {σ : Type} (sup : σ → Option (S.Sup × (S.Sup → σ))) (whole : Handling S S.Sup) (ev : S.Ev)
    (w : σ × S.M × S.Ctx) : Fut S.In (σ × S.M × S.Ctx) (Response S.St) :=
  match sup w.1 with
  | none => .done w .super
  | some (v, put) => (whole v w.2.1 ev w.2.2).within fun u => (put u.1, u.2)

/-- `whole` is what each state does with an event together with its superstates, and `supWhole` the same for
superstates: the own handler first and, if that returns `Super`, what the superstate does. -/
structure Machine.Together (m : Machine S) (whole : Handling S S.St) (supWhole : Handling S S.Sup) : Prop where
  state : ∀ s sh ev c, whole s sh ev c = (m.handler s sh ev c).deferred (Machine.leftTo m.superstate supWhole ev)
  sup : ∀ v sh ev c, supWhole v sh ev c = (m.supHandler v sh ev c).deferred (Machine.leftTo m.supSuperstate supWhole ev)

/-- Two machines that differ at most in their handlers. -/
structure Machine.SameButHandlers (m n : Machine S) : Prop where
  initial : n.initial = m.initial
  discr : n.discr = m.discr
  supDiscr : n.supDiscr = m.supDiscr
  entry : n.entry = m.entry
  exit : n.exit = m.exit
  superstate : n.superstate = m.superstate
  supEntry : n.supEntry = m.supEntry
  supExit : n.supExit = m.supExit
  supSuperstate : n.supSuperstate = m.supSuperstate
  beforeDispatch : n.beforeDispatch = m.beforeDispatch
  afterDispatch : n.afterDispatch = m.afterDispatch
  beforeTransition : n.beforeTransition = m.beforeTransition
  afterTransition : n.afterTransition = m.afterTransition

/-- The machine in which the states do everything themselves, with `whole` as their handlers, and leave nothing to do to
their superstates. -/
def Machine.inlined (m : Machine S) (whole : Handling S S.St) : Machine S :=
  { m with
    handler := whole
    supHandler := fun v sh _ c => .done (v, sh, c) .super }

/-- The machine without superstates, in which the states do everything themselves, with `whole` as their handlers. -/
def Machine.flat (m : Machine S) (whole : Handling S S.St) : Machine S :=
  { m with
    handler := whole
    superstate := fun _ => none
    superstate_back := nofun
    supHandler := fun v sh _ c => .done (v, sh, c) .super
    supSuperstate := fun _ => none
    supSuperstate_back := nofun }

/-- The actions of superstates do nothing. -/
structure Machine.NoSupActions (m : Machine S) : Prop where
  entry : ∀ v sh c, m.supEntry v sh c = .done (v, sh, c) ()
  exit : ∀ v sh c, m.supExit v sh c = .done (v, sh, c) ()

/-- The dispatch hooks do nothing (as by default). -/
structure Machine.NoDispatchHooks (m : Machine S) : Prop where
  before : ∀ sh n ev, m.beforeDispatch sh n ev = .done sh ()
  after : ∀ sh n ev, m.afterDispatch sh n ev = .done sh ()

/-- Observations of actions and transition hooks, not of handlers and dispatch hooks. -/
def Obs.ofTransition : Obs S → Bool
  | .entry _ => true
  | .exit _ => true
  | .beforeTransition _ _ => true
  | .afterTransition _ _ => true
  | _ => false

/-- Two calls end in the same way, leave the same machine, context and unused inputs, and make the same entry and exit
actions and calls of transition hooks, on the same data and in the same order. -/
structure SameTransitions (c d : Call S (StateMachine S)) : Prop where
  out : d.out = c.out
  self : d.self = c.self
  ctx : d.ctx = c.ctx
  sched : d.sched = c.sched
  trace : d.trace.filter Obs.ofTransition = c.trace.filter Obs.ofTransition

/-- Observations of the actions of states and of transition hooks. -/
def Obs.ofStates : Obs S → Bool
  | .entry (.state _) => true
  | .exit (.state _) => true
  | .beforeTransition _ _ => true
  | .afterTransition _ _ => true
  | _ => false

/-- The same without the actions of superstates. -/
structure SameStates (c d : Call S (StateMachine S)) : Prop where
  out : d.out = c.out
  self : d.self = c.self
  ctx : d.ctx = c.ctx
  sched : d.sched = c.sched
  trace : d.trace.filter Obs.ofStates = c.trace.filter Obs.ofStates

end Statig
