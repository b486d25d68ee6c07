import Verif.Spec.History
/-!
# Vocabulary of the properties: leaving out superstates

A hierarchy often contains superstates that only group states.  Here it is said what it means that one machine is
another one without some of its superstates.
-/
namespace Statig
variable {S : Sig}

/-- The first superstate that is not left out, seen from something whose superstate is given, if there is any: a view
of a superstate that is left out is replaced by that superstate's view of its own superstate, writing back through
both. -/
inductive Machine.Skips (m : Machine S) (hidden : S.E → Bool) {σ : Type} :
    Option (S.Sup × (S.Sup → σ)) → Option (S.Sup × (S.Sup → σ)) → Prop where
  | none : Machine.Skips m hidden none none
  | keep {v put} : hidden (m.supDiscr v) = false → Machine.Skips m hidden (some (v, put)) (some (v, put))
  | skip {v put q} : hidden (m.supDiscr v) = true →
      Machine.Skips m hidden ((m.supSuperstate v).map fun p => (p.1, fun w => put (p.2 w))) q →
      Machine.Skips m hidden (some (v, put)) q

/-- Superstates without behaviour: the handler defers every event, the actions do nothing, and the hooks do nothing
when they are called for them. -/
structure Machine.Silent (m : Machine S) (hidden : S.E → Bool) : Prop where
  handler : ∀ v sh ev c, hidden (m.supDiscr v) = true → m.supHandler v sh ev c = .done (v, sh, c) .super
  entry : ∀ v sh c, hidden (m.supDiscr v) = true → m.supEntry v sh c = .done (v, sh, c) ()
  exit : ∀ v sh c, hidden (m.supDiscr v) = true → m.supExit v sh c = .done (v, sh, c) ()
  beforeDispatch : ∀ sh v ev, hidden (m.supDiscr v) = true → m.beforeDispatch sh (.superstate v) ev = .done sh ()
  afterDispatch : ∀ sh v ev, hidden (m.supDiscr v) = true → m.afterDispatch sh (.superstate v) ev = .done sh ()

/-- `n` is `m` without the superstates in `hidden`: the same callbacks, but the superstate of a state or superstate is
the nearest one that is not left out. -/
structure Machine.Without (m : Machine S) (hidden : S.E → Bool) (n : Machine S) : Prop where
  initial : n.initial = m.initial
  discr : n.discr = m.discr
  supDiscr : n.supDiscr = m.supDiscr
  handler : n.handler = m.handler
  entry : n.entry = m.entry
  exit : n.exit = m.exit
  supHandler : n.supHandler = m.supHandler
  supEntry : n.supEntry = m.supEntry
  supExit : n.supExit = m.supExit
  beforeDispatch : n.beforeDispatch = m.beforeDispatch
  afterDispatch : n.afterDispatch = m.afterDispatch
  beforeTransition : n.beforeTransition = m.beforeTransition
  afterTransition : n.afterTransition = m.afterTransition
  superstate : ∀ s, m.Skips hidden (m.superstate s) (n.superstate s)
  supSuperstate : ∀ v, m.Skips hidden (m.supSuperstate v) (n.supSuperstate v)

/-- Is the state or superstate still there? -/
def Machine.shows (m : Machine S) (hidden : S.E → Bool) : StateOrSuperstate S.St S.Sup → Bool
  | .state _ => true
  | .superstate v => !hidden (m.supDiscr v)

/-- Is the observation about something that is still there? -/
def Machine.showsObs (m : Machine S) (hidden : S.E → Bool) : Obs S → Bool
  | .handler n _ => m.shows hidden n
  | .returned n _ => m.shows hidden n
  | .entry n => m.shows hidden n
  | .exit n => m.shows hidden n
  | .beforeDispatch n _ => m.shows hidden n
  | .afterDispatch n _ => m.shows hidden n
  | .beforeTransition _ _ => true
  | .afterTransition _ _ => true

/-- Two calls that differ only in the callbacks of superstates that are left out in the second: they end in the same
way, leave the same machine, context and unused inputs, and the callbacks of the second are those of the first, with
the same arguments and responses and in the same order, except those of the superstates that are left out. -/
structure Machine.SameWithout (m : Machine S) (hidden : S.E → Bool) (c d : Call S (StateMachine S)) : Prop where
  out : d.out = c.out
  self : d.self = c.self
  ctx : d.ctx = c.ctx
  sched : d.sched = c.sched
  trace : d.trace = c.trace.filter (m.showsObs hidden)

end Statig
