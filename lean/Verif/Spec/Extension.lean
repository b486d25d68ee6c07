import Verif.Spec.History
/-!
# Vocabulary of the properties: adding states to a machine

The types of states and superstates grow, the rest of the user's types stay.
-/
namespace Statig

/-- The result of a callback, with its data renamed. -/
def Fut.image {I W W' A B : Type} (f : W → W') (g : A → B) : Fut I W A → Fut I W' B
  | .done w a => .done (f w) (g a)
  | .panic w => .panic (f w)
  | .pending w k => .pending (f w) fun i => (k i).image f g

/-- A response, with its target renamed. -/
def Response.image {A B : Type} (f : A → B) : Response A → Response B
  | .handled => .handled
  | .super => .super
  | .transition t => .transition (f t)

/-- A state or superstate, renamed. -/
def StateOrSuperstate.image {A B A' B' : Type} (f : A → A') (g : B → B') :
    StateOrSuperstate A B → StateOrSuperstate A' B'
  | .state s => .state (f s)
  | .superstate v => .superstate (g v)

/-- The types of a machine with other types of states and superstates. -/
abbrev Sig.grow (S : Sig) (St Sup D E : Type) [DecidableEq D] [DecidableEq E] : Sig where
  M := S.M
  St := St
  Sup := Sup
  Ev := S.Ev
  Ctx := S.Ctx
  In := S.In
  D := D
  E := E

section
variable {S : Sig} {St Sup D E : Type} [DecidableEq D] [DecidableEq E] (st : S.St → St) (sup : S.Sup → Sup)

/-- `n` has all the states and superstates of `m`, with the same callbacks and hierarchy, and maybe more.  `st` and
`sup` give the new versions of the states and superstates of `m`. -/
structure Machine.ExtendedBy (m : Machine S) (n : Machine (S.grow St Sup D E)) : Prop where
  discr : ∀ a b, n.discr (st a) = n.discr (st b) ↔ m.discr a = m.discr b
  supDiscr : ∀ a b, n.supDiscr (sup a) = n.supDiscr (sup b) ↔ m.supDiscr a = m.supDiscr b
  handler : ∀ s x e c, n.handler (st s) x e c =
    (m.handler s x e c).image (fun w => (st w.1, w.2)) (Response.image st)
  entry : ∀ s x c, n.entry (st s) x c = (m.entry s x c).image (fun w => (st w.1, w.2)) id
  exit : ∀ s x c, n.exit (st s) x c = (m.exit s x c).image (fun w => (st w.1, w.2)) id
  supHandler : ∀ v x e c, n.supHandler (sup v) x e c =
    (m.supHandler v x e c).image (fun w => (sup w.1, w.2)) (Response.image st)
  supEntry : ∀ v x c, n.supEntry (sup v) x c = (m.supEntry v x c).image (fun w => (sup w.1, w.2)) id
  supExit : ∀ v x c, n.supExit (sup v) x c = (m.supExit v x c).image (fun w => (sup w.1, w.2)) id
  superstate_none : ∀ s, m.superstate s = none → n.superstate (st s) = none
  superstate_some : ∀ s v back, m.superstate s = some (v, back) →
    ∃ back', n.superstate (st s) = some (sup v, back') ∧ ∀ w, back' (sup w) = st (back w)
  supSuperstate_none : ∀ v, m.supSuperstate v = none → n.supSuperstate (sup v) = none
  supSuperstate_some : ∀ u v back, m.supSuperstate u = some (v, back) →
    ∃ back', n.supSuperstate (sup u) = some (sup v, back') ∧ ∀ w, back' (sup w) = sup (back w)
  beforeDispatch : ∀ x k e, n.beforeDispatch x (k.image st sup) e = m.beforeDispatch x k e
  afterDispatch : ∀ x k e, n.afterDispatch x (k.image st sup) e = m.afterDispatch x k e
  beforeTransition : ∀ x a b, n.beforeTransition x (st a) (st b) = m.beforeTransition x a b
  afterTransition : ∀ x a b, n.afterTransition x (st a) (st b) = m.afterTransition x a b

/-- An observation on the larger machine. -/
def Obs.grown : Obs S → Obs (S.grow St Sup D E)
  | .handler k e => .handler (k.image st sup) e
  | .returned k r => .returned (k.image st sup) (r.image st)
  | .entry k => .entry (k.image st sup)
  | .exit k => .exit (k.image st sup)
  | .beforeDispatch k e => .beforeDispatch (k.image st sup) e
  | .afterDispatch k e => .afterDispatch (k.image st sup) e
  | .beforeTransition a b => .beforeTransition (st a) (st b)
  | .afterTransition a b => .afterTransition (st a) (st b)

/-- The same machine value, with the larger type of states. -/
def StateMachine.grown (sm : StateMachine S) : StateMachine (S.grow St Sup D E) :=
  { inner := { shared := sm.inner.shared, state := st sm.inner.state }, initialized := sm.initialized }

/-- The same call. -/
def Command.grown : Command S → Command (S.grow St Sup D E)
  | .init ctx sched => .init ctx sched
  | .handle ev ctx sched => .handle ev ctx sched

/-- The same result of a call. -/
def Call.grown (c : Call S (StateMachine S)) :
    Call (S.grow St Sup D E) (StateMachine (S.grow St Sup D E)) :=
  { out := c.out, self := c.self.grown st, ctx := c.ctx, sched := c.sched, trace := c.trace.map (Obs.grown st sup) }

end
end Statig
