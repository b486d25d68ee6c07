import Verif.Spec.Simulation
/-!
# Specification: hooks that only observe

Shared storage has a part that the rest of the program looks at, `view`, and a part that it does not look at, such as a
log.  Hooks that only observe write to the latter.
-/
namespace Statig
variable {S : Sig}

/-- The same machine with the hooks left at their defaults, which do nothing. -/
def Machine.withoutHooks (m : Machine S) : Machine S :=
  { m with
    beforeDispatch := fun x _ _ => .done x ()
    afterDispatch := fun x _ _ => .done x ()
    beforeTransition := fun x _ _ => .done x ()
    afterTransition := fun x _ _ => .done x () }

/-- Two callbacks do the same, except for what `view` hides of the shared storage. -/
abbrev SameCallback {P σ A : Type} (view : S.M → P) (f g : Fut S.In (σ × S.M × S.Ctx) A) : Prop :=
  FutRel Eq (WorldRel Eq (fun x y => view x = view y) Eq) Eq f g

/-- The hook returns at once and leaves what `view` shows as it is. -/
def Fut.Observes {I M P : Type} (view : M → P) (x : M) (f : Fut I M Unit) : Prop :=
  ∃ x', f = .done x' () ∧ view x' = view x

/-- Handlers and actions do not depend on what `view` hides. -/
structure Machine.LooksOnlyAt {P : Type} (m : Machine S) (view : S.M → P) : Prop where
  handler : ∀ s x y e c, view x = view y → SameCallback view (m.handler s x e c) (m.handler s y e c)
  entry : ∀ s x y c, view x = view y → SameCallback view (m.entry s x c) (m.entry s y c)
  exit : ∀ s x y c, view x = view y → SameCallback view (m.exit s x c) (m.exit s y c)
  supHandler : ∀ v x y e c, view x = view y → SameCallback view (m.supHandler v x e c) (m.supHandler v y e c)
  supEntry : ∀ v x y c, view x = view y → SameCallback view (m.supEntry v x c) (m.supEntry v y c)
  supExit : ∀ v x y c, view x = view y → SameCallback view (m.supExit v x c) (m.supExit v y c)

/-- The hooks return at once and leave what `view` shows as it is. -/
structure Machine.HooksObserve {P : Type} (m : Machine S) (view : S.M → P) : Prop where
  beforeDispatch : ∀ x k e, (m.beforeDispatch x k e).Observes view x
  afterDispatch : ∀ x k e, (m.afterDispatch x k e).Observes view x
  beforeTransition : ∀ x s t, (m.beforeTransition x s t).Observes view x
  afterTransition : ∀ x s t, (m.afterTransition x s t).Observes view x

/-- The same result of a call, except for what `view` hides of the shared storage: the same outcome, the same state, the
same callbacks on the same data in the same order, the same context and unused poll inputs. -/
structure SameButHidden {P : Type} (view : S.M → P) (c d : Call S (StateMachine S)) : Prop where
  out : d.out = c.out
  state : d.self.inner.state = c.self.inner.state
  initialized : d.self.initialized = c.self.initialized
  shown : view d.self.inner.shared = view c.self.inner.shared
  ctx : d.ctx = c.ctx
  sched : d.sched = c.sched
  trace : d.trace = c.trace

end Statig
