import Verif.Spec.Threads
import Verif.Spec.History
/-!
# Vocabulary of the properties: invariants that involve the state

What a user has to check of single callbacks to know how the shared storage and the state are related after any
history.
-/
namespace Statig
variable {S : Sig}

/-- However the callback is polled, if it returns then `Q` holds of what it returned and of what it leaves. -/
def Fut.Returns {In W α : Type} (f : Fut In W α) (Q : α → W → Prop) : Prop :=
  ∀ l a w l', f.run l = (.ok a, w, l') → Q a w

/-- However the callback is polled, `Q` holds of how it ends (returned, panicked, dropped while suspended) and of
what it leaves. -/
def Fut.Ends {In W α : Type} (f : Fut In W α) (Q : Out α → W → Prop) : Prop :=
  ∀ l o w l', f.run l = (o, w, l') → Q o w

/-- The shared storage keeps account of the active nodes: `I nodes storage` relates the list of active nodes, innermost
first, to the storage.  An entry action, started when the ancestors of its node are accounted for, adds its node; an
exit action, started when its node is the innermost one, takes it away; handlers and hooks, started in the
situations in which they can be called, change nothing about it.  Nothing is asked of callbacks that do not return. -/
structure Accounts (m : Machine S) (F : Forest S.D S.E) (I : List (Node S.D S.E) → S.M → Prop) : Prop where
  entry : ∀ s sh c, I (F.up (.leaf (m.discr s))).tail sh →
    (m.entry s sh c).Returns fun _ w => I (F.up (.leaf (m.discr s))) w.2.1
  supEntry : ∀ v sh c, I (F.up (.sup (m.supDiscr v))).tail sh →
    (m.supEntry v sh c).Returns fun _ w => I (F.up (.sup (m.supDiscr v))) w.2.1
  exit : ∀ s sh c, I (F.up (.leaf (m.discr s))) sh →
    (m.exit s sh c).Returns fun _ w => I (F.up (.leaf (m.discr s))).tail w.2.1
  supExit : ∀ v sh c, I (F.up (.sup (m.supDiscr v))) sh →
    (m.supExit v sh c).Returns fun _ w => I (F.up (.sup (m.supDiscr v))).tail w.2.1
  handler : ∀ s sh ev c, I (F.path (m.discr s)) sh →
    (m.handler s sh ev c).Returns fun _ w => I (F.path (m.discr s)) w.2.1
  supHandler : ∀ v sh ev c d, .sup (m.supDiscr v) ∈ F.path d → I (F.path d) sh →
    (m.supHandler v sh ev c).Returns fun _ w => I (F.path d) w.2.1
  beforeDispatch : ∀ sh n ev d, m.node n ∈ F.path d → I (F.path d) sh →
    (m.beforeDispatch sh n ev).Returns fun _ sh' => I (F.path d) sh'
  afterDispatch : ∀ sh n ev d, m.node n ∈ F.path d → I (F.path d) sh →
    (m.afterDispatch sh n ev).Returns fun _ sh' => I (F.path d) sh'
  beforeTransition : ∀ sh a b d, d = m.discr a ∨ d = m.discr b → I (F.path d) sh →
    (m.beforeTransition sh a b).Returns fun _ sh' => I (F.path d) sh'
  afterTransition : ∀ sh a b, I (F.path (m.discr b)) sh →
    (m.afterTransition sh a b).Returns fun _ sh' => I (F.path (m.discr b)) sh'

/-- State and shared storage are linked: `J state storage` holds outside of transitions, `K target state storage` from
the moment a handler has requested a transition to `target` until it is made.  Every callback maintains this, however
it ends; making a requested transition, and giving it up, leads back to `J`. -/
structure Links (mode : Mode) (m : Machine S) (J : S.St → S.M → Prop) (K : S.St → S.St → S.M → Prop) : Prop where
  handler : ∀ s sh ev c, J s sh → (m.handler s sh ev c).Ends fun o w =>
    match requested o with
    | some t => K t w.1 w.2.1
    | none => J w.1 w.2.1
  supHandler : ∀ k s v put sh ev c, m.view k s = some (v, put) → J s sh →
    (m.supHandler v sh ev c).Ends fun o w =>
      match requested o with
      | some t => K t (put w.1) w.2.1
      | none => J (put w.1) w.2.1
  entry : ∀ s sh c, J s sh → (m.entry s sh c).Ends fun _ w => J w.1 w.2.1
  supEntry : ∀ k s v put sh c, m.view k s = some (v, put) → J s sh →
    (m.supEntry v sh c).Ends fun _ w => J (put w.1) w.2.1
  exit : ∀ t s sh c, K t s sh → (m.exit s sh c).Ends fun _ w => K t w.1 w.2.1
  supExit : ∀ t k s v put sh c, m.view k s = some (v, put) → K t s sh →
    (m.supExit v sh c).Ends fun _ w => K t (put w.1) w.2.1
  beforeDispatch : ∀ s sh n ev, J s sh → (m.beforeDispatch sh n ev).Ends fun _ sh' => J s sh'
  afterDispatch : ∀ s sh n ev, J s sh → (m.afterDispatch sh n ev).Ends fun _ sh' => J s sh'
  afterDispatch_requested : ∀ t s sh n ev, K t s sh → (m.afterDispatch sh n ev).Ends fun _ sh' => K t s sh'
  beforeTransition : ∀ t s sh, K t s sh →
    (match mode with
      | .blocking => m.beforeTransition sh t s
      | .awaitable => m.beforeTransition sh s t).Ends fun _ sh' => K t s sh'
  afterTransition : ∀ source s sh, J s sh → (m.afterTransition sh source s).Ends fun _ sh' => J s sh'
  made : ∀ t s sh, K t s sh → J t sh
  givenUp : ∀ t s sh, K t s sh → J s sh

end Statig
