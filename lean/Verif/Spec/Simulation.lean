import Verif.Spec.History
/-!
# Vocabulary of the properties: machines that cannot be told apart

A relation between the data of two machines, and what it means that all the callbacks of the machines respect
it.  With the equality of a user's types as the relation it says that callbacks do not distinguish equal values.
-/
namespace Statig

/-- Relations between the types of two machines. -/
structure Rel (S T : Sig) where
  M : S.M → T.M → Prop
  St : S.St → T.St → Prop
  Sup : S.Sup → T.Sup → Prop
  Ev : S.Ev → T.Ev → Prop
  Ctx : S.Ctx → T.Ctx → Prop
  In : S.In → T.In → Prop

/-- Two optional values are both absent, or both present and related. -/
inductive OptRel {A B : Type} (R : A → B → Prop) : Option A → Option B → Prop where
  | none : OptRel R none none
  | some {a b} : R a b → OptRel R (some a) (some b)

/-- Two lists are related elementwise. -/
inductive ListRel {A B : Type} (R : A → B → Prop) : List A → List B → Prop where
  | nil : ListRel R [] []
  | cons {a b l l'} : R a b → ListRel R l l' → ListRel R (a :: l) (b :: l')

/-- Two outcomes are alike. -/
inductive OutRel {A B : Type} (R : A → B → Prop) : Out A → Out B → Prop where
  | ok {a b} : R a b → OutRel R (.ok a) (.ok b)
  | panic : OutRel R .panic .panic
  | stopped : OutRel R .stopped .stopped

/-- Two responses are alike. -/
inductive ResponseRel {A B : Type} (R : A → B → Prop) : Response A → Response B → Prop where
  | handled : ResponseRel R .handled .handled
  | super : ResponseRel R .super .super
  | transition {a b} : R a b → ResponseRel R (.transition a) (.transition b)

/-- Two callbacks do the same, from related worlds, as long as they get related inputs. -/
inductive FutRel {I J W W' A B : Type} (RI : I → J → Prop) (RW : W → W' → Prop) (RA : A → B → Prop) :
    Fut I W A → Fut J W' B → Prop where
  | done {w w' a b} : RW w w' → RA a b → FutRel RI RW RA (.done w a) (.done w' b)
  | panic {w w'} : RW w w' → FutRel RI RW RA (.panic w) (.panic w')
  | pending {w w' k k'} : RW w w' → (∀ i j, RI i j → FutRel RI RW RA (k i) (k' j)) →
      FutRel RI RW RA (.pending w k) (.pending w' k')

section
variable {S T : Sig} (R : Rel S T)

/-- Related states or superstates. -/
inductive Rel.Node : StateOrSuperstate S.St S.Sup → StateOrSuperstate T.St T.Sup → Prop where
  | state {s s'} : R.St s s' → Rel.Node (.state s) (.state s')
  | superstate {v v'} : R.Sup v v' → Rel.Node (.superstate v) (.superstate v')

/-- Related observations. -/
inductive Rel.Obs : Obs S → Statig.Obs T → Prop where
  | handler {n n' e e'} : R.Node n n' → R.Ev e e' → Rel.Obs (.handler n e) (.handler n' e')
  | returned {n n' r r'} : R.Node n n' → ResponseRel R.St r r' → Rel.Obs (.returned n r) (.returned n' r')
  | entry {n n'} : R.Node n n' → Rel.Obs (.entry n) (.entry n')
  | exit {n n'} : R.Node n n' → Rel.Obs (.exit n) (.exit n')
  | beforeDispatch {n n' e e'} : R.Node n n' → R.Ev e e' → Rel.Obs (.beforeDispatch n e) (.beforeDispatch n' e')
  | afterDispatch {n n' e e'} : R.Node n n' → R.Ev e e' → Rel.Obs (.afterDispatch n e) (.afterDispatch n' e')
  | beforeTransition {a a' b b'} : R.St a a' → R.St b b' → Rel.Obs (.beforeTransition a b) (.beforeTransition a' b')
  | afterTransition {a a' b b'} : R.St a a' → R.St b b' → Rel.Obs (.afterTransition a b) (.afterTransition a' b')

/-- Related views: the views are related, and writing back related views gives related owners. -/
def ViewRel {A B A' B' : Type} (RA : A → A' → Prop) (RB : B → B' → Prop)
    (p : B × (B → A)) (q : B' × (B' → A')) : Prop :=
  RB p.1 q.1 ∧ ∀ w w', RB w w' → RA (p.2 w) (q.2 w')

/-- What a handler or action can write to. -/
def WorldRel {A A' B B' C C' : Type} (RA : A → A' → Prop) (RB : B → B' → Prop) (RC : C → C' → Prop)
    (p : A × B × C) (q : A' × B' × C') : Prop :=
  RA p.1 q.1 ∧ RB p.2.1 q.2.1 ∧ RC p.2.2 q.2.2

/-- Everything the user supplies respects the relation `R`: callbacks given related arguments do the same and
leave related data, sameness of variants is the same question on both sides, and so are the superstates. -/
structure Respects (m : Machine S) (n : Machine T) : Prop where
  discr : ∀ {a a' b b'}, R.St a a' → R.St b b' → (m.discr a = m.discr b ↔ n.discr a' = n.discr b')
  supDiscr : ∀ {a a' b b'}, R.Sup a a' → R.Sup b b' →
    (m.supDiscr a = m.supDiscr b ↔ n.supDiscr a' = n.supDiscr b')
  handler : ∀ {s s' x x' e e' c c'}, R.St s s' → R.M x x' → R.Ev e e' → R.Ctx c c' →
    FutRel R.In (WorldRel R.St R.M R.Ctx) (ResponseRel R.St) (m.handler s x e c) (n.handler s' x' e' c')
  entry : ∀ {s s' x x' c c'}, R.St s s' → R.M x x' → R.Ctx c c' →
    FutRel R.In (WorldRel R.St R.M R.Ctx) Eq (m.entry s x c) (n.entry s' x' c')
  exit : ∀ {s s' x x' c c'}, R.St s s' → R.M x x' → R.Ctx c c' →
    FutRel R.In (WorldRel R.St R.M R.Ctx) Eq (m.exit s x c) (n.exit s' x' c')
  superstate : ∀ {s s'}, R.St s s' → OptRel (ViewRel R.St R.Sup) (m.superstate s) (n.superstate s')
  supHandler : ∀ {s s' x x' e e' c c'}, R.Sup s s' → R.M x x' → R.Ev e e' → R.Ctx c c' →
    FutRel R.In (WorldRel R.Sup R.M R.Ctx) (ResponseRel R.St) (m.supHandler s x e c) (n.supHandler s' x' e' c')
  supEntry : ∀ {s s' x x' c c'}, R.Sup s s' → R.M x x' → R.Ctx c c' →
    FutRel R.In (WorldRel R.Sup R.M R.Ctx) Eq (m.supEntry s x c) (n.supEntry s' x' c')
  supExit : ∀ {s s' x x' c c'}, R.Sup s s' → R.M x x' → R.Ctx c c' →
    FutRel R.In (WorldRel R.Sup R.M R.Ctx) Eq (m.supExit s x c) (n.supExit s' x' c')
  supSuperstate : ∀ {s s'}, R.Sup s s' →
    OptRel (ViewRel R.Sup R.Sup) (m.supSuperstate s) (n.supSuperstate s')
  beforeDispatch : ∀ {x x' k k' e e'}, R.M x x' → R.Node k k' → R.Ev e e' →
    FutRel R.In R.M Eq (m.beforeDispatch x k e) (n.beforeDispatch x' k' e')
  afterDispatch : ∀ {x x' k k' e e'}, R.M x x' → R.Node k k' → R.Ev e e' →
    FutRel R.In R.M Eq (m.afterDispatch x k e) (n.afterDispatch x' k' e')
  beforeTransition : ∀ {x x' a a' b b'}, R.M x x' → R.St a a' → R.St b b' →
    FutRel R.In R.M Eq (m.beforeTransition x a b) (n.beforeTransition x' a' b')
  afterTransition : ∀ {x x' a a' b b'}, R.M x x' → R.St a a' → R.St b b' →
    FutRel R.In R.M Eq (m.afterTransition x a b) (n.afterTransition x' a' b')

/-- Related contents of machines. -/
def Rel.Inner (i : Inner S) (j : Statig.Inner T) : Prop := R.M i.shared j.shared ∧ R.St i.state j.state

/-- Related machines: related contents, and both initialized or both not. -/
def Rel.Machine (a : StateMachine S) (b : StateMachine T) : Prop :=
  R.Inner a.inner b.inner ∧ a.initialized = b.initialized

/-- Related results of a call: the same outcome, related machines and contexts afterwards, related unused
inputs, and related callbacks in the same order. -/
structure CallRel {A B : Type} (Q : A → B → Prop) (c : Call S A) (d : Call T B) : Prop where
  out : c.out = d.out
  self : Q c.self d.self
  ctx : R.Ctx c.ctx d.ctx
  sched : ListRel R.In c.sched d.sched
  trace : ListRel R.Obs c.trace d.trace

/-- Related calls. -/
inductive Rel.Command : Command S → Statig.Command T → Prop where
  | init {c c' l l'} : R.Ctx c c' → ListRel R.In l l' → Rel.Command (.init c l) (.init c' l')
  | handle {e e' c c' l l'} : R.Ev e e' → R.Ctx c c' → ListRel R.In l l' →
      Rel.Command (.handle e c l) (.handle e' c' l')

/-- The relation read from right to left. -/
def Rel.flip : Rel T S where
  M x y := R.M y x
  St x y := R.St y x
  Sup x y := R.Sup y x
  Ev x y := R.Ev y x
  Ctx x y := R.Ctx y x
  In x y := R.In y x

end
end Statig
