import Verif.Model.Impure
import Verif.Spec.History
/-!
# Vocabulary of the properties: machines whose `superstate()` has effects
-/
namespace Statig
variable {S : Sig}

/-- Make the call. -/
def Command.execImpure (mode : Mode) (m : Impure S) (sm : StateMachine S) :
    Command S → Option (Call S (StateMachine S))
  | .init ctx sched => sm.initImpure mode m ctx sched
  | .handle ev ctx sched => sm.handleImpure mode m ev ctx sched

/-- The results of making calls one after the other, as long as they return. -/
def callAllImpure (mode : Mode) (m : Impure S) :
    StateMachine S → List (Command S) → List (Call S (StateMachine S))
  | _, [] => []
  | sm, cmd :: cmds =>
    match cmd.execImpure mode m sm with
    | none => []
    | some c => c :: callAllImpure mode m c.self cmds

/-- The state of `self` was changed only as `R` allows (`R'` for superstates) by every callback, however it ends, and by
every call of `superstate()`, together with what is done to the superstate it returns. -/
structure Impure.Respects (m : Impure S) (R : S.St → S.St → Prop) (R' : S.Sup → S.Sup → Prop) : Prop where
  refl : ∀ s, R s s
  trans : ∀ a b c, R a b → R b c → R a c
  supRefl : ∀ v, R' v v
  supTrans : ∀ a b c, R' a b → R' b c → R' a c
  handler : ∀ s sh ev c, (m.base.handler s sh ev c).All fun w => R s w.1
  entry : ∀ s sh c, (m.base.entry s sh c).All fun w => R s w.1
  exit : ∀ s sh c, (m.base.exit s sh c).All fun w => R s w.1
  supHandler : ∀ v sh ev c, (m.base.supHandler v sh ev c).All fun w => R' v w.1
  supEntry : ∀ v sh c, (m.base.supEntry v sh c).All fun w => R' v w.1
  supExit : ∀ v sh c, (m.base.supExit v sh c).All fun w => R' v w.1
  superstate : ∀ s, match m.superstate s with
    | .some v back => ∀ v', R' v v' → R s (back v')
    | .none s' => R s s'
    | .panic s' => R s s'
  supSuperstate : ∀ v, match m.supSuperstate v with
    | .some w back => ∀ w', R' w w' → R' v (back w')
    | .none v' => R' v v'
    | .panic v' => R' v v'

/-- Handlers ask only for transitions to states that satisfy `P`. -/
structure Impure.Targets (m : Impure S) (P : S.St → Prop) : Prop where
  handler : ∀ s sh ev c l t w l', (m.base.handler s sh ev c).run l = (.ok (.transition t), w, l') → P t
  supHandler : ∀ v sh ev c l t w l', (m.base.supHandler v sh ev c).run l = (.ok (.transition t), w, l') → P t

/-- `P` holds of every state, and `Q` of every view: callbacks maintain it, however they end, and so does `superstate()`,
provided what is done to the view it returns does. -/
structure Impure.Maintains (m : Impure S) (P : S.St → Prop) (Q : S.Sup → Prop) : Prop extends Targets m P where
  keepsHandler : ∀ s sh ev c, P s → (m.base.handler s sh ev c).All fun w => P w.1
  entry : ∀ s sh c, P s → (m.base.entry s sh c).All fun w => P w.1
  exit : ∀ s sh c, P s → (m.base.exit s sh c).All fun w => P w.1
  keepsSupHandler : ∀ v sh ev c, Q v → (m.base.supHandler v sh ev c).All fun w => Q w.1
  supEntry : ∀ v sh c, Q v → (m.base.supEntry v sh c).All fun w => Q w.1
  supExit : ∀ v sh c, Q v → (m.base.supExit v sh c).All fun w => Q w.1
  superstate : ∀ s, P s → match m.superstate s with
    | .some v back => Q v ∧ ∀ v', Q v' → P (back v')
    | .none s' => P s'
    | .panic s' => P s'
  supSuperstate : ∀ v, Q v → match m.supSuperstate v with
    | .some w back => Q w ∧ ∀ w', Q w' → Q (back w')
    | .none v' => Q v'
    | .panic v' => Q v'

/-- The start of a handler, or its response. -/
def Obs.isHandling : Obs S → Bool
  | .handler _ _ | .returned _ _ => true
  | _ => false

/-- What can be observed while the event is dispatched. -/
def Obs.Dispatches (ev : S.Ev) : Obs S → Prop
  | .handler _ e | .beforeDispatch _ e | .afterDispatch _ e => e = ev
  | .returned _ _ => True
  | _ => False

/-- An entry action is started. -/
def Obs.Enters : Obs S → Prop
  | .entry _ => True
  | _ => False

/-- An exit action is started. -/
def Obs.Exits : Obs S → Prop
  | .exit _ => True
  | _ => False

/-- Handlers are given `ev` one after the other, the next one only if the one before it returned and deferred; the
result is the last response, if there is one. -/
inductive Asked (ev : S.Ev) : List (Obs S) → Option (Response S.St) → Prop where
  | nobody : Asked ev [] none
  | cut {n} : Asked ev [.handler n ev] none
  | answered {n n' r} : Asked ev [.handler n ev, .returned n' r] (some r)
  | deferred {n n' l r} : Asked ev l r → Asked ev (.handler n ev :: .returned n' .super :: l) r

/-- How a transition from `s` to `t` is announced (the two modes differ in the order, see C13). -/
def announcement (mode : Mode) (s t : S.St) : Obs S :=
  match mode with
  | .blocking => .beforeTransition t s
  | .awaitable => .beforeTransition s t

/-- What a call of `handle` with `ev` may do, whatever `superstate()` does: it finds the state `before`, makes the
observations `trace`, ends with `out`, and leaves the state `after`. -/
inductive Conduct (mode : Mode) (R : S.St → S.St → Prop) (ev : S.Ev) (before : S.St) :
    List (Obs S) → Out Unit → S.St → Prop where
  /-- The event is dispatched, and that is all.  If the call returns, no transition was asked for. -/
  | dispatched {D r out after} : (∀ ob ∈ D, ob.Dispatches ev) → Asked ev (D.filter Obs.isHandling) r →
      (∀ t, r = some (.transition t) → out ≠ .ok ()) → R before after →
      Conduct mode R ev before D out after
  /-- The last handler asked for a transition to `t`; the call was cut short before the target became the state. -/
  | left {D t s X out after} : (∀ ob ∈ D, ob.Dispatches ev) →
      Asked ev (D.filter Obs.isHandling) (some (.transition t)) → R before s → (∀ ob ∈ X, ob.Exits) →
      out ≠ .ok () → R before after →
      Conduct mode R ev before (D ++ announcement mode s t :: X) out after
  /-- The last handler asked for a transition to `t`; the target became the state; the call was cut short while it
  was entered. -/
  | entering {D t s X N out after} : (∀ ob ∈ D, ob.Dispatches ev) →
      Asked ev (D.filter Obs.isHandling) (some (.transition t)) → R before s → (∀ ob ∈ X, ob.Exits) →
      (∀ ob ∈ N, ob.Enters) → out ≠ .ok () → R t after →
      Conduct mode R ev before (D ++ announcement mode s t :: (X ++ N)) out after
  /-- The last handler asked for a transition to `t`, which was made. -/
  | made {D t s X N old out after} : (∀ ob ∈ D, ob.Dispatches ev) →
      Asked ev (D.filter Obs.isHandling) (some (.transition t)) → R before s → (∀ ob ∈ X, ob.Exits) →
      (∀ ob ∈ N, ob.Enters) → R before old → R t after →
      Conduct mode R ev before (D ++ announcement mode s t :: (X ++ N ++ [.afterTransition old after])) out after

/-- The hierarchy is static, as in `Follows`, although `superstate()` may change the data of the state: it does not
panic; whether it returns a superstate, and of which variant, is determined by the variant of `self` as in `F`; it
keeps the variant of `self`, and so does writing back a superstate of the same variant; and handlers and actions keep
the variant of `self`. -/
structure Impure.Static (m : Impure S) (F : Forest S.D S.E) : Prop where
  leaf : ∀ s, match m.superstate s with
    | .some v back => F.leafParent (m.base.discr s) = some (m.base.supDiscr v) ∧
        ∀ v', m.base.supDiscr v' = m.base.supDiscr v → m.base.discr (back v') = m.base.discr s
    | .none s' => F.leafParent (m.base.discr s) = none ∧ m.base.discr s' = m.base.discr s
    | .panic _ => False
  sup : ∀ v, match m.supSuperstate v with
    | .some w back => F.supParent (m.base.supDiscr v) = some (m.base.supDiscr w) ∧
        ∀ w', m.base.supDiscr w' = m.base.supDiscr w → m.base.supDiscr (back w') = m.base.supDiscr v
    | .none v' => F.supParent (m.base.supDiscr v) = none ∧ m.base.supDiscr v' = m.base.supDiscr v
    | .panic _ => False
  handler : ∀ s sh ev c, (m.base.handler s sh ev c).All fun w => m.base.discr w.1 = m.base.discr s
  entry : ∀ s sh c, (m.base.entry s sh c).All fun w => m.base.discr w.1 = m.base.discr s
  exit : ∀ s sh c, (m.base.exit s sh c).All fun w => m.base.discr w.1 = m.base.discr s
  supHandler : ∀ v sh ev c, (m.base.supHandler v sh ev c).All fun w => m.base.supDiscr w.1 = m.base.supDiscr v
  supEntry : ∀ v sh c, (m.base.supEntry v sh c).All fun w => m.base.supDiscr w.1 = m.base.supDiscr v
  supExit : ∀ v sh c, (m.base.supExit v sh c).All fun w => m.base.supDiscr w.1 = m.base.supDiscr v

end Statig
