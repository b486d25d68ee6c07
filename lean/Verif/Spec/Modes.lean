import Verif.Spec.Forest
/-!
# Vocabulary of the properties: machines without hooks

What is left of a call when hooks do nothing: handlers and actions.
-/
namespace Statig
variable {S : Sig}

/-- The four hooks do nothing (as the default ones, `statig/src/blocking/into_state_machine.rs:27-47`). -/
structure Machine.NoHooks (m : Machine S) : Prop where
  beforeDispatch : ∀ sh n ev, m.beforeDispatch sh n ev = .done sh ()
  afterDispatch : ∀ sh n ev, m.afterDispatch sh n ev = .done sh ()
  beforeTransition : ∀ sh a b, m.beforeTransition sh a b = .done sh ()
  afterTransition : ∀ sh a b, m.afterTransition sh a b = .done sh ()

/-- The observation is of a handler or an action, not of a hook. -/
def Obs.isCallback : Obs S → Bool
  | .handler _ _ | .returned _ _ | .entry _ | .exit _ => true
  | _ => false

/-- The handlers and actions that ran, in order, with their arguments and responses. -/
def callbacksOf (l : List (Obs S)) : List (Obs S) := l.filter Obs.isCallback

end Statig
