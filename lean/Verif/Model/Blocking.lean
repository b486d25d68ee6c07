import Verif.Model.Hierarchy
/-!
# Blocking mode

`statig/src/blocking/superstate.rs`, `state.rs` and `inner.rs`.
-/
namespace Statig.Blocking
variable {S : Sig} (m : Machine S)

/-- `SuperstateExt::handle`: `statig/src/blocking/superstate.rs:90-125`. -/
def supHandle (ev : S.Ev) : Eff S S.Sup (Response S.St) := do
  let response ← callSupHandler m ev
  match response with
  | .handled => pure .handled
  | .super =>
    let r ← Eff.borrow m.supSuperstate (do
      hookSupBeforeDispatch m ev
      let response ← supHandle ev
      hookSupAfterDispatch m ev
      pure response)
    match r with
    | some response => pure response
    | none => pure .super
  | .transition state => pure (.transition state)
partial_fixpoint

/-- `StateExt::handle`: `statig/src/blocking/state.rs:87-126`. -/
def handle (ev : S.Ev) : Eff S S.St (Response S.St) := do
  hookBeforeDispatch m ev
  let response ← callHandler m ev
  hookAfterDispatch m ev
  match response with
  | .handled => pure .handled
  | .super =>
    let r ← Eff.borrow m.superstate (do
      hookSupBeforeDispatch m ev
      let response ← supHandle m ev
      hookSupAfterDispatch m ev
      pure response)
    match r with
    | some response => pure response
    | none => pure .super
  | .transition state => pure (.transition state)

/-- `SuperstateExt::enter`: `statig/src/blocking/superstate.rs:129-141`. -/
def supEnter : Nat → Eff S S.Sup Unit
  | 0 => pure ()
  | 1 => callSupEntry m
  | levels + 2 => do
    let _ ← Eff.borrow m.supSuperstate (supEnter (levels + 1))
    callSupEntry m

/-- `SuperstateExt::exit`: `statig/src/blocking/superstate.rs:145-157`. -/
def supExit : Nat → Eff S S.Sup Unit
  | 0 => pure ()
  | 1 => callSupExit m
  | levels + 2 => do
    callSupExit m
    let _ ← Eff.borrow m.supSuperstate (supExit (levels + 1))
    pure ()

/-- `StateExt::enter`: `statig/src/blocking/state.rs:130-141`. -/
def enter : Nat → Eff S S.St Unit
  | 0 => pure ()
  | 1 => callEntry m
  | levels + 2 => do
    let _ ← Eff.borrow m.superstate (supEnter m (levels + 1))
    callEntry m

/-- `StateExt::exit`: `statig/src/blocking/state.rs:145-156`. -/
def exit : Nat → Eff S S.St Unit
  | 0 => pure ()
  | 1 => callExit m
  | levels + 2 => do
    callExit m
    let _ ← Eff.borrow m.superstate (supExit m (levels + 1))
    pure ()

/-- `Inner::init_with_context`: `statig/src/blocking/inner.rs:20-24`.  `self` is the state; the shared
storage and context are in `Glob`. -/
def init : Eff S S.St Unit := do
  let s ← Eff.self
  let enterLevels ← Eff.lift ((depth m s).map .ok)
  enter m enterLevels

/-- `Inner::transition`: `statig/src/blocking/inner.rs:41-59`.  Note line 42: `before_transition` is passed
`(&target, &self.state)`. -/
def transition (target : S.St) : Eff S S.St Unit := do
  let s ← Eff.self
  hookBeforeTransition m target s
  -- Get the transition path we need to perform from one state to the next.
  let (exitLevels, enterLevels) ← Eff.lift (transitionPath m s target)
  -- Perform the exit from the previous state towards the common ancestor state.
  exit m exitLevels
  -- Update the state.
  let old ← Eff.swap target
  -- Perform the entry actions from the common ancestor state into the new state.
  enter m enterLevels
  let new ← Eff.self
  hookAfterTransition m old new

/-- `Inner::handle_with_context`: `statig/src/blocking/inner.rs:27-38`. -/
def handleEvent (ev : S.Ev) : Eff S S.St Unit := do
  let response ← handle m ev
  match response with
  | .super => pure ()
  | .handled => pure ()
  | .transition state => transition m state

end Statig.Blocking
