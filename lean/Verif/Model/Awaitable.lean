import Verif.Model.Hierarchy
/-!
# Awaitable (async) mode

`statig/src/awaitable/state.rs` and `inner.rs`.  Every `.await` is a use of `Eff.bind` on a callback,
which may suspend or be dropped at any of its suspension points.
-/
namespace Statig.Awaitable
variable {S : Sig} (m : Machine S)

/-- The `loop` in `StateExt::handle`: `statig/src/awaitable/state.rs:119-148`.  The variable `superstate`
is replaced by the superstate borrowed from it, so the borrow lasts until the loop is left. -/
def handleLoop (ev : S.Ev) : Eff S S.Sup (Response S.St) := do
  hookSupBeforeDispatch m ev
  let response ← callSupHandler m ev
  hookSupAfterDispatch m ev
  match response with
  | .handled => pure .handled
  | .super =>
    let r ← Eff.borrow m.supSuperstate (handleLoop ev)
    match r with
    | some response => pure response
    | none => pure .handled
  | .transition state => pure (.transition state)
partial_fixpoint

/-- `StateExt::handle`: `statig/src/awaitable/state.rs:103-154`. -/
def handle (ev : S.Ev) : Eff S S.St (Response S.St) := do
  hookBeforeDispatch m ev
  let response ← callHandler m ev
  hookAfterDispatch m ev
  match response with
  | .handled => pure .handled
  | .super =>
    let r ← Eff.borrow m.superstate (handleLoop m ev)
    match r with
    | some response => pure response
    | none => pure .super
  | .transition state => pure (.transition state)

/-- The `for _ in 2..levels` loop of `StateExt::enter` and the entry action after it:
`statig/src/awaitable/state.rs:172-178`; `n` is the number of iterations.  When there is no superstate left
the loop breaks and the entry action runs on the last one reached. -/
def climbEntry : Nat → Eff S S.Sup Unit
  | 0 => callSupEntry m
  | n + 1 => do
    let r ← Eff.borrow m.supSuperstate (climbEntry n)
    match r with
    | some () => pure ()
    | none => callSupEntry m

/-- `StateExt::enter`: `statig/src/awaitable/state.rs:158-187`; the recursion is the `while levels > 1`
loop and the final `if levels == 1`. -/
def enter : Nat → Eff S S.St Unit
  | 0 => pure ()
  | 1 => callEntry m
  | levels + 2 => do
    let _ ← Eff.borrow m.superstate (climbEntry m levels)
    enter (levels + 1)

/-- The `while levels > 1` loop of `StateExt::exit`: `statig/src/awaitable/state.rs:208-215`. -/
def exitLoop : Nat → Eff S S.Sup Unit
  | 0 => pure ()
  | 1 => pure ()
  | levels + 2 => do
    callSupExit m
    let _ ← Eff.borrow m.supSuperstate (exitLoop (levels + 1))
    pure ()

/-- `StateExt::exit`: `statig/src/awaitable/state.rs:191-218`. -/
def exit (levels : Nat) : Eff S S.St Unit := do
  if levels ≥ 1 then callExit m else pure ()
  let _ ← Eff.borrow m.superstate (exitLoop m levels)
  pure ()

/-- `Inner::init_with_context`: `statig/src/awaitable/inner.rs:19-24`. -/
def init : Eff S S.St Unit := do
  let s ← Eff.self
  let enterLevels ← Eff.lift ((depth m s).map .ok)
  enter m enterLevels

/-- `Inner::transition`: `statig/src/awaitable/inner.rs:43-63`. -/
def transition (target : S.St) : Eff S S.St Unit := do
  let s ← Eff.self
  hookBeforeTransition m s target
  -- Get the transition path we need to perform from one state to the next.
  let (exitLevels, enterLevels) ← Eff.lift (transitionPath m s target)
  -- Perform the exit from the previous state towards the common ancestor state.
  exit m exitLevels
  -- Update the state.
  let old ← Eff.swap target
  -- Perform the entry actions from the common ancestor state into the new state.
  enter m enterLevels
  let new ← Eff.self
  hookAfterTransition m old new

/-- `Inner::handle_with_context`: `statig/src/awaitable/inner.rs:26-40`. -/
def handleEvent (ev : S.Ev) : Eff S S.St Unit := do
  let response ← handle m ev
  match response with
  | .super => pure ()
  | .handled => pure ()
  | .transition state => transition m state

end Statig.Awaitable
