import Verif.Model.Api
/-!
# Machines whose `superstate()` has effects

In the rest of the model `superstate(&mut self)` neither changes `self` nor panics (`Machine.superstate`).  Nothing in the
traits says so: `fn superstate(&mut self) -> Option<Superstate<'_>>` (`statig/src/blocking/state.rs:26-29`,
`statig/src/blocking/superstate.rs:26-32`, `statig/src/awaitable/state.rs:42-45`,
`statig/src/awaitable/superstate.rs:40-46`) is any function.  Here are the library functions again, for such machines.
-/
namespace Statig

/-- What a call of `superstate(&mut self)` does: it returns a view, with the backward function that yields `self` when
the borrow ends; or `None`, having left `self` like this; or it panics, having left `self` like this. -/
inductive Borrowed (σ τ : Type) where
  | some (view : τ) (back : τ → σ)
  | none (self : σ)
  | panic (self : σ)

/-- What a user implements (see `Machine`), with any functions `superstate`.  The functions `superstate` and
`supSuperstate` of `base` are not used. -/
structure Impure (S : Sig) where
  base : Machine S
  /-- `State::superstate`: `statig/src/blocking/state.rs:26-29`, `statig/src/awaitable/state.rs:42-45` -/
  superstate : S.St → Borrowed S.St S.Sup
  /-- `Superstate::superstate`: `statig/src/blocking/superstate.rs:26-32`, `statig/src/awaitable/superstate.rs:40-46` -/
  supSuperstate : S.Sup → Borrowed S.Sup S.Sup

/-- A machine of the rest of the model. -/
def Machine.impure {S : Sig} (m : Machine S) : Impure S where
  base := m
  superstate s := match m.superstate s with
    | some (v, back) => .some v back
    | none => .none s
  supSuperstate v := match m.supSuperstate v with
    | some (w, back) => .some w back
    | none => .none v

namespace Impure
variable {S : Sig} {σ τ ρ α : Type}

/-- `match self.superstate() { Some(mut superstate) => Some(body), None => None }`. -/
def climb (sup : σ → Borrowed σ τ) (body : Eff S τ α) : Eff S σ (Option α) := fun s g =>
  match sup s with
  | .panic s' => some (.panic, s', g)
  | .none s' => some (.ok none, s', g)
  | .some v back =>
    match body v g with
    | none => none
    | some (o, v', g') => some (o.map some, back v', g')

/-- `(a.superstate(), b.superstate())`: the tuples in `statig/src/blocking/state.rs:58, 75`,
`statig/src/blocking/superstate.rs:74`.  Both are called, from left to right; what is not used is dropped. -/
def both (f : σ → Borrowed σ τ) (p : σ × σ) : Borrowed (σ × σ) (τ × τ) :=
  match f p.1 with
  | .panic a => .panic (a, p.2)
  | .none a =>
    match f p.2 with
    | .panic b => .panic (a, b)
    | .none b => .none (a, b)
    | .some w back => .none (a, back w)
  | .some v back =>
    match f p.2 with
    | .panic b => .panic (back v, b)
    | .none b => .none (back v, b)
    | .some w back' => .some (v, w) fun q => (back q.1, back' q.2)

/-- `a.superstate()` of two variables `a` and `b`. -/
def left (f : σ → Borrowed σ τ) (p : σ × ρ) : Borrowed (σ × ρ) (τ × ρ) :=
  match f p.1 with
  | .panic a => .panic (a, p.2)
  | .none a => .none (a, p.2)
  | .some v back => .some (v, p.2) fun q => (back q.1, q.2)

/-- `b.superstate()` of two variables `a` and `b`. -/
def right (f : σ → Borrowed σ τ) (p : ρ × σ) : Borrowed (ρ × σ) (ρ × τ) :=
  match f p.2 with
  | .panic b => .panic (p.1, b)
  | .none b => .none (p.1, b)
  | .some w back => .some (p.1, w) fun q => (q.1, back q.2)

/-- A function of the first of two variables. -/
def first (x : Eff S σ α) : Eff S (σ × ρ) α := fun p g =>
  match x p.1 g with
  | none => none
  | some (o, a, g') => some (o, (a, p.2), g')

/-- A function of the second of two variables. -/
def second (x : Eff S σ α) : Eff S (ρ × σ) α := fun p g =>
  match x p.2 g with
  | none => none
  | some (o, b, g') => some (o, (p.1, b), g')

/-- A function that also has the local variable `local`, and the value it leaves there. -/
def withLocal (loc : σ) (x : Eff S (σ × σ) α) : Eff S σ (α × σ) := fun s g =>
  match x (s, loc) g with
  | none => none
  | some (o, p, g') => some (o.map (·, p.2), p.1, g')

section order
open Lean.Order

@[partial_fixpoint_monotone]
theorem climb_mono {γ : Type} [PartialOrder γ] (sup : σ → Borrowed σ τ)
    (body : γ → Eff S τ α) (h : monotone body) : monotone (fun x => climb sup (body x)) := by
  intro a b hab s g
  have h' := h _ _ hab
  show climb sup (body a) s g ⊑ climb sup (body b) s g
  unfold climb
  split
  · exact .refl
  · exact .refl
  · rename_i v back hs
    have h'' : body a v g ⊑ body b v g := h' v g
    generalize body a v g = x at h'' ⊢
    generalize body b v g = y at h'' ⊢
    cases h'' with
    | bot => exact .bot
    | refl => exact .refl

end order

variable (m : Impure S)

/-- `SuperstateExt::depth`: `statig/src/blocking/superstate.rs:58-63`, `statig/src/awaitable/superstate.rs:70-75`. -/
def supDepth : Eff S S.Sup Nat := do
  let r ← climb m.supSuperstate supDepth
  match r with
  | some d => pure (d + 1)
  | none => pure 1
partial_fixpoint

/-- `StateExt::depth`: `statig/src/blocking/state.rs:45-50`, `statig/src/awaitable/state.rs:60-65`. -/
def depth : Eff S S.St Nat := do
  let r ← climb m.superstate (supDepth m)
  match r with
  | some d => pure (d + 1)
  | none => pure 1

/-- `SuperstateExt::common_ancestor_depth`: `statig/src/blocking/superstate.rs:66-87`,
`statig/src/awaitable/superstate.rs:78-99`. -/
def supCommonAncestorDepth : Eff S (S.Sup × S.Sup) Nat := do
  let ds ← first (supDepth m)
  let dt ← second (supDepth m)
  match compare ds dt with
  | .eq =>
    let (source, target) ← Eff.self
    match supSameState m.base source target with
    | true => first (supDepth m)
    | false =>
      let r ← climb (both m.supSuperstate) supCommonAncestorDepth
      match r with
      | some d => pure d
      | none => pure 0
  | .gt =>
    let r ← climb (left m.supSuperstate) supCommonAncestorDepth
    match r with
    | some d => pure d
    | none => pure 0
  | .lt =>
    let r ← climb (right m.supSuperstate) supCommonAncestorDepth
    match r with
    | some d => pure d
    | none => pure 0
partial_fixpoint

/-- `StateExt::transition_path`: `statig/src/blocking/state.rs:67-84`, `statig/src/awaitable/state.rs:82-99`. -/
def transitionPath : Eff S (S.St × S.St) (Nat × Nat) := do
  let (source, target) ← Eff.self
  if sameState m.base source target then pure (1, 1)
  else
    let sourceDepth ← first (depth m)
    let targetDepth ← second (depth m)
    let r ← climb (both m.superstate) (supCommonAncestorDepth m)
    match r with
    | some common =>
      let x ← Eff.lift (some (usizeSub sourceDepth common))
      let n ← Eff.lift (some (usizeSub targetDepth common))
      pure (x, n)
    | none => pure (sourceDepth, targetDepth)

/-! ## Blocking -/

/-- `SuperstateExt::handle`: `statig/src/blocking/superstate.rs:90-125`. -/
def blockingSupHandle (ev : S.Ev) : Eff S S.Sup (Response S.St) := do
  let response ← callSupHandler m.base ev
  match response with
  | .handled => pure .handled
  | .super =>
    let r ← climb m.supSuperstate (do
      hookSupBeforeDispatch m.base ev
      let response ← blockingSupHandle ev
      hookSupAfterDispatch m.base ev
      pure response)
    match r with
    | some response => pure response
    | none => pure .super
  | .transition state => pure (.transition state)
partial_fixpoint

/-- `StateExt::handle`: `statig/src/blocking/state.rs:87-126`. -/
def blockingHandle (ev : S.Ev) : Eff S S.St (Response S.St) := do
  hookBeforeDispatch m.base ev
  let response ← callHandler m.base ev
  hookAfterDispatch m.base ev
  match response with
  | .handled => pure .handled
  | .super =>
    let r ← climb m.superstate (do
      hookSupBeforeDispatch m.base ev
      let response ← blockingSupHandle m ev
      hookSupAfterDispatch m.base ev
      pure response)
    match r with
    | some response => pure response
    | none => pure .super
  | .transition state => pure (.transition state)

/-- `SuperstateExt::enter`: `statig/src/blocking/superstate.rs:129-141`. -/
def blockingSupEnter : Nat → Eff S S.Sup Unit
  | 0 => pure ()
  | 1 => callSupEntry m.base
  | levels + 2 => do
    let _ ← climb m.supSuperstate (blockingSupEnter (levels + 1))
    callSupEntry m.base

/-- `SuperstateExt::exit`: `statig/src/blocking/superstate.rs:145-157`. -/
def blockingSupExit : Nat → Eff S S.Sup Unit
  | 0 => pure ()
  | 1 => callSupExit m.base
  | levels + 2 => do
    callSupExit m.base
    let _ ← climb m.supSuperstate (blockingSupExit (levels + 1))
    pure ()

/-- `StateExt::enter`: `statig/src/blocking/state.rs:130-141`. -/
def blockingEnter : Nat → Eff S S.St Unit
  | 0 => pure ()
  | 1 => callEntry m.base
  | levels + 2 => do
    let _ ← climb m.superstate (blockingSupEnter m (levels + 1))
    callEntry m.base

/-- `StateExt::exit`: `statig/src/blocking/state.rs:145-156`. -/
def blockingExit : Nat → Eff S S.St Unit
  | 0 => pure ()
  | 1 => callExit m.base
  | levels + 2 => do
    callExit m.base
    let _ ← climb m.superstate (blockingSupExit m (levels + 1))
    pure ()

/-! ## Awaitable -/

/-- The `loop` in `StateExt::handle`: `statig/src/awaitable/state.rs:119-148`. -/
def awaitableHandleLoop (ev : S.Ev) : Eff S S.Sup (Response S.St) := do
  hookSupBeforeDispatch m.base ev
  let response ← callSupHandler m.base ev
  hookSupAfterDispatch m.base ev
  match response with
  | .handled => pure .handled
  | .super =>
    let r ← climb m.supSuperstate (awaitableHandleLoop ev)
    match r with
    | some response => pure response
    | none => pure .handled
  | .transition state => pure (.transition state)
partial_fixpoint

/-- `StateExt::handle`: `statig/src/awaitable/state.rs:103-154`. -/
def awaitableHandle (ev : S.Ev) : Eff S S.St (Response S.St) := do
  hookBeforeDispatch m.base ev
  let response ← callHandler m.base ev
  hookAfterDispatch m.base ev
  match response with
  | .handled => pure .handled
  | .super =>
    let r ← climb m.superstate (awaitableHandleLoop m ev)
    match r with
    | some response => pure response
    | none => pure .super
  | .transition state => pure (.transition state)

/-- The `for _ in 2..levels` loop of `StateExt::enter` and the entry action after it:
`statig/src/awaitable/state.rs:172-178`. -/
def awaitableClimbEntry : Nat → Eff S S.Sup Unit
  | 0 => callSupEntry m.base
  | n + 1 => do
    let r ← climb m.supSuperstate (awaitableClimbEntry n)
    match r with
    | some () => pure ()
    | none => callSupEntry m.base

/-- `StateExt::enter`: `statig/src/awaitable/state.rs:158-187`. -/
def awaitableEnter : Nat → Eff S S.St Unit
  | 0 => pure ()
  | 1 => callEntry m.base
  | levels + 2 => do
    let _ ← climb m.superstate (awaitableClimbEntry m levels)
    awaitableEnter (levels + 1)

/-- The `while levels > 1` loop of `StateExt::exit`: `statig/src/awaitable/state.rs:208-215`. -/
def awaitableExitLoop : Nat → Eff S S.Sup Unit
  | 0 => pure ()
  | 1 => pure ()
  | levels + 2 => do
    callSupExit m.base
    let _ ← climb m.supSuperstate (awaitableExitLoop (levels + 1))
    pure ()

/-- `StateExt::exit`: `statig/src/awaitable/state.rs:191-218`. -/
def awaitableExit (levels : Nat) : Eff S S.St Unit := do
  if levels ≥ 1 then callExit m.base else pure ()
  let _ ← climb m.superstate (awaitableExitLoop m levels)
  pure ()

/-! ## Both modes -/

/-- `StateExt::handle` of the chosen mode. -/
def handle (mode : Mode) (ev : S.Ev) : Eff S S.St (Response S.St) :=
  match mode with
  | .blocking => blockingHandle m ev
  | .awaitable => awaitableHandle m ev

/-- `StateExt::enter` of the chosen mode. -/
def enter (mode : Mode) (levels : Nat) : Eff S S.St Unit :=
  match mode with
  | .blocking => blockingEnter m levels
  | .awaitable => awaitableEnter m levels

/-- `StateExt::exit` of the chosen mode. -/
def exit (mode : Mode) (levels : Nat) : Eff S S.St Unit :=
  match mode with
  | .blocking => blockingExit m levels
  | .awaitable => awaitableExit m levels

/-- `Inner::init_with_context`: `statig/src/blocking/inner.rs:20-24`, `statig/src/awaitable/inner.rs:19-24`. -/
def init (mode : Mode) : Eff S S.St Unit := do
  let enterLevels ← depth m
  enter m mode enterLevels

/-- `Inner::transition`: `statig/src/blocking/inner.rs:41-59`, `statig/src/awaitable/inner.rs:43-63`.  The two versions
differ in the order of the arguments of `before_transition`.  `transition_path` can change `target`, a local variable. -/
def transition (mode : Mode) (target : S.St) : Eff S S.St Unit := do
  let s ← Eff.self
  match mode with
  | .blocking => hookBeforeTransition m.base target s
  | .awaitable => hookBeforeTransition m.base s target
  let ((exitLevels, enterLevels), target) ← withLocal target (transitionPath m)
  exit m mode exitLevels
  let old ← Eff.swap target
  enter m mode enterLevels
  let new ← Eff.self
  hookAfterTransition m.base old new

/-- `Inner::handle_with_context`: `statig/src/blocking/inner.rs:27-38`, `statig/src/awaitable/inner.rs:26-40`. -/
def handleEvent (mode : Mode) (ev : S.Ev) : Eff S S.St Unit := do
  let response ← handle m mode ev
  match response with
  | .super => pure ()
  | .handled => pure ()
  | .transition state => transition m mode state

end Impure

variable {S : Sig}

/-- `StateMachine::init_with_context`: `statig/src/blocking/state_machine.rs:69-74`,
`statig/src/awaitable/state_machine.rs:71-76`. -/
def StateMachine.initImpure (mode : Mode) (m : Impure S) (sm : StateMachine S) (ctx : S.Ctx) (sched : List S.In) :
    Option (Call S (StateMachine S)) :=
  if sm.initialized = false then do
    let c ← sm.inner.run (m.init mode) ctx sched
    match c.out with
    | .ok () => some { c with self := { inner := c.self, initialized := true } }
    | _ => some { c with self := { inner := c.self, initialized := sm.initialized } }
  else some { out := .ok (), self := sm, ctx := ctx, sched := sched, trace := [] }

/-- `StateMachine::handle_with_context`: `statig/src/blocking/state_machine.rs:87-93`,
`statig/src/awaitable/state_machine.rs:89-99`. -/
def StateMachine.handleImpure (mode : Mode) (m : Impure S) (sm : StateMachine S) (ev : S.Ev) (ctx : S.Ctx)
    (sched : List S.In) : Option (Call S (StateMachine S)) :=
  if sm.initialized = false then do
    let c ← sm.inner.run (m.init mode) ctx sched
    match c.out with
    | .ok () =>
      let d ← c.self.run (m.handleEvent mode ev) c.ctx c.sched
      some { d with self := { inner := d.self, initialized := true }, trace := c.trace ++ d.trace }
    | _ => some { c with self := { inner := c.self, initialized := sm.initialized } }
  else do
    let d ← sm.inner.run (m.handleEvent mode ev) ctx sched
    some { d with self := { inner := d.self, initialized := sm.initialized } }

end Statig
