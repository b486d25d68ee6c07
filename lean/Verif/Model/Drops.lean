import Verif.Model.Api
/-!
# When state values are dropped

The functions of `Verif/Model/{Blocking,Awaitable,Api}.lean` again, with the values of type `M::State` that they own:
a response that is held in a local variable while a hook runs, and the parameter `target` of `transition`.  A local
variable is dropped when its scope is left without moving out of it: at the end of the function, when a panic unwinds
through it, and when the future it is part of is dropped.  The log of drops is kept beside `self`.
Simplifications: dropping has no effect on anything else the library looks at (user-defined `Drop` cannot reach shared
storage, context or state), and what user code drops itself, and what it owns when it is interrupted, is not logged.
-/
namespace Statig
variable {S : Sig} {σ τ κ α : Type}

/-- A value is dropped by the library: the number of observations made in this call before, and the value. -/
structure Drop (S : Sig) where
  time : Nat
  value : S.St

namespace Owned

/-- A function that does not own states (`κ` are variables it cannot reach), e.g. the calls in
`statig/src/blocking/inner.rs:41-59`. -/
def zoom (x : Eff S σ α) : Eff S (σ × κ) α := fun p g =>
  match x p.1 g with
  | none => none
  | some (o, s, g') => some (o, (s, p.2), g')

/-- Borrowing a superstate from the first variable (`statig/src/blocking/state.rs:105`). -/
def via (sup : σ → Option (τ × (τ → σ))) (p : σ × κ) : Option ((τ × κ) × (τ × κ → σ × κ)) :=
  match sup p.1 with
  | none => none
  | some (v, back) => some ((v, p.2), fun q => (back q.1, q.2))

/-- The state in a response (`statig/src/response.rs:5-11`). -/
def target? {T : Type} : Response T → Option T
  | .transition t => some t
  | _ => none

/-- Run `x` while a local variable holds `r`; if `x` does not return, `r` is dropped.  (`let response = ..` in
`statig/src/blocking/state.rs:97-101, 113-119`, `statig/src/awaitable/state.rs:112-115, 126-134`.) -/
def holding (r : Response S.St) (x : Eff S (σ × List (Drop S)) Unit) : Eff S (σ × List (Drop S)) Unit := fun p g =>
  match x p g with
  | none => none
  | some (.ok (), q, g') => some (.ok (), q, g')
  | some (o, q, g') => some (o, (q.1, q.2 ++ (target? r).toList.map (Drop.mk g'.trace.length)), g')

/-- `core::mem::swap(&mut self.state, &mut target)`: `statig/src/blocking/inner.rs:52`,
`statig/src/awaitable/inner.rs:54`. -/
def swapVars : Eff S (S.St × S.St) Unit := fun p g => some (.ok (), (p.2, p.1), g)

/-- A function with an owned parameter, which is dropped when the function is left, however that happens
(`mut target: M::State` in `statig/src/blocking/inner.rs:41`, `statig/src/awaitable/inner.rs:43`). -/
def owning (target : S.St) (body : Eff S (S.St × S.St) Unit) : Eff S (S.St × List (Drop S)) Unit := fun p g =>
  match body (p.1, target) g with
  | none => none
  | some (o, q, g') => some (o, (q.1, p.2 ++ [⟨g'.trace.length, q.2⟩]), g')

section functions
variable (m : Machine S)

/-- `SuperstateExt::handle`: `statig/src/blocking/superstate.rs:90-125`. -/
def blockingSupHandle (ev : S.Ev) : Eff S (S.Sup × List (Drop S)) (Response S.St) := do
  let response ← zoom (callSupHandler m ev)
  match response with
  | .handled => pure .handled
  | .super =>
    let r ← Eff.borrow (via m.supSuperstate) (do
      zoom (hookSupBeforeDispatch m ev)
      let response ← blockingSupHandle ev
      holding response (zoom (hookSupAfterDispatch m ev))
      pure response)
    match r with
    | some response => pure response
    | none => pure .super
  | .transition state => pure (.transition state)
partial_fixpoint

/-- `StateExt::handle`: `statig/src/blocking/state.rs:87-126`. -/
def blockingHandle (ev : S.Ev) : Eff S (S.St × List (Drop S)) (Response S.St) := do
  zoom (hookBeforeDispatch m ev)
  let response ← zoom (callHandler m ev)
  holding response (zoom (hookAfterDispatch m ev))
  match response with
  | .handled => pure .handled
  | .super =>
    let r ← Eff.borrow (via m.superstate) (do
      zoom (hookSupBeforeDispatch m ev)
      let response ← blockingSupHandle m ev
      holding response (zoom (hookSupAfterDispatch m ev))
      pure response)
    match r with
    | some response => pure response
    | none => pure .super
  | .transition state => pure (.transition state)

/-- `Inner::transition`: `statig/src/blocking/inner.rs:41-59`. -/
def blockingTransition (target : S.St) : Eff S (S.St × List (Drop S)) Unit := owning target do
  let (state, target) ← Eff.self
  zoom (hookBeforeTransition m target state)
  let (exitLevels, enterLevels) ← Eff.lift (transitionPath m state target)
  zoom (Blocking.exit m exitLevels)
  swapVars
  zoom (Blocking.enter m enterLevels)
  let (state, target) ← Eff.self
  zoom (hookAfterTransition m target state)

/-- `Inner::handle_with_context`: `statig/src/blocking/inner.rs:27-38`. -/
def blockingHandleEvent (ev : S.Ev) : Eff S (S.St × List (Drop S)) Unit := do
  let response ← blockingHandle m ev
  match response with
  | .super => pure ()
  | .handled => pure ()
  | .transition state => blockingTransition m state

/-- The `loop` in `StateExt::handle`: `statig/src/awaitable/state.rs:119-148`. -/
def awaitableHandleLoop (ev : S.Ev) : Eff S (S.Sup × List (Drop S)) (Response S.St) := do
  zoom (hookSupBeforeDispatch m ev)
  let response ← zoom (callSupHandler m ev)
  holding response (zoom (hookSupAfterDispatch m ev))
  match response with
  | .handled => pure .handled
  | .super =>
    let r ← Eff.borrow (via m.supSuperstate) (awaitableHandleLoop ev)
    match r with
    | some response => pure response
    | none => pure .handled
  | .transition state => pure (.transition state)
partial_fixpoint

/-- `StateExt::handle`: `statig/src/awaitable/state.rs:103-154`. -/
def awaitableHandle (ev : S.Ev) : Eff S (S.St × List (Drop S)) (Response S.St) := do
  zoom (hookBeforeDispatch m ev)
  let response ← zoom (callHandler m ev)
  holding response (zoom (hookAfterDispatch m ev))
  match response with
  | .handled => pure .handled
  | .super =>
    let r ← Eff.borrow (via m.superstate) (awaitableHandleLoop m ev)
    match r with
    | some response => pure response
    | none => pure .super
  | .transition state => pure (.transition state)

/-- `Inner::transition`: `statig/src/awaitable/inner.rs:43-63`. -/
def awaitableTransition (target : S.St) : Eff S (S.St × List (Drop S)) Unit := owning target do
  let (state, target) ← Eff.self
  zoom (hookBeforeTransition m state target)
  let (exitLevels, enterLevels) ← Eff.lift (transitionPath m state target)
  zoom (Awaitable.exit m exitLevels)
  swapVars
  zoom (Awaitable.enter m enterLevels)
  let (state, target) ← Eff.self
  zoom (hookAfterTransition m target state)

/-- `Inner::handle_with_context`: `statig/src/awaitable/inner.rs:26-40`. -/
def awaitableHandleEvent (ev : S.Ev) : Eff S (S.St × List (Drop S)) Unit := do
  let response ← awaitableHandle m ev
  match response with
  | .super => pure ()
  | .handled => pure ()
  | .transition state => awaitableTransition m state

end functions
end Owned

/-- A call, and the states the library dropped during the call. -/
structure OwnedCall (S : Sig) (τ : Type) where
  call : Call S τ
  drops : List (Drop S)

/-- `Inner::handle_with_context` of the chosen mode: `statig/src/blocking/inner.rs:27-38`,
`statig/src/awaitable/inner.rs:26-40`. -/
def Inner.handleOwned (mode : Mode) (m : Machine S) (i : Inner S) (ev : S.Ev) (ctx : S.Ctx) (sched : List S.In) :
    Option (OwnedCall S (Inner S)) :=
  let x := match mode with
    | .blocking => Owned.blockingHandleEvent m ev
    | .awaitable => Owned.awaitableHandleEvent m ev
  match x (i.state, []) { sh := i.shared, ctx := ctx, sched := sched, trace := [] } with
  | none => none
  | some (o, q, g) =>
    some { call := { out := o, self := { shared := g.sh, state := q.1 }, ctx := g.ctx, sched := g.sched, trace := g.trace }
           drops := q.2 }

/-- `StateMachine::handle_with_context`: `statig/src/blocking/state_machine.rs:87-93`,
`statig/src/awaitable/state_machine.rs:89-99`.  Initialization owns no states. -/
def StateMachine.handleOwned (mode : Mode) (m : Machine S) (sm : StateMachine S) (ev : S.Ev) (ctx : S.Ctx)
    (sched : List S.In) : Option (OwnedCall S (StateMachine S)) :=
  if sm.initialized = false then do
    let c ← sm.inner.init mode m ctx sched
    match c.out with
    | .ok () =>
      let d ← c.self.handleOwned mode m ev c.ctx c.sched
      some { call := { d.call with self := { inner := d.call.self, initialized := true },
                                   trace := c.trace ++ d.call.trace }
             drops := d.drops.map fun x => ⟨c.trace.length + x.time, x.value⟩ }
    | _ => some { call := { c with self := { inner := c.self, initialized := sm.initialized } }, drops := [] }
  else do
    let d ← sm.inner.handleOwned mode m ev ctx sched
    some { call := { d.call with self := { inner := d.call.self, initialized := sm.initialized } }, drops := d.drops }

/-- `InitializedStateMachine::handle_with_context`: `statig/src/blocking/state_machine.rs:331-337`,
`statig/src/awaitable/state_machine.rs:337-342`. -/
def InitializedStateMachine.handleOwned (mode : Mode) (m : Machine S) (sm : InitializedStateMachine S) (ev : S.Ev)
    (ctx : S.Ctx) (sched : List S.In) : Option (OwnedCall S (InitializedStateMachine S)) := do
  let d ← sm.inner.handleOwned mode m ev ctx sched
  some { call := { d.call with self := { inner := d.call.self } }, drops := d.drops }

/-- `UninitializedStateMachine::init_with_context`: `statig/src/blocking/state_machine.rs:617-624`,
`statig/src/awaitable/state_machine.rs:635-642`.  The local variable `state_machine` is dropped when the call does not
return. -/
def UninitializedStateMachine.initOwned (mode : Mode) (m : Machine S) (sm : UninitializedStateMachine S) (ctx : S.Ctx)
    (sched : List S.In) : Option (OwnedCall S (Option (InitializedStateMachine S))) := do
  let c ← sm.inner.init mode m ctx sched
  match c.out with
  | .ok () => some { call := { c with self := some { inner := c.self } }, drops := [] }
  | _ => some { call := { c with self := none }, drops := [⟨c.trace.length, c.self.state⟩] }

end Statig
