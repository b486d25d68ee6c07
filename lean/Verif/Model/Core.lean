/-!
# Core of the statig model

`Response`, `StateOrSuperstate`, the user-supplied side of the traits, the observation log and the
effect monad in which the library functions are written.
-/
namespace Statig

/-- Which of `statig::blocking` and `statig::awaitable` is used (`statig/src/lib.rs:162-166`). -/
inductive Mode where
  | blocking
  | awaitable
deriving DecidableEq, Repr

/-- `statig/src/response.rs:4-11` `enum Response<S>`. -/
inductive Response (S : Type) where
  /-- Consider the event handled. -/
  | handled
  /-- Defer the event to the superstate. -/
  | super
  /-- Transition to the given state. -/
  | transition (target : S)
deriving DecidableEq, Repr

/-- `statig/src/state_or_superstate.rs:5-10` `enum StateOrSuperstate`.  References are modelled by the
value they point to at the time of the call. -/
inductive StateOrSuperstate (St Sup : Type) where
  | state (s : St)
  | superstate (v : Sup)
deriving DecidableEq, Repr

/-- The types a user chooses: `IntoStateMachine::{Self, State, Superstate, Event, Context}`
(`statig/src/blocking/into_state_machine.rs:4-22`, `statig/src/awaitable/into_state_machine.rs:6-24`),
the types of `core::mem::discriminant` of states and superstates (`D`, `E`), and the type `In` of what a
suspended callback receives from the outside world when it is polled again. -/
structure Sig where
  M : Type
  St : Type
  Sup : Type
  Ev : Type
  Ctx : Type
  In : Type
  D : Type
  E : Type
  [decD : DecidableEq D]
  [decE : DecidableEq E]

attribute [instance] Sig.decD Sig.decE

/-- One run of a user callback (`statig/src/awaitable/state.rs:15-40`: `impl Future<Output = _>`;
the blocking callbacks of `statig/src/blocking/state.rs:11-24` are the same without suspensions,
or with suspensions standing for blocking interaction with the outside world).

* `done w a`: returned `a`, having changed everything it borrows mutably to `w`;
* `panic w`: panicked, leaving `w`;
* `pending w k`: suspended (`Poll::Pending`) leaving `w`; continues as `k i` once polled with input `i`. -/
inductive Fut (In W α : Type) where
  | done (w : W) (a : α)
  | panic (w : W)
  | pending (w : W) (k : In → Fut In W α)

/-- How a call ends: it returned, a callback panicked, or the future was dropped at a suspension. -/
inductive Out (α : Type) where
  | ok (a : α)
  | panic
  | stopped
deriving DecidableEq, Repr

namespace Out
/-- The call returned normally. -/
def isOk : Out α → Bool
  | ok _ => true
  | _ => false

/-- Apply a function to the returned value. -/
def map (f : α → β) : Out α → Out β
  | ok a => ok (f a)
  | panic => panic
  | stopped => stopped
end Out

/-- Drive a callback with a finite schedule of poll inputs; when the schedule is exhausted at a
suspension the future is dropped there (`Out.stopped`).  Models `.await` in
`statig/src/awaitable/*.rs`: while suspended nobody else can touch the borrowed data. -/
def Fut.run : Fut In W α → List In → Out α × W × List In
  | .done w a, l => (.ok a, w, l)
  | .panic w, l => (.panic, w, l)
  | .pending w _, [] => (.stopped, w, [])
  | .pending _ k, i :: l => (k i).run l

/-- Every world the callback can be observed in (at return, panic or suspension) satisfies `P`. -/
inductive Fut.All (P : W → Prop) : Fut In W α → Prop where
  | done {w a} : P w → Fut.All P (.done w a)
  | panic {w} : P w → Fut.All P (.panic w)
  | pending {w k} : P w → (∀ i, Fut.All P (k i)) → Fut.All P (.pending w k)

/-- Everything a user implements: `IntoStateMachine` (`initial` and the four hooks,
`statig/src/blocking/into_state_machine.rs:22-48`, `statig/src/awaitable/into_state_machine.rs:24-63`),
`State` (`statig/src/blocking/state.rs:5-31`, `statig/src/awaitable/state.rs:8-46`) and `Superstate`
(`statig/src/blocking/superstate.rs:7-34`, `statig/src/awaitable/superstate.rs:8-47`).

`superstate(&mut self) -> Option<Superstate<'_>>` returns a value that mutably borrows from `self`; it is
modelled by the view together with the backward function that yields `self` when the borrow ends.
Simplification: `superstate` does not itself mutate `self` (`superstate_back`, `supSuperstate_back`:
dropping an untouched view leaves `self` as it was), and `initial` is a constant. -/
structure Machine (S : Sig) where
  initial : S.St
  /-- `core::mem::discriminant` on states -/
  discr : S.St → S.D
  /-- `core::mem::discriminant` on superstates -/
  supDiscr : S.Sup → S.E
  handler : S.St → S.M → S.Ev → S.Ctx → Fut S.In (S.St × S.M × S.Ctx) (Response S.St)
  entry : S.St → S.M → S.Ctx → Fut S.In (S.St × S.M × S.Ctx) Unit
  exit : S.St → S.M → S.Ctx → Fut S.In (S.St × S.M × S.Ctx) Unit
  superstate : S.St → Option (S.Sup × (S.Sup → S.St))
  supHandler : S.Sup → S.M → S.Ev → S.Ctx → Fut S.In (S.Sup × S.M × S.Ctx) (Response S.St)
  supEntry : S.Sup → S.M → S.Ctx → Fut S.In (S.Sup × S.M × S.Ctx) Unit
  supExit : S.Sup → S.M → S.Ctx → Fut S.In (S.Sup × S.M × S.Ctx) Unit
  supSuperstate : S.Sup → Option (S.Sup × (S.Sup → S.Sup))
  beforeDispatch : S.M → StateOrSuperstate S.St S.Sup → S.Ev → Fut S.In S.M Unit
  afterDispatch : S.M → StateOrSuperstate S.St S.Sup → S.Ev → Fut S.In S.M Unit
  /-- second argument: the parameter named `_source`, third: the one named `_target` -/
  beforeTransition : S.M → S.St → S.St → Fut S.In S.M Unit
  afterTransition : S.M → S.St → S.St → Fut S.In S.M Unit
  superstate_back : ∀ s v back, superstate s = some (v, back) → back v = s
  supSuperstate_back : ∀ v w back, supSuperstate v = some (w, back) → back w = v

/-- What can be observed: callbacks being started, with the values they are given, and what a handler
returned. -/
inductive Obs (S : Sig) where
  | handler (n : StateOrSuperstate S.St S.Sup) (ev : S.Ev)
  | returned (n : StateOrSuperstate S.St S.Sup) (r : Response S.St)
  | entry (n : StateOrSuperstate S.St S.Sup)
  | exit (n : StateOrSuperstate S.St S.Sup)
  | beforeDispatch (n : StateOrSuperstate S.St S.Sup) (ev : S.Ev)
  | afterDispatch (n : StateOrSuperstate S.St S.Sup) (ev : S.Ev)
  | beforeTransition (source target : S.St)
  | afterTransition (source target : S.St)

/-- What all callbacks share: `shared_storage: &mut M`, `context: &mut M::Context<'_>`
(`statig/src/blocking/state.rs:11-16`), the remaining poll schedule and the log. -/
structure Glob (S : Sig) where
  sh : S.M
  ctx : S.Ctx
  sched : List S.In
  trace : List (Obs S)

/-- A library function with `&mut self : &mut σ`; `none` means it never returns. -/
def Eff (S : Sig) (σ α : Type) := σ → Glob S → Option (Out α × σ × Glob S)

namespace Eff
variable {S : Sig} {σ τ α β : Type}

/-- Return without effect. -/
protected def pure (a : α) : Eff S σ α := fun s g => some (.ok a, s, g)

/-- Sequencing: a panic or a dropped future skips the rest. -/
protected def bind (x : Eff S σ α) (f : α → Eff S σ β) : Eff S σ β := fun s g =>
  match x s g with
  | none => none
  | some (.ok a, s', g') => f a s' g'
  | some (.panic, s', g') => some (.panic, s', g')
  | some (.stopped, s', g') => some (.stopped, s', g')

instance : Monad (Eff S σ) where
  pure := Eff.pure
  bind := Eff.bind

/-- Read `self`. -/
def self : Eff S σ σ := fun s g => some (.ok s, s, g)

/-- `core::mem::swap(&mut self, &mut new)`: replaces `self`, returns the old value. -/
def swap (new : σ) : Eff S σ σ := fun s g => some (.ok s, new, g)

/-- A pure computation that may not return (`none`) or panic. -/
def lift (x : Option (Out α)) : Eff S σ α := fun s g =>
  match x with
  | none => none
  | some o => some (o, s, g)

/-- `match self.superstate() { Some(mut superstate) => Some(body), None => None }`: run `body` on the
borrowed superstate; whatever happened to the view is written back to `self` when the borrow ends. -/
def borrow (sup : σ → Option (τ × (τ → σ))) (body : Eff S τ α) : Eff S σ (Option α) := fun s g =>
  match sup s with
  | none => some (.ok none, s, g)
  | some (v, back) =>
    match body v g with
    | none => none
    | some (o, v', g') => some (o.map some, back v', g')

/-- Run a callback borrowing `self`, the shared storage and the context; its start is logged. -/
def callback (o : σ → Obs S) (f : σ → S.M → S.Ctx → Fut S.In (σ × S.M × S.Ctx) α) : Eff S σ α :=
  fun s g =>
    match (f s g.sh g.ctx).run g.sched with
    | (r, (s', m', c'), l) => some (r, s', { sh := m', ctx := c', sched := l, trace := g.trace ++ [o s] })

/-- Run a hook borrowing only the shared storage mutably; its start is logged. -/
def hook (o : σ → Obs S) (f : σ → S.M → Fut S.In S.M Unit) : Eff S σ Unit :=
  fun s g =>
    match (f s g.sh).run g.sched with
    | (r, m', l) => some (r, s, { g with sh := m', sched := l, trace := g.trace ++ [o s] })

/-- Log an observation. -/
def log (o : σ → Obs S) : Eff S σ Unit := fun s g =>
  some (.ok (), s, { g with trace := g.trace ++ [o s] })

section order
open Lean.Order

instance : PartialOrder (Eff S σ α) :=
  inferInstanceAs (PartialOrder (σ → Glob S → Option (Out α × σ × Glob S)))
instance : CCPO (Eff S σ α) :=
  inferInstanceAs (CCPO (σ → Glob S → Option (Out α × σ × Glob S)))

instance : MonoBind (Eff S σ) where
  bind_mono_left := by
    intro α β a₁ a₂ f h s g
    have h' : a₁ s g ⊑ a₂ s g := h s g
    show Eff.bind a₁ f s g ⊑ Eff.bind a₂ f s g
    unfold Eff.bind
    generalize a₁ s g = x at h' ⊢
    generalize a₂ s g = y at h' ⊢
    cases h' with
    | bot => exact .bot
    | refl => exact .refl
  bind_mono_right := by
    intro α β a f₁ f₂ h s g
    show Eff.bind a f₁ s g ⊑ Eff.bind a f₂ s g
    unfold Eff.bind
    split
    · exact .refl
    · exact h _ _ _
    · exact .refl
    · exact .refl

@[partial_fixpoint_monotone]
theorem borrow_mono {γ : Type} [PartialOrder γ] (sup : σ → Option (τ × (τ → σ)))
    (body : γ → Eff S τ α) (h : monotone body) : monotone (fun x => borrow sup (body x)) := by
  intro a b hab s g
  have h' := h _ _ hab
  show borrow sup (body a) s g ⊑ borrow sup (body b) s g
  unfold borrow
  split
  · exact .refl
  · rename_i v back hs
    have h'' : body a v g ⊑ body b v g := h' v g
    generalize body a v g = x at h'' ⊢
    generalize body b v g = y at h'' ⊢
    cases h'' with
    | bot => exact .bot
    | refl => exact .refl

end order
end Eff

section callbacks
variable {S : Sig} (m : Machine S)

/-- `State::call_handler` (`statig/src/blocking/state.rs:11-16`, `statig/src/awaitable/state.rs:15-20`);
its start and its response are logged. -/
def callHandler (ev : S.Ev) : Eff S S.St (Response S.St) := do
  let r ← Eff.callback (fun s => .handler (.state s) ev) (fun s sh c => m.handler s sh ev c)
  Eff.log (fun s => .returned (.state s) r)
  pure r

/-- `State::call_entry_action` (`statig/src/blocking/state.rs:18-20`, `statig/src/awaitable/state.rs:22-30`). -/
def callEntry : Eff S S.St Unit :=
  Eff.callback (fun s => .entry (.state s)) (fun s sh c => m.entry s sh c)

/-- `State::call_exit_action` (`statig/src/blocking/state.rs:22-24`, `statig/src/awaitable/state.rs:32-40`). -/
def callExit : Eff S S.St Unit :=
  Eff.callback (fun s => .exit (.state s)) (fun s sh c => m.exit s sh c)

/-- `Superstate::call_handler` (`statig/src/blocking/superstate.rs:12-17`,
`statig/src/awaitable/superstate.rs:13-18`). -/
def callSupHandler (ev : S.Ev) : Eff S S.Sup (Response S.St) := do
  let r ← Eff.callback (fun v => .handler (.superstate v) ev) (fun v sh c => m.supHandler v sh ev c)
  Eff.log (fun v => .returned (.superstate v) r)
  pure r

/-- `Superstate::call_entry_action` (`statig/src/blocking/superstate.rs:19-21`,
`statig/src/awaitable/superstate.rs:20-28`). -/
def callSupEntry : Eff S S.Sup Unit :=
  Eff.callback (fun v => .entry (.superstate v)) (fun v sh c => m.supEntry v sh c)

/-- `Superstate::call_exit_action` (`statig/src/blocking/superstate.rs:23-25`,
`statig/src/awaitable/superstate.rs:30-38`). -/
def callSupExit : Eff S S.Sup Unit :=
  Eff.callback (fun v => .exit (.superstate v)) (fun v sh c => m.supExit v sh c)

/-- `M::before_dispatch(shared_storage, StateOrSuperstate::State(self), event)`
(`statig/src/blocking/into_state_machine.rs:27-32`). -/
def hookBeforeDispatch (ev : S.Ev) : Eff S S.St Unit :=
  Eff.hook (fun s => .beforeDispatch (.state s) ev) (fun s sh => m.beforeDispatch sh (.state s) ev)

/-- `M::after_dispatch(shared_storage, StateOrSuperstate::State(self), event)`
(`statig/src/blocking/into_state_machine.rs:36-41`). -/
def hookAfterDispatch (ev : S.Ev) : Eff S S.St Unit :=
  Eff.hook (fun s => .afterDispatch (.state s) ev) (fun s sh => m.afterDispatch sh (.state s) ev)

/-- `M::before_dispatch(shared_storage, StateOrSuperstate::Superstate(&superstate), event)`. -/
def hookSupBeforeDispatch (ev : S.Ev) : Eff S S.Sup Unit :=
  Eff.hook (fun v => .beforeDispatch (.superstate v) ev)
    (fun v sh => m.beforeDispatch sh (.superstate v) ev)

/-- `M::after_dispatch(shared_storage, StateOrSuperstate::Superstate(&superstate), event)`. -/
def hookSupAfterDispatch (ev : S.Ev) : Eff S S.Sup Unit :=
  Eff.hook (fun v => .afterDispatch (.superstate v) ev)
    (fun v sh => m.afterDispatch sh (.superstate v) ev)

/-- `M::before_transition(shared_storage, source, target)` with the two arguments as passed
(`statig/src/blocking/into_state_machine.rs:44`). -/
def hookBeforeTransition (source target : S.St) : Eff S S.St Unit :=
  Eff.hook (fun _ => .beforeTransition source target) (fun _ sh => m.beforeTransition sh source target)

/-- `M::after_transition(shared_storage, source, target)` with the two arguments as passed
(`statig/src/blocking/into_state_machine.rs:47`). -/
def hookAfterTransition (source target : S.St) : Eff S S.St Unit :=
  Eff.hook (fun _ => .afterTransition source target) (fun _ sh => m.afterTransition sh source target)

end callbacks
end Statig
