import Verif.Model.Core
/-!
# Machines without superstates

`impl Superstate<M> for ()`: `statig/src/blocking/superstate.rs:160-183`, `statig/src/awaitable/superstate.rs:102-129`.
-/
namespace Statig

/-- What a user writes when `IntoStateMachine::Superstate` is `()`: `IntoStateMachine`
(`statig/src/blocking/into_state_machine.rs:4-48`, `statig/src/awaitable/into_state_machine.rs:6-63`) and `State`
(`statig/src/blocking/state.rs:5-31`, `statig/src/awaitable/state.rs:8-46`).  `nested s` says whether `superstate`
(`statig/src/blocking/state.rs:26-31`, by default `None`) returns `Some(())` for `s`.  Simplification: as in `Machine`,
`superstate` does not change the state. -/
structure UnitMachine (M St Ev Ctx In D : Type) [DecidableEq D] where
  initial : St
  discr : St → D
  handler : St → M → Ev → Ctx → Fut In (St × M × Ctx) (Response St)
  entry : St → M → Ctx → Fut In (St × M × Ctx) Unit
  exit : St → M → Ctx → Fut In (St × M × Ctx) Unit
  nested : St → Bool
  beforeDispatch : M → StateOrSuperstate St Unit → Ev → Fut In M Unit
  afterDispatch : M → StateOrSuperstate St Unit → Ev → Fut In M Unit
  beforeTransition : M → St → St → Fut In M Unit
  afterTransition : M → St → St → Fut In M Unit

variable {M St Ev Ctx In D : Type} [DecidableEq D]

/-- The types of a machine whose superstate type is `()` (`statig/src/blocking/superstate.rs:160-163`);
`core::mem::discriminant` of `()` has one value. -/
abbrev unitSig (M St Ev Ctx In D : Type) [DecidableEq D] : Sig where
  M := M
  St := St
  Sup := Unit
  Ev := Ev
  Ctx := Ctx
  In := In
  D := D
  E := Unit

/-- `<() as Superstate<M>>::call_handler`: `statig/src/blocking/superstate.rs:164-171`,
`statig/src/awaitable/superstate.rs:106-113` (a future that is ready at once). -/
def unitCallHandler (v : Unit) (sh : M) (_ : Ev) (c : Ctx) : Fut In (Unit × M × Ctx) (Response St) :=
  .done (v, sh, c) .handled

/-- `<() as Superstate<M>>::call_entry_action`: `statig/src/blocking/superstate.rs:173`,
`statig/src/awaitable/superstate.rs:115-117`. -/
def unitCallEntry (v : Unit) (sh : M) (c : Ctx) : Fut In (Unit × M × Ctx) Unit := .done (v, sh, c) ()

/-- `<() as Superstate<M>>::call_exit_action`: `statig/src/blocking/superstate.rs:175`,
`statig/src/awaitable/superstate.rs:119-121`. -/
def unitCallExit (v : Unit) (sh : M) (c : Ctx) : Fut In (Unit × M × Ctx) Unit := .done (v, sh, c) ()

/-- `<() as Superstate<M>>::superstate`: `statig/src/blocking/superstate.rs:177-182`,
`statig/src/awaitable/superstate.rs:123-128`. -/
def unitSuperstate (_ : Unit) : Option (Unit × (Unit → Unit)) := none

/-- A machine whose superstate type is `()`: the user's `State`, and `impl Superstate<M> for ()`
(`statig/src/blocking/superstate.rs:160-183`). -/
def UnitMachine.machine (f : UnitMachine M St Ev Ctx In D) : Machine (unitSig M St Ev Ctx In D) where
  initial := f.initial
  discr := f.discr
  supDiscr v := v
  handler := f.handler
  entry := f.entry
  exit := f.exit
  superstate s := if f.nested s then some ((), fun _ => s) else none
  supHandler := unitCallHandler
  supEntry := unitCallEntry
  supExit := unitCallExit
  supSuperstate := unitSuperstate
  beforeDispatch := f.beforeDispatch
  afterDispatch := f.afterDispatch
  beforeTransition := f.beforeTransition
  afterTransition := f.afterTransition
  superstate_back := by
    intro s v back h
    split at h
    · simp only [Option.some.injEq, Prod.mk.injEq] at h
      rw [← h.2]
    · cases h
  supSuperstate_back := by
    intro v w back h
    cases h

end Statig
