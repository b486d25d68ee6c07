import Verif.Model.Api
import Verif.Model.Macro.Rust
/-!
# The example `history`: a dishwasher that resumes its program

`examples/no_macro/history/src/main.rs` and `examples/macro/history/src/main.rs`.
-/
namespace Statig.Examples.Dishwasher
open Statig.Macro

/-- `examples/no_macro/history/src/main.rs:6-11`, `examples/macro/history/src/main.rs:3-8`. -/
inductive Event where
  | startProgram
  | doorOpened
  | doorClosed
  | timerElapsed
deriving DecidableEq

/-! ## Without the macro -/

/-- `examples/no_macro/history/src/main.rs:17-24`. -/
inductive State where
  | idle
  | soap
  | rinse
  | dry
  | doorOpened
deriving DecidableEq

/-- `examples/no_macro/history/src/main.rs:26-28`. -/
inductive Superstate where
  | doorClosed
deriving DecidableEq

/-- `examples/no_macro/history/src/main.rs:30-38`.  The shared storage (13-15) is its only field, `previous_state`. -/
abbrev sig : Sig where
  M := State
  St := State
  Sup := Superstate
  Ev := Event
  Ctx := Unit
  In := Empty
  D := State
  E := Superstate

/-- `examples/no_macro/history/src/main.rs:97-102`. -/
def idle : Event → Response State
  | .startProgram => .transition .soap
  | _ => .super

/-- `examples/no_macro/history/src/main.rs:104-109`. -/
def soap : Event → Response State
  | .timerElapsed => .transition .rinse
  | _ => .super

/-- `examples/no_macro/history/src/main.rs:111-116`. -/
def rinse : Event → Response State
  | .timerElapsed => .transition .dry
  | _ => .super

/-- `examples/no_macro/history/src/main.rs:118-123`. -/
def dry : Event → Response State
  | .timerElapsed => .transition .idle
  | _ => .super

/-- `examples/no_macro/history/src/main.rs:125-132`. -/
def doorClosed : Event → Response State
  | .doorOpened => .transition .doorOpened
  | _ => .super

/-- `examples/no_macro/history/src/main.rs:134-141`. -/
def doorOpened (previousState : State) : Event → Response State
  | .doorClosed => .transition previousState
  | _ => .super

/-- `call_handler` of the states: `examples/no_macro/history/src/main.rs:52-65`. -/
def handler : State → State → Event → Response State
  | .doorOpened, shared, event => doorOpened shared event
  | .dry, _, event => dry event
  | .idle, _, event => idle event
  | .soap, _, event => soap event
  | .rinse, _, event => rinse event

/-- `examples/no_macro/history/src/main.rs:67-75`. -/
def superstate : State → Option Superstate
  | .dry => some .doorClosed
  | .idle => some .doorClosed
  | .soap => some .doorClosed
  | .rinse => some .doorClosed
  | .doorOpened => none

/-- The three impls: `examples/no_macro/history/src/main.rs:30-94`.  What is not implemented there has the default
implementation of the trait. -/
def machine : Machine sig where
  initial := .idle
  discr s := s
  supDiscr v := v
  handler s shared event c := .done (s, shared, c) (handler s shared event)
  entry s shared c := .done (s, shared, c) ()
  exit s shared c := .done (s, shared, c) ()
  superstate s := (superstate s).map fun v => (v, fun _ => s)
  supHandler v shared event c := .done (v, shared, c) (doorClosed event)
  supEntry v shared c := .done (v, shared, c) ()
  supExit v shared c := .done (v, shared, c) ()
  supSuperstate _ := none
  beforeDispatch shared _ _ := .done shared ()
  afterDispatch shared _ _ := .done shared ()
  beforeTransition shared _ _ := .done shared ()
  afterTransition _ source _ := .done source ()
  superstate_back := by
    intro s v back h
    cases hs : superstate s with
    | none => simp [hs] at h
    | some w => simp only [hs, Option.map_some, Option.some.injEq, Prod.mk.injEq] at h; rw [← h.2]
  supSuperstate_back := by intro v w back h; cases h

/-! ## With the macro -/

/-- The parameter `event: &Event`. -/
def eventArg : FnArg := .typed [] (.ident "event") (.ref none false (.path "Event" .nil))

/-- A method with the attribute `#[state(superstate = "..")]` or `#[state]`. -/
def stateMethod (name : Ident) (superstate : Option String) (inputs : List FnArg) : Method where
  name := name
  attrs := [⟨"state", superstate.map fun s => [⟨"superstate", .lit s⟩]⟩]
  generic := false
  isAsync := false
  inputs := inputs

/-- The annotated impl block: `examples/macro/history/src/main.rs:15-75`.  `&State` stands for the type of the
parameters of `after_transition`, which the macro does not look at because the method has no attribute. -/
def source : Source where
  selfTy := .path "Dishwasher" .nil
  args := [⟨"initial", .lit "State::idle()"⟩, ⟨"after_transition", .lit "Self::after_transition"⟩,
    ⟨"state", .list (some [.derive (some ["Debug", "Clone"])])⟩]
  methods := [
    { name := "after_transition", attrs := [], generic := false, isAsync := false,
      inputs := [.receiver true, .typed [] (.ident "source") (.ref none false (.path "State" .nil)),
        .typed [] (.ident "_target") (.ref none false (.path "State" .nil))] },
    { name := "door_closed", attrs := [⟨"superstate", none⟩], generic := false, isAsync := false,
      inputs := [eventArg] },
    stateMethod "idle" (some "door_closed") [eventArg],
    stateMethod "soap" (some "door_closed") [eventArg],
    stateMethod "rinse" (some "door_closed") [eventArg],
    stateMethod "dry" (some "door_closed") [eventArg],
    stateMethod "door_opened" none [.receiver false, eventArg]]

/-- What the macro generates (`gen_eq` in `Verif/Props/Examples/Dishwasher.lean`). -/
def gen : Gen where
  methods := source.methods
  selfTy := (.path "Dishwasher" .nil)
  callPath := ["Dishwasher"]
  callArgs := .nil
  generics := {}
  stateImpl := {}
  superstateImpl := {}
  mode := .blocking
  initial := "State::idle()"
  eventType := (.path "Event" .nil)
  contextType := (.compound "()" .nil)
  beforeTransition := none
  afterTransition := some "Self::after_transition"
  beforeDispatch := none
  afterDispatch := none
  visibility := "pub"
  eventIdent := "event"
  contextIdent := "context"
  stateIdent := "State"
  stateDerives := ["Debug", "Clone"]
  stateGenerics := []
  states := [
    ⟨"Idle", []⟩,
    ⟨"Soap", []⟩,
    ⟨"Rinse", []⟩,
    ⟨"Dry", []⟩,
    ⟨"DoorOpened", []⟩]
  constructors := [
    ⟨"idle", [], "Idle", []⟩,
    ⟨"soap", [], "Soap", []⟩,
    ⟨"rinse", [], "Rinse", []⟩,
    ⟨"dry", [], "Dry", []⟩,
    ⟨"door_opened", [], "DoorOpened", []⟩]
  handlerArms := [
    ⟨⟨"Idle", []⟩, ⟨"idle", ["event"], false⟩⟩,
    ⟨⟨"Soap", []⟩, ⟨"soap", ["event"], false⟩⟩,
    ⟨⟨"Rinse", []⟩, ⟨"rinse", ["event"], false⟩⟩,
    ⟨⟨"Dry", []⟩, ⟨"dry", ["event"], false⟩⟩,
    ⟨⟨"DoorOpened", []⟩, ⟨"door_opened", ["shared_storage", "event"], false⟩⟩]
  entryArms := [
    ⟨⟨"Idle", []⟩, none⟩,
    ⟨⟨"Soap", []⟩, none⟩,
    ⟨⟨"Rinse", []⟩, none⟩,
    ⟨⟨"Dry", []⟩, none⟩,
    ⟨⟨"DoorOpened", []⟩, none⟩]
  exitArms := [
    ⟨⟨"Idle", []⟩, none⟩,
    ⟨⟨"Soap", []⟩, none⟩,
    ⟨⟨"Rinse", []⟩, none⟩,
    ⟨⟨"Dry", []⟩, none⟩,
    ⟨⟨"DoorOpened", []⟩, none⟩]
  superstateArms := [
    ⟨⟨"Idle", []⟩, some ⟨"DoorClosed", []⟩⟩,
    ⟨⟨"Soap", []⟩, some ⟨"DoorClosed", []⟩⟩,
    ⟨⟨"Rinse", []⟩, some ⟨"DoorClosed", []⟩⟩,
    ⟨⟨"Dry", []⟩, some ⟨"DoorClosed", []⟩⟩,
    ⟨⟨"DoorOpened", []⟩, none⟩]
  superstateIdent := "Superstate"
  superstateDerives := []
  superstateLifetime := false
  superstateGenerics := []
  superstates := [⟨"DoorClosed", []⟩]
  supHandlerArms := [⟨⟨"DoorClosed", []⟩, ⟨"door_closed", ["event"], false⟩⟩]
  supEntryArms := [⟨⟨"DoorClosed", []⟩, none⟩]
  supExitArms := [⟨⟨"DoorClosed", []⟩, none⟩]
  supSuperstateArms := [⟨⟨"DoorClosed", []⟩, none⟩]

/-- The generated type `State`. -/
abbrev MState := Val gen.iface.stateFields Empty

/-- The types of `examples/macro/history/src/main.rs`; the shared storage (10-13) is its only field,
`previous_state`; no state has fields. -/
abbrev types : Types where
  M := MState
  Ev := Event
  Ctx := Unit
  In := Empty
  V := Empty

/-- A state without fields, as its constructor builds it. -/
def unitState (variant : Ident) (h : gen.iface.stateFields variant = some []) : MState :=
  ⟨variant, fun _ => none, [], h, by simp⟩

/-- The functions with a `#[state]` or `#[superstate]` attribute: `examples/macro/history/src/main.rs:26-74`. -/
def userHandler : Ident → List (Arg types) → Fut Empty (List (Arg types)) (Response MState)
  | "door_closed", [.event event] => .done [.event event] <|
    match event with
    | .doorOpened => .transition (unitState "DoorOpened" (by decide +kernel))
    | _ => .super
  | "idle", [.event event] => .done [.event event] <|
    match event with
    | .startProgram => .transition (unitState "Soap" (by decide +kernel))
    | _ => .super
  | "soap", [.event event] => .done [.event event] <|
    match event with
    | .timerElapsed => .transition (unitState "Rinse" (by decide +kernel))
    | _ => .super
  | "rinse", [.event event] => .done [.event event] <|
    match event with
    | .timerElapsed => .transition (unitState "Dry" (by decide +kernel))
    | _ => .super
  | "dry", [.event event] => .done [.event event] <|
    match event with
    | .timerElapsed => .transition (unitState "Idle" (by decide +kernel))
    | _ => .super
  | "door_opened", [.storage previousState, .event event] => .done [.storage previousState, .event event] <|
    match event with
    | .doorClosed => .transition previousState
    | _ => .super
  -- There are no other such functions, and the macro calls them with the arguments they have.
  | _, args => .done args .super

/-- The rest of what the user writes: `State::idle()` (`examples/macro/history/src/main.rs:16`) and
`after_transition` (21-24). -/
def env : Env gen.iface types where
  handler := userHandler
  action _ args := .done args ()
  initial _ := unitState "Idle" (by decide +kernel)
  dispatchHook _ shared _ _ := .done shared ()
  transitionHook _ _ source _ := .done source ()
  hookAsync _ := false

end Statig.Examples.Dishwasher
