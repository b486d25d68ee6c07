import Verif.Model.Api
import Verif.Model.Unit
import Verif.Model.Macro.Rust
/-!
# The example `bench`: a CD player

`examples/no_macro/bench/src/main.rs` and `examples/macro/bench/src/main.rs`.
-/
namespace Statig.Examples.CdPlayer
open Statig.Macro

/-- `examples/no_macro/bench/src/main.rs:8-24`, `examples/macro/bench/src/main.rs:8-24`. -/
inductive Event where
  | startPlayback
  | resumePlayback
  | closeDrawer
  | openDrawer
  | stopAndOpen
  | stoppedAgain
  | storeCdInfo
  | pausePlayback
  | stopPlayback
  | play
  | endPause
  | stop
  | pause2
  | openClose
  | cdDetected
deriving DecidableEq

/-! ## Without the macro -/

/-- `examples/no_macro/bench/src/main.rs:30-36`. -/
inductive State where
  | empty
  | opened
  | stopped
  | playing
  | pause
deriving DecidableEq

/-- `examples/no_macro/bench/src/main.rs:40-56`.  The shared storage has no fields, and there are no superstates. -/
abbrev sig : Sig where
  M := Unit
  St := State
  Sup := Unit
  Ev := Event
  Ctx := Unit
  In := Empty
  D := State
  E := Unit

/-- `examples/no_macro/bench/src/main.rs:75-81`. -/
def empty : Event → Response State
  | .cdDetected => .transition .stopped
  | .openClose => .transition .opened
  | _ => .super

/-- `examples/no_macro/bench/src/main.rs:83-88`. -/
def opened : Event → Response State
  | .openClose => .transition .empty
  | _ => .super

/-- `examples/no_macro/bench/src/main.rs:90-97`. -/
def stopped : Event → Response State
  | .play => .transition .playing
  | .openClose => .transition .opened
  | .stop => .transition .stopped
  | _ => .super

/-- `examples/no_macro/bench/src/main.rs:99-106`. -/
def playing : Event → Response State
  | .openClose => .transition .opened
  | .pause2 => .transition .pause
  | .stop => .transition .stopped
  | _ => .super

/-- `examples/no_macro/bench/src/main.rs:108-114`. -/
def pause : Event → Response State
  | .endPause => .transition .playing
  | .stop => .transition .stopped
  | _ => .super

/-- `call_handler` of the states: `examples/no_macro/bench/src/main.rs:58-71`. -/
def handler : State → Event → Response State
  | .empty => empty
  | .opened => opened
  | .stopped => stopped
  | .playing => playing
  | .pause => pause

/-- The impls: `examples/no_macro/bench/src/main.rs:40-72`.  What is not implemented there has the default
implementation of the trait; the superstate `()` is never used. -/
def user : UnitMachine Unit State Event Unit Empty State where
  initial := .empty
  discr s := s
  handler := fun s shared event c => .done (s, shared, c) (handler s event)
  entry s shared c := .done (s, shared, c) ()
  exit s shared c := .done (s, shared, c) ()
  nested _ := false
  beforeDispatch shared _ _ := .done shared ()
  afterDispatch shared _ _ := .done shared ()
  beforeTransition shared _ _ := .done shared ()
  afterTransition shared _ _ := .done shared ()

/-- The same with `impl Superstate<M> for ()` (`statig/src/blocking/superstate.rs:160-183`). -/
def machine : Machine sig := user.machine

/-! ## With the macro -/

/-- A method with the attribute `#[state]` and the parameter `event: &Event`. -/
def stateMethod (name : Ident) : Method where
  name := name
  attrs := [⟨"state", none⟩]
  generic := false
  isAsync := false
  inputs := [.typed [] (.ident "event") (.ref none false (.path "Event" .nil))]

/-- The annotated impl block: `examples/macro/bench/src/main.rs:29-76`. -/
def source : Source where
  selfTy := .path "CdPlayer" .nil
  args := [⟨"initial", .lit "State::empty()"⟩, ⟨"state", .list (some [.derive (some ["Debug"])])⟩]
  methods := [stateMethod "empty", stateMethod "open", stateMethod "stopped", stateMethod "playing", stateMethod "pause"]

/-- What the macro generates (`gen_eq` in `Verif/Props/Examples/CdPlayer.lean`). -/
def gen : Gen where
  methods := source.methods
  selfTy := (.path "CdPlayer" .nil)
  callPath := ["CdPlayer"]
  callArgs := .nil
  generics := {}
  stateImpl := {}
  superstateImpl := {}
  mode := .blocking
  initial := "State::empty()"
  eventType := (.path "Event" .nil)
  contextType := (.compound "()" .nil)
  beforeTransition := none
  afterTransition := none
  beforeDispatch := none
  afterDispatch := none
  visibility := "pub"
  eventIdent := "event"
  contextIdent := "context"
  stateIdent := "State"
  stateDerives := ["Debug"]
  stateGenerics := []
  states := [
    ⟨"Empty", []⟩,
    ⟨"Open", []⟩,
    ⟨"Stopped", []⟩,
    ⟨"Playing", []⟩,
    ⟨"Pause", []⟩]
  constructors := [
    ⟨"empty", [], "Empty", []⟩,
    ⟨"open", [], "Open", []⟩,
    ⟨"stopped", [], "Stopped", []⟩,
    ⟨"playing", [], "Playing", []⟩,
    ⟨"pause", [], "Pause", []⟩]
  handlerArms := [
    ⟨⟨"Empty", []⟩, ⟨"empty", ["event"], false⟩⟩,
    ⟨⟨"Open", []⟩, ⟨"open", ["event"], false⟩⟩,
    ⟨⟨"Stopped", []⟩, ⟨"stopped", ["event"], false⟩⟩,
    ⟨⟨"Playing", []⟩, ⟨"playing", ["event"], false⟩⟩,
    ⟨⟨"Pause", []⟩, ⟨"pause", ["event"], false⟩⟩]
  entryArms := [
    ⟨⟨"Empty", []⟩, none⟩,
    ⟨⟨"Open", []⟩, none⟩,
    ⟨⟨"Stopped", []⟩, none⟩,
    ⟨⟨"Playing", []⟩, none⟩,
    ⟨⟨"Pause", []⟩, none⟩]
  exitArms := [
    ⟨⟨"Empty", []⟩, none⟩,
    ⟨⟨"Open", []⟩, none⟩,
    ⟨⟨"Stopped", []⟩, none⟩,
    ⟨⟨"Playing", []⟩, none⟩,
    ⟨⟨"Pause", []⟩, none⟩]
  superstateArms := [
    ⟨⟨"Empty", []⟩, none⟩,
    ⟨⟨"Open", []⟩, none⟩,
    ⟨⟨"Stopped", []⟩, none⟩,
    ⟨⟨"Playing", []⟩, none⟩,
    ⟨⟨"Pause", []⟩, none⟩]
  superstateIdent := "Superstate"
  superstateDerives := []
  superstateLifetime := false
  superstateGenerics := []
  superstates := []
  supHandlerArms := []
  supEntryArms := []
  supExitArms := []
  supSuperstateArms := []

/-- The generated type `State`. -/
abbrev MState := Val gen.iface.stateFields Empty

/-- The types of `examples/macro/bench/src/main.rs`; no state has fields. -/
abbrev types : Types where
  M := Unit
  Ev := Event
  Ctx := Unit
  In := Empty
  V := Empty

/-- A state without fields, as its constructor builds it. -/
def unitState (variant : Ident) (h : gen.iface.stateFields variant = some []) : MState :=
  ⟨variant, fun _ => none, [], h, by simp⟩

/-- The functions with a `#[state]` attribute: `examples/macro/bench/src/main.rs:31-75`. -/
def userHandler : Ident → List (Arg types) → Fut Empty (List (Arg types)) (Response MState)
  | "empty", [.event event] => .done [.event event] <|
    match event with
    | .cdDetected => .transition (unitState "Stopped" (by decide +kernel))
    | .openClose => .transition (unitState "Open" (by decide +kernel))
    | _ => .super
  | "open", [.event event] => .done [.event event] <|
    match event with
    | .openClose => .transition (unitState "Empty" (by decide +kernel))
    | _ => .super
  | "stopped", [.event event] => .done [.event event] <|
    match event with
    | .play => .transition (unitState "Playing" (by decide +kernel))
    | .openClose => .transition (unitState "Open" (by decide +kernel))
    | .stop => .transition (unitState "Stopped" (by decide +kernel))
    | _ => .super
  | "playing", [.event event] => .done [.event event] <|
    match event with
    | .openClose => .transition (unitState "Open" (by decide +kernel))
    | .pause2 => .transition (unitState "Pause" (by decide +kernel))
    | .stop => .transition (unitState "Stopped" (by decide +kernel))
    | _ => .super
  | "pause", [.event event] => .done [.event event] <|
    match event with
    | .endPause => .transition (unitState "Playing" (by decide +kernel))
    | .stop => .transition (unitState "Stopped" (by decide +kernel))
    | _ => .super
  -- There are no other such functions, and the macro calls them with the arguments they have.
  | _, args => .done args .super

/-- The rest of what the user writes: `State::empty()` (`examples/macro/bench/src/main.rs:29`). -/
def env : Env gen.iface types where
  handler := userHandler
  action _ args := .done args ()
  initial _ := unitState "Empty" (by decide +kernel)
  dispatchHook _ shared _ _ := .done shared ()
  transitionHook _ shared _ _ := .done shared ()
  hookAsync _ := false

end Statig.Examples.CdPlayer
