import Verif.Model.Api
import Verif.Model.Macro.Rust
/-!
# The example `blinky`

`examples/no_macro/blinky/src/main.rs` and `examples/macro/blinky/src/main.rs`.
-/
namespace Statig.Examples.Blinky
open Statig.Macro

/-- `examples/no_macro/blinky/src/main.rs:10-13`, `examples/macro/blinky/src/main.rs:12-15`. -/
inductive Event where
  | timerElapsed
  | buttonPressed
deriving DecidableEq

/-! ## Without the macro -/

/-- `examples/no_macro/blinky/src/main.rs:17-21`. -/
inductive State where
  | ledOn
  | ledOff
  | notBlinking
deriving DecidableEq

/-- `examples/no_macro/blinky/src/main.rs:26-28`. -/
inductive Superstate where
  | blinking
deriving DecidableEq

/-- `examples/no_macro/blinky/src/main.rs:32-47`.  The shared storage has no fields. -/
abbrev sig : Sig where
  M := Unit
  St := State
  Sup := Superstate
  Ev := Event
  Ctx := Unit
  In := Empty
  D := State
  E := Superstate

/-- `examples/no_macro/blinky/src/main.rs:78-83`. -/
def ledOn : Event → Response State
  | .timerElapsed => .transition .ledOff
  | _ => .super

/-- `examples/no_macro/blinky/src/main.rs:85-90`. -/
def ledOff : Event → Response State
  | .timerElapsed => .transition .ledOn
  | _ => .super

/-- `examples/no_macro/blinky/src/main.rs:92-97`. -/
def blinking : Event → Response State
  | .buttonPressed => .transition .notBlinking
  | _ => .super

/-- `examples/no_macro/blinky/src/main.rs:99-104`. -/
def notBlinking : Event → Response State
  | .buttonPressed => .transition .ledOn
  | _ => .super

/-- `call_handler` of the states: `examples/no_macro/blinky/src/main.rs:51-57`. -/
def handler : State → Event → Response State
  | .ledOn => ledOn
  | .ledOff => ledOff
  | .notBlinking => notBlinking

/-- `examples/no_macro/blinky/src/main.rs:59-65`. -/
def superstate : State → Option Superstate
  | .ledOn => some .blinking
  | .ledOff => some .blinking
  | .notBlinking => none

/-- The three impls: `examples/no_macro/blinky/src/main.rs:32-75`.  What is not
implemented there has the default implementation of the trait. -/
def machine : Machine sig where
  initial := .ledOn
  discr s := s
  supDiscr v := v
  handler s shared event c := .done (s, shared, c) (handler s event)
  entry s shared c := .done (s, shared, c) ()
  exit s shared c := .done (s, shared, c) ()
  superstate s := (superstate s).map fun v => (v, fun _ => s)
  supHandler v shared event c := .done (v, shared, c) (blinking event)
  supEntry v shared c := .done (v, shared, c) ()
  supExit v shared c := .done (v, shared, c) ()
  supSuperstate _ := none
  beforeDispatch shared _ _ := .done shared ()
  afterDispatch shared _ _ := .done shared ()
  beforeTransition shared _ _ := .done shared ()
  afterTransition shared _ _ := .done shared ()
  superstate_back := by
    intro s v back h
    cases hs : superstate s with
    | none => simp [hs] at h
    | some w => simp only [hs, Option.map_some, Option.some.injEq, Prod.mk.injEq] at h; rw [← h.2]
  supSuperstate_back := by intro v w back h; cases h

/-! ## With the macro -/

/-- A method with the attribute `#[state(superstate = "..")]` or `#[state]`, or another attribute, and the parameter
`event: &Event`. -/
def method (name : Ident) (attr : Attr) : Method where
  name := name
  attrs := [attr]
  generic := false
  isAsync := false
  inputs := [.typed [] (.ident "event") (.ref none false (.path "Event" .nil))]

/-- The annotated impl block: `examples/macro/blinky/src/main.rs:21-73`. -/
def source : Source where
  selfTy := .path "Blinky" .nil
  args := [⟨"initial", .lit "State::led_on()"⟩, ⟨"state", .list (some [.derive (some ["Debug"])])⟩,
    ⟨"superstate", .list (some [.derive (some ["Debug"])])⟩, ⟨"after_transition", .lit "Self::after_transition"⟩,
    ⟨"before_dispatch", .lit "Self::before_dispatch"⟩]
  methods := [method "led_on" ⟨"state", some [⟨"superstate", .lit "blinking"⟩]⟩,
    method "led_off" ⟨"state", some [⟨"superstate", .lit "blinking"⟩]⟩,
    method "blinking" ⟨"superstate", none⟩, method "not_blinking" ⟨"state", none⟩]

/-- What the macro generates (`gen_eq` in `Verif/Props/Examples/Blinky.lean`). -/
def gen : Gen where
  methods := source.methods
  selfTy := (.path "Blinky" .nil)
  callPath := ["Blinky"]
  callArgs := .nil
  generics := {}
  stateImpl := {}
  superstateImpl := {}
  mode := .blocking
  initial := "State::led_on()"
  eventType := (.path "Event" .nil)
  contextType := (.compound "()" .nil)
  beforeTransition := none
  afterTransition := some "Self::after_transition"
  beforeDispatch := some "Self::before_dispatch"
  afterDispatch := none
  visibility := "pub"
  eventIdent := "event"
  contextIdent := "context"
  stateIdent := "State"
  stateDerives := ["Debug"]
  stateGenerics := []
  states := [
    ⟨"LedOn", []⟩,
    ⟨"LedOff", []⟩,
    ⟨"NotBlinking", []⟩]
  constructors := [
    ⟨"led_on", [], "LedOn", []⟩,
    ⟨"led_off", [], "LedOff", []⟩,
    ⟨"not_blinking", [], "NotBlinking", []⟩]
  handlerArms := [
    ⟨⟨"LedOn", []⟩, ⟨"led_on", ["event"], false⟩⟩,
    ⟨⟨"LedOff", []⟩, ⟨"led_off", ["event"], false⟩⟩,
    ⟨⟨"NotBlinking", []⟩, ⟨"not_blinking", ["event"], false⟩⟩]
  entryArms := [
    ⟨⟨"LedOn", []⟩, none⟩,
    ⟨⟨"LedOff", []⟩, none⟩,
    ⟨⟨"NotBlinking", []⟩, none⟩]
  exitArms := [
    ⟨⟨"LedOn", []⟩, none⟩,
    ⟨⟨"LedOff", []⟩, none⟩,
    ⟨⟨"NotBlinking", []⟩, none⟩]
  superstateArms := [
    ⟨⟨"LedOn", []⟩, some ⟨"Blinking", []⟩⟩,
    ⟨⟨"LedOff", []⟩, some ⟨"Blinking", []⟩⟩,
    ⟨⟨"NotBlinking", []⟩, none⟩]
  superstateIdent := "Superstate"
  superstateDerives := ["Debug"]
  superstateLifetime := false
  superstateGenerics := []
  superstates := [⟨"Blinking", []⟩]
  supHandlerArms := [⟨⟨"Blinking", []⟩, ⟨"blinking", ["event"], false⟩⟩]
  supEntryArms := [⟨⟨"Blinking", []⟩, none⟩]
  supExitArms := [⟨⟨"Blinking", []⟩, none⟩]
  supSuperstateArms := [⟨⟨"Blinking", []⟩, none⟩]

/-- The generated type `State`. -/
abbrev MState := Val gen.iface.stateFields Empty

/-- The types of `examples/macro/blinky/src/main.rs`; no state has fields. -/
abbrev types : Types where
  M := Unit
  Ev := Event
  Ctx := Unit
  In := Empty
  V := Empty

/-- A state without fields, as its constructor builds it. -/
def unitState (variant : Ident) (h : gen.iface.stateFields variant = some []) : MState :=
  ⟨variant, fun _ => none, [], h, by simp⟩

/-- The functions with an attribute: `examples/macro/blinky/src/main.rs:36-72`. -/
def userHandler : Ident → List (Arg types) → Fut Empty (List (Arg types)) (Response MState)
  | "led_on", [.event event] => .done [.event event] <|
    match event with
    | .timerElapsed => .transition (unitState "LedOff" (by decide +kernel))
    | _ => .super
  | "led_off", [.event event] => .done [.event event] <|
    match event with
    | .timerElapsed => .transition (unitState "LedOn" (by decide +kernel))
    | _ => .super
  | "blinking", [.event event] => .done [.event event] <|
    match event with
    | .buttonPressed => .transition (unitState "NotBlinking" (by decide +kernel))
    | _ => .super
  | "not_blinking", [.event event] => .done [.event event] <|
    match event with
    | .buttonPressed => .transition (unitState "LedOn" (by decide +kernel))
    | _ => .super
  -- There are no other such functions, and the macro calls them with the arguments they have.
  | _, args => .done args .super

/-- The rest of what the user writes: `State::led_on()`, and the hooks (`examples/macro/blinky/src/main.rs:77-83`), which only print. -/
def env : Env gen.iface types where
  handler := userHandler
  action _ args := .done args ()
  initial _ := unitState "LedOn" (by decide +kernel)
  dispatchHook _ shared _ _ := .done shared ()
  transitionHook _ shared _ _ := .done shared ()
  hookAsync _ := false

end Statig.Examples.Blinky
