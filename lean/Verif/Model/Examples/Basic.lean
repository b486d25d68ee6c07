import Verif.Model.Api
import Verif.Model.Unit
import Verif.Model.Macro.Rust
/-!
# The example `basic`

`examples/no_macro/basic/src/main.rs` and `examples/macro/basic/src/main.rs`.
-/
namespace Statig.Examples.Basic
open Statig.Macro

/-- `examples/no_macro/basic/src/main.rs:16`, `examples/macro/basic/src/main.rs:11`. -/
inductive Event where
  | event
deriving DecidableEq

/-! ## Without the macro -/

/-- `examples/no_macro/basic/src/main.rs:11-14`. -/
inductive State where
  | on
  | off
deriving DecidableEq

/-- `examples/no_macro/basic/src/main.rs:20-41`.  The shared storage (6-8) is its only field, `led`; there are no
superstates. -/
abbrev sig : Sig where
  M := Bool
  St := State
  Sup := Unit
  Ev := Event
  Ctx := Unit
  In := Empty
  D := State
  E := Unit

/-- `examples/no_macro/basic/src/main.rs:52-64`, called by `call_handler` (44-49): what the handlers write to
`led`, and their response. -/
def handler : State → Bool × Response State
  | .on => (false, .transition .off)
  | .off => (true, .transition .on)

/-- The impls: `examples/no_macro/basic/src/main.rs:20-50`.  `after_transition` only prints.  What is not
implemented there has the default implementation of the trait; the superstate `()` is never used. -/
def user : UnitMachine Bool State Event Unit Empty State where
  initial := .off
  discr s := s
  handler := fun s _ _ c => .done (s, (handler s).1, c) (handler s).2
  entry s shared c := .done (s, shared, c) ()
  exit s shared c := .done (s, shared, c) ()
  nested _ := false
  beforeDispatch shared _ _ := .done shared ()
  afterDispatch shared _ _ := .done shared ()
  beforeTransition shared _ _ := .done shared ()
  afterTransition shared _ _ := .done shared ()

/-- The same with `impl Superstate<M> for ()` (`statig/src/blocking/superstate.rs:160-183`). -/
def machine : Machine sig := user.machine

/-! ## With the macro -/

/-- A method with the attribute `#[state]` and the parameters `&mut self` and `event: &Event`. -/
def stateMethod (name : Ident) : Method where
  name := name
  attrs := [⟨"state", none⟩]
  generic := false
  isAsync := false
  inputs := [.receiver true, .typed [] (.ident "event") (.ref none false (.path "Event" .nil))]

/-- The annotated impl block: `examples/macro/basic/src/main.rs:18-36`. -/
def source : Source where
  selfTy := .path "Blinky" .nil
  args := [⟨"initial", .lit "State::off()"⟩, ⟨"state", .list (some [.derive (some ["Debug"])])⟩]
  methods := [stateMethod "on", stateMethod "off"]

/-- What the macro generates (`gen_eq` in `Verif/Props/Examples/Basic.lean`). -/
def gen : Gen where
  methods := source.methods
  selfTy := (.path "Blinky" .nil)
  callPath := ["Blinky"]
  callArgs := .nil
  generics := {}
  stateImpl := {}
  superstateImpl := {}
  mode := .blocking
  initial := "State::off()"
  eventType := (.path "Event" .nil)
  contextType := (.compound "()" .nil)
  beforeTransition := none
  afterTransition := none
  beforeDispatch := none
  afterDispatch := none
  visibility := "pub"
  eventIdent := "event"
  contextIdent := "context"
  stateIdent := "State"
  stateDerives := ["Debug"]
  stateGenerics := []
  states := [
    ⟨"On", []⟩,
    ⟨"Off", []⟩]
  constructors := [
    ⟨"on", [], "On", []⟩,
    ⟨"off", [], "Off", []⟩]
  handlerArms := [
    ⟨⟨"On", []⟩, ⟨"on", ["shared_storage", "event"], false⟩⟩,
    ⟨⟨"Off", []⟩, ⟨"off", ["shared_storage", "event"], false⟩⟩]
  entryArms := [
    ⟨⟨"On", []⟩, none⟩,
    ⟨⟨"Off", []⟩, none⟩]
  exitArms := [
    ⟨⟨"On", []⟩, none⟩,
    ⟨⟨"Off", []⟩, none⟩]
  superstateArms := [
    ⟨⟨"On", []⟩, none⟩,
    ⟨⟨"Off", []⟩, none⟩]
  superstateIdent := "Superstate"
  superstateDerives := []
  superstateLifetime := false
  superstateGenerics := []
  superstates := []
  supHandlerArms := []
  supEntryArms := []
  supExitArms := []
  supSuperstateArms := []

/-- The generated type `State`. -/
abbrev MState := Val gen.iface.stateFields Empty

/-- The types of `examples/macro/basic/src/main.rs`; no state has fields. -/
abbrev types : Types where
  M := Bool
  Ev := Event
  Ctx := Unit
  In := Empty
  V := Empty

/-- A state without fields, as its constructor builds it. -/
def unitState (variant : Ident) (h : gen.iface.stateFields variant = some []) : MState :=
  ⟨variant, fun _ => none, [], h, by simp⟩

/-- The functions with a `#[state]` attribute: `examples/macro/basic/src/main.rs:24-35`. -/
def userHandler : Ident → List (Arg types) → Fut Empty (List (Arg types)) (Response MState)
  | "on", [.storage _, .event event] =>
    .done [.storage false, .event event] (.transition (unitState "Off" (by decide +kernel)))
  | "off", [.storage _, .event event] =>
    .done [.storage true, .event event] (.transition (unitState "On" (by decide +kernel)))
  -- There are no other such functions, and the macro calls them with the arguments they have.
  | _, args => .done args .super

/-- The rest of what the user writes: `State::off()` (`examples/macro/basic/src/main.rs:18`). -/
def env : Env gen.iface types where
  handler := userHandler
  action _ args := .done args ()
  initial _ := unitState "Off" (by decide +kernel)
  dispatchHook _ shared _ _ := .done shared ()
  transitionHook _ shared _ _ := .done shared ()
  hookAsync _ := false

end Statig.Examples.Basic
