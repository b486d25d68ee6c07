import Verif.Model.Api
import Verif.Model.Macro.Rust
/-!
# The machine of the test of external contexts

`statig/tests/external_context.rs`.  A `usize` is a natural number up to `max`.
-/
namespace Statig.Tests.ExternalContext
open Statig.Macro

/-- `statig/tests/external_context.rs:11-14`. -/
inductive Event where
  | buttonPressed
  | timerElapsed
deriving DecidableEq

/-- What the two references of an `ExternalContext` point to: `statig/tests/external_context.rs:9`. -/
structure Context where
  a : Nat
  b : Nat
deriving DecidableEq

/-- `usize::saturating_add(1)`. -/
def saturatingSucc (max n : Nat) : Nat := if n < max then n + 1 else max

/-- The parameters `context: &mut ExternalContext<'_, '_>, event: &Event`. -/
def inputs : List FnArg :=
  [.typed [] (.ident "context") (.ref none true (.path "ExternalContext" (.lifetime "_" (.lifetime "_" .nil)))),
    .typed [] (.ident "event") (.ref none false (.path "Event" .nil))]

/-- The annotated impl block: `statig/tests/external_context.rs:16-39`. -/
def source : Source where
  selfTy := .path "Counter" .nil
  args := [⟨"initial", .lit "State::up()"⟩]
  methods := [{ name := "up", attrs := [⟨"state", none⟩], generic := false, isAsync := false, inputs := inputs },
    { name := "down", attrs := [⟨"state", none⟩], generic := false, isAsync := false, inputs := inputs }]

/-- What the macro generates (`gen_eq` in `Verif/Props/Tests/ExternalContext.lean`). -/
def gen : Gen where
  methods := source.methods
  selfTy := .path "Counter" .nil
  callPath := ["Counter"]
  callArgs := .nil
  generics := {}
  stateImpl := {}
  superstateImpl := {}
  mode := .blocking
  initial := "State::up()"
  eventType := .path "Event" .nil
  contextType := .path "ExternalContext" (.lifetime "context" (.lifetime "context" .nil))
  beforeTransition := none
  afterTransition := none
  beforeDispatch := none
  afterDispatch := none
  visibility := "pub"
  eventIdent := "event"
  contextIdent := "context"
  stateIdent := "State"
  stateDerives := []
  stateGenerics := []
  states := [⟨"Up", []⟩, ⟨"Down", []⟩]
  constructors := [⟨"up", [], "Up", []⟩, ⟨"down", [], "Down", []⟩]
  handlerArms := [
    ⟨⟨"Up", []⟩, ⟨"up", ["context", "event"], false⟩⟩,
    ⟨⟨"Down", []⟩, ⟨"down", ["context", "event"], false⟩⟩]
  entryArms := [⟨⟨"Up", []⟩, none⟩, ⟨⟨"Down", []⟩, none⟩]
  exitArms := [⟨⟨"Up", []⟩, none⟩, ⟨⟨"Down", []⟩, none⟩]
  superstateArms := [⟨⟨"Up", []⟩, none⟩, ⟨⟨"Down", []⟩, none⟩]
  superstateIdent := "Superstate"
  superstateDerives := []
  superstateLifetime := false
  superstateGenerics := []
  superstates := []
  supHandlerArms := []
  supEntryArms := []
  supExitArms := []
  supSuperstateArms := []

/-- The generated type `State`. -/
abbrev State := Val gen.iface.stateFields Empty

/-- The types of the test; no state has fields. -/
abbrev types : Types where
  M := Unit
  Ev := Event
  Ctx := Context
  In := Empty
  V := Empty

/-- A state without fields, as its constructor builds it. -/
def unitState (variant : Ident) (h : gen.iface.stateFields variant = some []) : State :=
  ⟨variant, fun _ => none, [], h, by simp⟩

/-- `State::up()`. -/
def up : State := unitState "Up" (by decide +kernel)

/-- `State::down()`. -/
def down : State := unitState "Down" (by decide +kernel)

/-- The functions with an attribute: `statig/tests/external_context.rs:18-38`. -/
def userHandler (max : Nat) : Ident → List (Arg types) → Fut Empty (List (Arg types)) (Response State)
  | "up", [.context context, .event event] =>
    match event with
    | .buttonPressed => .done [.context ⟨saturatingSucc max context.a, context.b⟩, .event event] .handled
    | .timerElapsed => .done [.context context, .event event] (.transition down)
  | "down", [.context context, .event event] =>
    match event with
    | .buttonPressed => .done [.context ⟨context.a - 1, context.b⟩, .event event] .handled
    | .timerElapsed => .done [.context context, .event event] (.transition up)
  -- There are no other such functions, and the macro calls them with the arguments they have.
  | _, args => .done args .super

/-- The rest of what the user writes: `State::up()`; there are no actions and no hooks. -/
def env (max : Nat) : Env gen.iface types where
  handler := userHandler max
  action _ args := .done args ()
  initial _ := up
  dispatchHook _ shared _ _ := .done shared ()
  transitionHook _ shared _ _ := .done shared ()
  hookAsync _ := false

/-- The generated machine. -/
def machine (max : Nat) : Machine (gen.iface.sig types) := gen.iface.machine (env max)

end Statig.Tests.ExternalContext
