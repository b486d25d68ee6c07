import Verif.Model.Api
import Verif.Model.Macro.Rust
/-!
# The machines of the tests of hooks

`statig/tests/hooks.rs` and `statig/tests/async_hooks.rs`, where all the functions are `async`; they never suspend.
-/
namespace Statig.Tests.Hooks
open Statig.Macro

/-- `statig/tests/hooks.rs:8-10`, `statig/tests/async_hooks.rs:9-11`. -/
inductive Event where
  | tick
deriving DecidableEq

/-- `FooBar`: `statig/tests/hooks.rs:12-18`, `statig/tests/async_hooks.rs:13-19`. -/
structure FooBar where
  beforeDispatch : Bool
  afterDispatch : Bool
  beforeTransition : Bool
  afterTransition : Bool
deriving DecidableEq

/-- `FooBar::default()`. -/
def FooBar.default : FooBar := ⟨false, false, false, false⟩

/-- The annotated impl block: `statig/tests/hooks.rs:20-37`, `statig/tests/async_hooks.rs:21-38`. -/
def source (isAsync : Bool) : Source where
  selfTy := .path "FooBar" .nil
  args := [⟨"initial", .lit "State::foo()"⟩, ⟨"before_dispatch", .lit "Self::before_dispatch"⟩,
    ⟨"after_dispatch", .lit "Self::after_dispatch"⟩, ⟨"before_transition", .lit "Self::before_transition"⟩,
    ⟨"after_transition", .lit "Self::after_transition"⟩]
  methods := ["foo", "bar"].map fun name =>
    { name := name, attrs := [⟨"state", none⟩], generic := false, isAsync := isAsync,
      inputs := [.typed [] (.ident "event") (.ref none false (.path "Event" .nil))] }

/-- What the macro generates (`gen_eq` in `Verif/Props/Tests/Hooks.lean`). -/
def gen (isAsync : Bool) : Gen where
  methods := (source isAsync).methods
  selfTy := .path "FooBar" .nil
  callPath := ["FooBar"]
  callArgs := .nil
  generics := {}
  stateImpl := {}
  superstateImpl := {}
  mode := if isAsync then .awaitable else .blocking
  initial := "State::foo()"
  eventType := .path "Event" .nil
  contextType := .compound "()" .nil
  beforeTransition := some "Self::before_transition"
  afterTransition := some "Self::after_transition"
  beforeDispatch := some "Self::before_dispatch"
  afterDispatch := some "Self::after_dispatch"
  visibility := "pub"
  eventIdent := "event"
  contextIdent := "context"
  stateIdent := "State"
  stateDerives := []
  stateGenerics := []
  states := [⟨"Foo", []⟩, ⟨"Bar", []⟩]
  constructors := [⟨"foo", [], "Foo", []⟩, ⟨"bar", [], "Bar", []⟩]
  handlerArms := [⟨⟨"Foo", []⟩, ⟨"foo", ["event"], isAsync⟩⟩, ⟨⟨"Bar", []⟩, ⟨"bar", ["event"], isAsync⟩⟩]
  entryArms := [⟨⟨"Foo", []⟩, none⟩, ⟨⟨"Bar", []⟩, none⟩]
  exitArms := [⟨⟨"Foo", []⟩, none⟩, ⟨⟨"Bar", []⟩, none⟩]
  superstateArms := [⟨⟨"Foo", []⟩, none⟩, ⟨⟨"Bar", []⟩, none⟩]
  superstateIdent := "Superstate"
  superstateDerives := []
  superstateLifetime := false
  superstateGenerics := []
  superstates := []
  supHandlerArms := []
  supEntryArms := []
  supExitArms := []
  supSuperstateArms := []

/-- The generated type `State`. -/
abbrev State (b : Bool) := Val (gen b).iface.stateFields Empty

/-- The types of the tests; no state has fields. -/
abbrev types : Types where
  M := FooBar
  Ev := Event
  Ctx := Unit
  In := Empty
  V := Empty

/-- `State::foo()`. -/
def foo (b : Bool) : State b := ⟨"Foo", fun _ => none, [], by cases b <;> decide +kernel, by simp⟩

/-- `State::bar()`. -/
def bar (b : Bool) : State b := ⟨"Bar", fun _ => none, [], by cases b <;> decide +kernel, by simp⟩

/-- The functions with an attribute: `statig/tests/hooks.rs:28-36`. -/
def userHandler (b : Bool) : Ident → List (Arg types) → Fut Empty (List (Arg types)) (Response (State b))
  | "foo", args => .done args (.transition (bar b))
  | "bar", args => .done args (.transition (foo b))
  -- There are no other such functions.
  | _, args => .done args .super

/-- `statig/tests/hooks.rs:40-54`, by their paths. -/
def dispatchHook (path : Expr) (self : FooBar) : FooBar :=
  if path = "Self::before_dispatch" then { self with beforeDispatch := true }
  else if path = "Self::after_dispatch" then { self with afterDispatch := true }
  else self

/-- `statig/tests/hooks.rs:56-62`, by their paths. -/
def transitionHook (path : Expr) (self : FooBar) : FooBar :=
  if path = "Self::before_transition" then { self with beforeTransition := true }
  else if path = "Self::after_transition" then { self with afterTransition := true }
  else self

/-- What the user writes: `State::foo()`, the functions and the hooks; there are no actions. -/
def env (b : Bool) : Env (gen b).iface types where
  handler := userHandler b
  action _ args := .done args ()
  initial _ := foo b
  dispatchHook path self _ _ := .done (dispatchHook path self) ()
  transitionHook path self _ _ := .done (transitionHook path self) ()
  hookAsync _ := b

/-- The generated machine. -/
def machine (b : Bool) : Machine ((gen b).iface.sig types) := (gen b).iface.machine (env b)

end Statig.Tests.Hooks
