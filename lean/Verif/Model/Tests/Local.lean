import Verif.Model.Api
import Verif.Model.Macro.Rust
/-!
# The machines of the tests of state-local storage

`statig/tests/state_local_storage.rs`, without the macro, and `statig/tests/default.rs`, with the macro.
-/
namespace Statig.Tests.LocalStorage

/-- `StateEnum`: `statig/tests/state_local_storage.rs:70-73`. -/
inductive State where
  | on (led : Bool) (counter : Int)
  | off (led : Bool)
deriving DecidableEq

/-- The variant of a state. -/
inductive Variant where
  | on
  | off
deriving DecidableEq

/-- `core::mem::discriminant`. -/
def State.variant : State → Variant
  | .on _ _ => .on
  | .off _ => .off

/-- `statig/tests/state_local_storage.rs:127-129`; the reference is what it points to. -/
inductive Superstate where
  | playing (led : Bool)
deriving DecidableEq

/-- `statig/tests/state_local_storage.rs:9-24, 41`.  The shared storage and the event have no fields. -/
abbrev sig : Sig where
  M := Unit
  St := State
  Sup := Superstate
  Ev := Unit
  Ctx := Unit
  In := Empty
  D := Variant
  E := Unit

/-- `call_handler` of the states: `statig/tests/state_local_storage.rs:44-51, 58-60, 86-99`. -/
def handler : State → Response State
  | .on _ _ => .transition (.off false)
  | .off _ => .transition (.on true 34)

/-- `call_entry_action` of the states: `statig/tests/state_local_storage.rs:53-56, 101-106`. -/
def entry : State → State
  | .on led counter => .on led counter
  | .off _ => .off false

/-- `superstate` of the states: `statig/tests/state_local_storage.rs:115-120`.  The superstate borrows the field `led`. -/
def superstate : State → Superstate × (Superstate → State)
  | .on led counter => (.playing led, fun | .playing led => .on led counter)
  | .off led => (.playing led, fun | .playing led => .off led)

/-- The impls: `statig/tests/state_local_storage.rs:14-33, 85-162`. -/
def machine : Machine sig where
  initial := .on false 23
  discr := State.variant
  supDiscr _ := ()
  handler s shared _ c := .done (s, shared, c) (handler s)
  entry s shared c := .done (entry s, shared, c) ()
  exit s shared c := .done (s, shared, c) ()
  superstate s := some (superstate s)
  supHandler v shared _ c := .done (v, shared, c) .handled
  supEntry v shared c := .done (v, shared, c) ()
  supExit v shared c := .done (v, shared, c) ()
  supSuperstate _ := none
  beforeDispatch shared _ _ := .done shared ()
  afterDispatch shared _ _ := .done shared ()
  beforeTransition shared _ _ := .done shared ()
  afterTransition shared _ _ := .done shared ()
  superstate_back := by
    intro s v back h
    cases s <;> (simp only [superstate, Option.some.injEq, Prod.mk.injEq] at h; obtain ⟨h1, h2⟩ := h; subst h1; subst h2; rfl)
  supSuperstate_back := by intro v w back h; cases h

end Statig.Tests.LocalStorage

namespace Statig.Tests.Default
open Statig.Macro

/-- The function `bar`, with attributes on its parameters. -/
def barMethod (attrs1 attrs2 : List ArgAttr) : Method where
  name := "bar"
  attrs := [⟨"state", none⟩]
  generic := false
  isAsync := false
  inputs := [.typed attrs1 (.ident "local") (.ref none true (.path "usize" .nil)),
    .typed attrs2 (.ident "local_2") (.ref none true (.path "usize" .nil))]

/-- The annotated impl block: `statig/tests/default.rs:9-18`. -/
def source : Source where
  selfTy := .path "Foo" .nil
  args := [⟨"initial", .lit "State::bar()"⟩]
  methods := [barMethod [.default] [.defaultValue (some "100")]]

/-- The generated constructor of the only state (`gen_eq` in `Verif/Props/Tests/Local.lean`). -/
def barConstructor : Constructor := ⟨"bar", [], "Bar", [("local", .default), ("local_2", .value "100")]⟩

/-- What the macro generates (`gen_eq` in `Verif/Props/Tests/Local.lean`). -/
def gen : Gen where
  methods := [barMethod [] []]
  selfTy := .path "Foo" .nil
  callPath := ["Foo"]
  callArgs := .nil
  generics := {}
  stateImpl := {}
  superstateImpl := {}
  mode := .blocking
  initial := "State::bar()"
  eventType := .compound "()" .nil
  contextType := .compound "()" .nil
  beforeTransition := none
  afterTransition := none
  beforeDispatch := none
  afterDispatch := none
  visibility := "pub"
  eventIdent := "event"
  contextIdent := "context"
  stateIdent := "State"
  stateDerives := []
  stateGenerics := []
  states := [⟨"Bar", [⟨"local", .path "usize" .nil⟩, ⟨"local_2", .path "usize" .nil⟩]⟩]
  constructors := [barConstructor]
  handlerArms := [⟨⟨"Bar", ["local", "local_2"]⟩, ⟨"bar", ["local", "local_2"], false⟩⟩]
  entryArms := [⟨⟨"Bar", ["local", "local_2"]⟩, none⟩]
  exitArms := [⟨⟨"Bar", ["local", "local_2"]⟩, none⟩]
  superstateArms := [⟨⟨"Bar", ["local", "local_2"]⟩, none⟩]
  superstateIdent := "Superstate"
  superstateDerives := []
  superstateLifetime := false
  superstateGenerics := []
  superstates := []
  supHandlerArms := []
  supEntryArms := []
  supExitArms := []
  supSuperstateArms := []

/-- The generated type `State`; a `usize` is a natural number. -/
abbrev State := Val gen.iface.stateFields Nat

/-- The types of the test. -/
abbrev types : Types where
  M := Unit
  Ev := Unit
  Ctx := Unit
  In := Empty
  V := Nat

/-- The value of the expression `100`, the only one there is. -/
def value (e : Expr) (_ : Ident → Option Nat) : Nat := if e = "100" then 100 else 0

/-- The fields of `State::bar()`, as the generated constructor builds it (`bar_eq` in `Verif/Props/Tests/Local.lean`). -/
def barField (x : Ident) : Option Nat := if x = "local" then some 0 else if x = "local_2" then some 100 else none

/-- `State::bar()`. -/
def bar : State := ⟨"Bar", barField, ["local", "local_2"], by decide +kernel, fun x => by
  unfold barField
  by_cases h1 : x = "local" <;> by_cases h2 : x = "local_2" <;> simp [h1, h2]⟩

/-- What the user writes: `State::bar()` and the function `bar` (`statig/tests/default.rs:12-17`). -/
def env : Env gen.iface types where
  handler _ args := .done args .handled
  action _ args := .done args ()
  initial _ := bar
  dispatchHook _ shared _ _ := .done shared ()
  transitionHook _ shared _ _ := .done shared ()
  hookAsync _ := false

/-- The generated machine. -/
def machine : Machine (gen.iface.sig types) := gen.iface.machine env

end Statig.Tests.Default
