import Verif.Model.Api
import Verif.Model.Macro.Rust
/-!
# The example `barrier`: states that collect events in local storage

`examples/macro/barrier/src/main.rs`.
-/
namespace Statig.Examples.Barrier
open Statig.Macro

/-- `examples/macro/barrier/src/main.rs:6-10`. -/
inductive Event where
  | A
  | B
  | C
deriving DecidableEq

/-- The type `bool`, and `&bool` and `&mut bool`. -/
def bool : Ty := .path "bool" .nil
/-- See `bool`. -/
def boolRef (mutable : Bool) : Ty := .ref none mutable bool

/-- The annotated impl block: `examples/macro/barrier/src/main.rs:12-50`. -/
def source : Source where
  selfTy := .path "Foo" .nil
  args := [⟨"initial", .lit "State::initializing()"⟩,
    ⟨"state", .list (some [.derive (some ["PartialEq", "Eq", "Debug"])])⟩]
  methods := [
    { name := "initializing"
      attrs := [⟨"state", some [⟨"superstate", .lit "waiting_for_initialization"⟩]⟩]
      generic := false
      isAsync := false
      inputs := [.typed [.defaultValue (some "true")] (.ident "a") (boolRef true),
        .typed [.default] (.ident "b") (boolRef true), .typed [.default] (.ident "c") (boolRef true),
        .typed [] (.ident "event") (.ref none false (.path "Event" .nil))] },
    { name := "waiting_for_initialization"
      attrs := [⟨"superstate", none⟩]
      generic := false
      isAsync := false
      inputs := [.typed [] (.ident "a") (boolRef false), .typed [] (.ident "b") (boolRef false),
        .typed [] (.ident "c") (boolRef false)] },
    { name := "initialized"
      attrs := [⟨"state", none⟩]
      generic := false
      isAsync := false
      inputs := [] }]

/-- What the macro generates (`gen_eq` in `Verif/Props/Examples/Barrier.lean`): the impl block is kept, without the
attributes of the parameters. -/
def gen : Gen where
  methods := [
    { name := "initializing"
      attrs := [⟨"state", some [⟨"superstate", .lit "waiting_for_initialization"⟩]⟩]
      generic := false
      isAsync := false
      inputs := [.typed [] (.ident "a") (boolRef true), .typed [] (.ident "b") (boolRef true),
        .typed [] (.ident "c") (boolRef true), .typed [] (.ident "event") (.ref none false (.path "Event" .nil))] }] ++
    source.methods.tail
  selfTy := (.path "Foo" .nil)
  callPath := ["Foo"]
  callArgs := .nil
  generics := {}
  stateImpl := {}
  superstateImpl := ⟨[.lifetime "sub" []], [.type (.path "Self" .nil) ["'sub"]]⟩
  mode := .blocking
  initial := "State::initializing()"
  eventType := (.path "Event" .nil)
  contextType := (.compound "()" .nil)
  beforeTransition := none
  afterTransition := none
  beforeDispatch := none
  afterDispatch := none
  visibility := "pub"
  eventIdent := "event"
  contextIdent := "context"
  stateIdent := "State"
  stateDerives := ["PartialEq", "Eq", "Debug"]
  stateGenerics := []
  states := [
    ⟨"Initializing", [⟨"a", (.path "bool" .nil)⟩, ⟨"b", (.path "bool" .nil)⟩, ⟨"c", (.path "bool" .nil)⟩]⟩,
    ⟨"Initialized", []⟩]
  constructors := [
    ⟨"initializing", [], "Initializing", [("a", .value "true"), ("b", .default), ("c", .default)]⟩,
    ⟨"initialized", [], "Initialized", []⟩]
  handlerArms := [
    ⟨⟨"Initializing", ["a", "b", "c"]⟩, ⟨"initializing", ["a", "b", "c", "event"], false⟩⟩,
    ⟨⟨"Initialized", []⟩, ⟨"initialized", [], false⟩⟩]
  entryArms := [
    ⟨⟨"Initializing", ["a", "b", "c"]⟩, none⟩,
    ⟨⟨"Initialized", []⟩, none⟩]
  exitArms := [
    ⟨⟨"Initializing", ["a", "b", "c"]⟩, none⟩,
    ⟨⟨"Initialized", []⟩, none⟩]
  superstateArms := [
    ⟨⟨"Initializing", ["a", "b", "c"]⟩, some ⟨"WaitingForInitialization", ["a", "b", "c"]⟩⟩,
    ⟨⟨"Initialized", []⟩, none⟩]
  superstateIdent := "Superstate"
  superstateDerives := []
  superstateLifetime := true
  superstateGenerics := [.lifetime "sub" []]
  superstates := [⟨"WaitingForInitialization",
    [⟨"a", (.ref (some "sub") false (.path "bool" .nil))⟩, ⟨"b", (.ref (some "sub") false (.path "bool" .nil))⟩, ⟨"c", (.ref (some "sub") false (.path "bool" .nil))⟩]⟩]
  supHandlerArms := [⟨⟨"WaitingForInitialization", ["a", "b", "c"]⟩,
    ⟨"waiting_for_initialization", ["a", "b", "c"], false⟩⟩]
  supEntryArms := [⟨⟨"WaitingForInitialization", ["a", "b", "c"]⟩, none⟩]
  supExitArms := [⟨⟨"WaitingForInitialization", ["a", "b", "c"]⟩, none⟩]
  supSuperstateArms := [⟨⟨"WaitingForInitialization", ["a", "b", "c"]⟩, none⟩]

/-- The generated type `State`. -/
abbrev MState := Val gen.iface.stateFields Bool

/-- The types of `examples/macro/barrier/src/main.rs`; the shared storage (3-4) has no fields. -/
abbrev types : Types where
  M := Unit
  Ev := Event
  Ctx := Unit
  In := Empty
  V := Bool

/-- `State::Initializing { a, b, c }`. -/
def initializing (a b c : Bool) : MState where
  variant := "Initializing"
  get x := [("a", a), ("b", b), ("c", c)].lookup x
  ok := ⟨["a", "b", "c"], by decide +kernel, fun x => by
    by_cases h1 : x = "a"
    · simp [h1]
    by_cases h2 : x = "b"
    · simp [h2]
    by_cases h3 : x = "c"
    · simp [h3]
    have h4 : (x == "a") = false := by simpa using h1
    have h5 : (x == "b") = false := by simpa using h2
    have h6 : (x == "c") = false := by simpa using h3
    simp [List.lookup, h1, h2, h3, h4, h5, h6]⟩

/-- `State::Initialized {}`. -/
def initialized : MState := ⟨"Initialized", fun _ => none, [], by decide +kernel, by simp⟩

/-- The functions with an attribute: `examples/macro/barrier/src/main.rs:14-49`. -/
def userHandler : Ident → List (Arg types) → Fut Empty (List (Arg types)) (Response MState)
  | "initializing", [.field a, .field b, .field c, .event event] =>
    match event with
    | .A => .done [.field true, .field b, .field c, .event event] .super
    | .B => .done [.field a, .field true, .field c, .event event] .super
    | .C => .done [.field a, .field b, .field true, .event event] .super
  | "waiting_for_initialization", [.field a, .field b, .field c] => .done [.field a, .field b, .field c] <|
    match a, b, c with
    | true, true, true => .transition initialized
    | _, _, _ => .handled
  | "initialized", [] => .done [] .handled
  -- There are no other such functions, and the macro calls them with the arguments they have.
  | _, args => .done args .super

/-- The rest of what the user writes: `State::initializing()` (`examples/macro/barrier/src/main.rs:12`).  What the
constructor gives is `constructor_initializing` in `Verif/Props/Examples/Barrier.lean`. -/
def env : Env gen.iface types where
  handler := userHandler
  action _ args := .done args ()
  initial _ := initializing true false false
  dispatchHook _ shared _ _ := .done shared ()
  transitionHook _ shared _ _ := .done shared ()
  hookAsync _ := false

end Statig.Examples.Barrier
