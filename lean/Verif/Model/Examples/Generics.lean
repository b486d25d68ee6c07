import Verif.Model.Api
import Verif.Model.Debug
import Verif.Model.Macro.Rust
/-!
# The example `generics`

`examples/macro/generics/src/main.rs`: a machine with type and constant parameters, and state-local storage of these
types.
-/
namespace Statig.Examples.Generic
open Statig.Macro

/-- `examples/macro/generics/src/main.rs:9-12`. -/
inductive Event (T : Type) where
  | foo
  | bar (value : T)

/-- `impl<'d, T, A, const SIZE: usize> Machine<'d, T, A, SIZE> where ..`: `examples/macro/generics/src/main.rs:24-30`. -/
def generics : Generics where
  params := [.lifetime "d" [], .type "T" [], .type "A" [], .const "SIZE" "usize"]
  preds := [.type (.path "T" .nil) ["'static", "Debug", "Clone", "Copy", "Default"],
    .type (.path "A" .nil) ["'static", "Deref"]]

/-- `[T; SIZE]`. -/
def array : Ty := .compound "array" (.ty (.path "T" .nil) (.ident "SIZE" .nil))

/-- `event: &Event<T>`. -/
def eventArg : FnArg := .typed [] (.ident "event") (.ref none false (.path "Event" (.ty (.path "T" .nil) .nil)))

/-- `value: &mut T`. -/
def valueArg : FnArg := .typed [] (.ident "value") (.ref none true (.path "T" .nil))

/-- `buffer: &[T; SIZE]`. -/
def bufferArg : FnArg := .typed [] (.ident "buffer") (.ref none false array)

/-- The annotated impl block: `examples/macro/generics/src/main.rs:23-56`. -/
def source : Source where
  selfTy := .path "Machine" (.lifetime "d" (.ty (.path "T" .nil) (.ty (.path "A" .nil) (.ty (.path "SIZE" .nil) .nil))))
  generics := generics
  args := [⟨"initial", .lit "State::foo()"⟩]
  methods := [
    { name := "foo", attrs := [⟨"state", none⟩], generic := false, isAsync := false, inputs := [eventArg] },
    { name := "enter_bar", attrs := [⟨"action", none⟩], generic := false, isAsync := false, inputs := [valueArg] },
    { name := "bar", attrs := [⟨"state", some [⟨"superstate", .lit "foo_and_bar"⟩, ⟨"entry_action", .lit "enter_bar"⟩]⟩],
      generic := false, isAsync := false, inputs := [valueArg, bufferArg, eventArg] },
    { name := "foo_and_bar", attrs := [⟨"superstate", none⟩], generic := false, isAsync := false, inputs := [valueArg] }]

/-- What the macro generates (`gen_eq` in `Verif/Props/Examples/Generics.lean`). -/
def gen : Gen where
  methods := source.methods
  selfTy := source.selfTy
  callPath := ["Machine"]
  callArgs := .lifetime "d" (.ty (.path "T" .nil) (.ty (.path "A" .nil) (.ty (.path "SIZE" .nil) .nil)))
  generics := generics
  stateImpl := generics
  superstateImpl := ⟨generics.params ++ [.lifetime "sub" []], generics.preds ++ [.type (.path "Self" .nil) ["'sub"]]⟩
  mode := .blocking
  initial := "State::foo()"
  eventType := .path "Event" (.ty (.path "T" .nil) .nil)
  contextType := .compound "()" .nil
  beforeTransition := none
  afterTransition := none
  beforeDispatch := none
  afterDispatch := none
  visibility := "pub"
  eventIdent := "event"
  contextIdent := "context"
  stateIdent := "State"
  stateDerives := []
  stateGenerics := [.type "T" [], .const "SIZE" "usize"]
  states := [⟨"Foo", []⟩, ⟨"Bar", [⟨"value", .path "T" .nil⟩, ⟨"buffer", array⟩]⟩]
  constructors := [⟨"foo", [], "Foo", []⟩,
    ⟨"bar", [⟨"value", .path "T" .nil⟩, ⟨"buffer", array⟩], "Bar", [("value", .arg), ("buffer", .arg)]⟩]
  handlerArms := [⟨⟨"Foo", []⟩, ⟨"foo", ["event"], false⟩⟩,
    ⟨⟨"Bar", ["value", "buffer"]⟩, ⟨"bar", ["value", "buffer", "event"], false⟩⟩]
  entryArms := [⟨⟨"Foo", []⟩, none⟩, ⟨⟨"Bar", ["value", "buffer"]⟩, some ⟨"enter_bar", ["value"], false⟩⟩]
  exitArms := [⟨⟨"Foo", []⟩, none⟩, ⟨⟨"Bar", ["value", "buffer"]⟩, none⟩]
  superstateArms := [⟨⟨"Foo", []⟩, none⟩, ⟨⟨"Bar", ["value", "buffer"]⟩, some ⟨"FooAndBar", ["value"]⟩⟩]
  superstateIdent := "Superstate"
  superstateDerives := []
  superstateLifetime := true
  superstateGenerics := [.type "T" [], .lifetime "sub" []]
  superstates := [⟨"FooAndBar", [⟨"value", .ref (some "sub") true (.path "T" .nil)⟩]⟩]
  supHandlerArms := [⟨⟨"FooAndBar", ["value"]⟩, ⟨"foo_and_bar", ["value"], false⟩⟩]
  supEntryArms := [⟨⟨"FooAndBar", ["value"]⟩, none⟩]
  supExitArms := [⟨⟨"FooAndBar", ["value"]⟩, none⟩]
  supSuperstateArms := [⟨⟨"FooAndBar", ["value"]⟩, none⟩]

section
/- The parameters of the impl block, as far as they matter: the type `T`, its `Debug` and its `Default`, and `SIZE`.
Simplification: they return, and do nothing else (a `Debug` may fail, which makes `println!` panic). -/
variable {T : Type} (debug : Dbg T) (zero : T) (size : Nat)

/-- The value of a field: a `T` or a `[T; SIZE]`. -/
inductive Field (T : Type) where
  | value (t : T)
  | buffer (l : List T)

/-- The generated type `State<T, SIZE>`. -/
abbrev MState (T : Type) := Val gen.iface.stateFields (Field T)

/-- The types of `examples/macro/generics/src/main.rs`: the storage has no data (17-19). -/
abbrev types (T : Type) : Types where
  M := Unit
  Ev := Event T
  Ctx := Unit
  In := Empty
  V := Field T

/-- `State::foo()`. -/
def stateFoo : MState T := ⟨"Foo", fun _ => none, [], by decide +kernel, by simp⟩

/-- The fields of `State::bar(value, buffer)`, as the generated constructor builds it (`bar_eq` in
`Verif/Props/Examples/Generics.lean`). -/
def barField (value : T) (buffer : List T) (x : Ident) : Option (Field T) :=
  if x = "value" then some (.value value) else if x = "buffer" then some (.buffer buffer) else none

/-- `State::bar(value, buffer)`. -/
def stateBar (value : T) (buffer : List T) : MState T :=
  ⟨"Bar", barField value buffer, ["value", "buffer"], by decide +kernel, fun x => by
    unfold barField
    by_cases h1 : x = "value" <;> by_cases h2 : x = "buffer" <;> simp [h1, h2]⟩

/-- The functions with an attribute `#[state]` or `#[superstate]`: `examples/macro/generics/src/main.rs:32-38, 45-56`. -/
def userHandler : Ident → List (Arg (types T)) → Fut Empty (List (Arg (types T))) (Response (MState T))
  | "foo", [.event event] => .done [.event event] <|
    match event with
    | .bar value => .transition (stateBar value (List.replicate size zero))
    | _ => .super
  | "bar", [.field value, .field buffer, .event event] => .done [.field value, .field buffer, .event event] <|
    match event with
    | .foo => .transition stateFoo
    | _ => .super
  | "foo_and_bar", [.field value] => .done [.field value] .super
  -- There are no other such functions, and the macro calls them with the arguments they have.
  | _, args => .done args .super

/-- `enter_bar`, which does `println!("{:?}", value)`: `examples/macro/generics/src/main.rs:40-43`.  It is not given the
storage, and what it prints is left out: of the world it sees only its argument.  `println!` panics if `fmt` fails. -/
def userAction : Ident → List (Arg (types T)) → Fut Empty (List (Arg (types T))) Unit
  | "enter_bar", [.field (.value value)] =>
    if (debug false value).ok then .done [.field (.value value)] () else .panic [.field (.value value)]
  | _, args => .done args ()

/-- What the user writes: the functions and `State::foo()` (`examples/macro/generics/src/main.rs:23`). -/
def env : Env gen.iface (types T) where
  handler := userHandler zero size
  action := userAction debug
  initial _ := stateFoo
  dispatchHook _ shared _ _ := .done shared ()
  transitionHook _ shared _ _ := .done shared ()
  hookAsync _ := false

/-- The generated machine. -/
def machine : Machine (gen.iface.sig (types T)) := gen.iface.machine (env debug zero size)

end

end Statig.Examples.Generic
