import Verif.Model.Api
import Verif.Model.Macro.Rust
/-!
# The machines of the transition tests

`statig/tests/transition.rs`, `statig/tests/async_transition.rs`, `statig/tests/transition_macro.rs` and
`statig/tests/async_transition_macro.rs`.  The `async` versions differ from the others only in `async` and `.await`;
the line numbers below are those of the versions without.
-/
namespace Statig.Tests.Transition
open Statig.Macro

/-- `statig/tests/transition.rs:9-15`, `statig/tests/transition_macro.rs:9-15`. -/
inductive Event where
  | A
  | B
  | C
  | D
deriving DecidableEq

/-- `statig/tests/transition.rs:17-21`, `statig/tests/transition_macro.rs:17-21`. -/
inductive Action where
  | entry
  | exit
deriving DecidableEq

/-- `statig/tests/transition.rs:23-27`, `statig/tests/transition_macro.rs:23-27`, for the types `State` and `Superstate`
of either version. -/
inductive StateWrapper (State Superstate : Type) where
  | leaf (state : State)
  | super (superstate : Superstate)
deriving DecidableEq

/-! ## Without the macro -/

/-- `statig/tests/transition.rs:34-39`. -/
inductive State where
  | s11
  | s12
  | s211
deriving DecidableEq

/-- `statig/tests/transition.rs:41-47`. -/
inductive Superstate where
  | s
  | s1
  | s2
  | s21
deriving DecidableEq

/-- The only field of `Foo`: `statig/tests/transition.rs:29-32`. -/
abbrev Path := List (StateWrapper State Superstate × Action)

/-- `statig/tests/transition.rs:49-61`. -/
abbrev sig : Sig where
  M := Path
  St := State
  Sup := Superstate
  Ev := Event
  Ctx := Unit
  In := Empty
  D := State
  E := Superstate

/-- `Foo::s11`, `Foo::s12` and `Foo::s211` (`statig/tests/transition.rs:153-159, 172-177, 207-209`), chosen by
`call_handler` of `State` (64-75). -/
def handler : State → Event → Response State
  | .s211, _ => .super
  | .s11, .A => .transition .s11
  | .s11, .B => .transition .s12
  | .s11, _ => .super
  | .s12, .C => .transition .s211
  | .s12, _ => .super

/-- `Foo::s1`, `Foo::s21`, `Foo::s2` and `Foo::s` (`statig/tests/transition.rs:191-193, 223-225, 238-243, 257-259`),
chosen by `call_handler` of `Superstate` (106-121). -/
def supHandler : Superstate → Event → Response State
  | .s21, _ => .super
  | .s, _ => .handled
  | .s2, .D => .transition .s11
  | .s2, _ => .super
  | .s1, _ => .super

/-- `statig/tests/transition.rs:93-99`. -/
def superstate : State → Superstate
  | .s211 => .s21
  | .s11 => .s1
  | .s12 => .s1

/-- `statig/tests/transition.rs:141-148`. -/
def supSuperstate : Superstate → Option Superstate
  | .s21 => some .s2
  | .s => none
  | .s2 => some .s
  | .s1 => some .s

/-- The impls: `statig/tests/transition.rs:49-149`.  Each of the actions (161-169, 179-187, 195-203, 211-219, 227-235,
245-253, 261-269) pushes what it is an action of, and whether it is the entry or the exit action, onto the path.  What
is not implemented there has the default implementation of the trait. -/
def machine : Machine sig where
  initial := .s11
  discr s := s
  supDiscr v := v
  handler s path event c := .done (s, path, c) (handler s event)
  entry s path c := .done (s, path ++ [(.leaf s, .entry)], c) ()
  exit s path c := .done (s, path ++ [(.leaf s, .exit)], c) ()
  superstate s := some (superstate s, fun _ => s)
  supHandler v path event c := .done (v, path, c) (supHandler v event)
  supEntry v path c := .done (v, path ++ [(.super v, .entry)], c) ()
  supExit v path c := .done (v, path ++ [(.super v, .exit)], c) ()
  supSuperstate v := (supSuperstate v).map fun u => (u, fun _ => v)
  beforeDispatch path _ _ := .done path ()
  afterDispatch path _ _ := .done path ()
  beforeTransition path _ _ := .done path ()
  afterTransition path _ _ := .done path ()
  superstate_back := by intro s v back h; cases h; rfl
  supSuperstate_back := by
    intro v w back h
    cases hv : supSuperstate v with
    | none => simp [hv] at h
    | some u => simp only [hv, Option.map_some, Option.some.injEq, Prod.mk.injEq] at h; rw [← h.2]

/-! ## With the macro -/

/-- A function of a state or superstate, with its entry and exit actions. -/
def method (isAsync : Bool) (attr name : Ident) (superstate : Option String) : Method where
  name := name
  attrs := [⟨attr, some ((superstate.toList.map fun s => ⟨"superstate", .lit s⟩) ++
    [⟨"entry_action", .lit ("enter_" ++ name)⟩, ⟨"exit_action", .lit ("exit_" ++ name)⟩])⟩]
  generic := false
  isAsync := isAsync
  inputs := [.receiver true, .typed [] (.ident "event") (.ref none false (.path "Event" .nil))]

/-- An action. -/
def action (isAsync : Bool) (name : Ident) : Method where
  name := name
  attrs := [⟨"action", none⟩]
  generic := false
  isAsync := isAsync
  inputs := [.receiver true]

/-- The annotated impl block: `statig/tests/transition_macro.rs:34-196`, and `statig/tests/async_transition_macro.rs:35-197`,
where all the functions are `async`.  The attribute `allow(unused)` and the documentation of the functions, which the
macro only copies, are left out. -/
def source (isAsync : Bool) : Source where
  selfTy := .path "Foo" .nil
  args := [⟨"initial", .lit "State::s11()"⟩, ⟨"event_identifier", .lit "event"⟩,
    ⟨"state", .list (some [.derive (some ["Eq", "PartialEq", "Debug"])])⟩,
    ⟨"superstate", .list (some [.derive (some ["Eq", "PartialEq", "Debug"])])⟩]
  methods := [
    method isAsync "state" "s11" (some "s1"), action isAsync "enter_s11", action isAsync "exit_s11",
    method isAsync "state" "s12" (some "s1"), action isAsync "enter_s12", action isAsync "exit_s12",
    method isAsync "superstate" "s1" (some "s"), action isAsync "enter_s1", action isAsync "exit_s1",
    method isAsync "state" "s211" (some "s21"), action isAsync "enter_s211", action isAsync "exit_s211",
    method isAsync "superstate" "s21" (some "s2"), action isAsync "enter_s21", action isAsync "exit_s21",
    method isAsync "superstate" "s2" (some "s"), action isAsync "enter_s2", action isAsync "exit_s2",
    method isAsync "superstate" "s" none, action isAsync "enter_s", action isAsync "exit_s"]

/-- What the macro generates (`gen_eq` in `Verif/Props/Tests/Transition.lean`). -/
def gen (isAsync : Bool) : Gen where
  methods := (source isAsync).methods
  selfTy := (.path "Foo" .nil)
  callPath := ["Foo"]
  callArgs := .nil
  generics := {}
  stateImpl := {}
  superstateImpl := {}
  mode := if isAsync then .awaitable else .blocking
  initial := "State::s11()"
  eventType := (.path "Event" .nil)
  contextType := (.compound "()" .nil)
  beforeTransition := none
  afterTransition := none
  beforeDispatch := none
  afterDispatch := none
  visibility := "pub"
  eventIdent := "event"
  contextIdent := "context"
  stateIdent := "State"
  stateDerives := ["Eq", "PartialEq", "Debug"]
  stateGenerics := []
  states := [⟨"S11", []⟩, ⟨"S12", []⟩, ⟨"S211", []⟩]
  constructors := [⟨"s11", [], "S11", []⟩, ⟨"s12", [], "S12", []⟩, ⟨"s211", [], "S211", []⟩]
  handlerArms := [
    ⟨⟨"S11", []⟩, ⟨"s11", ["shared_storage", "event"], isAsync⟩⟩,
    ⟨⟨"S12", []⟩, ⟨"s12", ["shared_storage", "event"], isAsync⟩⟩,
    ⟨⟨"S211", []⟩, ⟨"s211", ["shared_storage", "event"], isAsync⟩⟩]
  entryArms := [
    ⟨⟨"S11", []⟩, some ⟨"enter_s11", ["shared_storage"], isAsync⟩⟩,
    ⟨⟨"S12", []⟩, some ⟨"enter_s12", ["shared_storage"], isAsync⟩⟩,
    ⟨⟨"S211", []⟩, some ⟨"enter_s211", ["shared_storage"], isAsync⟩⟩]
  exitArms := [
    ⟨⟨"S11", []⟩, some ⟨"exit_s11", ["shared_storage"], isAsync⟩⟩,
    ⟨⟨"S12", []⟩, some ⟨"exit_s12", ["shared_storage"], isAsync⟩⟩,
    ⟨⟨"S211", []⟩, some ⟨"exit_s211", ["shared_storage"], isAsync⟩⟩]
  superstateArms := [
    ⟨⟨"S11", []⟩, some ⟨"S1", []⟩⟩,
    ⟨⟨"S12", []⟩, some ⟨"S1", []⟩⟩,
    ⟨⟨"S211", []⟩, some ⟨"S21", []⟩⟩]
  superstateIdent := "Superstate"
  superstateDerives := ["Eq", "PartialEq", "Debug"]
  superstateLifetime := false
  superstateGenerics := []
  superstates := [⟨"S1", []⟩, ⟨"S21", []⟩, ⟨"S2", []⟩, ⟨"S", []⟩]
  supHandlerArms := [
    ⟨⟨"S1", []⟩, ⟨"s1", ["shared_storage", "event"], isAsync⟩⟩,
    ⟨⟨"S21", []⟩, ⟨"s21", ["shared_storage", "event"], isAsync⟩⟩,
    ⟨⟨"S2", []⟩, ⟨"s2", ["shared_storage", "event"], isAsync⟩⟩,
    ⟨⟨"S", []⟩, ⟨"s", ["shared_storage", "event"], isAsync⟩⟩]
  supEntryArms := [
    ⟨⟨"S1", []⟩, some ⟨"enter_s1", ["shared_storage"], isAsync⟩⟩,
    ⟨⟨"S21", []⟩, some ⟨"enter_s21", ["shared_storage"], isAsync⟩⟩,
    ⟨⟨"S2", []⟩, some ⟨"enter_s2", ["shared_storage"], isAsync⟩⟩,
    ⟨⟨"S", []⟩, some ⟨"enter_s", ["shared_storage"], isAsync⟩⟩]
  supExitArms := [
    ⟨⟨"S1", []⟩, some ⟨"exit_s1", ["shared_storage"], isAsync⟩⟩,
    ⟨⟨"S21", []⟩, some ⟨"exit_s21", ["shared_storage"], isAsync⟩⟩,
    ⟨⟨"S2", []⟩, some ⟨"exit_s2", ["shared_storage"], isAsync⟩⟩,
    ⟨⟨"S", []⟩, some ⟨"exit_s", ["shared_storage"], isAsync⟩⟩]
  supSuperstateArms := [
    ⟨⟨"S1", []⟩, some ⟨"S", []⟩⟩,
    ⟨⟨"S21", []⟩, some ⟨"S2", []⟩⟩,
    ⟨⟨"S2", []⟩, some ⟨"S", []⟩⟩,
    ⟨⟨"S", []⟩, none⟩]

/-- The generated type `State`. -/
abbrev MState (b : Bool) := Val (gen b).iface.stateFields Empty

/-- The generated type `Superstate`. -/
abbrev MSuperstate (b : Bool) := Val (gen b).iface.supFields Empty

/-- The types of `statig/tests/transition_macro.rs`; the shared storage (29-32) is its only field, `path`; no state has
fields. -/
abbrev types (b : Bool) : Types where
  M := List (StateWrapper (MState b) (MSuperstate b) × Action)
  Ev := Event
  Ctx := Unit
  In := Empty
  V := Empty

/-- A state without fields, as its constructor builds it. -/
def unitState (b : Bool) (variant : Ident) (h : (gen b).iface.stateFields variant = some []) : MState b :=
  ⟨variant, fun _ => none, [], h, by simp⟩

/-- A superstate without fields. -/
def unitSuperstate (b : Bool) (variant : Ident) (h : (gen b).iface.supFields variant = some []) : MSuperstate b :=
  ⟨variant, fun _ => none, [], h, by simp⟩

/-- The functions of the states and superstates: `statig/tests/transition_macro.rs:42-184`. -/
def userHandler (b : Bool) : Ident → List (Arg (types b)) → Fut Empty (List (Arg (types b))) (Response (MState b))
  | "s11", [.storage path, .event event] => .done [.storage path, .event event] <|
    match event with
    | .A => .transition (unitState b "S11" (by cases b <;> decide +kernel))
    | .B => .transition (unitState b "S12" (by cases b <;> decide +kernel))
    | _ => .super
  | "s12", [.storage path, .event event] => .done [.storage path, .event event] <|
    match event with
    | .C => .transition (unitState b "S211" (by cases b <;> decide +kernel))
    | _ => .super
  | "s2", [.storage path, .event event] => .done [.storage path, .event event] <|
    match event with
    | .D => .transition (unitState b "S11" (by cases b <;> decide +kernel))
    | _ => .super
  | "s", [.storage path, .event event] => .done [.storage path, .event event] .handled
  -- `s1`, `s211` and `s21`.  There are no other such functions, and the macro calls them with the arguments they have.
  | _, args => .done args .super

/-- What the actions push: `statig/tests/transition_macro.rs:55-195`. -/
def pushed (b : Bool) : Ident → Option (StateWrapper (MState b) (MSuperstate b) × Action)
  | "enter_s11" => some (.leaf (unitState b "S11" (by cases b <;> decide +kernel)), .entry)
  | "exit_s11" => some (.leaf (unitState b "S11" (by cases b <;> decide +kernel)), .exit)
  | "enter_s12" => some (.leaf (unitState b "S12" (by cases b <;> decide +kernel)), .entry)
  | "exit_s12" => some (.leaf (unitState b "S12" (by cases b <;> decide +kernel)), .exit)
  | "enter_s211" => some (.leaf (unitState b "S211" (by cases b <;> decide +kernel)), .entry)
  | "exit_s211" => some (.leaf (unitState b "S211" (by cases b <;> decide +kernel)), .exit)
  | "enter_s1" => some (.super (unitSuperstate b "S1" (by cases b <;> decide +kernel)), .entry)
  | "exit_s1" => some (.super (unitSuperstate b "S1" (by cases b <;> decide +kernel)), .exit)
  | "enter_s21" => some (.super (unitSuperstate b "S21" (by cases b <;> decide +kernel)), .entry)
  | "exit_s21" => some (.super (unitSuperstate b "S21" (by cases b <;> decide +kernel)), .exit)
  | "enter_s2" => some (.super (unitSuperstate b "S2" (by cases b <;> decide +kernel)), .entry)
  | "exit_s2" => some (.super (unitSuperstate b "S2" (by cases b <;> decide +kernel)), .exit)
  | "enter_s" => some (.super (unitSuperstate b "S" (by cases b <;> decide +kernel)), .entry)
  | "exit_s" => some (.super (unitSuperstate b "S" (by cases b <;> decide +kernel)), .exit)
  | _ => none

/-- The actions: `statig/tests/transition_macro.rs:55-195`. -/
def userAction (b : Bool) (name : Ident) : List (Arg (types b)) → Fut Empty (List (Arg (types b))) Unit
  | [.storage path] => .done [.storage (path ++ (pushed b name).toList)] ()
  -- The macro calls them with the arguments they have.
  | args => .done args ()

/-- The rest of what the user writes: `State::s11()` (`statig/tests/transition_macro.rs:35`). -/
def env (b : Bool) : Env (gen b).iface (types b) where
  handler := userHandler b
  action := userAction b
  initial _ := unitState b "S11" (by cases b <;> decide +kernel)
  dispatchHook _ shared _ _ := .done shared ()
  transitionHook _ shared _ _ := .done shared ()
  hookAsync _ := false

end Statig.Tests.Transition
