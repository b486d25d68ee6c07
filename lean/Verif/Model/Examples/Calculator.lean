import Verif.Model.Api
import Verif.Model.Macro.Rust
/-!
# The example `calculator`

`examples/no_macro/calculator/src/state.rs` and `examples/macro/calculator/src/state.rs`.  The functions in the two files are the same, up to
the way states are written and one text in `begin`; they are modelled once, for any constructors of states.

A `String` is the list of its characters.  `f32` is any type with functions for what the calculator does with it.
-/
namespace Statig.Examples.Calculator
open Statig.Macro

/-- Text on the display. -/
abbrev Text := List Char

/-- `f32`: `str::parse`, `to_string` and arithmetic. -/
structure Arith where
  F32 : Type
  parse : Text → Option F32
  print : F32 → Text
  div : F32 → F32 → F32
  mul : F32 → F32 → F32
  sub : F32 → F32 → F32
  add : F32 → F32 → F32

/-- `examples/no_macro/calculator/src/state.rs:13-18`, `examples/macro/calculator/src/state.rs:13-18`. -/
inductive Operator where
  | div
  | mul
  | sub
  | add
deriving DecidableEq

/-- `examples/no_macro/calculator/src/state.rs:3-10`, `examples/macro/calculator/src/state.rs:3-10`. -/
inductive Event where
  | ac
  | ce
  | digit (digit : UInt8)
  | point
  | operator (operator : Operator)
  | equal
deriving DecidableEq

/-- `u8::to_string`. -/
def digits (digit : UInt8) : Text := Nat.toDigits 10 digit.toNat

/-- `examples/no_macro/calculator/src/state.rs:21-28`, `examples/macro/calculator/src/state.rs:21-28`. -/
def Operator.eval (A : Arith) : Operator → A.F32 → A.F32 → A.F32
  | .div => A.div
  | .mul => A.mul
  | .sub => A.sub
  | .add => A.add

/-- How states are written: `State::Begin` or `State::begin()`, and so on. -/
structure Constructors (A : Arith) (St : Type) where
  begin : St
  result (result : A.F32) : St
  zero1 : St
  int1 : St
  frac1 : St
  negated1 : St
  opEntered (operand1 : A.F32) (operator : Operator) : St
  zero2 (operand1 : A.F32) (operator : Operator) : St
  int2 (operand1 : A.F32) (operator : Operator) : St
  frac2 (operand1 : A.F32) (operator : Operator) : St
  negated2 (operand1 : A.F32) (operator : Operator) : St

/-- What a handler leaves on the display, and what it returns; `none` if it panics. -/
abbrev Reply (St : Type) := Text × Option (Response St)

section functions
variable {A : Arith} {St : Type} (K : Constructors A St)

/-- `examples/no_macro/calculator/src/state.rs:164-166`, `examples/macro/calculator/src/state.rs:40-42`. -/
def enterBegin : Text := ['0']

/-- `examples/no_macro/calculator/src/state.rs:171-182`, `examples/macro/calculator/src/state.rs:48-59`.  `minus` is the text that differs. -/
def begin (minus : Text) (display : Text) : Event → Reply St
  | .operator .sub => (minus, some (.transition K.negated1))
  | _ => (display, some .super)

/-- `examples/no_macro/calculator/src/state.rs:184-186`, `examples/macro/calculator/src/state.rs:62-64`. -/
def enterResult (result : A.F32) : Text := A.print result

/-- `examples/no_macro/calculator/src/state.rs:190-195`, `examples/macro/calculator/src/state.rs:72-77`. -/
def result (display : Text) : Event → Reply St
  | _ => (display, some .super)

/-- `examples/no_macro/calculator/src/state.rs:204-236`, `examples/macro/calculator/src/state.rs:87-116`. -/
def ready (display : Text) : Event → Reply St
  | .digit digit =>
    if digit = 0 then ([], some (.transition K.zero1))
    else ([] ++ digits digit, some (.transition K.int1))
  | .point => (['0', '.'], some (.transition K.frac1))
  | .operator operator =>
    (display, (A.parse display).map fun operand1 => .transition (K.opEntered operand1 operator))
  | .ac => (display, some (.transition K.begin))
  | .ce => (display, some (.transition K.begin))
  | _ => (display, some .super)

/-- `examples/no_macro/calculator/src/state.rs:242-258`, `examples/macro/calculator/src/state.rs:123-139`. -/
def zero1 (display : Text) : Event → Reply St
  | .digit digit =>
    if digit = 0 then (display, some .handled)
    else (display ++ digits digit, some (.transition K.int1))
  | .point => (['0', '.'], some (.transition K.frac1))
  | _ => (display, some .super)

/-- `examples/no_macro/calculator/src/state.rs:264-278`, `examples/macro/calculator/src/state.rs:146-160`. -/
def int1 (display : Text) : Event → Reply St
  | .point => (display ++ ['.'], some (.transition K.frac1))
  | .digit digit => (display ++ digits digit, some .handled)
  | _ => (display, some .super)

/-- `examples/no_macro/calculator/src/state.rs:284-295`, `examples/macro/calculator/src/state.rs:167-178`. -/
def frac1 (display : Text) : Event → Reply St
  | .point => (display, some .handled)
  | .digit digit => (display ++ digits digit, some .handled)
  | _ => (display, some .super)

/-- `examples/no_macro/calculator/src/state.rs:304-335`, `examples/macro/calculator/src/state.rs:188-219`. -/
def negated1 (display : Text) : Event → Reply St
  | .digit digit =>
    if digit = 0 then ([] ++ ['-'] ++ digits digit, some (.transition K.zero1))
    else ([] ++ ['-'] ++ digits digit, some (.transition K.int1))
  | .point => ([] ++ ['-', '0', '.'], some (.transition K.frac1))
  | .operator _ => (display, some .handled)
  | .ac => ([], some (.transition K.begin))
  | _ => (display, some .super)

/-- `examples/no_macro/calculator/src/state.rs:342-369`, `examples/macro/calculator/src/state.rs:227-251`. -/
def operand1 (display : Text) : Event → Reply St
  | .ac => ([], some (.transition K.begin))
  | .ce => ([], some .handled)
  | .operator operator =>
    (display, (A.parse display).map fun operand1 => .transition (K.opEntered operand1 operator))
  | .equal => (display, (A.parse display).map fun operand1 => .transition (K.result operand1))
  | _ => (display, some .super)

/-- `examples/no_macro/calculator/src/state.rs:375-421`, `examples/macro/calculator/src/state.rs:258-292`. -/
def opEntered (operand1 : A.F32) (operator : Operator) (display : Text) : Event → Reply St
  | .digit digit =>
    if digit = 0 then (['0'], some (.transition (K.zero2 operand1 operator)))
    else (digits digit, some (.transition (K.int2 operand1 operator)))
  | .point => (['0', '.'], some (.transition (K.frac2 operand1 operator)))
  | .operator .sub => ([] ++ ['-', '0'], some (.transition (K.negated2 operand1 operator)))
  | .operator _ => (display, some .handled)
  | _ => (display, some .super)

/-- `examples/no_macro/calculator/src/state.rs:427-449`, `examples/macro/calculator/src/state.rs:299-315`. -/
def zero2 (operand1 : A.F32) (operator : Operator) (display : Text) : Event → Reply St
  | .digit digit =>
    if digit = 0 then (display, some .handled)
    else (digits digit, some (.transition (K.int2 operand1 operator)))
  | .point => (['0', '.'], some (.transition (K.frac2 operand1 operator)))
  | _ => (display, some .super)

/-- `examples/no_macro/calculator/src/state.rs:455-472`, `examples/macro/calculator/src/state.rs:322-336`. -/
def int2 (operand1 : A.F32) (operator : Operator) (display : Text) : Event → Reply St
  | .point => (display ++ ['.'], some (.transition (K.frac2 operand1 operator)))
  | .digit digit => (display ++ digits digit, some .handled)
  | _ => (display, some .super)

/-- `examples/no_macro/calculator/src/state.rs:479-490`, `examples/macro/calculator/src/state.rs:346-357`. -/
def frac2 (display : Text) : Event → Reply St
  | .point => (display, some .handled)
  | .digit digit => (display ++ digits digit, some .handled)
  | _ => (display, some .super)

/-- `examples/no_macro/calculator/src/state.rs:497-531`, `examples/macro/calculator/src/state.rs:365-393`. -/
def operand2 (operand1 : A.F32) (operator : Operator) (display : Text) : Event → Reply St
  | .ac => ([], some (.transition K.begin))
  | .ce => (['0'], some (.transition (K.opEntered operand1 operator)))
  | .equal => (display, (A.parse display).map fun operand2 =>
    let result := operator.eval A operand1 operand2
    .transition (K.result result))
  | .operator nextOperator => (display, (A.parse display).map fun operand2 =>
    let result := operator.eval A operand1 operand2
    .transition (K.opEntered result nextOperator))
  | _ => (display, some .super)

/-- `examples/no_macro/calculator/src/state.rs:540-583`, `examples/macro/calculator/src/state.rs:403-434`. -/
def negated2 (operand1 : A.F32) (operator : Operator) (display : Text) : Event → Reply St
  | .digit digit =>
    if digit = 0 then ([] ++ ['-'] ++ digits digit, some (.transition (K.zero2 operand1 operator)))
    else ([] ++ ['-'] ++ digits digit, some (.transition (K.int2 operand1 operator)))
  | .point => ([] ++ ['-', '0', '.'], some (.transition (K.frac2 operand1 operator)))
  | .operator _ => (display, some .handled)
  | .ac => ([], some (.transition (K.opEntered operand1 operator)))
  | _ => (display, some .super)

/-- `examples/no_macro/calculator/src/state.rs:588-597`, `examples/macro/calculator/src/state.rs:440-449`. -/
def on (display : Text) : Event → Reply St
  | .ac => ([], some (.transition K.begin))
  | _ => (display, some .super)

end functions

/-! ## Without the macro -/

/-- `examples/no_macro/calculator/src/state.rs:36-48`. -/
inductive State (A : Arith) where
  | begin
  | response (result : A.F32)
  | zero1
  | int1
  | frac1
  | negated1
  | opEntered (operand1 : A.F32) (operator : Operator)
  | zero2 (operand1 : A.F32) (operator : Operator)
  | int2 (operand1 : A.F32) (operator : Operator)
  | frac2 (operand1 : A.F32) (operator : Operator)
  | negated2 (operand1 : A.F32) (operator : Operator)

/-- See `Constructors`. -/
def constructors (A : Arith) : Constructors A (State A) where
  begin := .begin
  result := .response
  zero1 := .zero1
  int1 := .int1
  frac1 := .frac1
  negated1 := .negated1
  opEntered := .opEntered
  zero2 := .zero2
  int2 := .int2
  frac2 := .frac2
  negated2 := .negated2

/-- `examples/no_macro/calculator/src/state.rs:50-58`. -/
inductive Superstate (A : Arith) where
  | ready
  | operand1
  | operand2 (operand1 : A.F32) (operator : Operator)
  | on

/-- `core::mem::discriminant` of a `State`. -/
inductive StateTag where
  | begin
  | response
  | zero1
  | int1
  | frac1
  | negated1
  | opEntered
  | zero2
  | int2
  | frac2
  | negated2
deriving DecidableEq

/-- `core::mem::discriminant` of a `Superstate`. -/
inductive SuperstateTag where
  | ready
  | operand1
  | operand2
  | on
deriving DecidableEq

/-- See `StateTag`. -/
def State.tag {A : Arith} : State A → StateTag
  | .begin => .begin
  | .response _ => .response
  | .zero1 => .zero1
  | .int1 => .int1
  | .frac1 => .frac1
  | .negated1 => .negated1
  | .opEntered _ _ => .opEntered
  | .zero2 _ _ => .zero2
  | .int2 _ _ => .int2
  | .frac2 _ _ => .frac2
  | .negated2 _ _ => .negated2

/-- See `SuperstateTag`. -/
def Superstate.tag {A : Arith} : Superstate A → SuperstateTag
  | .ready => .ready
  | .operand1 => .operand1
  | .operand2 _ _ => .operand2
  | .on => .on

/-- `examples/no_macro/calculator/src/state.rs:60-72`.  The shared storage (32-34) is its only field,
`display`. -/
abbrev sig (A : Arith) : Sig where
  M := Text
  St := State A
  Sup := Superstate A
  Ev := Event
  Ctx := Unit
  In := Empty
  D := StateTag
  E := SuperstateTag

section handwritten
variable (A : Arith) (minus : Text)

/-- `call_handler` of the states: `examples/no_macro/calculator/src/state.rs:75-104`. -/
def handler : State A → Text → Event → Reply (State A)
  | .begin => Calculator.begin (constructors A) minus
  | .response _ => Calculator.result
  | .zero1 => Calculator.zero1 (constructors A)
  | .int1 => Calculator.int1 (constructors A)
  | .frac1 => Calculator.frac1
  | .negated1 => Calculator.negated1 (constructors A)
  | .opEntered operand1 operator => Calculator.opEntered (constructors A) operand1 operator
  | .zero2 operand1 operator => Calculator.zero2 (constructors A) operand1 operator
  | .int2 operand1 operator => Calculator.int2 (constructors A) operand1 operator
  | .frac2 _ _ => Calculator.frac2
  | .negated2 operand1 operator => Calculator.negated2 (constructors A) operand1 operator

/-- `call_entry_action` of the states: `examples/no_macro/calculator/src/state.rs:106-112`. -/
def entry : State A → Text → Text
  | .begin, _ => enterBegin
  | .response result, _ => enterResult result
  | _, display => display

/-- `examples/no_macro/calculator/src/state.rs:114-132`. -/
def superstate : State A → Superstate A
  | .begin => .ready
  | .response _ => .ready
  | .zero1 => .operand1
  | .int1 => .operand1
  | .frac1 => .operand1
  | .negated1 => .operand1
  | .opEntered _ _ => .on
  | .zero2 operand1 operator => .operand2 operand1 operator
  | .int2 operand1 operator => .operand2 operand1 operator
  | .frac2 operand1 operator => .operand2 operand1 operator
  | .negated2 _ _ => .on

/-- The fields of `State::Operand2` are references to those of the state.  (They are shared references, and no callback
changes what they refer to.) -/
def writeBack : State A → Superstate A → State A
  | .zero2 _ _, .operand2 operand1 operator => .zero2 operand1 operator
  | .int2 _ _, .operand2 operand1 operator => .int2 operand1 operator
  | .frac2 _ _, .operand2 operand1 operator => .frac2 operand1 operator
  | s, _ => s

/-- `call_handler` of the superstates: `examples/no_macro/calculator/src/state.rs:136-150`. -/
def supHandler : Superstate A → Text → Event → Reply (State A)
  | .ready => Calculator.ready (constructors A)
  | .operand1 => Calculator.operand1 (constructors A)
  | .operand2 operand1 operator => Calculator.operand2 (constructors A) operand1 operator
  | .on => Calculator.on (constructors A)

/-- `examples/no_macro/calculator/src/state.rs:152-159`. -/
def supSuperstate : Superstate A → Option (Superstate A)
  | .ready => some .on
  | .operand1 => some .on
  | .operand2 _ _ => some .on
  | .on => none

/-- A call of a handler that replies as given. -/
def reply {σ St : Type} (self : σ) (c : Unit) (r : Reply St) : Fut Empty (σ × Text × Unit) (Response St) :=
  match r.2 with
  | some response => .done (self, r.1, c) response
  | none => .panic (self, r.1, c)

/-- The three impls: `examples/no_macro/calculator/src/state.rs:60-160`, for any text `minus`.  What is not
implemented there has the default implementation of the trait. -/
def machine : Machine (sig A) where
  initial := .begin
  discr := State.tag
  supDiscr := Superstate.tag
  handler s display event c := reply s c (handler A minus s display event)
  entry s display c := .done (s, entry A s display, c) ()
  exit s display c := .done (s, display, c) ()
  superstate s := some (superstate A s, writeBack A s)
  supHandler v display event c := reply v c (supHandler A v display event)
  supEntry v display c := .done (v, display, c) ()
  supExit v display c := .done (v, display, c) ()
  supSuperstate v := (supSuperstate A v).map fun w => (w, fun _ => v)
  beforeDispatch display _ _ := .done display ()
  afterDispatch display _ _ := .done display ()
  beforeTransition display _ _ := .done display ()
  afterTransition display _ _ := .done display ()
  superstate_back := by
    intro s v back h
    cases h
    cases s <;> rfl
  supSuperstate_back := by
    intro v w back h
    cases v <;> cases h <;> rfl

/-- The machine of `examples/no_macro/calculator/src/state.rs`. -/
def handwritten : Machine (sig A) := machine A ['-', ' ', '0']

end handwritten

/-! ## With the macro -/

/-- The parameters of the functions. -/
def eventArg : FnArg := .typed [] (.ident "event") (.ref none false (.path "Event" .nil))
/-- See `eventArg`. -/
def operand1Arg : FnArg := .typed [] (.ident "operand1") (.ref none false (.path "f32" .nil))
/-- See `eventArg`. -/
def operatorArg : FnArg := .typed [] (.ident "operator") (.ref none false (.path "Operator" .nil))
/-- See `eventArg`. -/
def resultArg : FnArg := .typed [] (.ident "result") (.ref none false (.path "f32" .nil))

/-- A function with an attribute. -/
def method (name : Ident) (attr : Attr) (inputs : List FnArg) : Method where
  name := name
  attrs := [attr]
  generic := false
  isAsync := false
  inputs := inputs

/-- `#[state(superstate = "..")]`. -/
def inside (superstate : String) : Attr := ⟨"state", some [⟨"superstate", .lit superstate⟩]⟩

/-- `#[superstate(superstate = "on")]`. -/
def insideOn : Attr := ⟨"superstate", some [⟨"superstate", .lit "on"⟩]⟩

/-- The annotated impl block: `examples/macro/calculator/src/state.rs:37-450`. -/
def source : Source where
  selfTy := .path "Calculator" .nil
  args := [⟨"initial", .lit "State::begin()"⟩]
  methods := [
    method "enter_begin" ⟨"action", none⟩ [.receiver true],
    method "begin" ⟨"state", some [⟨"superstate", .lit "ready"⟩, ⟨"entry_action", .lit "enter_begin"⟩]⟩
      [.receiver true, eventArg],
    method "enter_result" ⟨"action", none⟩ [.receiver true, resultArg],
    method "result" ⟨"state", some [⟨"superstate", .lit "ready"⟩, ⟨"entry_action", .lit "enter_result"⟩,
      ⟨"local_storage", .fields [some ⟨"result", .path "f32" .nil⟩]⟩]⟩ [eventArg],
    method "ready" insideOn [.receiver true, eventArg],
    method "zero1" (inside "operand1") [.receiver true, eventArg],
    method "int1" (inside "operand1") [.receiver true, eventArg],
    method "frac1" (inside "operand1") [.receiver true, eventArg],
    method "negated1" (inside "operand1") [.receiver true, eventArg],
    method "operand1" insideOn [.receiver true, eventArg],
    method "op_entered" (inside "on") [.receiver true, operand1Arg, operatorArg, eventArg],
    method "zero2" (inside "operand2") [.receiver true, operand1Arg, operatorArg, eventArg],
    method "int2" (inside "operand2") [.receiver true, operand1Arg, operatorArg, eventArg],
    method "frac2" ⟨"state", some [⟨"superstate", .lit "operand2"⟩,
      ⟨"local_storage", .fields [some ⟨"operand1", .path "f32" .nil⟩, some ⟨"operator", .path "Operator" .nil⟩]⟩]⟩
      [.receiver true, eventArg],
    method "operand2" insideOn [.receiver true, operand1Arg, operatorArg, eventArg],
    method "negated2" (inside "on") [.receiver true, operand1Arg, operatorArg, eventArg],
    method "on" ⟨"superstate", none⟩ [.receiver true, eventArg]]

/-- What the macro generates (`gen_eq` in `Verif/Props/Examples/Calculator.lean`). -/
def gen : Gen where
  methods := source.methods
  selfTy := (.path "Calculator" .nil)
  callPath := ["Calculator"]
  callArgs := .nil
  generics := {}
  stateImpl := {}
  superstateImpl := ⟨[.lifetime "sub" []], [.type (.path "Self" .nil) ["'sub"]]⟩
  mode := .blocking
  initial := "State::begin()"
  eventType := (.path "Event" .nil)
  contextType := (.compound "()" .nil)
  beforeTransition := none
  afterTransition := none
  beforeDispatch := none
  afterDispatch := none
  visibility := "pub"
  eventIdent := "event"
  contextIdent := "context"
  stateIdent := "State"
  stateDerives := []
  stateGenerics := []
  states := [
    ⟨"Begin", []⟩,
    ⟨"Result", [⟨"result", (.path "f32" .nil)⟩]⟩,
    ⟨"Zero1", []⟩,
    ⟨"Int1", []⟩,
    ⟨"Frac1", []⟩,
    ⟨"Negated1", []⟩,
    ⟨"OpEntered", [⟨"operand1", (.path "f32" .nil)⟩, ⟨"operator", (.path "Operator" .nil)⟩]⟩,
    ⟨"Zero2", [⟨"operand1", (.path "f32" .nil)⟩, ⟨"operator", (.path "Operator" .nil)⟩]⟩,
    ⟨"Int2", [⟨"operand1", (.path "f32" .nil)⟩, ⟨"operator", (.path "Operator" .nil)⟩]⟩,
    ⟨"Frac2", [⟨"operand1", (.path "f32" .nil)⟩, ⟨"operator", (.path "Operator" .nil)⟩]⟩,
    ⟨"Negated2", [⟨"operand1", (.path "f32" .nil)⟩, ⟨"operator", (.path "Operator" .nil)⟩]⟩]
  constructors := [
    ⟨"begin", [], "Begin", []⟩,
    ⟨"result", [⟨"result", (.path "f32" .nil)⟩], "Result", [("result", .arg)]⟩,
    ⟨"zero1", [], "Zero1", []⟩,
    ⟨"int1", [], "Int1", []⟩,
    ⟨"frac1", [], "Frac1", []⟩,
    ⟨"negated1", [], "Negated1", []⟩,
    ⟨"op_entered", [⟨"operand1", (.path "f32" .nil)⟩, ⟨"operator", (.path "Operator" .nil)⟩], "OpEntered", [("operand1", .arg), ("operator", .arg)]⟩,
    ⟨"zero2", [⟨"operand1", (.path "f32" .nil)⟩, ⟨"operator", (.path "Operator" .nil)⟩], "Zero2", [("operand1", .arg), ("operator", .arg)]⟩,
    ⟨"int2", [⟨"operand1", (.path "f32" .nil)⟩, ⟨"operator", (.path "Operator" .nil)⟩], "Int2", [("operand1", .arg), ("operator", .arg)]⟩,
    ⟨"frac2", [⟨"operand1", (.path "f32" .nil)⟩, ⟨"operator", (.path "Operator" .nil)⟩], "Frac2", [("operand1", .arg), ("operator", .arg)]⟩,
    ⟨"negated2", [⟨"operand1", (.path "f32" .nil)⟩, ⟨"operator", (.path "Operator" .nil)⟩], "Negated2", [("operand1", .arg), ("operator", .arg)]⟩]
  handlerArms := [
    ⟨⟨"Begin", []⟩, ⟨"begin", ["shared_storage", "event"], false⟩⟩,
    ⟨⟨"Result", ["result"]⟩, ⟨"result", ["event"], false⟩⟩,
    ⟨⟨"Zero1", []⟩, ⟨"zero1", ["shared_storage", "event"], false⟩⟩,
    ⟨⟨"Int1", []⟩, ⟨"int1", ["shared_storage", "event"], false⟩⟩,
    ⟨⟨"Frac1", []⟩, ⟨"frac1", ["shared_storage", "event"], false⟩⟩,
    ⟨⟨"Negated1", []⟩, ⟨"negated1", ["shared_storage", "event"], false⟩⟩,
    ⟨⟨"OpEntered", ["operand1", "operator"]⟩, ⟨"op_entered", ["shared_storage", "operand1", "operator", "event"], false⟩⟩,
    ⟨⟨"Zero2", ["operand1", "operator"]⟩, ⟨"zero2", ["shared_storage", "operand1", "operator", "event"], false⟩⟩,
    ⟨⟨"Int2", ["operand1", "operator"]⟩, ⟨"int2", ["shared_storage", "operand1", "operator", "event"], false⟩⟩,
    ⟨⟨"Frac2", ["operand1", "operator"]⟩, ⟨"frac2", ["shared_storage", "event"], false⟩⟩,
    ⟨⟨"Negated2", ["operand1", "operator"]⟩, ⟨"negated2", ["shared_storage", "operand1", "operator", "event"], false⟩⟩]
  entryArms := [
    ⟨⟨"Begin", []⟩, some ⟨"enter_begin", ["shared_storage"], false⟩⟩,
    ⟨⟨"Result", ["result"]⟩, some ⟨"enter_result", ["shared_storage", "result"], false⟩⟩,
    ⟨⟨"Zero1", []⟩, none⟩,
    ⟨⟨"Int1", []⟩, none⟩,
    ⟨⟨"Frac1", []⟩, none⟩,
    ⟨⟨"Negated1", []⟩, none⟩,
    ⟨⟨"OpEntered", ["operand1", "operator"]⟩, none⟩,
    ⟨⟨"Zero2", ["operand1", "operator"]⟩, none⟩,
    ⟨⟨"Int2", ["operand1", "operator"]⟩, none⟩,
    ⟨⟨"Frac2", ["operand1", "operator"]⟩, none⟩,
    ⟨⟨"Negated2", ["operand1", "operator"]⟩, none⟩]
  exitArms := [
    ⟨⟨"Begin", []⟩, none⟩,
    ⟨⟨"Result", ["result"]⟩, none⟩,
    ⟨⟨"Zero1", []⟩, none⟩,
    ⟨⟨"Int1", []⟩, none⟩,
    ⟨⟨"Frac1", []⟩, none⟩,
    ⟨⟨"Negated1", []⟩, none⟩,
    ⟨⟨"OpEntered", ["operand1", "operator"]⟩, none⟩,
    ⟨⟨"Zero2", ["operand1", "operator"]⟩, none⟩,
    ⟨⟨"Int2", ["operand1", "operator"]⟩, none⟩,
    ⟨⟨"Frac2", ["operand1", "operator"]⟩, none⟩,
    ⟨⟨"Negated2", ["operand1", "operator"]⟩, none⟩]
  superstateArms := [
    ⟨⟨"Begin", []⟩, some ⟨"Ready", []⟩⟩,
    ⟨⟨"Result", ["result"]⟩, some ⟨"Ready", []⟩⟩,
    ⟨⟨"Zero1", []⟩, some ⟨"Operand1", []⟩⟩,
    ⟨⟨"Int1", []⟩, some ⟨"Operand1", []⟩⟩,
    ⟨⟨"Frac1", []⟩, some ⟨"Operand1", []⟩⟩,
    ⟨⟨"Negated1", []⟩, some ⟨"Operand1", []⟩⟩,
    ⟨⟨"OpEntered", ["operand1", "operator"]⟩, some ⟨"On", []⟩⟩,
    ⟨⟨"Zero2", ["operand1", "operator"]⟩, some ⟨"Operand2", ["operand1", "operator"]⟩⟩,
    ⟨⟨"Int2", ["operand1", "operator"]⟩, some ⟨"Operand2", ["operand1", "operator"]⟩⟩,
    ⟨⟨"Frac2", ["operand1", "operator"]⟩, some ⟨"Operand2", ["operand1", "operator"]⟩⟩,
    ⟨⟨"Negated2", ["operand1", "operator"]⟩, some ⟨"On", []⟩⟩]
  superstateIdent := "Superstate"
  superstateDerives := []
  superstateLifetime := true
  superstateGenerics := [.lifetime "sub" []]
  superstates := [
    ⟨"Ready", []⟩,
    ⟨"Operand1", []⟩,
    ⟨"Operand2", [⟨"operand1", (.ref (some "sub") false (.path "f32" .nil))⟩, ⟨"operator", (.ref (some "sub") false (.path "Operator" .nil))⟩]⟩,
    ⟨"On", []⟩]
  supHandlerArms := [
    ⟨⟨"Ready", []⟩, ⟨"ready", ["shared_storage", "event"], false⟩⟩,
    ⟨⟨"Operand1", []⟩, ⟨"operand1", ["shared_storage", "event"], false⟩⟩,
    ⟨⟨"Operand2", ["operand1", "operator"]⟩, ⟨"operand2", ["shared_storage", "operand1", "operator", "event"], false⟩⟩,
    ⟨⟨"On", []⟩, ⟨"on", ["shared_storage", "event"], false⟩⟩]
  supEntryArms := [
    ⟨⟨"Ready", []⟩, none⟩,
    ⟨⟨"Operand1", []⟩, none⟩,
    ⟨⟨"Operand2", ["operand1", "operator"]⟩, none⟩,
    ⟨⟨"On", []⟩, none⟩]
  supExitArms := [
    ⟨⟨"Ready", []⟩, none⟩,
    ⟨⟨"Operand1", []⟩, none⟩,
    ⟨⟨"Operand2", ["operand1", "operator"]⟩, none⟩,
    ⟨⟨"On", []⟩, none⟩]
  supSuperstateArms := [
    ⟨⟨"Ready", []⟩, some ⟨"On", []⟩⟩,
    ⟨⟨"Operand1", []⟩, some ⟨"On", []⟩⟩,
    ⟨⟨"Operand2", ["operand1", "operator"]⟩, some ⟨"On", []⟩⟩,
    ⟨⟨"On", []⟩, none⟩]

/-- Values of fields: an `f32` or an `Operator`. -/
inductive Field (A : Arith) where
  | num (n : A.F32)
  | op (o : Operator)

/-- The generated type `State`. -/
abbrev MState (A : Arith) := Val gen.iface.stateFields (Field A)

/-- The types of `examples/macro/calculator/src/state.rs`. -/
abbrev types (A : Arith) : Types where
  M := Text
  Ev := Event
  Ctx := Unit
  In := Empty
  V := Field A

/-- A state without fields, as its constructor builds it. -/
def unitState {A : Arith} (variant : Ident) (h : gen.iface.stateFields variant = some []) : MState A :=
  ⟨variant, fun _ => none, [], h, by simp⟩

/-- A state with a result, as its constructor builds it. -/
def resultState {A : Arith} (result : A.F32) : MState A where
  variant := "Result"
  get x := if x = "result" then some (.num result) else none
  ok := ⟨["result"], by decide +kernel, fun x => by by_cases h : x = "result" <;> simp [h]⟩

/-- A state with an operand and an operator, as its constructor builds it. -/
def opState {A : Arith} (variant : Ident) (h : gen.iface.stateFields variant = some ["operand1", "operator"])
    (operand1 : A.F32) (operator : Operator) : MState A where
  variant := variant
  get x := if x = "operand1" then some (.num operand1) else if x = "operator" then some (.op operator) else none
  ok := ⟨["operand1", "operator"], h, fun x => by
    by_cases h1 : x = "operand1" <;> by_cases h2 : x = "operator" <;> simp [h1, h2]⟩

/-- See `Constructors`. -/
def mconstructors (A : Arith) : Constructors A (MState A) where
  begin := unitState "Begin" (by decide +kernel)
  result := resultState
  zero1 := unitState "Zero1" (by decide +kernel)
  int1 := unitState "Int1" (by decide +kernel)
  frac1 := unitState "Frac1" (by decide +kernel)
  negated1 := unitState "Negated1" (by decide +kernel)
  opEntered := opState "OpEntered" (by decide +kernel)
  zero2 := opState "Zero2" (by decide +kernel)
  int2 := opState "Int2" (by decide +kernel)
  frac2 := opState "Frac2" (by decide +kernel)
  negated2 := opState "Negated2" (by decide +kernel)

/-- A call of a function with attribute that replies as given; only `&mut self` is written to. -/
def mreply {A : Arith} (args : List (Arg (types A))) (r : Reply (MState A)) :
    Fut Empty (List (Arg (types A))) (Response (MState A)) :=
  match r.2 with
  | some response => .done (.storage r.1 :: args) response
  | none => .panic (.storage r.1 :: args)

section
variable (A : Arith)

/-- The functions with a `#[state]` or `#[superstate]` attribute: `examples/macro/calculator/src/state.rs:39-449`. -/
def userHandler : Ident → List (Arg (types A)) → Fut Empty (List (Arg (types A))) (Response (MState A))
  | "begin", .storage display :: [.event e] => mreply [.event e] (Calculator.begin (mconstructors A) ['-', '0'] display e)
  | "result", [.event e] => .done [.event e] .super
  | "ready", .storage display :: [.event e] => mreply [.event e] (Calculator.ready (mconstructors A) display e)
  | "zero1", .storage display :: [.event e] => mreply [.event e] (Calculator.zero1 (mconstructors A) display e)
  | "int1", .storage display :: [.event e] => mreply [.event e] (Calculator.int1 (mconstructors A) display e)
  | "frac1", .storage display :: [.event e] => mreply [.event e] (Calculator.frac1 display e)
  | "negated1", .storage display :: [.event e] => mreply [.event e] (Calculator.negated1 (mconstructors A) display e)
  | "operand1", .storage display :: [.event e] => mreply [.event e] (Calculator.operand1 (mconstructors A) display e)
  | "op_entered", .storage display :: [.field (.num operand1), .field (.op operator), .event e] =>
    mreply [.field (.num operand1), .field (.op operator), .event e]
      (Calculator.opEntered (mconstructors A) operand1 operator display e)
  | "zero2", .storage display :: [.field (.num operand1), .field (.op operator), .event e] =>
    mreply [.field (.num operand1), .field (.op operator), .event e]
      (Calculator.zero2 (mconstructors A) operand1 operator display e)
  | "int2", .storage display :: [.field (.num operand1), .field (.op operator), .event e] =>
    mreply [.field (.num operand1), .field (.op operator), .event e]
      (Calculator.int2 (mconstructors A) operand1 operator display e)
  | "frac2", .storage display :: [.event e] => mreply [.event e] (Calculator.frac2 display e)
  | "operand2", .storage display :: [.field (.num operand1), .field (.op operator), .event e] =>
    mreply [.field (.num operand1), .field (.op operator), .event e]
      (Calculator.operand2 (mconstructors A) operand1 operator display e)
  | "negated2", .storage display :: [.field (.num operand1), .field (.op operator), .event e] =>
    mreply [.field (.num operand1), .field (.op operator), .event e]
      (Calculator.negated2 (mconstructors A) operand1 operator display e)
  | "on", .storage display :: [.event e] => mreply [.event e] (Calculator.on (mconstructors A) display e)
  -- There are no other such functions, and the macro calls them with the arguments they have.
  | _, args => .done args .super

/-- The functions with an `#[action]` attribute: `examples/macro/calculator/src/state.rs:40-42, 62-64`. -/
def userAction : Ident → List (Arg (types A)) → Fut Empty (List (Arg (types A))) Unit
  | "enter_begin", [.storage _] => .done [.storage enterBegin] ()
  | "enter_result", [.storage _, .field (.num result)] => .done [.storage (enterResult result), .field (.num result)] ()
  | _, args => .done args ()

/-- The rest of what the user writes: `State::begin()` (`examples/macro/calculator/src/state.rs:37`). -/
def env : Env gen.iface (types A) where
  handler := userHandler A
  action := userAction A
  initial _ := (mconstructors A).begin
  dispatchHook _ shared _ _ := .done shared ()
  transitionHook _ shared _ _ := .done shared ()
  hookAsync _ := false

end

end Statig.Examples.Calculator
