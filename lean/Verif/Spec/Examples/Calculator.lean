import Verif.Model.Examples.Calculator
import Verif.Spec.Simulation
/-!
# What the machine of the example `calculator` is meant to do
-/
namespace Statig.Examples.Calculator
open Statig.Macro

/-- Press keys: one call of `handle` for each. -/
def press {S : Sig} (key : Event → S.Ev) (ctx : S.Ctx) (keys : List Event) : List (Command S) :=
  keys.map fun e => .handle (key e) ctx []

/-- The machine after calls. -/
def after {S : Sig} (m : Machine S) (sm : StateMachine S) (cmds : List (Command S)) : StateMachine S :=
  match (callAll .blocking m sm cmds).getLast? with
  | some c => c.self
  | none => sm

/-! ## Computing -/

/-- A number as it is typed: a minus, digits, and digits after a point.  The digits before the point do not start with
a zero, and can be left out if there is a point. -/
structure Operand where
  minus : Bool
  int : List UInt8
  frac : Option (List UInt8)
  head : ∀ d ds, int = d :: ds → d ≠ 0
  some : int = [] → frac ≠ none

namespace Operand

/-- The keys that are pressed. -/
def keys (n : Operand) : List Event :=
  (if n.minus then [.operator .sub] else []) ++ n.int.map .digit ++
    match n.frac with
    | .none => []
    | .some f => .point :: f.map .digit

/-- The number as it is written. -/
def text (n : Operand) : Text :=
  (if n.minus then ['-'] else []) ++ (if n.int = [] then ['0'] else n.int.flatMap digits) ++
    match n.frac with
    | .none => []
    | .some f => '.' :: f.flatMap digits

end Operand

/-- An operator and its second operand. -/
structure Term (A : Arith) where
  op : Operator
  num : Operand
  value : A.F32
  parsed : A.parse num.text = some value

/-- The keys for a term. -/
def Term.keys {A : Arith} (t : Term A) : List Event := .operator t.op :: t.num.keys

/-- What the operator of a term does to what stands to the left of it. -/
def Term.apply {A : Arith} (x : A.F32) (t : Term A) : A.F32 :=
  match t.op with
  | .add => A.add x t.value
  | .sub => A.sub x t.value
  | .mul => A.mul x t.value
  | .div => A.div x t.value

/-- The value of an expression, from left to right. -/
def total {A : Arith} (x : A.F32) (ts : List (Term A)) : A.F32 := ts.foldl Term.apply x

/-! ## Crashing -/

/-- Digits, possibly with a minus and a point. -/
def IsNumeral (t : Text) : Prop :=
  ∃ sign i f, (sign = [] ∨ sign = ['-']) ∧ (∀ c ∈ i ++ f, c.isDigit = true) ∧ i ++ f ≠ [] ∧
    (f = [] ∧ t = sign ++ i ∨ t = sign ++ i ++ '.' :: f)

/-- What is used of `f32`: numerals and everything that is printed can be parsed; the empty text and a point
alone cannot. -/
structure Arith.Sane (A : Arith) : Prop where
  numeral : ∀ t, IsNumeral t → A.parse t ≠ none
  printed : ∀ x, A.parse (A.print x) ≠ none
  empty : A.parse [] = none
  point : A.parse ['.'] = none

/-- The situations in which a key crashes the calculator: the first operand is being entered, there is no digit on the
display, and an operator or `=` is pressed.  (With a minus just entered, operators are ignored.) -/
def Crashes (variant : Ident) (display : Text) (e : Event) : Prop :=
  (display = [] ∨ display = ['.']) ∧
    (variant ∈ ["Zero1", "Int1", "Frac1"] ∧ (e = .equal ∨ ∃ o, e = .operator o) ∨ variant = "Negated1" ∧ e = .equal)

end Statig.Examples.Calculator
