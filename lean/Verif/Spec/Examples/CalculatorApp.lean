import Verif.Model.Examples.CalculatorApp
import Verif.Spec.Examples.Calculator
/-!
# What the user interface of the example `calculator` is meant to do
-/
namespace Statig.Examples.Calculator

/-- What the buttons mean. -/
def meaning : String → Option Event
  | "0" => some (.digit 0)
  | "1" => some (.digit 1)
  | "2" => some (.digit 2)
  | "3" => some (.digit 3)
  | "4" => some (.digit 4)
  | "5" => some (.digit 5)
  | "6" => some (.digit 6)
  | "7" => some (.digit 7)
  | "8" => some (.digit 8)
  | "9" => some (.digit 9)
  | "," => some .point
  | "+" => some (.operator .add)
  | "-" => some (.operator .sub)
  | "×" => some (.operator .mul)
  | "÷" => some (.operator .div)
  | "=" => some .equal
  | "AC" => some .ac
  | "CE" => some .ce
  | _ => none

/-- The order in which buttons count that are clicked in the same frame. -/
def order : List String :=
  ["CE", "AC", "7", "8", "9", "4", "5", "6", "1", "2", "3", "÷", "×", "-", "+", "0", ",", "="]

/-- The keys that are pressed in a frame. -/
def pressed (clicked : String → Bool) : List Event := (order.filter clicked).filterMap meaning

/-- The keys that are pressed in frames. -/
def typed (clicks : List (String → Bool)) : List Event := clicks.flatMap pressed

end Statig.Examples.Calculator
