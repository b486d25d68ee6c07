import Verif.Model.Examples.Blinky
import Verif.Model.Serde
/-!
# The machine of the test of serialization

`statig/tests/serde.rs`.
-/
namespace Statig.Tests.Serde
open Statig.Macro

/-- `statig/tests/serde.rs:18-22`. -/
inductive Event where
  | timerElapsed
  | buttonPressed
deriving DecidableEq

/-- `Blinky`: `statig/tests/serde.rs:13-16`. -/
structure Blinky where
  led : Bool
deriving DecidableEq

/-- The annotated impl block: `statig/tests/serde.rs:24-61`.  The methods have the names, attributes and parameters of
those of the example `blinky`. -/
def source : Source where
  selfTy := .path "Blinky" .nil
  args := [⟨"initial", .lit "State::led_on()"⟩,
    ⟨"state", .list (some [.derive (some ["Debug", "Serialize", "Deserialize", "Clone", "PartialEq"])])⟩,
    ⟨"superstate", .list (some [.derive (some ["Debug"])])⟩]
  methods := Examples.Blinky.source.methods

/-- What the macro generates (`gen_eq` in `Verif/Props/Tests/Serde.lean`): the code of the example `blinky`, with other
derives and without hooks. -/
def gen : Gen :=
  { Examples.Blinky.gen with
    stateDerives := ["Debug", "Serialize", "Deserialize", "Clone", "PartialEq"]
    afterTransition := none
    beforeDispatch := none }

/-- The generated type `State`. -/
abbrev State := Val gen.iface.stateFields Empty

/-- The types of the test; no state has fields. -/
abbrev types : Types where
  M := Blinky
  Ev := Event
  Ctx := Unit
  In := Empty
  V := Empty

/-- A state without fields, as its constructor builds it. -/
def unitState (variant : Ident) (h : gen.iface.stateFields variant = some []) : State :=
  ⟨variant, fun _ => none, [], h, by simp⟩

/-- The functions with an attribute: `statig/tests/serde.rs:30-60`. -/
def userHandler : Ident → List (Arg types) → Fut Empty (List (Arg types)) (Response State)
  | "led_on", [.event event] => .done [.event event] <|
    match event with
    | .timerElapsed => .transition (unitState "LedOff" (by decide +kernel))
    | _ => .super
  | "led_off", [.event event] => .done [.event event] <|
    match event with
    | .timerElapsed => .transition (unitState "LedOn" (by decide +kernel))
    | _ => .super
  | "blinking", [.event event] => .done [.event event] <|
    match event with
    | .buttonPressed => .transition (unitState "NotBlinking" (by decide +kernel))
    | _ => .super
  | "not_blinking", [.event event] => .done [.event event] <|
    match event with
    | .buttonPressed => .transition (unitState "LedOn" (by decide +kernel))
    | _ => .super
  -- There are no other such functions, and the macro calls them with the arguments they have.
  | _, args => .done args .super

/-- The rest of what the user writes: `State::led_on()`; there are no actions and no hooks. -/
def env : Env gen.iface types where
  handler := userHandler
  action _ args := .done args ()
  initial _ := unitState "LedOn" (by decide +kernel)
  dispatchHook _ shared _ _ := .done shared ()
  transitionHook _ shared _ _ := .done shared ()
  hookAsync _ := false

/-- The generated machine. -/
def machine : Machine (gen.iface.sig types) := gen.iface.machine env

end Statig.Tests.Serde
