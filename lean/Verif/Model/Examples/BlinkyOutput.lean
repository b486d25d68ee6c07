import Verif.Model.Examples.Blinky
import Verif.Model.Debug
/-!
# What `blinky` and `async_blinky` print

`examples/macro/blinky/src/main.rs` with the hooks, which print, and `examples/macro/async_blinky/src/main.rs`, the same
in awaitable mode, with an action and two more hooks.  Simplification: standard output takes everything it is given, so
`println!` does not panic; nobody else writes to it.
-/
namespace Statig.Examples.Blinky
open Statig.Macro

/-- What has been written to standard output. -/
abbrev Stdout := List Char

/-- `println!(..)` of a text. -/
def println (out : Stdout) (text : List Char) : Stdout := out ++ text ++ ['\n']

/-- `#[derive(Debug)]` on `Event`: `examples/macro/blinky/src/main.rs:11`, `examples/macro/async_blinky/src/main.rs:13`. -/
def Event.debug : Dbg Event
  | _, .timerElapsed => .write "TimerElapsed"
  | _, .buttonPressed => .write "ButtonPressed"

/-- `#[derive(Debug)]` on a generated enum (`examples/macro/blinky/src/main.rs:25-27`,
`examples/macro/async_blinky/src/main.rs:27-29`): a variant without fields is printed by its name; here no variant has
fields. -/
def variantDebug {decl : Ident → Option (List Ident)} {V : Type} : Dbg (Val decl V) := fun _ s => .write s.variant

/-- The types of both examples: the storage has no fields, so of it and the rest of the process, the output. -/
abbrev types' : Types where
  M := Stdout
  Ev := Event
  Ctx := Unit
  In := Empty
  V := Empty

/-- The functions with an attribute: `examples/macro/blinky/src/main.rs:36-72`,
`examples/macro/async_blinky/src/main.rs:45-81`. -/
def userHandler' : Ident → List (Arg types') → Fut Empty (List (Arg types')) (Response MState)
  | "led_on", [.event event] => .done [.event event] <|
    match event with
    | .timerElapsed => .transition (unitState "LedOff" (by decide +kernel))
    | _ => .super
  | "led_off", [.event event] => .done [.event event] <|
    match event with
    | .timerElapsed => .transition (unitState "LedOn" (by decide +kernel))
    | _ => .super
  | "blinking", [.event event] => .done [.event event] <|
    match event with
    | .buttonPressed => .transition (unitState "NotBlinking" (by decide +kernel))
    | _ => .super
  | "not_blinking", [.event event] => .done [.event event] <|
    match event with
    | .buttonPressed => .transition (unitState "LedOn" (by decide +kernel))
    | _ => .super
  -- There are no other such functions, and the macro calls them with the arguments they have.
  | _, args => .done args .super

/-- A hook on a transition that does ``println!("{head} from `{source:?}` to `{target:?}`")``:
`examples/macro/blinky/src/main.rs:77-79`, `examples/macro/async_blinky/src/main.rs:86-92`. -/
def printTransition {decl : Ident → Option (List Ident)} (head : String) (out : Stdout) (source target : Val decl Empty) :
    Fut Empty Stdout Unit :=
  .done (println out (head.toList ++ " from `".toList ++ (variantDebug false source).text ++ "` to `".toList ++
    (variantDebug false target).text ++ "`".toList)) ()

/-- A hook on a dispatch that does ``println!("{head} `{event:?}` to `{state:?}`")``:
`examples/macro/blinky/src/main.rs:81-83`, `examples/macro/async_blinky/src/main.rs:94-108`. -/
def printDispatch {decl decl' : Ident → Option (List Ident)} (head : String) (out : Stdout)
    (state : StateOrSuperstate (Val decl Empty) (Val decl' Empty)) (event : Event) : Fut Empty Stdout Unit :=
  .done (println out (head.toList ++ " `".toList ++ (event.debug false).text ++ "` to `".toList ++
    (state.debug variantDebug variantDebug false).text ++ "`".toList)) ()

/-- The rest of what the user writes in `examples/macro/blinky/src/main.rs`: `State::led_on()` (23) and the hooks
(75-84). -/
def env' : Env gen.iface types' where
  handler := userHandler'
  action _ args := .done args ()
  initial _ := unitState "LedOn" (by decide +kernel)
  dispatchHook hook out state event :=
    if hook = "Self::before_dispatch" then printDispatch "dispatching" out state event else .done out ()
  transitionHook hook out source target :=
    if hook = "Self::after_transition" then printTransition "transitioned" out source target else .done out ()
  hookAsync _ := false

/-- The machine of `examples/macro/blinky/src/main.rs`. -/
def printing : Machine (gen.iface.sig types') := gen.iface.machine env'

/-! ## In awaitable mode -/

/-- The annotated impl block: `examples/macro/async_blinky/src/main.rs:23-82`.  `led_off` and the action `cool`, which
takes nothing, are not `async`. -/
def asyncSource : Source where
  selfTy := .path "Blinky" .nil
  args := [⟨"initial", .lit "State::led_on()"⟩, ⟨"state", .list (some [.derive (some ["Debug"])])⟩,
    ⟨"superstate", .list (some [.derive (some ["Debug"])])⟩, ⟨"after_transition", .lit "Self::after_transition"⟩,
    ⟨"before_dispatch", .lit "Self::before_dispatch"⟩, ⟨"after_dispatch", .lit "Self::after_dispatch"⟩,
    ⟨"before_transition", .lit "Self::before_transition"⟩]
  methods := [
    { name := "cool", attrs := [⟨"action", none⟩], generic := false, isAsync := false, inputs := [] },
    { method "led_on" ⟨"state", some [⟨"superstate", .lit "blinking"⟩, ⟨"entry_action", .lit "cool"⟩]⟩ with isAsync := true },
    method "led_off" ⟨"state", some [⟨"superstate", .lit "blinking"⟩]⟩,
    { method "blinking" ⟨"superstate", none⟩ with isAsync := true },
    { method "not_blinking" ⟨"state", none⟩ with isAsync := true }]

/-- What the macro generates of it (`asyncGen_eq` in `Verif/Props/Examples/BlinkyOutput.lean`), where this differs from
`gen`. -/
def asyncGen : Gen :=
  { gen with
    methods := asyncSource.methods
    mode := .awaitable
    beforeTransition := some "Self::before_transition"
    afterDispatch := some "Self::after_dispatch"
    handlerArms := [
      ⟨⟨"LedOn", []⟩, ⟨"led_on", ["event"], true⟩⟩,
      ⟨⟨"LedOff", []⟩, ⟨"led_off", ["event"], false⟩⟩,
      ⟨⟨"NotBlinking", []⟩, ⟨"not_blinking", ["event"], true⟩⟩]
    entryArms := [
      ⟨⟨"LedOn", []⟩, some ⟨"cool", [], false⟩⟩,
      ⟨⟨"LedOff", []⟩, none⟩,
      ⟨⟨"NotBlinking", []⟩, none⟩]
    supHandlerArms := [⟨⟨"Blinking", []⟩, ⟨"blinking", ["event"], true⟩⟩] }

/-- The rest of what the user writes in `examples/macro/async_blinky/src/main.rs`: `State::led_on()` (24), `cool`
(41), which does nothing, and the hooks (84-109), which are `async` and never suspend. -/
def asyncEnv : Env asyncGen.iface types' where
  handler := userHandler'
  action _ args := .done args ()
  initial _ := unitState "LedOn" (by decide +kernel)
  dispatchHook hook out state event :=
    if hook = "Self::before_dispatch" then printDispatch "before dispatching" out state event
    else if hook = "Self::after_dispatch" then printDispatch "after dispatched" out state event
    else .done out ()
  transitionHook hook out source target :=
    if hook = "Self::after_transition" then printTransition "after transitioned" out source target
    else if hook = "Self::before_transition" then printTransition "before transitioned" out source target
    else .done out ()
  hookAsync _ := true

/-- The machine of `examples/macro/async_blinky/src/main.rs`. -/
def asyncPrinting : Machine (asyncGen.iface.sig types') := asyncGen.iface.machine asyncEnv

end Statig.Examples.Blinky
