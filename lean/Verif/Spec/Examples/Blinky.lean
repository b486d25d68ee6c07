import Verif.Model.Examples.BlinkyOutput
import Verif.Spec.History
/-!
# What the two versions of `blinky` are meant to print
-/
namespace Statig.Examples.Blinky

/-- The timer makes the light blink, the button starts and stops it. -/
def State.next : State → Event → State
  | .ledOn, .timerElapsed => .ledOff
  | .ledOff, .timerElapsed => .ledOn
  | .ledOn, .buttonPressed => .notBlinking
  | .ledOff, .buttonPressed => .notBlinking
  | .notBlinking, .timerElapsed => .notBlinking
  | .notBlinking, .buttonPressed => .ledOn

/-- The name of a state in the generated enum. -/
def State.shown : State → Macro.Ident
  | .ledOn => "LedOn"
  | .ledOff => "LedOff"
  | .notBlinking => "NotBlinking"

/-- The lines that `examples/macro/blinky` prints while it handles an event. -/
def printed : State → Event → List String
  | .ledOn, .timerElapsed =>
    ["dispatching `TimerElapsed` to `State(LedOn)`",
     "transitioned from `LedOn` to `LedOff`"]
  | .ledOff, .timerElapsed =>
    ["dispatching `TimerElapsed` to `State(LedOff)`",
     "transitioned from `LedOff` to `LedOn`"]
  | .ledOn, .buttonPressed =>
    ["dispatching `ButtonPressed` to `State(LedOn)`",
     "dispatching `ButtonPressed` to `Superstate(Blinking)`",
     "transitioned from `LedOn` to `NotBlinking`"]
  | .ledOff, .buttonPressed =>
    ["dispatching `ButtonPressed` to `State(LedOff)`",
     "dispatching `ButtonPressed` to `Superstate(Blinking)`",
     "transitioned from `LedOff` to `NotBlinking`"]
  | .notBlinking, .timerElapsed =>
    ["dispatching `TimerElapsed` to `State(NotBlinking)`"]
  | .notBlinking, .buttonPressed =>
    ["dispatching `ButtonPressed` to `State(NotBlinking)`",
     "transitioned from `NotBlinking` to `LedOn`"]

/-- The lines that `examples/macro/async_blinky` prints while it handles an event. -/
def asyncPrinted : State → Event → List String
  | .ledOn, .timerElapsed =>
    ["before dispatching `TimerElapsed` to `State(LedOn)`",
     "after dispatched `TimerElapsed` to `State(LedOn)`",
     "before transitioned from `LedOn` to `LedOff`",
     "after transitioned from `LedOn` to `LedOff`"]
  | .ledOff, .timerElapsed =>
    ["before dispatching `TimerElapsed` to `State(LedOff)`",
     "after dispatched `TimerElapsed` to `State(LedOff)`",
     "before transitioned from `LedOff` to `LedOn`",
     "after transitioned from `LedOff` to `LedOn`"]
  | .ledOn, .buttonPressed =>
    ["before dispatching `ButtonPressed` to `State(LedOn)`",
     "after dispatched `ButtonPressed` to `State(LedOn)`",
     "before dispatching `ButtonPressed` to `Superstate(Blinking)`",
     "after dispatched `ButtonPressed` to `Superstate(Blinking)`",
     "before transitioned from `LedOn` to `NotBlinking`",
     "after transitioned from `LedOn` to `NotBlinking`"]
  | .ledOff, .buttonPressed =>
    ["before dispatching `ButtonPressed` to `State(LedOff)`",
     "after dispatched `ButtonPressed` to `State(LedOff)`",
     "before dispatching `ButtonPressed` to `Superstate(Blinking)`",
     "after dispatched `ButtonPressed` to `Superstate(Blinking)`",
     "before transitioned from `LedOff` to `NotBlinking`",
     "after transitioned from `LedOff` to `NotBlinking`"]
  | .notBlinking, .timerElapsed =>
    ["before dispatching `TimerElapsed` to `State(NotBlinking)`",
     "after dispatched `TimerElapsed` to `State(NotBlinking)`"]
  | .notBlinking, .buttonPressed =>
    ["before dispatching `ButtonPressed` to `State(NotBlinking)`",
     "after dispatched `ButtonPressed` to `State(NotBlinking)`",
     "before transitioned from `NotBlinking` to `LedOn`",
     "after transitioned from `NotBlinking` to `LedOn`"]

/-- Lines, each ended by a line feed. -/
def text (lines : List String) : List Char := lines.flatMap fun line => line.toList ++ ['\n']

/-- The state and the output after each of a sequence of calls; `none` is a call of `init`, which prints nothing. -/
def session (printed : State → Event → List String) (out : Stdout) (s : State) :
    List (Option Event) → List (State × Stdout)
  | [] => []
  | none :: calls => (s, out) :: session printed out s calls
  | some event :: calls =>
    (s.next event, out ++ text (printed s event)) ::
      session printed (out ++ text (printed s event)) (s.next event) calls

/-- Of a call on a machine: the event, if it is not only an initialization. -/
def called {S : Sig} : Command S → Option S.Ev
  | .init _ _ => none
  | .handle event _ _ => some event

end Statig.Examples.Blinky
