import Verif.Model.Examples.AsyncIo
import Verif.Spec.History
/-!
# What the peer of the example `async_io` should receive
-/
namespace Statig.Examples.AsyncIo

/-- The first line. -/
def hello : List Char := "Entering `On`\n".toList

/-- The second line. -/
def news : List Char := "Received `Step`\n".toList

/-- What is left of attempts to send `line` that were broken off: any number of beginnings of it, none of which is the
whole line. -/
def Attempts (line : List Char) (received : List Char) : Prop :=
  ∃ parts : List (List Char), received = parts.flatten ∧ ∀ p ∈ parts, p <+: line ∧ p ≠ line

/-- What the peer has received from a machine: as long as it is not initialized, only beginnings of the first line; from
then on, the whole of it; in the state `On` beginnings of the second line after that, and in the state `Off` the whole
second line, and nothing after it. -/
def Received (initialized : Bool) (variant : String) (received : List Char) : Prop :=
  match initialized with
  | false => variant = "On" ∧ Attempts hello received
  | true => ∃ a b, Attempts hello a ∧ Attempts news b ∧
      (variant = "On" ∧ received = a ++ hello ++ b ∨ variant = "Off" ∧ received = a ++ hello ++ b ++ news)

/-- Whether the call is one of an event. -/
def isHandle {S : Sig} : Command S → Bool
  | .handle _ _ _ => true
  | .init _ _ => false

/-- What the peer has received if nothing was broken off: the first line if there has been any call, and the second one
if there has been any event. -/
def expected {S : Sig} (cmds : List (Command S)) : List Char :=
  (if cmds = [] then [] else hello) ++ (if cmds.any isHandle then news else [])

/-- What the operating system answers during a call. -/
def schedOf {S : Sig} : Command S → List S.In
  | .init _ sched => sched
  | .handle _ _ sched => sched

/-- The operating system takes something whenever it is offered something, and often enough for both lines, if it takes
one byte each time. -/
def Accepts (sched : List Write) : Prop :=
  (∀ w ∈ sched, ∃ more, w = .taken more) ∧ hello.length + news.length ≤ sched.length

end Statig.Examples.AsyncIo
