import Verif.Model.Api
import Verif.Model.Macro.Rust
/-!
# The example `async_io`

`examples/macro/async_io/src/main.rs`: a machine that writes to a connection while it handles events.
-/
namespace Statig.Examples.AsyncIo
open Statig.Macro

/-- `examples/macro/async_io/src/main.rs:12-14`. -/
inductive Event where
  | step
deriving DecidableEq

/-- What the operating system answers to an attempt to write: it has taken the first `more + 1` of the bytes it was
offered (all, if these are fewer), or it has failed (which includes taking none, an error to `write_all`).  While it gives
no answer nothing changes, so such polls are left out. -/
inductive Write where
  | taken (more : Nat)
  | failed

/-- `connection.write_all(text).await.unwrap()`, from where `more` bytes of `rest` are known to have been taken.
`world sent` is what the caller can see when the connection has taken `sent` (characters, all of them ASCII);
simplification of `tokio::io::AsyncWriteExt::write_all`, which offers the rest again and again until all is taken. -/
def writeAll {W α : Type} (world : List Char → W) (result : α) : List Char → Nat → List Char → Fut Write W α
  | [], _, sent => .done (world sent) result
  | c :: rest, more + 1, sent => writeAll world result rest more (sent ++ [c])
  | c :: rest, 0, sent => .pending (world sent) fun
    | .taken more => writeAll world result rest more (sent ++ [c])
    | .failed => .panic (world sent)

/-- `event: &Event`. -/
def eventArg : FnArg := .typed [] (.ident "event") (.ref none false (.path "Event" .nil))

/-- The annotated impl block: `examples/macro/async_io/src/main.rs:16-45`. -/
def source : Source where
  selfTy := .path "Receiver" .nil
  args := [⟨"initial", .lit "State::on()"⟩]
  methods := [
    { name := "enter_on"
      attrs := [⟨"action", none⟩]
      generic := false
      isAsync := true
      inputs := [.receiver true] },
    { name := "on"
      attrs := [⟨"state", some [⟨"entry_action", .lit "enter_on"⟩]⟩]
      generic := false
      isAsync := true
      inputs := [.receiver true, eventArg] },
    { name := "off"
      attrs := [⟨"state", none⟩]
      generic := false
      isAsync := true
      inputs := [.receiver true, eventArg] }]

/-- What the macro generates (`gen_eq` in `Verif/Props/Examples/AsyncIo.lean`). -/
def gen : Gen where
  methods := source.methods
  selfTy := (.path "Receiver" .nil)
  callPath := ["Receiver"]
  callArgs := .nil
  generics := {}
  stateImpl := {}
  superstateImpl := {}
  mode := .awaitable
  initial := "State::on()"
  eventType := (.path "Event" .nil)
  contextType := (.compound "()" .nil)
  beforeTransition := none
  afterTransition := none
  beforeDispatch := none
  afterDispatch := none
  visibility := "pub"
  eventIdent := "event"
  contextIdent := "context"
  stateIdent := "State"
  stateDerives := []
  stateGenerics := []
  states := [⟨"On", []⟩, ⟨"Off", []⟩]
  constructors := [⟨"on", [], "On", []⟩, ⟨"off", [], "Off", []⟩]
  handlerArms := [
    ⟨⟨"On", []⟩, ⟨"on", ["shared_storage", "event"], true⟩⟩,
    ⟨⟨"Off", []⟩, ⟨"off", ["shared_storage", "event"], true⟩⟩]
  entryArms := [⟨⟨"On", []⟩, some ⟨"enter_on", ["shared_storage"], true⟩⟩, ⟨⟨"Off", []⟩, none⟩]
  exitArms := [⟨⟨"On", []⟩, none⟩, ⟨⟨"Off", []⟩, none⟩]
  superstateArms := [⟨⟨"On", []⟩, none⟩, ⟨⟨"Off", []⟩, none⟩]
  superstateIdent := "Superstate"
  superstateDerives := []
  superstateLifetime := false
  superstateGenerics := []
  superstates := []
  supHandlerArms := []
  supEntryArms := []
  supExitArms := []
  supSuperstateArms := []

/-- The generated type `State`. -/
abbrev State := Val gen.iface.stateFields Empty

/-- The types of `examples/macro/async_io/src/main.rs`.  Of `Receiver` (lines 8-10) and the connection in it, what the
connection has taken so far. -/
abbrev types : Types where
  M := List Char
  Ev := Event
  Ctx := Unit
  In := Write
  V := Empty

/-- `State::on()`. -/
def on : State := ⟨"On", fun _ => none, [], by decide +kernel, by simp⟩

/-- `State::off()`. -/
def off : State := ⟨"Off", fun _ => none, [], by decide +kernel, by simp⟩

/-- ``"Entering `On`\n"``: `examples/macro/async_io/src/main.rs:21`. -/
def enteringOn : List Char := "Entering `On`\n".toList

/-- ``"Received `Step`\n"``: `examples/macro/async_io/src/main.rs:30`. -/
def receivedStep : List Char := "Received `Step`\n".toList

/-- `on` and `off`: `examples/macro/async_io/src/main.rs:25-44`. -/
def userHandler : Ident → List (Arg types) → Fut Write (List (Arg types)) (Response State)
  | "on", [.storage sent, .event .step] =>
    writeAll (fun sent => [.storage sent, .event .step]) (.transition off) receivedStep 0 sent
  | "off", [.storage sent, .event .step] => .done [.storage sent, .event .step] (.transition off)
  -- There are no other such functions, and the macro calls them with the arguments they have.
  | _, args => .done args .super

/-- `enter_on`: `examples/macro/async_io/src/main.rs:18-24`. -/
def userAction : Ident → List (Arg types) → Fut Write (List (Arg types)) Unit
  | "enter_on", [.storage sent] => writeAll (fun sent => [.storage sent]) () enteringOn 0 sent
  | _, args => .done args ()

/-- The rest of what the user writes: `State::on()` (`examples/macro/async_io/src/main.rs:16`). -/
def env : Env gen.iface types where
  handler := userHandler
  action := userAction
  initial _ := on
  dispatchHook _ shared _ _ := .done shared ()
  transitionHook _ shared _ _ := .done shared ()
  hookAsync _ := false

/-- The generated machine. -/
def machine : Machine (gen.iface.sig types) := gen.iface.machine env

end Statig.Examples.AsyncIo
