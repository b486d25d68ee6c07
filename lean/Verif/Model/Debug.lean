import Verif.Model.Api
/-!
# `Debug`

The `Debug` implementations of `statig/src/response.rs:28-44`, `statig/src/state_or_superstate.rs:12-26` and
`statig/src/{blocking,awaitable}/state_machine.rs`, over a model of `core::fmt`'s builders.  The user's `Debug`
implementations are parameters.  Simplification: a formatter is reduced to its `#` flag and the text it has been
given; width, precision and fill are passed on by the builders and only matter to the user's implementations.
-/
namespace Statig

/-- What a call of `fmt` has written, and whether it returned `Ok(())` (`core::fmt::Result`). -/
structure Printed where
  text : List Char
  ok : Bool
deriving DecidableEq, Repr

namespace Printed

/-- `f.write_str(s)` (`core::fmt::Formatter`), for a sink that accepts the text. -/
def write (s : String) : Printed := ⟨s.toList, true⟩

/-- `result.and_then(|_| ...)` and `?` on `core::fmt::Result`: an error ends the output. -/
def andThen (p q : Printed) : Printed :=
  if p.ok then ⟨p.text ++ q.text, q.ok⟩ else p

/-- `core::fmt::builders::PadAdapter`: four spaces before the first character of every line; `fresh` tells
whether the next character is the first of its line. -/
def pad : Bool → List Char → List Char
  | _, [] => []
  | true, c :: l => ' ' :: ' ' :: ' ' :: ' ' :: c :: pad (c == '\n') l
  | false, c :: l => c :: pad (c == '\n') l

/-- A call of `fmt` on a formatter wrapped in a fresh `PadAdapter`. -/
def padded (p : Printed) : Printed := ⟨pad true p.text, p.ok⟩

end Printed

/-- The user's `Debug::fmt`: may look at the `#` flag (`{:#?}`) of the formatter. -/
abbrev Dbg (A : Type) := Bool → A → Printed

/-- `core::fmt::builders::DebugTuple` (used by `statig/src/response.rs:34-42`,
`statig/src/state_or_superstate.rs:18-24`). -/
structure DebugTuple where
  alternate : Bool
  result : Printed
  fields : Nat
  emptyName : Bool

/-- `Formatter::debug_tuple` of `core::fmt`, as called in `statig/src/response.rs:35-38`. -/
def debugTuple (alternate : Bool) (name : String) : DebugTuple :=
  { alternate := alternate, result := .write name, fields := 0, emptyName := name = "" }

/-- `DebugTuple::field` of `core::fmt`, as called in `statig/src/response.rs:39`. -/
def DebugTuple.field {A : Type} (b : DebugTuple) (dbg : Dbg A) (a : A) : DebugTuple :=
  { b with
    result := b.result.andThen
      (if b.alternate then
        .andThen (.write (if b.fields = 0 then "(\n" else ""))
          (.padded (.andThen (dbg b.alternate a) (.write ",\n")))
      else
        .andThen (.write (if b.fields = 0 then "(" else ", ")) (dbg b.alternate a))
    fields := b.fields + 1 }

/-- `DebugTuple::finish` of `core::fmt`, as called in `statig/src/response.rs:35-40`. -/
def DebugTuple.finish (b : DebugTuple) : Printed :=
  if b.fields > 0 then
    b.result.andThen
      (.andThen (.write (if b.fields = 1 ∧ b.emptyName ∧ ¬ b.alternate then "," else "")) (.write ")"))
  else b.result

/-- `core::fmt::builders::DebugStruct` (used by `statig/src/blocking/state_machine.rs:474-477, 728-731`,
`statig/src/awaitable/state_machine.rs:486-489, 746-749`). -/
structure DebugStruct where
  alternate : Bool
  result : Printed
  hasFields : Bool

/-- `Formatter::debug_struct` of `core::fmt`, as called in `statig/src/blocking/state_machine.rs:474, 728`,
`statig/src/awaitable/state_machine.rs:486, 746`. -/
def debugStruct (alternate : Bool) (name : String) : DebugStruct :=
  { alternate := alternate, result := .write name, hasFields := false }

/-- `DebugStruct::field` of `core::fmt`, as called in `statig/src/blocking/state_machine.rs:475-476, 729-730`,
`statig/src/awaitable/state_machine.rs:487-488, 747-748`. -/
def DebugStruct.field {A : Type} (b : DebugStruct) (name : String) (dbg : Dbg A) (a : A) : DebugStruct :=
  { b with
    result := b.result.andThen
      (if b.alternate then
        .andThen (.write (if b.hasFields then "" else " {\n"))
          (.padded (.andThen (.write name) (.andThen (.write ": ") (.andThen (dbg b.alternate a) (.write ",\n")))))
      else
        .andThen (.write (if b.hasFields then ", " else " { "))
          (.andThen (.write name) (.andThen (.write ": ") (dbg b.alternate a))))
    hasFields := true }

/-- `DebugStruct::finish` of `core::fmt`, as called in `statig/src/blocking/state_machine.rs:477, 731`,
`statig/src/awaitable/state_machine.rs:489, 749`. -/
def DebugStruct.finish (b : DebugStruct) : Printed :=
  if b.hasFields then b.result.andThen (.write (if b.alternate then "}" else " }")) else b.result

/-- `impl Debug for Response`: `statig/src/response.rs:28-44`; `ds` is the user's `Debug` of states. -/
def Response.debug {T : Type} (ds : Dbg T) (alternate : Bool) : Response T → Printed
  | .handled => (debugTuple alternate "Handled").finish
  | .super => (debugTuple alternate "Super").finish
  | .transition s => ((debugTuple alternate "Transition").field ds s).finish

/-- `impl Debug for StateOrSuperstate`: `statig/src/state_or_superstate.rs:12-26`; `ds` and `dv` are the user's
`Debug` of states and superstates. -/
def StateOrSuperstate.debug {St Sup : Type} (ds : Dbg St) (dv : Dbg Sup) (alternate : Bool) :
    StateOrSuperstate St Sup → Printed
  | .state s => ((debugTuple alternate "State").field ds s).finish
  | .superstate v => ((debugTuple alternate "Superstate").field dv v).finish

variable {S : Sig}

/-- `impl Debug for InitializedStateMachine`: `statig/src/blocking/state_machine.rs:468-479`,
`statig/src/awaitable/state_machine.rs:480-491`. -/
def InitializedStateMachine.debug (dm : Dbg S.M) (ds : Dbg S.St) (alternate : Bool)
    (sm : InitializedStateMachine S) : Printed :=
  (((debugStruct alternate "InitializedStateMachine").field "shared_storage" dm sm.inner.shared).field
    "state" ds sm.inner.state).finish

/-- `impl Debug for UninitializedStateMachine`: `statig/src/blocking/state_machine.rs:722-733`,
`statig/src/awaitable/state_machine.rs:740-751`. -/
def UninitializedStateMachine.debug (dm : Dbg S.M) (ds : Dbg S.St) (alternate : Bool)
    (sm : UninitializedStateMachine S) : Printed :=
  (((debugStruct alternate "UnInitializedStateMachine").field "shared_storage" dm sm.inner.shared).field
    "state" ds sm.inner.state).finish

end Statig
