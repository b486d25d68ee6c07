import Verif.Model.Examples.CdPlayer
/-!
# The examples `bench`, `async_bench`, `bench_complex` and `async_bench_complex`

`examples/macro/bench/src/main.rs`, `examples/macro/async_bench/src/main.rs`, `examples/macro/bench_complex/src/main.rs`
and `examples/macro/async_bench_complex/src/main.rs`: impl blocks whose methods are all of the form
```text
#[state]
fn name(event: &Event) -> Response<State> {
    match event {
        Event::E => Transition(State::target()),
        ..
        _ => other,
    }
}
```
or the same with `async fn`.
-/
namespace Statig.Examples.Bench
open Statig.Macro

/-- A method of the form above. -/
structure Row (Ev : Type) where
  name : Ident
  /-- The name of the variant that the macro makes of it. -/
  variant : Ident
  /-- `Event::E => Transition(State::target())`: the event and the name of the constructor. -/
  arms : List (Ev × Ident)
  /-- `_ => Handled` or `_ => Super`. -/
  handled : Bool

/-- An impl block of such methods, with `#[state_machine(initial = "..", state(derive(Debug)))]`. -/
structure Table where
  Ev : Type
  dec : DecidableEq Ev
  selfName : Ident
  /-- The setting `initial` is `State::start()`. -/
  initial : String
  start : Ident
  rows : List (Row Ev)

namespace Table

/-- The impl block. -/
def source (t : Table) (isAsync : Bool) : Source where
  selfTy := .path t.selfName .nil
  args := [⟨"initial", .lit t.initial⟩, ⟨"state", .list (some [.derive (some ["Debug"])])⟩]
  methods := t.rows.map fun r =>
    { name := r.name
      attrs := [⟨"state", none⟩]
      generic := false
      isAsync := isAsync
      inputs := [.typed [] (.ident "event") (.ref none false (.path "Event" .nil))] }

/-- What the macro generates (`cd_eq` and `ring_eq` in `Verif/Props/Examples/Bench.lean`). -/
def gen (t : Table) (isAsync : Bool) : Gen where
  methods := (t.source isAsync).methods
  selfTy := .path t.selfName .nil
  callPath := [t.selfName]
  callArgs := .nil
  generics := {}
  stateImpl := {}
  superstateImpl := {}
  mode := if isAsync then .awaitable else .blocking
  initial := t.initial
  eventType := .path "Event" .nil
  contextType := .compound "()" .nil
  beforeTransition := none
  afterTransition := none
  beforeDispatch := none
  afterDispatch := none
  visibility := "pub"
  eventIdent := "event"
  contextIdent := "context"
  stateIdent := "State"
  stateDerives := ["Debug"]
  stateGenerics := []
  states := t.rows.map fun r => ⟨r.variant, []⟩
  constructors := t.rows.map fun r => ⟨r.name, [], r.variant, []⟩
  handlerArms := t.rows.map fun r => ⟨⟨r.variant, []⟩, ⟨r.name, ["event"], isAsync⟩⟩
  entryArms := t.rows.map fun r => ⟨⟨r.variant, []⟩, none⟩
  exitArms := t.rows.map fun r => ⟨⟨r.variant, []⟩, none⟩
  superstateArms := t.rows.map fun r => ⟨⟨r.variant, []⟩, none⟩
  superstateIdent := "Superstate"
  superstateDerives := []
  superstateLifetime := false
  superstateGenerics := []
  superstates := []
  supHandlerArms := []
  supEntryArms := []
  supExitArms := []
  supSuperstateArms := []

/-- No state has fields, the shared storage has none, and there is no context.  Nothing is awaited inside the `async`
functions, so the schedule is irrelevant; its type is arbitrary. -/
abbrev types (t : Table) (In : Type) : Types where
  M := Unit
  Ev := t.Ev
  Ctx := Unit
  In := In
  V := Empty

/-- The generated type `State`. -/
abbrev MState (t : Table) (isAsync : Bool) := Val (t.gen isAsync).iface.stateFields Empty

variable {t : Table} {isAsync : Bool} {In : Type}

/-- `State::name()`, the generated constructor, which has no arguments.  There is none for other names, for which
`dflt` stands in. -/
def construct (dflt : t.MState isAsync) (name : Ident) : t.MState isAsync :=
  match t.rows.find? (·.name == name) with
  | none => dflt
  | some r =>
    if h : (t.gen isAsync).iface.stateFields r.variant = some [] then ⟨r.variant, fun _ => none, [], h, by simp⟩
    else dflt

/-- `match event { Event::E => Transition(State::target()), .., _ => other }`. -/
def respond (dflt : t.MState isAsync) (r : Row t.Ev) (event : t.Ev) : Response (t.MState isAsync) :=
  match @List.lookup _ _ (@instBEqOfDecidableEq _ t.dec) event r.arms with
  | some target => .transition (construct dflt target)
  | none => if r.handled then .handled else .super

/-- The methods, by name. -/
def userHandler (dflt : t.MState isAsync) (name : Ident) (args : List (Arg (t.types In))) :
    Fut In (List (Arg (t.types In))) (Response (t.MState isAsync)) :=
  match t.rows.find? (·.name == name), args with
  | some r, [.event event] => .done [.event event] (respond dflt r event)
  -- There are no other such functions, and the macro calls them with the arguments they have.
  | _, args => .done args .super

/-- What the user writes.  There are no actions and no hooks. -/
def env (dflt : t.MState isAsync) (In : Type) : Env (t.gen isAsync).iface (t.types In) where
  handler := userHandler dflt
  action _ args := .done args ()
  initial _ := construct dflt t.start
  dispatchHook _ shared _ _ := .done shared ()
  transitionHook _ shared _ _ := .done shared ()
  hookAsync _ := false

/-- The generated machine. -/
abbrev machine (dflt : t.MState isAsync) (In : Type) : Machine ((t.gen isAsync).iface.sig (t.types In)) :=
  (t.gen isAsync).iface.machine (env dflt In)

end Table

/-! ## The CD player -/

/-- `examples/macro/bench/src/main.rs:29-76`, `examples/macro/async_bench/src/main.rs:8-76`. -/
def cd : Table where
  Ev := CdPlayer.Event
  dec := inferInstance
  selfName := "CdPlayer"
  initial := "State::empty()"
  start := "empty"
  rows := [
    ⟨"empty", "Empty", [(.cdDetected, "stopped"), (.openClose, "open")], false⟩,
    ⟨"open", "Open", [(.openClose, "empty")], false⟩,
    ⟨"stopped", "Stopped", [(.play, "playing"), (.openClose, "open"), (.stop, "stopped")], false⟩,
    ⟨"playing", "Playing", [(.openClose, "open"), (.pause2, "pause"), (.stop, "stopped")], false⟩,
    ⟨"pause", "Pause", [(.endPause, "playing"), (.stop, "stopped")], false⟩]

/-- The body of the loop in `main`: `examples/macro/bench/src/main.rs:88-100`,
`examples/macro/async_bench/src/main.rs:88-102`. -/
def cdLoop : List CdPlayer.Event :=
  [.openClose, .openClose, .cdDetected, .play, .pause2, .endPause, .pause2, .stop, .stop, .openClose, .openClose]

/-! ## The ring -/

/-- `E1` to `E51`: `examples/macro/bench_complex/src/main.rs:5-57`,
`examples/macro/async_bench_complex/src/main.rs:5-57`. -/
structure Event where
  number : Nat
  ok : 1 ≤ number ∧ number ≤ 51
deriving DecidableEq

/-- `match event { Event::E<number> => Transition(State::target()), _ => Handled }`. -/
def ringRow (name variant : Ident) (number : Nat) (target : Ident) (h : 1 ≤ number ∧ number ≤ 51 := by decide) : Row Event :=
  ⟨name, variant, [(⟨number, h⟩, target)], true⟩

/-- `examples/macro/bench_complex/src/main.rs:59-470`, `examples/macro/async_bench_complex/src/main.rs:59-470`. -/
def ring : Table where
  Ev := Event
  dec := inferInstance
  selfName := "BenchComplex"
  initial := "State::s1()"
  start := "s1"
  rows := [
    ringRow "idle" "Idle" 1 "s2",
    ringRow "s1" "S1" 2 "s2",
    ringRow "s2" "S2" 3 "s3",
    ringRow "s3" "S3" 4 "s4",
    ringRow "s4" "S4" 5 "s5",
    ringRow "s5" "S5" 6 "s6",
    ringRow "s6" "S6" 7 "s7",
    ringRow "s7" "S7" 8 "s8",
    ringRow "s8" "S8" 9 "s9",
    ringRow "s9" "S9" 10 "s10",
    ringRow "s10" "S10" 11 "s11",
    ringRow "s11" "S11" 12 "s12",
    ringRow "s12" "S12" 13 "s13",
    ringRow "s13" "S13" 14 "s14",
    ringRow "s14" "S14" 15 "s15",
    ringRow "s15" "S15" 16 "s16",
    ringRow "s16" "S16" 17 "s17",
    ringRow "s17" "S17" 18 "s18",
    ringRow "s18" "S18" 19 "s19",
    ringRow "s19" "S19" 20 "s20",
    ringRow "s20" "S20" 21 "s21",
    ringRow "s21" "S21" 22 "s22",
    ringRow "s22" "S22" 23 "s23",
    ringRow "s23" "S23" 24 "s24",
    ringRow "s24" "S24" 25 "s25",
    ringRow "s25" "S25" 26 "s26",
    ringRow "s26" "S26" 27 "s27",
    ringRow "s27" "S27" 28 "s28",
    ringRow "s28" "S28" 29 "s29",
    ringRow "s29" "S29" 30 "s30",
    ringRow "s30" "S30" 31 "s31",
    ringRow "s31" "S31" 32 "s32",
    ringRow "s32" "S32" 33 "s33",
    ringRow "s33" "S33" 34 "s34",
    ringRow "s34" "S34" 35 "s35",
    ringRow "s35" "S35" 36 "s36",
    ringRow "s36" "S36" 37 "s37",
    ringRow "s37" "S37" 38 "s38",
    ringRow "s38" "S38" 39 "s39",
    ringRow "s39" "S39" 40 "s40",
    ringRow "s40" "S40" 41 "s41",
    ringRow "s41" "S41" 42 "s42",
    ringRow "s42" "S42" 43 "s43",
    ringRow "s43" "S43" 44 "s44",
    ringRow "s44" "S44" 45 "s45",
    ringRow "s45" "S45" 46 "s46",
    ringRow "s46" "S46" 47 "s47",
    ringRow "s47" "S47" 48 "s48",
    ringRow "s48" "S48" 49 "s49",
    ringRow "s49" "S49" 50 "s50",
    ringRow "s50" "S50" 51 "idle"]

end Statig.Examples.Bench
