import Verif.Model.Examples.Bench
import Verif.Spec.History
/-!
# What the machines of the benchmarks are meant to do
-/
namespace Statig.Examples.Bench
open Statig.Macro

/-! ## The ring -/

/-- The name of the state after a number of transitions: `S1`, `S2`, .., `S50`, `Idle`, `S2`, .. -/
def ringState (moves : Nat) : Ident :=
  if moves = 0 then "S1" else if moves % 50 = 0 then "Idle" else "S" ++ toString (moves % 50 + 1)

/-- The number of the event that is needed for the next transition: `E2` for the first, then `E3`, .., `E51`, `E1`,
and from there on again `E3`, .. -/
def wanted (moves : Nat) : Nat :=
  if moves = 0 then 2 else if moves % 50 = 0 then 1 else moves % 50 + 2

/-- An event, after a number of transitions. -/
def ringStep (moves : Nat) (e : Event) : Nat := if e.number = wanted moves then moves + 1 else moves

/-- The number of transitions in a history. -/
def ringMoves (es : List Event) : Nat := es.foldl ringStep 0

/-- What is expected of a sequence of calls: how they end, and the state. -/
def ringExpected {S : Sig} (ev : S.Ev → Event) (moves : Nat) : List (Command S) → List (Out Unit × Ident)
  | [] => []
  | .init _ _ :: cmds => (.ok (), ringState moves) :: ringExpected ev moves cmds
  | .handle e _ _ :: cmds => (.ok (), ringState (ringStep moves (ev e))) :: ringExpected ev (ringStep moves (ev e)) cmds

/-- All events, in order: the body of the loop in `main` if all random numbers are even
(`examples/macro/bench_complex/src/main.rs:481-684`). -/
def round : List Event := (List.finRange 51).map fun i => ⟨i.val + 1, by omega⟩

/-- The body of the loop in `main` for any random numbers: some of the events, in order. -/
def Round (es : List Event) : Prop := es.Sublist round

/-! ## The CD player -/

/-- The name of a state. -/
def cdName : CdPlayer.State → Ident
  | .empty => "Empty"
  | .opened => "Open"
  | .stopped => "Stopped"
  | .playing => "Playing"
  | .pause => "Pause"

/-- An event: the target of the transition, if there is one.  The transitions are those of the version of the example
without the macro (`examples/no_macro/bench/src/main.rs:75-114`). -/
def cdStep (s : CdPlayer.State) (e : CdPlayer.Event) : CdPlayer.State :=
  match CdPlayer.handler s e with
  | .transition target => target
  | _ => s

/-- What is expected of a sequence of calls: how they end, and the state. -/
def cdExpected {S : Sig} (ev : S.Ev → CdPlayer.Event) (s : CdPlayer.State) : List (Command S) → List (Out Unit × Ident)
  | [] => []
  | .init _ _ :: cmds => (.ok (), cdName s) :: cdExpected ev s cmds
  | .handle e _ _ :: cmds => (.ok (), cdName (cdStep s (ev e))) :: cdExpected ev (cdStep s (ev e)) cmds

end Statig.Examples.Bench
