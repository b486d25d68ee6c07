import Verif.Model.Drops
import Verif.Spec.History
/-!
# What should happen to state values
-/
namespace Statig
variable {S : Sig}

/-- The states that handlers have returned as targets of transitions, in order. -/
def targets (trace : List (Obs S)) : List S.St :=
  trace.filterMap fun
    | .returned _ (.transition t) => some t
    | _ => none

/-- `tag` is something the user can tell states apart by: no callback changes the tag of a state, and neither does what
superstates do with what they borrow from it. -/
structure Machine.KeepsTag {T : Type} (m : Machine S) (tag : S.St → T) : Prop where
  handler : ∀ s sh ev c, (m.handler s sh ev c).All fun w => tag w.1 = tag s
  entry : ∀ s sh c, (m.entry s sh c).All fun w => tag w.1 = tag s
  exit : ∀ s sh c, (m.exit s sh c).All fun w => tag w.1 = tag s
  superstate : ∀ s v back, m.superstate s = some (v, back) → ∀ v', tag (back v') = tag s

/-- The target was reached: an entry action, or the hook after the transition, was started. -/
def reachedTarget (l : List (Obs S)) : Prop := (∃ n, .entry n ∈ l) ∨ ∃ a b, .afterTransition a b ∈ l

/-- What may be dropped by a call that finds the state `before`, makes the observations `trace`, and leaves the state
`now`. -/
inductive Dropping {T : Type} (tag : S.St → T) (before now : S.St) (trace : List (Obs S)) (out : Out Unit) :
    List (Drop S) → Prop where
  /-- No handler returned a target: the machine keeps the state it has. -/
  | nothing : targets trace = [] → tag now = tag before → Dropping tag before now trace out []
  /-- Interrupted before the target was reached: at the end the target is dropped, just as it was returned, and the
  machine keeps the state it has. -/
  | target {pre n t post} : trace = pre ++ .returned n (.transition t) :: post → targets pre = [] → targets post = [] →
      ¬ reachedTarget post → out ≠ .ok () → tag now = tag before →
      Dropping tag before now trace out [⟨trace.length, t⟩]
  /-- The target was reached: it is the state of the machine, and at the end the source is dropped.  It is the source
  that was shown to the hook after the transition. -/
  | source {pre n t post v} : trace = pre ++ .returned n (.transition t) :: post → targets pre = [] →
      targets post = [] → reachedTarget post → tag now = tag t → tag v = tag before →
      (out = .ok () ∨ (∃ a b, .afterTransition a b ∈ post) → post.getLast? = some (.afterTransition v now)) →
      Dropping tag before now trace out [⟨trace.length, v⟩]

/-- Make the call, and note the states that are dropped.  (Initialization drops none.) -/
def Command.execOwned (mode : Mode) (m : Machine S) (sm : StateMachine S) :
    Command S → Option (OwnedCall S (StateMachine S))
  | .init ctx sched => (sm.initWithContext mode m ctx sched).map fun c => ⟨c, []⟩
  | .handle ev ctx sched => sm.handleOwned mode m ev ctx sched

/-- Starting with `sm` calls were made in order, with the listed results, leaving `sm'`. -/
inductive OwnedHistory (mode : Mode) (m : Machine S) :
    StateMachine S → List (OwnedCall S (StateMachine S)) → StateMachine S → Prop where
  | nil {sm} : OwnedHistory mode m sm [] sm
  | cons {sm cmd c l sm'} : Command.execOwned mode m sm cmd = some c → OwnedHistory mode m c.call.self l sm' →
      OwnedHistory mode m sm (c :: l) sm'

end Statig
