import Verif.Proofs.Unit
import Verif.Props.Contract
/-!
# Machines without superstates: C80
-/
namespace Statig
variable {M St Ev Ctx In D : Type} [DecidableEq D] (f : UnitMachine M St Ev Ctx In D)

/-- C80. A machine without superstates (`Superstate = ()`, and `superstate` is not implemented, or returns `None`) is an
ordinary state machine, in both modes: initialization makes the entry action of the initial state, and an event makes
the callbacks of `plainHandle`, with nothing else before, between or after. -/
theorem C80_plain (mode : Mode) (hn : ∀ s, f.nested s = false) (i : Inner (unitSig M St Ev Ctx In D)) (ctx : Ctx)
    (sched : List In) :
    i.init mode f.machine ctx sched = i.run (plainInit f.machine) ctx sched ∧
      ∀ ev, i.handle mode f.machine ev ctx sched = i.run (plainHandle f.machine mode ev) ctx sched := by
  constructor
  · rw [Inner.init_eq, UnitMachine.init_bare hn]
  · intro ev
    rw [Inner.handle_eq, UnitMachine.handle_bare hn]

/-- C80. The same for any superstate type, if no state has a superstate. -/
theorem C80_no_superstates {S : Sig} {m : Machine S} (mode : Mode) (hn : ∀ s, m.superstate s = none) (i : Inner S)
    (ctx : S.Ctx) (sched : List S.In) :
    i.init mode m ctx sched = i.run (plainInit m) ctx sched ∧
      ∀ ev, i.handle mode m ev ctx sched = i.run (plainHandle m mode ev) ctx sched := by
  constructor
  · rw [Inner.init_eq, UnitMachine.bare_init hn]
  · intro ev
    rw [Inner.handle_eq, UnitMachine.bare_handle hn]

/-- C80. Returning `Some(())` from `superstate`, for any states, instead of `None`, makes no difference to any history
of calls: the results, states, storage, contexts and callbacks of states and transition hooks are the same; all that is
added are callbacks of `()`, which do nothing, and dispatch hooks told about it, which are supposed to do nothing. -/
theorem C80_unit_superstate (hf : f.HooksForStates) (mode : Mode) (sm : StateMachine (unitSig M St Ev Ctx In D))
    (cmds : List (Command (unitSig M St Ev Ctx In D))) :
    ListRel (f.machine.SameWithout fun _ => true) (callAll mode f.machine sm cmds)
      (callAll mode f.bare.machine sm cmds) := by
  refine callAll_of (fun s => ?_) (fun ev s => ?_) sm cmds
  · rw [UnitMachine.init_bare (f := f.bare) (fun _ => rfl)]
    exact UnitMachine.shows_init mode s
  · rw [UnitMachine.handle_bare (f := f.bare) (fun _ => rfl)]
    exact UnitMachine.shows_handle hf mode ev s

/-- C80. Every call on a machine whose superstate type is `()` ends, whatever `superstate` and the hooks do: there is no
recursion that could go on for ever. -/
theorem C80_ends (mode : Mode) (sm : StateMachine (unitSig M St Ev Ctx In D))
    (cmds : List (Command (unitSig M St Ev Ctx In D))) :
    (callAll mode f.machine sm cmds).length = cmds.length := by
  have hi : ∀ (i : Inner (unitSig M St Ev Ctx In D)) ctx sched, ∃ c, i.init mode f.machine ctx sched = some c := by
    intro i ctx sched
    rw [Inner.init_eq]
    have := UnitMachine.ends_init f mode i.state ⟨i.shared, ctx, sched, []⟩
    obtain ⟨⟨o, s, g⟩, e⟩ := Option.isSome_iff_exists.mp this
    simp only [Inner.run, e]
    exact ⟨_, rfl⟩
  have hh : ∀ (i : Inner (unitSig M St Ev Ctx In D)) ev ctx sched,
      ∃ c, i.handle mode f.machine ev ctx sched = some c := by
    intro i ev ctx sched
    rw [Inner.handle_eq]
    have := UnitMachine.ends_handleEvent f mode ev i.state ⟨i.shared, ctx, sched, []⟩
    obtain ⟨⟨o, s, g⟩, e⟩ := Option.isSome_iff_exists.mp this
    simp only [Inner.run, e]
    exact ⟨_, rfl⟩
  have he : ∀ (sm : StateMachine (unitSig M St Ev Ctx In D)) cmd, ∃ c, Command.exec mode f.machine sm cmd = some c := by
    intro sm cmd
    cases cmd with
    | init ctx sched =>
      simp only [Command.exec, StateMachine.initWithContext]
      split
      · obtain ⟨c, e⟩ := hi sm.inner ctx sched
        simp only [e, Option.bind_eq_bind, Option.bind_some]
        split <;> exact ⟨_, rfl⟩
      · exact ⟨_, rfl⟩
    | handle ev ctx sched =>
      simp only [Command.exec, StateMachine.handleWithContext]
      split
      · obtain ⟨c, e⟩ := hi sm.inner ctx sched
        simp only [e, Option.bind_eq_bind, Option.bind_some]
        split
        · obtain ⟨d, e'⟩ := hh c.self ev c.ctx c.sched
          rw [e']
          exact ⟨_, rfl⟩
        · exact ⟨_, rfl⟩
      · obtain ⟨d, e'⟩ := hh sm.inner ev ctx sched
        rw [e']
        exact ⟨_, rfl⟩
  induction cmds generalizing sm with
  | nil => rfl
  | cons cmd cmds ih =>
    unfold callAll
    obtain ⟨c, e⟩ := he sm cmd
    simp only [e, List.length_cons, ih]

/-! ## The hypotheses are met -/

namespace Sample

inductive Lamp where
  | off | on | blinking
deriving DecidableEq

/-- Its types. -/
abbrev lampSig : Sig := unitSig Nat (Lamp × Nat) Nat Unit Unit Lamp

/-- A lamp, whose states have a brightness and whose storage counts the actions.  `superstate` returns `Some(())` for
bright states.  Event 0 switches, 1 turns the brightness up, 2 is deferred, 3 restarts the state, 4 panics. -/
def lamp : UnitMachine Nat (Lamp × Nat) Nat Unit Unit Lamp where
  initial := (.off, 0)
  discr s := s.1
  handler s n ev c := match ev with
    | 0 => .done (s, n, c) (.transition (if s.1 = .off then .on else if s.1 = .on then .blinking else .off, 7))
    | 1 => .pending (s, n, c) fun _ => .done ((s.1, s.2 + 1), n, c) .handled
    | 2 => .done (s, n, c) .super
    | 3 => .done (s, n, c) (.transition (s.1, 0))
    | _ => .panic (s, n, c)
  entry s n c := .done (s, n + 1, c) ()
  exit s n c := .done ((s.1, 0), n + 1, c) ()
  nested s := 5 < s.2
  beforeDispatch n _ _ := .done n ()
  afterDispatch n _ _ := .done n ()
  beforeTransition n _ _ := .done n ()
  afterTransition n _ _ := .done n ()

/-- C80 applies to it: `()` takes part in some transitions, even only in a part of one (the exit action makes the
state dark), and makes no difference. -/
example (mode : Mode) (sm cmds) : ListRel (lamp.machine.SameWithout fun _ => true) (callAll mode lamp.machine sm cmds)
    (callAll mode lamp.bare.machine sm cmds) :=
  C80_unit_superstate lamp ⟨fun _ _ => rfl, fun _ _ => rfl⟩ mode sm cmds

example (mode : Mode) (i : Inner lampSig) (ctx sched) :
    i.init mode lamp.bare.machine ctx sched = i.run (plainInit lamp.bare.machine) ctx sched ∧
      ∀ ev, i.handle mode lamp.bare.machine ev ctx sched =
        i.run (plainHandle lamp.bare.machine mode ev) ctx sched :=
  C80_plain lamp.bare mode (fun _ => rfl) i ctx sched

/-- An event in an ordinary lamp that nothing has happened to. -/
def lampAt (mode : Mode) (s : Lamp) (ev : Nat) : Option (Call lampSig (Inner lampSig)) :=
  Inner.handle mode lamp.bare.machine ⟨(0 : Nat), (s, 3)⟩ ev () []

/-- The result, state, storage and number of observations. -/
def lampResult (c : Call lampSig (Inner lampSig)) :
    Out Unit × (Lamp × Nat) × Nat × Nat := (c.out, c.self.state, c.self.shared, c.trace.length)

/-- Events that switch, restart, and are deferred, in an ordinary lamp. -/
example (mode : Mode) :
    (lampAt mode .off 0).map Sample.lampResult = some (.ok (), (.on, 7), 2, 8) ∧
    (lampAt mode .on 3).map Sample.lampResult = some (.ok (), (.on, 0), 2, 8) ∧
    (lampAt mode .on 2).map Sample.lampResult = some (.ok (), (.on, 3), 0, 4) := by
  unfold lampAt
  refine ⟨?_, ?_, ?_⟩ <;> rw [(C80_plain lamp.bare mode (fun _ => rfl) _ _ _).2] <;> cases mode <;> decide

/-- Its transitions into a bright state enter the unit superstate, unless they leave a bright state. -/
example : transitionPath lamp.machine (.off, 3) (.on, 7) = some (.ok (1, 2)) ∧
    transitionPath lamp.machine (.on, 7) (.blinking, 7) = some (.ok (1, 1)) := by
  constructor
  · simp only [transitionPath, depth, UnitMachine.superstate_unit, UnitMachine.supDepth_unit]
    decide
  · have hc : supCommonAncestorDepth lamp.machine () () = some 1 := by
      rw [supCommonAncestorDepth]
      simp only [UnitMachine.supDepth_unit, Option.bind_eq_bind, Option.bind_some]
      rfl
    simp only [transitionPath, depth, UnitMachine.superstate_unit, UnitMachine.supDepth_unit,
      show lamp.nested (.on, 7) = true from rfl, show lamp.nested (.blinking, 7) = true from rfl,
      show sameState lamp.machine (.on, 7) (.blinking, 7) = false from rfl, if_true, hc]
    decide

end Sample
end Statig
