import Verif.Proofs.Contract
import Verif.Props.Sample
/-!
# Superstates without behaviour can be removed: C72
-/
namespace Statig
variable {S : Sig} {m n : Machine S} {F : Forest S.D S.E} {hidden : S.E → Bool}

theorem run_on {x y : Eff S S.St Unit} (i : Inner S) (ctx : S.Ctx) (sched : List S.In)
    (h : Hides m hidden (fun _ => True) Eq i.state x y) :
    OptRel (fun c d => d.out = c.out ∧ d.self = c.self ∧ d.ctx = c.ctx ∧ d.sched = c.sched ∧
      d.trace = c.trace.filter (m.showsObs hidden)) (i.run x ctx sched) (i.run y ctx sched) := by
  simp only [Inner.run]
  have := h ⟨i.shared, ctx, sched, []⟩ ⟨i.shared, ctx, sched, []⟩ ⟨rfl, rfl, rfl, rfl⟩
  generalize x i.state _ = a at this
  generalize y i.state _ = b at this
  cases this with
  | none => exact .none
  | @some p q h =>
    obtain ⟨o, s, g⟩ := p
    obtain ⟨o', s', g'⟩ := q
    obtain ⟨h1, h2, -, h3, h4, h5, h6⟩ := h
    simp only at h1 h2 h3 h4 h5 h6
    refine .some ⟨?_, by simp [h2, h3], h4.symm, h5.symm, h6.symm⟩
    cases h1 with
    | ok h => rfl
    | panic => rfl
    | stopped => rfl

theorem exec_of {mode : Mode} (h1 : ∀ s, Hides m hidden (fun _ => True) Eq s (mode.init m) (mode.init n))
    (h2 : ∀ ev s, Hides m hidden (fun _ => True) Eq s (mode.handleEvent m ev) (mode.handleEvent n ev))
    (sm : StateMachine S) (cmd : Command S) :
    OptRel (m.SameWithout hidden) (cmd.exec mode m sm) (cmd.exec mode n sm) := by
  have hi : ∀ (i : Inner S) ctx sched, OptRel (fun c d => d.out = c.out ∧ d.self = c.self ∧ d.ctx = c.ctx ∧
      d.sched = c.sched ∧ d.trace = c.trace.filter (m.showsObs hidden)) (i.init mode m ctx sched)
      (i.init mode n ctx sched) := by
    intro i ctx sched
    rw [Inner.init_eq, Inner.init_eq]
    exact run_on i ctx sched (h1 i.state)
  have hh : ∀ (i : Inner S) (b : Bool) ev ctx sched (T : List (Obs S)), OptRel (m.SameWithout hidden)
      (do
        let d ← i.handle mode m ev ctx sched
        some { d with self := (⟨d.self, b⟩ : StateMachine S), trace := T ++ d.trace })
      (do
        let d ← i.handle mode n ev ctx sched
        some { d with self := (⟨d.self, b⟩ : StateMachine S), trace := T.filter (m.showsObs hidden) ++ d.trace }) := by
    intro i b ev ctx sched T
    rw [Inner.handle_eq, Inner.handle_eq]
    have := run_on i ctx sched (h2 ev i.state)
    generalize i.run (mode.handleEvent m ev) ctx sched = x at this
    generalize i.run (mode.handleEvent n ev) ctx sched = y at this
    cases this with
    | none => exact .none
    | some h =>
      obtain ⟨h1, h2, h3, h4, h5⟩ := h
      refine .some ⟨h1, ?_, h3, h4, ?_⟩
      · simp only [h2]
      · simp only [List.filter_append, h5]
  cases cmd with
  | init ctx sched =>
    simp only [Command.exec, StateMachine.initWithContext]
    by_cases h0 : sm.initialized = false
    · simp only [if_pos h0]
      have := hi sm.inner ctx sched
      generalize sm.inner.init mode m ctx sched = x at this
      generalize sm.inner.init mode n ctx sched = y at this
      cases this with
      | none => exact .none
      | @some c d h =>
        obtain ⟨h1, h2, h3, h4, h5⟩ := h
        simp only [Option.bind_eq_bind, Option.bind_some, h1]
        cases ho : c.out with
        | ok u => exact .some ⟨by simp [h1, ho], by simp [h2], h3, h4, h5⟩
        | panic => exact .some ⟨by simp [h1, ho], by simp [h2], h3, h4, h5⟩
        | stopped => exact .some ⟨by simp [h1, ho], by simp [h2], h3, h4, h5⟩
    · simp only [if_neg h0]
      exact .some ⟨rfl, rfl, rfl, rfl, rfl⟩
  | handle ev ctx sched =>
    simp only [Command.exec, StateMachine.handleWithContext]
    by_cases h0 : sm.initialized = false
    · simp only [if_pos h0]
      have := hi sm.inner ctx sched
      generalize sm.inner.init mode m ctx sched = x at this
      generalize sm.inner.init mode n ctx sched = y at this
      cases this with
      | none => exact .none
      | @some c d h =>
        obtain ⟨h1, h2, h3, h4, h5⟩ := h
        simp only [Option.bind_eq_bind, Option.bind_some, h1]
        cases ho : c.out with
        | ok u =>
          simp only [h2, h3, h4, h5]
          exact hh c.self true ev c.ctx c.sched c.trace
        | panic => exact .some ⟨by simp [h1, ho], by simp [h2], h3, h4, h5⟩
        | stopped => exact .some ⟨by simp [h1, ho], by simp [h2], h3, h4, h5⟩
    · simp only [if_neg h0]
      exact hh sm.inner sm.initialized ev ctx sched []

theorem callAll_of {mode : Mode} (h1 : ∀ s, Hides m hidden (fun _ => True) Eq s (mode.init m) (mode.init n))
    (h2 : ∀ ev s, Hides m hidden (fun _ => True) Eq s (mode.handleEvent m ev) (mode.handleEvent n ev))
    (sm : StateMachine S) (cmds : List (Command S)) :
    ListRel (m.SameWithout hidden) (callAll mode m sm cmds) (callAll mode n sm cmds) := by
  induction cmds generalizing sm with
  | nil => exact .nil
  | cons cmd cmds ih =>
    unfold callAll
    have := exec_of h1 h2 sm cmd
    generalize cmd.exec mode m sm = x at this
    generalize cmd.exec mode n sm = y at this
    cases this with
    | none => exact .nil
    | @some c d h => simp only [h.self]; exact .cons h (ih c.self)

/-- C72. If some superstates of a machine do nothing and leave every event to their own superstate, then the machine
without them behaves the same: every sequence of calls, from every machine value, in both modes, has the same results
call by call, and the same callbacks except those of the superstates that are left out.  Panicking and dropped calls
are included. -/
theorem C72_removed (hF : Follows m F) (hS : m.Silent hidden) (hW : m.Without hidden n) (mode : Mode)
    (sm : StateMachine S) (cmds : List (Command S)) :
    ListRel (m.SameWithout hidden) (callAll mode m sm cmds) (callAll mode n sm cmds) :=
  callAll_of (mode_init_on hF hS hW mode) (mode_handleEvent_on hF hS hW mode) sm cmds

/-- C72. There is such a machine, whatever superstates are left out, and its hierarchy is the old one without them: the
ancestors of each state are its old ones that are not left out. -/
theorem C72_exists (hF : Follows m F) (hidden : S.E → Bool) :
    ∃ n, m.Without hidden n ∧ ∃ G, Follows n G ∧
      ∀ d, G.leafAnc d = (F.leafAnc d).filter fun e => !hidden e := by
  have h1 : ∀ s, ∃ q', m.Skips hidden (m.superstate s) q' := fun s => skips_exists hF hidden _ _ (Nat.le_refl _)
  have h2 : ∀ v, ∃ q', m.Skips hidden (m.supSuperstate v) q' :=
    fun v => skips_exists hF hidden _ _ (Nat.le_refl _)
  let f := fun s => Classical.choose (h1 s)
  let f' := fun v => Classical.choose (h2 v)
  have hf : ∀ s, m.Skips hidden (m.superstate s) (f s) := fun s => Classical.choose_spec (h1 s)
  have hf' : ∀ v, m.Skips hidden (m.supSuperstate v) (f' v) := fun v => Classical.choose_spec (h2 v)
  let n : Machine S := { m with
    superstate := f
    supSuperstate := f'
    superstate_back := fun s v back h => ((hf s).viewOf hF (viewOf_leaf hF s) v back h).1
    supSuperstate_back := fun u v back h => ((hf' u).viewOf hF (viewOf_sup hF u) v back h).1 }
  have hW : m.Without hidden n := ⟨rfl, rfl, rfl, rfl, rfl, rfl, rfl, rfl, rfl, rfl, rfl, rfl, rfl, hf, hf'⟩
  exact ⟨n, hW, F.hide hidden, hW.follows hF, F.hide_leafAnc hidden⟩

/-! ## The hypotheses are met -/

namespace Sample

/-- Superstates of the sample that are left out. -/
def grouping (e : E) : Bool := e == .s1 || e == .s21

/-- An action that does nothing for these superstates. -/
def groupAction (x : E → Act D E) (v : E × Nat) (sh : M) (c : Nat) : Fut Unit ((E × Nat) × M × Nat) Unit :=
  if grouping v.1 then .done (v, sh, c) () else action true (x v.1) v sh c

theorem groupAction_all (x : E → Act D E) (v : E × Nat) (sh : M) (c : Nat) :
    (groupAction x v sh c).All (fun w => w.1.1 = v.1) := by
  unfold groupAction
  split
  · exact .done rfl
  · exact action_all (fun w : E × Nat => w.1) _ _ _ _ _

/-- The sample, with superstates `s1` and `s21` that only group states. -/
def grouped : Machine sig := { machine true with
  supEntry := groupAction fun e => .enter (.sup e)
  supExit := groupAction fun e => .leave (.sup e) }

theorem grouped_follows : Follows grouped forest where
  leaf := (follows true).leaf
  sup := (follows true).sup
  leaf_back := (follows true).leaf_back
  sup_back := (follows true).sup_back
  handler := (follows true).handler
  entry := (follows true).entry
  exit := (follows true).exit
  supHandler := (follows true).supHandler
  supEntry v sh c := groupAction_all (fun e => .enter (.sup e)) v sh c
  supExit v sh c := groupAction_all (fun e => .leave (.sup e)) v sh c

theorem grouped_silent : grouped.Silent grouping where
  handler := by
    rintro ⟨e, k⟩ sh ev c h
    cases e with
    | s => cases h
    | s2 => cases h
    | s1 => cases ev <;> rfl
    | s21 => cases ev <;> rfl
  entry v sh c h := if_pos h
  exit v sh c h := if_pos h
  beforeDispatch _ _ _ _ := rfl
  afterDispatch _ _ _ _ := rfl

/-- The same machine without them. -/
def ungrouped : Machine sig := { grouped with
  superstate := fun s => some ((if s.1 = .s211 then .s2 else .s, s.2), fun v => (s.1, v.2))
  supSuperstate := fun v => match v.1 with
    | .s => none
    | .s21 => some ((.s2, v.2), fun w => (v.1, w.2))
    | _ => some ((.s, v.2), fun w => (v.1, w.2))
  superstate_back := by
    intro s v back h
    simp only [Option.some.injEq, Prod.mk.injEq] at h
    obtain ⟨rfl, rfl⟩ := h
    rfl
  supSuperstate_back := by
    rintro ⟨e, k⟩ w back h
    cases e <;> simp only [reduceCtorEq, Option.some.injEq, Prod.mk.injEq] at h <;> obtain ⟨rfl, rfl⟩ := h <;> rfl }

theorem grouped_without : grouped.Without grouping ungrouped where
  initial := rfl
  discr := rfl
  supDiscr := rfl
  handler := rfl
  entry := rfl
  exit := rfl
  supHandler := rfl
  supEntry := rfl
  supExit := rfl
  beforeDispatch := rfl
  afterDispatch := rfl
  beforeTransition := rfl
  afterTransition := rfl
  superstate := by
    rintro ⟨d, k⟩
    cases d
    · exact .skip rfl (.keep rfl)
    · exact .skip rfl (.keep rfl)
    · exact .skip rfl (.keep rfl)
  supSuperstate := by
    rintro ⟨e, k⟩
    cases e
    · exact .none
    · exact .keep rfl
    · exact .keep rfl
    · exact .keep rfl

theorem grouped_path : transitionPath grouped = closedPath := by
  funext s t
  unfold closedPath
  split
  · next h => exact transitionPath_of_eq s t h
  · next h => exact transitionPath_of_ne grouped_follows s t h

theorem grouped_depth : depth grouped = fun s => some ((forest.leafAnc s.1).length + 1) := by
  funext s; exact depth_eq grouped_follows s

/-- Is the observation about one of the superstates that are left out? -/
def ofGroup (o : Obs sig) : Bool := !grouped.showsObs grouping o

/-- C72 applies to it: a transition out of `s1` and into `s21` makes callbacks of both, which are missing, and nothing
else is, in the machine without them. -/
example (mode : Mode) (cmds : List (Command sig)) (sm : StateMachine sig) :
    ListRel (grouped.SameWithout grouping) (callAll mode grouped sm cmds) (callAll mode ungrouped sm cmds) :=
  C72_removed grouped_follows grouped_silent grouped_without mode sm cmds

example : ∃ c, InitializedStateMachine.handleWithContext .blocking grouped (at_ .s12 9) .c 0 [] = some c ∧
    c.out = .ok () ∧ c.self.inner.state = (.s211, 0) ∧ (c.trace.filter ofGroup).length = 2 ∧ c.trace.length = 11 := by
  apply witness
  simp only [InitializedStateMachine.handleWithContext, Inner.handle, Blocking.handleEvent, Blocking.handle,
    Blocking.transition, grouped_path, grouped_depth]
  rw [Blocking.supHandle, Blocking.supHandle, Blocking.supHandle, Blocking.supHandle]
  decide +kernel

end Sample
end Statig
