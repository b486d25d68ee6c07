import Verif.Proofs.Modes
import Verif.Props.Values
/-!
# Blocking and awaitable machines behave alike: C29
-/
namespace Statig
variable {S : Sig} {m : Machine S} {F : Forest S.D S.E}

/-- The two calls ended alike, left the same machine (state, shared storage, initialized or not), context and
unused poll inputs, and ran the same handlers and actions in the same order on the same data, with the same
responses. -/
structure SameCall (c d : Call S (StateMachine S)) : Prop where
  out : c.out = d.out
  self : c.self = d.self
  ctx : c.ctx = d.ctx
  sched : c.sched = d.sched
  callbacks : callbacksOf c.trace = callbacksOf d.trace

theorem inner_handle_same (hF : Follows m F) (hL : Lawful m) (hH : m.NoHooks) (i : Inner S) (ev : S.Ev)
    (ctx : S.Ctx) (sched : List S.In) :
    OptRel (fun c d => c.out = d.out ∧ c.self = d.self ∧ c.ctx = d.ctx ∧ c.sched = d.sched ∧
      callbacksOf c.trace = callbacksOf d.trace)
      (i.handle .blocking m ev ctx sched) (i.handle .awaitable m ev ctx sched) := by
  simp only [Inner.handle, Inner.run]
  have := handleEvent_same hF hH hL ev i.state (Like.refl ⟨i.shared, ctx, sched, []⟩)
  generalize Blocking.handleEvent m ev i.state _ = x at this
  generalize Awaitable.handleEvent m ev i.state _ = y at this
  cases this with
  | none => exact .none
  | @some p q h =>
    obtain ⟨o, s, g⟩ := p
    obtain ⟨o', s', g'⟩ := q
    obtain ⟨h1, h2, h3, h4, h5, h6⟩ := h
    simp only at h1 h2 h3 h4 h5 h6
    exact .some ⟨h1, by simp [h2, h3], h4, h5, h6⟩

theorem exec_same (hF : Follows m F) (hL : Lawful m) (hH : m.NoHooks) (sm : StateMachine S) (cmd : Command S) :
    OptRel SameCall (cmd.exec .blocking m sm) (cmd.exec .awaitable m sm) := by
  have hi : ∀ (i : Inner S) ctx sched, i.init .awaitable m ctx sched = i.init .blocking m ctx sched := by
    intro i ctx sched
    simp only [Inner.init, init_eq hF hL]
  have hh : ∀ (i : Inner S) (b : Bool) ev ctx sched (T : List (Obs S)), OptRel SameCall
      (do
        let d ← i.handle .blocking m ev ctx sched
        some { d with self := (⟨d.self, b⟩ : StateMachine S), trace := T ++ d.trace })
      (do
        let d ← i.handle .awaitable m ev ctx sched
        some { d with self := (⟨d.self, b⟩ : StateMachine S), trace := T ++ d.trace }) := by
    intro i b ev ctx sched T
    have := inner_handle_same hF hL hH i ev ctx sched
    generalize i.handle .blocking m ev ctx sched = x at this
    generalize i.handle .awaitable m ev ctx sched = y at this
    cases this with
    | none => exact .none
    | some h =>
      obtain ⟨h1, h2, h3, h4, h5⟩ := h
      refine .some ⟨h1, ?_, h3, h4, ?_⟩
      · simp only [h2]
      · simp only [callbacksOf, List.filter_append] at h5 ⊢; rw [h5]
  cases cmd with
  | init ctx sched =>
    simp only [Command.exec, StateMachine.initWithContext, hi]
    cases (if sm.initialized = false then _ else _ : Option (Call S (StateMachine S))) with
    | none => exact .none
    | some c => exact .some ⟨rfl, rfl, rfl, rfl, rfl⟩
  | handle ev ctx sched =>
    simp only [Command.exec, StateMachine.handleWithContext, hi]
    by_cases h0 : sm.initialized = false
    · simp only [if_pos h0]
      cases sm.inner.init .blocking m ctx sched with
      | none => exact .none
      | some c =>
        simp only [Option.bind_eq_bind, Option.bind_some]
        cases ho : c.out with
        | ok u => exact hh c.self true ev c.ctx c.sched c.trace
        | panic => exact .some ⟨rfl, rfl, rfl, rfl, rfl⟩
        | stopped => exact .some ⟨rfl, rfl, rfl, rfl, rfl⟩
    · simp only [if_neg h0]
      exact hh sm.inner sm.initialized ev ctx sched []

/-- C29. On a machine whose hooks do nothing, every sequence of `init` and `handle` calls has the same results
in the two modes, call by call. -/
theorem C29_modes_alike (hF : Follows m F) (hL : Lawful m) (hH : m.NoHooks) (sm : StateMachine S)
    (cmds : List (Command S)) :
    ListRel SameCall (callAll .blocking m sm cmds) (callAll .awaitable m sm cmds) := by
  induction cmds generalizing sm with
  | nil => exact .nil
  | cons cmd cmds ih =>
    unfold callAll
    have := exec_same hF hL hH sm cmd
    generalize cmd.exec .blocking m sm = x at this
    generalize cmd.exec .awaitable m sm = y at this
    cases this with
    | none => exact .nil
    | @some c d h => simp only [← h.self]; exact .cons h (ih c.self)

/-- C29, initialization: it calls no hooks, so it is the same for every machine that follows a hierarchy. -/
theorem C29_init_alike (hF : Follows m F) (hL : Lawful m) (sm : StateMachine S) (ctx : S.Ctx) (sched : List S.In) :
    sm.initWithContext .awaitable m ctx sched = sm.initWithContext .blocking m ctx sched := by
  simp only [StateMachine.initWithContext, Inner.init, init_eq hF hL]


/-- C29 applies to the sample machine, also when callbacks panic and suspend. -/
theorem Sample.noHooks (fragile : Bool) : (Sample.machine fragile).NoHooks where
  beforeDispatch _ _ _ := rfl
  afterDispatch _ _ _ := rfl
  beforeTransition _ _ _ := rfl
  afterTransition _ _ _ := rfl

example : Follows (Sample.machine true) Sample.forest ∧ Lawful (Sample.machine true) ∧
    (Sample.machine true).NoHooks ∧
    ∃ c, Sample.call .awaitable true (Sample.at_ .s12 9) .c = some c ∧ c.out = .ok () ∧
      (callbacksOf c.trace).length = 7 :=
  ⟨Sample.follows _, Sample.lawful _, Sample.noHooks _, by sample_case⟩

end Statig
