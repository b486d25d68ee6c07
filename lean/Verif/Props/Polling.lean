import Verif.Proofs.Polling
import Verif.Props.Init
import Verif.Props.Transition
/-!
# Properties of polling: C59, C60
-/
namespace Statig
variable {S : Sig} {mode : Mode} {m : Machine S} {F : Forest S.D S.E}

/-! ## C59 -/

/-- C59.  Every call can be polled on: one that has ended is not affected by further inputs and does not use
them; one that is suspended has used all inputs, and no callback it has made is forgotten, repeated or replaced
when it is polled on.  This needs no assumption about the machine. -/
theorem C59_incremental :
    (∀ (sm : StateMachine S) ev ctx, Incremental (fun l => sm.handleWithContext mode m ev ctx l)) ∧
    (∀ (sm : StateMachine S) ctx, Incremental (fun l => sm.initWithContext mode m ctx l)) ∧
    (∀ (sm : InitializedStateMachine S) ev ctx, Incremental (fun l => sm.handleWithContext mode m ev ctx l)) ∧
    (∀ (sm : UninitializedStateMachine S) ctx, Incremental (fun l => sm.initWithContext mode m ctx l)) :=
  ⟨sm_handle_incr, sm_init_incr, initialized_handle_incr, uninit_init_incr⟩

/-- C59 applies: a call that is suspended after no poll, ends after one, and leaves a second input alone. -/
example :
    (∃ c, Sample.call .awaitable true (Sample.at_ .s211) .wait [] = some c ∧ c.out = .stopped ∧
      c.trace.length = 2) ∧
    (∃ c, Sample.call .awaitable true (Sample.at_ .s211) .wait [()] = some c ∧ c.out = .ok () ∧ c.sched = [] ∧
      c.trace.length = 4) ∧
    (∃ c, Sample.call .awaitable true (Sample.at_ .s211) .wait [(), ()] = some c ∧ c.out = .ok () ∧
      c.sched = [()] ∧ c.trace.length = 4) := by
  refine ⟨?_, ?_, ?_⟩ <;> sample_case

/-! ## C60 -/

/-- C60.  On a machine that follows an acyclic hierarchy every call ends if it is polled often enough, whatever
the outside world answers; without panicking callbacks it returns. -/
theorem C60_ends_when_polled (hF : Follows m F) :
    (∀ (sm : StateMachine S) ev ctx, EndsWhenPolled (fun l => sm.handleWithContext mode m ev ctx l)) ∧
    (∀ (sm : StateMachine S) ctx, EndsWhenPolled (fun l => sm.initWithContext mode m ctx l)) ∧
    (∀ (sm : InitializedStateMachine S) ev ctx,
      EndsWhenPolled (fun l => sm.handleWithContext mode m ev ctx l)) ∧
    (∀ (sm : UninitializedStateMachine S) ctx, EndsWhenPolled (fun l => sm.initWithContext mode m ctx l)) :=
  ⟨sm_handle_live hF, sm_init_live hF, initialized_handle_live hF, uninit_init_live hF⟩

/-- No call panics if no callback does. -/
theorem no_panic_out (hF : Follows m F) (hp : m.NoPanic) :
    (∀ (sm : StateMachine S) ev ctx l c, sm.handleWithContext mode m ev ctx l = some c → c.out ≠ .panic) ∧
    (∀ (sm : StateMachine S) ctx l c, sm.initWithContext mode m ctx l = some c → c.out ≠ .panic) := by
  have hi : ∀ (i : Inner S) ctx l c, i.init mode m ctx l = some c → c.out ≠ .panic := by
    intro i ctx l c h
    obtain ⟨c', h0, -, -, -, h1, -⟩ := init_call hF mode i ctx l
    rw [h0] at h; cases h
    exact h1 hp
  refine ⟨fun sm ev ctx l c h => ?_, fun sm ctx l c h => ?_⟩
  · cases hs : sm.initialized with
    | true =>
      obtain ⟨d, h1, rfl⟩ := (sm_handle_initialized hs ev ctx l).1 h
      exact (C15_no_own_panic hF).1 hp _ _ _ _ _ _ h1
    | false =>
      obtain ⟨c0, h1, h2⟩ := (sm_handle_uninitialized hs ev ctx l).1 h
      rcases h2 with ⟨-, rfl⟩ | ⟨-, d, h3, rfl⟩
      · exact hi _ _ _ _ h1
      · exact (C15_no_own_panic hF).1 hp _ _ _ _ _ _ h3
  · cases hs : sm.initialized with
    | true => rw [sm_init_initialized hs] at h; cases h; simp
    | false =>
      obtain ⟨c0, h1, rfl⟩ := (sm_init_uninitialized hs ctx l).1 h
      exact hi _ _ _ _ h1

/-- C60, without panicking callbacks: there is a number of polls after which the call has returned, and more
polls give the same result. -/
theorem C60_returns_when_polled (hF : Follows m F) (hp : m.NoPanic) (sm : StateMachine S) (ev : S.Ev)
    (ctx : S.Ctx) (f : Nat → S.In) :
    ∃ n self' ctx' trace', ∀ k, sm.handleWithContext mode m ev ctx (firstInputs f (n + k)) =
      some { out := .ok (), self := self', ctx := ctx', sched := firstInputs (fun i => f (n + i)) k,
             trace := trace' } := by
  obtain ⟨n, c, h1, h2, h3⟩ := (C60_ends_when_polled (mode := mode) hF).1 sm ev ctx f
  have h4 := (no_panic_out hF hp).1 sm ev ctx _ c h1
  have h5 : c.out = .ok () := by
    cases ho : c.out with
    | ok => rfl
    | panic => exact absurd ho h4
    | stopped => exact absurd ho h2
  refine ⟨n, c.self, c.ctx, c.trace, fun k => ?_⟩
  have := (C59_incremental.1 sm ev ctx _ (firstInputs (fun i => f (n + i)) k) c h1).1 h2
  rw [firstInputs_add]
  simp only at this
  rw [this, h3, h5]; rfl

namespace Sample

/-- The sample machine with a leaf handler that always suspends once. -/
def slow : Machine sig :=
  { machine false with handler := fun s sh _ c => .pending (s, sh, c) fun _ => .done (s, sh, c) .handled }

theorem slow_follows : Follows slow forest :=
  { leaf := (follows false).leaf, sup := (follows false).sup, leaf_back := (follows false).leaf_back
    sup_back := (follows false).sup_back, entry := (follows false).entry, exit := (follows false).exit
    supHandler := (follows false).supHandler, supEntry := (follows false).supEntry
    supExit := (follows false).supExit
    handler := fun _ _ _ _ => .pending rfl fun _ => .done rfl }

theorem slow_noPanic : slow.NoPanic :=
  { entry := noPanic.entry, exit := noPanic.exit, supHandler := noPanic.supHandler
    supEntry := noPanic.supEntry, supExit := noPanic.supExit, beforeDispatch := noPanic.beforeDispatch
    afterDispatch := noPanic.afterDispatch, beforeTransition := noPanic.beforeTransition
    afterTransition := noPanic.afterTransition
    handler := fun _ _ _ _ _ => trivial }

end Sample

/-- C60 applies: a machine that follows an acyclic hierarchy, has no panicking callback, and has calls that have
to be polled. -/
example : Follows Sample.slow Sample.forest ∧ Sample.slow.NoPanic ∧
    (∃ c, Sample.call .awaitable true (Sample.at_ .s211) .wait [] = some c ∧ c.out = .stopped) ∧
    ∃ c, InitializedStateMachine.handleWithContext .awaitable Sample.slow (Sample.at_ .s211) .a 0 [] = some c ∧
      c.out = .stopped :=
  ⟨Sample.slow_follows, Sample.slow_noPanic, by sample_case, _, rfl, rfl⟩

end Statig
