import Verif.Model.Api
import Verif.Spec.History
/-!
# Machines without superstates and with callbacks that return at once

What the calls on such a machine do, as a function.  Used for the machines of the tests.
-/
namespace Statig.Tests
variable {S : Sig}

/-- The callbacks of a machine without superstates, as functions. -/
structure Flat (S : Sig) where
  handler : S.St → S.M → S.Ev → S.Ctx → (S.St × S.M × S.Ctx) × Response S.St
  entry : S.St → S.M → S.Ctx → S.St × S.M × S.Ctx
  exit : S.St → S.M → S.Ctx → S.St × S.M × S.Ctx
  beforeDispatch : S.M → S.St → S.Ev → S.M
  afterDispatch : S.M → S.St → S.Ev → S.M
  beforeTransition : S.M → S.St → S.St → S.M
  afterTransition : S.M → S.St → S.St → S.M

/-- The machine has no superstates and its callbacks are the functions. -/
structure Flat.Of (F : Flat S) (m : Machine S) : Prop where
  superstate : ∀ s, m.superstate s = none
  handler : ∀ s sh ev c, m.handler s sh ev c = .done (F.handler s sh ev c).1 (F.handler s sh ev c).2
  entry : ∀ s sh c, m.entry s sh c = .done (F.entry s sh c) ()
  exit : ∀ s sh c, m.exit s sh c = .done (F.exit s sh c) ()
  beforeDispatch : ∀ sh s ev, m.beforeDispatch sh (.state s) ev = .done (F.beforeDispatch sh s ev) ()
  afterDispatch : ∀ sh s ev, m.afterDispatch sh (.state s) ev = .done (F.afterDispatch sh s ev) ()
  beforeTransition : ∀ sh s t, m.beforeTransition sh s t = .done (F.beforeTransition sh s t) ()
  afterTransition : ∀ sh s t, m.afterTransition sh s t = .done (F.afterTransition sh s t) ()

/-- The arguments of `before_transition`, in the order in which they are passed. -/
def Flat.before (F : Flat S) (mode : Mode) (sh : S.M) (source target : S.St) : S.M :=
  match mode with
  | .blocking => F.beforeTransition sh target source
  | .awaitable => F.beforeTransition sh source target

/-- A transition. -/
def Flat.transition (F : Flat S) (mode : Mode) (w : S.St × S.M × S.Ctx) (target : S.St) : S.St × S.M × S.Ctx :=
  let w' := F.exit w.1 (F.before mode w.2.1 w.1 target) w.2.2
  let v := F.entry target w'.2.1 w'.2.2
  (v.1, F.afterTransition v.2.1 w'.1 v.1, v.2.2)

/-- Handling an event. -/
def Flat.step (F : Flat S) (mode : Mode) (w : S.St × S.M × S.Ctx) (ev : S.Ev) : S.St × S.M × S.Ctx :=
  let p := F.handler w.1 (F.beforeDispatch w.2.1 w.1 ev) ev w.2.2
  let w' := (p.1.1, F.afterDispatch p.1.2.1 p.1.1 ev, p.1.2.2)
  match p.2 with
  | .transition target => F.transition mode w' target
  | _ => w'

/-- A call. -/
def Flat.exec (F : Flat S) (mode : Mode) (initialized : Bool) (s : S.St) (sh : S.M) : Command S → S.St × S.M × S.Ctx
  | .init c _ => if initialized then (s, sh, c) else F.entry s sh c
  | .handle ev c _ => F.step mode (if initialized then (s, sh, c) else F.entry s sh c) ev

variable {F : Flat S} {m : Machine S}

theorem Flat.Of.depth (h : F.Of m) (s : S.St) : Statig.depth m s = some 1 := by
  unfold Statig.depth; rw [h.superstate]

theorem Flat.Of.path (h : F.Of m) (s t : S.St) : transitionPath m s t = some (.ok (1, 1)) := by
  unfold transitionPath; split
  · rfl
  · simp only [h.depth, h.superstate]; rfl

theorem Flat.Of.init (h : F.Of m) (mode : Mode) (s : S.St) (sh : S.M) (c : S.Ctx) (l : List S.In) :
    ∃ r, (⟨sh, s⟩ : Inner S).init mode m c l = some r ∧ r.out = .ok () ∧ r.sched = l ∧
      (r.self.state, r.self.shared, r.ctx) = F.entry s sh c := by
  cases mode
  all_goals
    simp only [Inner.init, Inner.run, Blocking.init, Awaitable.init, Eff.self, Eff.lift, h.depth, bind, Eff.bind, Option.map,
      Blocking.enter, Awaitable.enter, callEntry, Eff.callback, h.entry, Fut.run]
    exact ⟨_, rfl, rfl, rfl, rfl⟩

theorem Flat.Of.step (h : F.Of m) (mode : Mode) (s : S.St) (sh : S.M) (ev : S.Ev) (c : S.Ctx) (l : List S.In) :
    ∃ r, (⟨sh, s⟩ : Inner S).handle mode m ev c l = some r ∧ r.out = .ok () ∧ r.sched = l ∧
      (r.self.state, r.self.shared, r.ctx) = F.step mode (s, sh, c) ev := by
  cases mode
  all_goals
    simp only [Inner.handle, Inner.run, Blocking.handleEvent, Awaitable.handleEvent, Blocking.handle, Awaitable.handle, bind, Eff.bind,
      hookBeforeDispatch, Eff.hook, h.beforeDispatch, Fut.run, callHandler, Eff.callback, h.handler, Eff.log, pure, Eff.pure,
      hookAfterDispatch, h.afterDispatch, Flat.step]
    generalize F.handler s (F.beforeDispatch sh s ev) ev c = p
    obtain ⟨⟨s', sh', c'⟩, r⟩ := p
    cases r
    · exact ⟨_, rfl, rfl, rfl, rfl⟩
    · simp only [Eff.bind, Eff.borrow, h.superstate, Eff.pure]
      exact ⟨_, rfl, rfl, rfl, rfl⟩
    · simp only [Blocking.transition, Awaitable.transition, bind, Eff.bind, Eff.self, hookBeforeTransition, Eff.hook, h.beforeTransition,
        Fut.run, Eff.lift, h.path, Blocking.exit, Awaitable.exit, ge_iff_le, Nat.le_refl, if_true, callExit, Eff.callback, h.exit, Eff.borrow,
        h.superstate, pure, Eff.pure, Eff.swap, Blocking.enter, Awaitable.enter, callEntry, h.entry, hookAfterTransition, h.afterTransition]
      exact ⟨_, rfl, rfl, rfl, rfl⟩

/-- Every call returns normally and does what the function says. -/
theorem Flat.Of.exec (h : F.Of m) (mode : Mode) (sm : StateMachine S) (cmd : Command S) :
    ∃ r, cmd.exec mode m sm = some r ∧ r.out = .ok () ∧ r.self.initialized = true ∧
      (r.self.inner.state, r.self.inner.shared, r.ctx) = F.exec mode sm.initialized sm.inner.state sm.inner.shared cmd := by
  obtain ⟨⟨sh, s⟩, b⟩ := sm
  cases cmd with
  | init c l =>
    cases b with
    | true => exact ⟨_, rfl, rfl, rfl, rfl⟩
    | false =>
      obtain ⟨r, h1, h2, -, h3⟩ := h.init mode s sh c l
      refine ⟨_, by simp only [Command.exec, StateMachine.initWithContext, h1, h2, if_true, bind, Option.bind]; rfl, rfl, rfl, h3⟩
  | handle ev c l =>
    cases b with
    | true =>
      obtain ⟨r, h1, h2, -, h3⟩ := h.step mode s sh ev c l
      exact ⟨_, by simp only [Command.exec, StateMachine.handleWithContext, h1, bind, Option.bind]; rfl, h2, rfl, h3⟩
    | false =>
      obtain ⟨r, h1, h2, -, h3⟩ := h.init mode s sh c l
      obtain ⟨q, h4, h5, -, h6⟩ := h.step mode r.self.state r.self.shared ev r.ctx r.sched
      refine ⟨_, by simp only [Command.exec, StateMachine.handleWithContext, h1, h2, h4, if_true, bind, Option.bind]; rfl, h5, rfl, ?_⟩
      show (q.self.state, q.self.shared, q.ctx) = F.step mode (F.entry s sh c) ev
      rw [← h3]; exact h6

end Statig.Tests
