import Verif.Model.Tests.ExternalContext
import Verif.Proofs.Examples.Common
import Verif.Proofs.Tests.Flat
import Verif.Props.MacroSample
import Verif.Props.MacroOrder
import Verif.Spec.Tests.ExternalContext
/-!
# The machine of the test of external contexts: C84
-/
namespace Statig.Tests.ExternalContext
open Statig.Macro Statig.Examples

theorem gen_eq : expand Sample.syn Sample.forwards source = .ok gen := by decide +kernel
theorem compiles : gen.Compiles := by decide +kernel

/-- The machine as functions. -/
def flat (max : Nat) : Flat (gen.iface.sig types) where
  handler s sh ev c :=
    match ev with
    | .buttonPressed =>
      ((s, sh, if s.variant = "Up" then ⟨saturatingSucc max c.a, c.b⟩ else ⟨c.a - 1, c.b⟩), .handled)
    | .timerElapsed => ((s, sh, c), .transition (if s.variant = "Up" then down else up))
  entry s sh c := (s, sh, c)
  exit s sh c := (s, sh, c)
  beforeDispatch sh _ _ := sh
  afterDispatch sh _ _ := sh
  beforeTransition sh _ _ := sh
  afterTransition sh _ _ := sh

theorem variant_cases (s : State) : s.variant = "Up" ∨ s.variant = "Down" := by
  obtain ⟨ns, h, -⟩ := s.ok
  by_contra hn
  rw [not_or] at hn
  simp [Gen.iface, fieldsOf, gen, Ne.symm hn.1, Ne.symm hn.2] at h

theorem flat_of (max : Nat) : (flat max).Of (machine max) where
  superstate s := by
    rcases variant_cases s with h | h <;> (simp only [machine, Iface.machine, h]; eval_gen [gen])
  handler s sh ev c := by
    rcases variant_cases s with h | h <;> cases ev <;>
      (simp only [machine, Iface.machine, h]; eval_gen [gen, env, userHandler, source, inputs, flat, h]; rfl)
  entry s sh c := by
    rcases variant_cases s with h | h <;> (simp only [machine, Iface.machine, h]; eval_gen [gen, flat])
  exit s sh c := by
    rcases variant_cases s with h | h <;> (simp only [machine, Iface.machine, h]; eval_gen [gen, flat])
  beforeDispatch sh s ev := rfl
  afterDispatch sh s ev := rfl
  beforeTransition sh s t := rfl
  afterTransition sh s t := rfl

theorem saturatingSucc_eq (max n : Nat) : saturatingSucc max n = min (n + 1) max := by
  unfold saturatingSucc; split <;> omega

theorem stateName_eq (past : List Event) : stateName past = "Up" ↔ goesUp past = true := by
  unfold stateName; split <;> simp_all

theorem goesUp_press (past : List Event) : goesUp (past ++ [.buttonPressed]) = goesUp past := by
  simp [goesUp, List.count_append]

theorem goesUp_timer (past : List Event) : goesUp (past ++ [.timerElapsed]) = !goesUp past := by
  simp only [goesUp, List.count_append, List.count_singleton_self]
  rcases Nat.mod_two_eq_zero_or_one (past.count .timerElapsed) with h | h
  · rw [h, show (past.count .timerElapsed + 1) % 2 = 1 by omega]; rfl
  · rw [h, show (past.count .timerElapsed + 1) % 2 = 0 by omega]; rfl

theorem step_eq (max : Nat) (mode : Mode) (past : List Event) (s : State) (hs : s.variant = stateName past) (c : Context)
    (ev : Event) :
    ((flat max).step mode (s, (), c) ev).1.variant = stateName (past ++ [ev]) ∧
      ((flat max).step mode (s, (), c) ev).2.2 = counted max past ev c := by
  cases ev with
  | buttonPressed =>
    refine ⟨?_, ?_⟩
    · simp only [Flat.step, flat, hs]; unfold stateName; rw [goesUp_press]
    · simp only [Flat.step, flat, hs, stateName_eq, counted, saturatingSucc_eq]
  | timerElapsed =>
    refine ⟨?_, rfl⟩
    simp only [Flat.step, flat, Flat.transition, hs, stateName_eq]
    unfold stateName
    rw [goesUp_timer]
    cases goesUp past <;> rfl

theorem calls_eq (max : Nat) (mode : Mode) (past : List Event) (sm : StateMachine (gen.iface.sig types))
    (hs : sm.inner.state.variant = stateName past) (cmds : List (Command (gen.iface.sig types))) :
    (callAll mode (machine max) sm cmds).map (fun c => (c.out, c.self.inner.state.variant, c.ctx)) =
      expected max past cmds := by
  induction cmds generalizing sm past with
  | nil => rfl
  | cons cmd cmds ih =>
    obtain ⟨r, h1, h2, -, h3⟩ := (flat_of max).exec mode sm cmd
    cases cmd with
    | init c l =>
      have e : (r.self.inner.state, r.self.inner.shared, r.ctx) = (sm.inner.state, sm.inner.shared, c) := by
        rw [h3]; simp only [Flat.exec, flat, ite_self]
      simp only [Prod.mk.injEq] at e
      have hv : r.self.inner.state.variant = stateName past := by rw [e.1]; exact hs
      simp only [callAll, h1, List.map_cons, ih past r.self hv, expected, h2, hv, e.2.2]
    | handle ev c l =>
      have e : (r.self.inner.state, r.self.inner.shared, r.ctx) =
          (flat max).step mode (sm.inner.state, (), c) ev := by
        rw [h3]; simp only [Flat.exec, flat, ite_self]
      obtain ⟨h4, h5⟩ := step_eq max mode past sm.inner.state hs c ev
      rw [← e] at h4 h5
      simp only at h4 h5
      simp only [callAll, h1, List.map_cons, ih (past ++ [ev]) r.self h4, expected, h2, h4, h5]

theorem handleAll_eq (max : Nat) (past : List Event) (sm : InitializedStateMachine (gen.iface.sig types))
    (hs : sm.inner.state.variant = stateName past) (c : Context) (events : List Event) :
    ∃ r, handleAll max sm c events = some r ∧ r.1.inner.state.variant = stateName (past ++ events) ∧
      r.2 = total max past c events := by
  induction events generalizing sm past c with
  | nil => exact ⟨_, rfl, by simpa using hs, rfl⟩
  | cons ev events ih =>
    obtain ⟨⟨⟩, s⟩ := sm
    obtain ⟨r, h1, h2, -, h3⟩ := (flat_of max).step gen.mode s () ev c []
    obtain ⟨h4, h5⟩ := step_eq max gen.mode past s hs c ev
    rw [← h3] at h4 h5
    obtain ⟨q, h6, h7, h8⟩ := ih (past ++ [ev]) ⟨r.self⟩ h4 r.ctx
    refine ⟨q, ?_, by simpa using h7, ?_⟩
    · simp only [handleAll, InitializedStateMachine.handleWithContext, h1, bind, Option.bind, h2]; exact h6
    · rw [h8, total, ← h5]

end Statig.Tests.ExternalContext

namespace Statig
open Tests.ExternalContext Statig.Macro

/-- C84, the counter, with the context of each call.  In whatever order the macro iterates over its hash maps, it
accepts the impl block of `statig/tests/external_context.rs` and what it generates compiles; and whatever calls are made
on the generated machine, each returns, leaves the state the past events determine, and counts in the context that it
was given, in the direction the past events determine. -/
theorem C84_external_context (max : Nat) (ord) :
    ∃ g, expand Sample.syn ord source = .ok g ∧ g.Compiles ∧ g.iface = gen.iface ∧
      ∀ cmds : List (Command (gen.iface.sig types)),
        (callAll gen.mode (machine max) (stateMachine (machine max) ()) cmds).map
          (fun c => (c.out, c.self.inner.state.variant, c.ctx)) = expected max [] cmds := by
  obtain ⟨g, h, -⟩ := C46_items gen_eq ord
  obtain ⟨h1, h2⟩ := C46_behaviour gen_eq h compiles
  exact ⟨g, h, h1, h2, fun cmds => calls_eq max gen.mode [] _ rfl cmds⟩

/-- C84, the counter, with one context for all calls: as in the test, for any events and any context. -/
theorem C84_external_context_shared (max : Nat) (c : Context) (events : List Event) :
    ∃ r, run max c events = some r ∧ r.1.inner.state.variant = stateName events ∧ r.2 = total max [] c events := by
  obtain ⟨r, h1, h2, -, h3⟩ := (flat_of max).init gen.mode up () c []
  have hs : r.self.state = up := congrArg Prod.fst h3
  have hc : r.ctx = c := congrArg (fun w => w.2.2) h3
  obtain ⟨q, h4, h5, h6⟩ := handleAll_eq max [] ⟨r.self⟩ (by rw [hs]; rfl) r.ctx events
  refine ⟨q, ?_, h5, by rw [h6, hc]⟩
  have h1' : (uninitializedStateMachine (machine max) ()).inner.init gen.mode (machine max) c [] = some r := h1
  simp only [run, UninitializedStateMachine.initWithContext, h1', bind, Option.bind, h2]
  exact h4

/-- C84, the assertions of the test: after three presses the counter is three, and after a timer event and three more
presses it is zero; for any `usize` that can hold three, from zero. -/
theorem C84_external_context_test (max b : Nat) (hmax : 3 ≤ max) :
    (∃ r, run max ⟨0, b⟩ [.buttonPressed, .buttonPressed, .buttonPressed] = some r ∧ r.2.a = 3) ∧
      ∃ r, run max ⟨0, b⟩ [.buttonPressed, .buttonPressed, .buttonPressed, .timerElapsed, .buttonPressed, .buttonPressed,
        .buttonPressed] = some r ∧ r.2.a = 0 := by
  obtain ⟨r, h1, -, h2⟩ := C84_external_context_shared max ⟨0, b⟩ [.buttonPressed, .buttonPressed, .buttonPressed]
  obtain ⟨q, h3, -, h4⟩ := C84_external_context_shared max ⟨0, b⟩ [.buttonPressed, .buttonPressed, .buttonPressed,
    .timerElapsed, .buttonPressed, .buttonPressed, .buttonPressed]
  refine ⟨⟨r, h1, ?_⟩, q, h3, ?_⟩
  · rw [h2]; simp [total, counted, goesUp]; omega
  · rw [h4]; simp [total, counted, goesUp]

end Statig
