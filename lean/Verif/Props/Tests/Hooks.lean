import Verif.Model.Tests.Hooks
import Verif.Proofs.Examples.Common
import Verif.Proofs.Tests.Flat
import Verif.Props.MacroSample
import Verif.Props.MacroOrder
import Verif.Spec.Tests.Hooks
/-!
# The machines of the tests of hooks: C84
-/
namespace Statig.Tests.Hooks
open Statig.Macro Statig.Examples

theorem gen_eq (b : Bool) : expand Sample.syn Sample.forwards (source b) = .ok (gen b) := by cases b <;> decide +kernel
theorem compiles (b : Bool) : (gen b).Compiles := by cases b <;> decide +kernel

/-- The machine as functions. -/
def flat (b : Bool) : Flat ((gen b).iface.sig types) where
  handler s sh _ c := ((s, sh, c), .transition (if s.variant = "Foo" then bar b else foo b))
  entry s sh c := (s, sh, c)
  exit s sh c := (s, sh, c)
  beforeDispatch sh _ _ := { sh with beforeDispatch := true }
  afterDispatch sh _ _ := { sh with afterDispatch := true }
  beforeTransition sh _ _ := { sh with beforeTransition := true }
  afterTransition sh _ _ := { sh with afterTransition := true }

theorem variant_cases {b : Bool} (s : State b) : s.variant = "Foo" ∨ s.variant = "Bar" := by
  obtain ⟨ns, h, -⟩ := s.ok
  by_contra hn
  rw [not_or] at hn
  simp [Gen.iface, fieldsOf, gen, Ne.symm hn.1, Ne.symm hn.2] at h

theorem flat_of (b : Bool) : (flat b).Of (machine b) where
  superstate s := by
    rcases variant_cases s with h | h <;> (simp only [machine, Iface.machine, h]; eval_gen [gen])
  handler s sh ev c := by
    rcases variant_cases s with h | h <;> cases b <;>
      (simp only [machine, Iface.machine, h]; eval_gen [gen, env, userHandler, source, flat, h]) <;> rfl
  entry s sh c := by
    rcases variant_cases s with h | h <;> (simp only [machine, Iface.machine, h]; eval_gen [gen, flat])
  exit s sh c := by
    rcases variant_cases s with h | h <;> (simp only [machine, Iface.machine, h]; eval_gen [gen, flat])
  beforeDispatch sh s ev := by cases b <;> rfl
  afterDispatch sh s ev := by cases b <;> rfl
  beforeTransition sh s t := by cases b <;> rfl
  afterTransition sh s t := by cases b <;> rfl

theorem stateName_eq (n : Nat) : stateName n = "Foo" ↔ n % 2 = 0 := by
  unfold stateName; split <;> simp_all

theorem step_eq (b : Bool) (mode : Mode) (n : Nat) (s : State b) (hs : s.variant = stateName n) (sh : FooBar) (c : Unit)
    (ev : Event) :
    ((flat b).step mode (s, sh, c) ev).1.variant = stateName (n + 1) ∧
      ((flat b).step mode (s, sh, c) ev).2.1 = flags (n + 1) := by
  refine ⟨?_, ?_⟩
  · simp only [Flat.step, flat, Flat.transition, hs, stateName_eq]
    by_cases h : n % 2 = 0
    · rw [if_pos h]; unfold stateName; rw [if_neg (by omega)]; rfl
    · rw [if_neg h]; unfold stateName; rw [if_pos (by omega)]; rfl
  · cases mode <;> simp [Flat.step, flat, Flat.transition, Flat.before, flags]

theorem calls_eq (b : Bool) (mode : Mode) (n : Nat) (sm : StateMachine ((gen b).iface.sig types))
    (hs : sm.inner.state.variant = stateName n) (hf : sm.inner.shared = flags n)
    (cmds : List (Command ((gen b).iface.sig types))) :
    (callAll mode (machine b) sm cmds).map (fun c => (c.out, c.self.inner.state.variant, c.self.inner.shared)) =
      expected n cmds := by
  induction cmds generalizing sm n with
  | nil => rfl
  | cons cmd cmds ih =>
    obtain ⟨r, h1, h2, -, h3⟩ := (flat_of b).exec mode sm cmd
    cases cmd with
    | init c l =>
      have e : (r.self.inner.state, r.self.inner.shared, r.ctx) = (sm.inner.state, sm.inner.shared, c) := by
        rw [h3]; simp only [Flat.exec, flat, ite_self]
      simp only [Prod.mk.injEq] at e
      have hv : r.self.inner.state.variant = stateName n := by rw [e.1]; exact hs
      have hf' : r.self.inner.shared = flags n := e.2.1.trans hf
      simp only [callAll, h1, List.map_cons, ih n r.self hv hf', expected, h2, hv, hf']
    | handle ev c l =>
      have e : (r.self.inner.state, r.self.inner.shared, r.ctx) =
          (flat b).step mode (sm.inner.state, sm.inner.shared, c) ev := by
        rw [h3]; simp only [Flat.exec, flat, ite_self]
      obtain ⟨h4, h5⟩ := step_eq b mode n sm.inner.state hs sm.inner.shared c ev
      rw [← e] at h4 h5
      simp only at h4 h5
      simp only [callAll, h1, List.map_cons, ih (n + 1) r.self h4 h5, expected, h2, h4, h5]

end Statig.Tests.Hooks

namespace Statig
open Tests.Hooks Statig.Macro

/-- C84, the tests of hooks, blocking (`b = false`) and `async` (`b = true`).  In whatever order the macro iterates over
its hash maps, it accepts the impl block and what it generates compiles and is of the right mode; and whatever calls are
made on the generated machine, each returns, every event changes the state, and all four hooks have run as soon as an
event has been handled, but none has been run by an initialization alone. -/
theorem C84_hooks (b : Bool) (ord) :
    ∃ g, expand Sample.syn ord (source b) = .ok g ∧ g.Compiles ∧ g.iface = (gen b).iface ∧
      g.mode = (if b then .awaitable else .blocking) ∧
      ∀ cmds : List (Command ((gen b).iface.sig types)),
        (callAll g.mode (machine b) (stateMachine (machine b) .default) cmds).map
          (fun c => (c.out, c.self.inner.state.variant, c.self.inner.shared)) = expected 0 cmds := by
  obtain ⟨g, h, -⟩ := C46_items (gen_eq b) ord
  obtain ⟨h1, h2⟩ := C46_behaviour (gen_eq b) h (compiles b)
  have h3 : g.mode = (gen b).mode := congrArg Iface.mode h2
  exact ⟨g, h, h1, h2, h3, fun cmds => calls_eq b g.mode 0 _ rfl rfl cmds⟩

/-- C84, the assertions of the tests: after one `Tick`, all flags are set. -/
example : (expected (S := (gen true).iface.sig types) 0 [.handle .tick () []]).map (fun p => p.2.2) =
    [⟨true, true, true, true⟩] := by decide

end Statig
