import Verif.Model.Tests.Serde
import Verif.Proofs.Examples.Common
import Verif.Proofs.Hierarchy
import Verif.Props.MacroHierarchy
import Verif.Props.MacroSample
import Verif.Props.MacroOrder
import Verif.Props.Restore
/-!
# The machine of the test of serialization: C87
-/
namespace Statig.Tests.Serde
open Statig.Macro Statig.Examples

theorem gen_eq : expand Sample.syn Sample.forwards source = .ok gen := by decide +kernel
theorem compiles : gen.Compiles := by decide +kernel

theorem variant_cases (s : State) : s.variant = "LedOn" ∨ s.variant = "LedOff" ∨ s.variant = "NotBlinking" := by
  obtain ⟨ns, h, -⟩ := s.ok
  by_contra hn
  rw [not_or, not_or] at hn
  simp [Gen.iface, fieldsOf, gen, Blinky.gen, Ne.symm hn.1, Ne.symm hn.2.1, Ne.symm hn.2.2] at h

theorem sup_variant (v : Val gen.iface.supFields Empty) : v.variant = "Blinking" := by
  obtain ⟨ns, h, -⟩ := v.ok
  by_contra hn
  simp [Gen.iface, fieldsOf, gen, Blinky.gen, Ne.symm hn] at h

theorem idle : machine.EntriesIdle where
  leaf s sh c := by
    rcases variant_cases s with h | h | h <;> (simp only [machine, Iface.machine, h]; eval_gen [gen, Blinky.gen])
  sup v sh c := by
    simp only [machine, Iface.machine, sup_variant v]; eval_gen [gen, Blinky.gen]

theorem sup_none (e : Ident) : armTarget (gen.iface.supSuperstate e) = none := by
  by_cases h : "Blinking" = e
  · subst h; decide +kernel
  · simp [armTarget, Gen.iface, armOf, gen, Blinky.gen, h]

/-- The hierarchy of the states. -/
def forest : Forest Ident Ident where
  leafParent v := armTarget (gen.iface.superstate v)
  supParent _ := none
  supAnc _ := []
  supAnc_eq _ := rfl

theorem follows : Follows machine forest := by
  obtain ⟨sm, L, Lp, hg⟩ := genInfo (compiles.distinct gen_eq) gen_eq
  exact hg.follows compiles env forest rfl (funext fun v => (sup_none v).symm)

theorem path_eq : transitionPath machine = fun s t =>
    if s.variant = t.variant then some (.ok (1, 1))
    else some (.ok ((forest.leafAnc s.variant).length + 1 - ((forest.leafAnc s.variant).filter
      (· ∈ forest.leafAnc t.variant)).length, (forest.leafAnc t.variant).length + 1 - ((forest.leafAnc s.variant).filter
      (· ∈ forest.leafAnc t.variant)).length)) := by
  funext s t
  split
  · next h => exact transitionPath_of_eq s t h
  · next h => exact transitionPath_of_ne follows s t h

theorem button_eq (led : Blinky) (sched : List Empty) :
    ∃ call, (InitializedStateMachine.mk (uninitializedStateMachine machine led).inner).handle .blocking machine ()
        .buttonPressed sched = some call ∧ call.out = .ok () ∧ call.self.inner.state.variant = "NotBlinking" ∧
      call.self.inner.shared = led := by
  cases sched with
  | cons i l => exact i.elim
  | nil =>
    obtain ⟨led⟩ := led
    cases led <;>
    · apply witness
      simp only [InitializedStateMachine.handle, InitializedStateMachine.handleWithContext, Inner.handle, Blocking.handleEvent,
        Blocking.handle, Blocking.transition, path_eq]
      rw [Blocking.supHandle]
      decide +kernel

end Statig.Tests.Serde

namespace Statig
open Statig.Macro Tests.Serde

/-- C87, the test of serialization (`statig/tests/serde.rs`).  In whatever order the macro iterates over its hash maps, it
accepts the impl block and what it generates compiles.  For machines with any contents, whatever the format, if the
storage and the state are restored by their own implementations: the uninitialized machine and the machine initialized
from it (which has the same contents) are written alike and read back as the uninitialized machine; and a machine in any
state, written, read back as uninitialized and initialized, is that machine again. -/
theorem C87_test (ord) :
    ∃ g, expand Sample.syn ord source = .ok g ∧ g.Compiles ∧ g.iface = gen.iface ∧ g.mode = .blocking ∧
      ∀ {V X : Type} (cm : Codec Blinky V X) (cs : Codec Tests.Serde.State V X), (∀ a, cm.Restores a) → (∀ a, cs.Restores a) →
        ∀ (form : Form) (led : Blinky) (content : Content V),
          ((uninitializedStateMachine machine led).serialize cm cs form = .ok content →
            UninitializedStateMachine.deserialize cm cs content = .ok (uninitializedStateMachine machine led) ∧
            ∀ sched, ∃ call ism, (uninitializedStateMachine machine led).init g.mode machine () sched = some call ∧
              call.self = some ism ∧ ism.serialize cm cs form = .ok content) ∧
          ∀ ism : InitializedStateMachine (gen.iface.sig types), ism.serialize cm cs form = .ok content →
            ∃ u, UninitializedStateMachine.deserialize cm cs content = .ok u ∧
              ∀ sched, ∃ call, u.init g.mode machine () sched = some call ∧ call.out = .ok () ∧ call.self = some ism := by
  obtain ⟨g, h, -⟩ := C46_items gen_eq ord
  obtain ⟨h1, h2⟩ := C46_behaviour gen_eq h compiles
  refine ⟨g, h, h1, h2, congrArg Iface.mode h2, fun cm cs hm hs form led content => ⟨fun hser => ?_, fun ism hser => ?_⟩⟩
  · obtain ⟨⟨k1, -, -⟩, k2, -⟩ := C38_across_types (hm _) (hs _) (.inr (.inl hser))
    refine ⟨k2, fun sched => ?_⟩
    obtain ⟨pre, -, h3⟩ := init_idle idle follows g.mode (uninitializedStateMachine machine led).inner () sched
    refine ⟨⟨.ok (), some ⟨(uninitializedStateMachine machine led).inner⟩, (), sched, pre⟩, _, ?_, rfl, k1⟩
    unfold UninitializedStateMachine.init UninitializedStateMachine.initWithContext
    rw [h3]
    rfl
  · obtain ⟨u, k1, k2⟩ := C87_initialized (mode := g.mode) follows idle (hm _) (hs _) hser
    refine ⟨u, k1, fun sched => ?_⟩
    obtain ⟨call, k3, k4, k5, -⟩ := k2 () sched
    exact ⟨call, k3, k4, k5⟩


/-- C87, the third machine of the test: pressing the button after the initialization leads out of `blinking`. -/
theorem C87_test_button (led : Blinky) (sched : List Empty) :
    ∃ call, (InitializedStateMachine.mk (uninitializedStateMachine machine led).inner).handle .blocking machine ()
        .buttonPressed sched = some call ∧ call.out = .ok () ∧ call.self.inner.state.variant = "NotBlinking" ∧
      call.self.inner.shared = led := button_eq led sched

end Statig
