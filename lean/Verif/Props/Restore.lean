import Verif.Props.Serde
import Verif.Props.Sample
import Verif.Proofs.Restore
/-!
# Resuming from a saved machine: C87
-/
namespace Statig
variable {S : Sig} {m : Machine S} {F : Forest S.D S.E} {mode : Mode} {V X : Type}
  {cm : Codec S.M V X} {cs : Codec S.St V X}

/-- C87. If the entry actions do nothing, a machine that was saved at any point of its life and loaded again answers
every sequence of calls as the machine that was never saved would: same outcomes, same callbacks with the same
arguments, same storage, state and context after every call.  The only difference is that the first call begins with
the entry actions. -/
theorem C87_resumes (hF : Follows m F) (hI : m.EntriesIdle) {form : Form} {sm : StateMachine S} {c : Content V}
    (h0 : sm.initialized = true) (hm : cm.Restores sm.shared) (hs : cs.Restores sm.state)
    (h : sm.serialize cm cs form = .ok c) :
    ∃ sm', StateMachine.deserialize cm cs c = .ok sm' ∧
      ∀ cmds, Resumes m F (m.discr sm.state) (callAll mode m sm cmds) (callAll mode m sm' cmds) := by
  obtain ⟨i, b⟩ := sm
  cases h0
  exact ⟨⟨i, false⟩, (C38_across_types hm hs (.inr (.inr ⟨true, h⟩))).2.2, resumes hI hF mode i⟩

/-- C87, before the initialization: the loaded machine is the saved one, so nothing at all is different. -/
theorem C87_uninitialized {form : Form} {sm : StateMachine S} {c : Content V}
    (h0 : sm.initialized = false) (hm : cm.Restores sm.shared) (hs : cs.Restores sm.state)
    (h : sm.serialize cm cs form = .ok c) : StateMachine.deserialize cm cs c = .ok sm := by
  obtain ⟨i, b⟩ := sm
  cases h0
  exact (C38_across_types hm hs (.inr (.inr ⟨false, h⟩))).2.2

/-- C87, `InitializedStateMachine`: saved, loaded as an `UninitializedStateMachine` and initialized again, it is the same
machine as before, after any context and schedule. -/
theorem C87_initialized (hF : Follows m F) (hI : m.EntriesIdle) {form : Form} {ism : InitializedStateMachine S}
    {c : Content V} (hm : cm.Restores ism.inner.shared) (hs : cs.Restores ism.state)
    (h : ism.serialize cm cs form = .ok c) :
    ∃ u, UninitializedStateMachine.deserialize cm cs c = .ok u ∧
      ∀ ctx sched, ∃ call, u.initWithContext mode m ctx sched = some call ∧ call.out = .ok () ∧
        call.self = some ism ∧ call.ctx = ctx ∧ call.sched = sched := by
  refine ⟨⟨ism.inner⟩, (C38_across_types hm hs (.inl h)).2.1, fun ctx sched => ?_⟩
  obtain ⟨pre, -, h2⟩ := init_idle hI hF mode ism.inner ctx sched
  refine ⟨⟨.ok (), some ism, ctx, sched, pre⟩, ?_, rfl, rfl, rfl, rfl⟩
  unfold UninitializedStateMachine.initWithContext
  rw [h2]
  rfl

/-! ### A concrete case -/

namespace Sample

/-- The sample machine with entry actions that do nothing. -/
def idle : Machine sig :=
  { machine false with
    entry := fun s sh c => .done (s, sh, c) ()
    supEntry := fun v sh c => .done (v, sh, c) () }

theorem idle_entries : idle.EntriesIdle := ⟨fun _ _ _ => rfl, fun _ _ _ => rfl⟩

theorem idle_follows : Follows idle forest :=
  { follows false with
    entry := fun _ _ _ => .done rfl
    supEntry := fun _ _ _ => .done rfl }

/-- A machine in state `s12` is saved and loaded. -/
example : ∃ c, StateMachine.serialize (S := sig) mCodec stCodec .asMap ⟨⟨⟨[], 5⟩, (.s12, 7)⟩, true⟩ = .ok c ∧
    mCodec.Restores ⟨[], 5⟩ ∧ stCodec.Restores (.s12, 7) := by
  refine ⟨_, rfl, ?_, ?_⟩
  · intro v h; cases h; rfl
  · intro v h; cases h; rfl

/-- With entry actions that do something, as those of the sample, the loaded machine can differ: it has run them once
more. -/
example :
    (∃ c, StateMachine.initWithContext .blocking (machine false) ⟨⟨⟨[], 5⟩, (.s12, 7)⟩, true⟩ 0 [] = some c ∧
      c.self.inner.shared.path = []) ∧
    ∃ d, StateMachine.initWithContext .blocking (machine false) ⟨⟨⟨[], 5⟩, (.s12, 7)⟩, false⟩ 0 [] = some d ∧
      d.self.inner.shared.path ≠ [] := by
  refine ⟨⟨_, rfl, rfl⟩, ?_⟩
  sample_case

end Sample
end Statig
