import Verif.Proofs.Endless
import Verif.Props.Init
/-!
# More on endless chains of superstates: C22
-/
namespace Statig
variable {S : Sig} {m : Machine S} {mode : Mode}

/-- C22 (dispatch). If the superstates above the current state never end and an event is deferred by all of them, `handle`
does not return: at most it is interrupted by a callback, and if callbacks cannot do that it never ends. -/
theorem C22_deferred_forever {ev : S.Ev} {L : S.St → Prop} {P : S.Sup → Prop} (hd : m.AlwaysDefers ev L P)
    {sm : InitializedStateMachine S} (hs : L sm.state) (ctx : S.Ctx) (sched : List S.In) :
    (∀ c, sm.handleWithContext mode m ev ctx sched = some c → c.out ≠ .ok ()) ∧
    (m.NoPanic → m.NoSuspend → sm.handleWithContext mode m ev ctx sched = none) := by
  have key : ∀ c, sm.handleWithContext mode m ev ctx sched = some c →
      c.out ≠ .ok () ∧ (m.NoPanic → m.NoSuspend → False) := by
    intro c h
    unfold InitializedStateMachine.handleWithContext at h
    cases e : sm.inner.handle mode m ev ctx sched with
    | none => rw [e] at h; cases h
    | some d =>
      rw [e] at h
      cases h
      obtain ⟨h1, h2⟩ := inner_handle_defers hd hs e
      refine ⟨fun ho => ?_, h2⟩
      have ho' : d.out = .ok () := ho
      rw [ho'] at h1
      cases h1
  refine ⟨fun c h => (key c h).1, fun h1 h2 => ?_⟩
  cases e : sm.handleWithContext mode m ev ctx sched with
  | none => rfl
  | some c => exact ((key c e).2 h1 h2).elim

/-- C22 (transition). If a transition is begun between different variants, one of which has superstates that never end,
`handle` does not return: at most it is interrupted by the hook before the transition, and if callbacks cannot do
that it never ends. -/
theorem C22_transition_forever {sm : InitializedStateMachine S} {ev : S.Ev} {ctx : S.Ctx} {sched : List S.In}
    {c : Call S (InitializedStateMachine S)} (h : sm.handleWithContext mode m ev ctx sched = some c) {a b : S.St}
    (hab : .beforeTransition a b ∈ c.trace) (hne : m.discr a ≠ m.discr b) {up : Nat → S.Sup}
    (he : Endless m a up ∨ Endless m b up) :
    c.out ≠ .ok () ∧ c.trace.getLast? = some (.beforeTransition a b) ∧ ¬ (m.NoPanic ∧ m.NoSuspend) := by
  unfold InitializedStateMachine.handleWithContext at h
  cases e : sm.inner.handle mode m ev ctx sched with
  | none => rw [e] at h; cases h
  | some d =>
    rw [e] at h
    cases h
    have hp : transitionPath m a b = none ∧ transitionPath m b a = none := by
      rcases he with he | he
      · exact ⟨transitionPath_endless hne (.inl (depth_endless he)), transitionPath_endless hne.symm (.inr (depth_endless he))⟩
      · exact ⟨transitionPath_endless hne (.inr (depth_endless he)), transitionPath_endless hne.symm (.inl (depth_endless he))⟩
    obtain ⟨h1, h2, h3⟩ := inner_handle_endless e hab hp
    refine ⟨fun ho => ?_, h2, fun h => h3 h.1 h.2⟩
    have ho' : d.out = .ok () := ho
    rw [ho'] at h1
    cases h1

namespace Sample

/-- The sample machine with `S` made its own superstate; `fragile`: the hook before a transition panics. -/
def looped (fragile : Bool) : Machine sig :=
  { machine false with
    supSuperstate := fun v => some ((.s, v.2), fun w => (v.1, w.2))
    beforeTransition := fun sh _ _ => if fragile then .panic sh else .done sh ()
    supSuperstate_back := by
      intro v w back h
      simp only [Option.some.injEq, Prod.mk.injEq] at h
      obtain ⟨h1, h2⟩ := h
      subst h1; subst h2; rfl }

/-- The event `skip` is always deferred. -/
example : (looped false).AlwaysDefers .skip (fun _ => True) (fun _ => True) ∧ (looped false).NoPanic ∧
    (looped false).NoSuspend := by
  refine ⟨⟨?_, ?_⟩, ?_, ?_⟩
  · intro s sh c _ l a w l' h
    have h' : (leafHandler false s sh .skip c).run l = (.ok a, w, l') := h
    have e : leafHandler false s sh .skip c = .done (s, sh, c) .super := by
      obtain ⟨d, n⟩ := s
      cases d <;> rfl
    rw [e] at h'
    cases h'
    exact ⟨rfl, _, _, rfl, trivial⟩
  · intro u sh c _ l a w l' h
    have h' : (supHandler u sh .skip c).run l = (.ok a, w, l') := h
    have e : supHandler u sh .skip c = .done (u, sh, c) .super := by
      obtain ⟨d, n⟩ := u
      cases d <;> rfl
    rw [e] at h'
    cases h'
    exact ⟨rfl, _, _, rfl, trivial⟩
  · exact { noPanic with beforeTransition := fun _ _ _ => trivial }
  · exact { noSuspend with beforeTransition := fun _ _ _ => trivial }

/-- A transition that is interrupted by the hook, between variants with endless chains. -/
example : ∃ c, InitializedStateMachine.handleWithContext .blocking (looped true) (at_ .s12) .c 0 [] = some c ∧
    Obs.beforeTransition (S := sig) (.s211, 0) (.s12, 7) ∈ c.trace ∧ c.out = .panic := by
  have : ∃ c, InitializedStateMachine.handleWithContext .blocking (looped true) (at_ .s12) .c 0 [] = some c ∧
      (c.trace.getLast?.any fun
        | .beforeTransition a b => decide (a = (.s211, 0) ∧ b = (.s12, 7))
        | _ => false) = true ∧ c.out = .panic := by
    apply witness
    simp only [InitializedStateMachine.handleWithContext, Inner.handle, Blocking.handleEvent, Blocking.handle,
      Blocking.transition]
    decide +kernel
  obtain ⟨c, h, h2, h3⟩ := this
  refine ⟨c, h, ?_, h3⟩
  cases hl : c.trace.getLast? with
  | none => rw [hl] at h2; cases h2
  | some ob =>
    rw [hl] at h2
    have hm := List.mem_of_getLast? hl
    cases ob with
    | beforeTransition a b =>
      simp only [Option.any_some, decide_eq_true_eq] at h2
      obtain ⟨rfl, rfl⟩ := h2
      exact hm
    | _ => cases h2

example : ∃ up, Endless (looped true) ((.s211, 0) : D × Nat) up :=
  ⟨fun n => if n = 0 then (.s21, 0) else (.s, 0), rfl, fun n => by cases n <;> rfl⟩

end Sample
end Statig
