import Verif.Proofs.Replay
import Verif.Props.Transition
import Verif.Props.Init
/-!
# Properties of histories: C14
-/
namespace Statig
variable {S : Sig} {m : Machine S} {F : Forest S.D S.E} {mode : Mode}

/-- Replaying the log of one `handle` call from the path of the current state. -/
theorem replay_handle (hF : Follows m F) {sm : InitializedStateMachine S} {ev : S.Ev} {ctx : S.Ctx}
    {sched : List S.In} {c : Call S (InitializedStateMachine S)}
    (h : sm.handleWithContext mode m ev ctx sched = some c) :
    ∃ st, replay F (actionsOf (m.steps c.trace)) (F.path (m.discr sm.state)) = some st ∧
      st <:+ F.path (m.discr c.self.state) ∧ (c.out = .ok () → st = F.path (m.discr c.self.state)) := by
  by_cases ht : ∃ n t, (responsesOf (m.steps c.trace)).getLast? = some (n, .transition t)
  · obtain ⟨n, t, ht⟩ := ht
    obtain ⟨k, -, h1, h2, h3, -, h4, h5, h6⟩ := with_transition hF h ht
    have hp := actionsOf_prefix h1
    rw [actionsOf_transitionLog] at hp
    obtain ⟨st, r1, r2, r3, r4⟩ := replay_transition hp
    rw [h4]
    refine ⟨st, r1, ?_, fun ho => ?_⟩
    · by_cases he : entriesOf k = []
      · rw [h5 he]
        refine r2 (fun n hn => ?_)
        have := mem_enter_iff.1 hn
        rw [he] at this; simp at this
      · rw [h6 he]
        obtain ⟨a, l, hl⟩ := List.exists_cons_of_ne_nil he
        exact r3 ⟨a, mem_enter_iff.2 (by rw [hl]; simp)⟩
    · have hk := h2 ho
      have he : entriesOf k ≠ [] := by
        rw [hk, entriesOf_transitionLog]; exact entries_ne_nil hF _ _
      rw [h6 he]
      exact r4 (by rw [hk, actionsOf_transitionLog])
  · obtain ⟨h1, h2⟩ := no_transition hF h (fun n t h' => ht ⟨n, t, h'⟩)
    rw [actionsOf_eq_nil_of h1, h2]
    exact ⟨_, rfl, List.suffix_refl _, fun _ => rfl⟩

/-- The stack on which a machine's log continues: the active path, or nothing before initialization. -/
def stackOf (F : Forest S.D S.E) (m : Machine S) (sm : StateMachine S) : List (Node S.D S.E) :=
  if sm.initialized then F.path (m.discr sm.state) else []

theorem replay_exec (hF : Follows m F) {sm : StateMachine S} {cmd : Command S} {c : Call S (StateMachine S)}
    (h : cmd.exec mode m sm = some c) :
    ∃ st, replay F (actionsOf (m.steps c.trace)) (stackOf F m sm) = some st ∧
      st <:+ F.path (m.discr c.self.state) ∧ (c.out = .ok () → st = F.path (m.discr c.self.state)) := by
  cases h0 : sm.initialized with
  | true =>
    unfold stackOf
    rw [h0]
    cases cmd with
    | init ctx sched =>
      have h' : sm.initWithContext mode m ctx sched = some c := h
      rw [sm_init_initialized h0] at h'
      cases h'
      exact ⟨_, rfl, List.suffix_refl _, fun _ => rfl⟩
    | handle ev ctx sched =>
      obtain ⟨d, h1, rfl⟩ := (sm_handle_initialized h0 ev ctx sched).1 h
      exact replay_handle hF h1
  | false =>
    have hst : stackOf F m sm = [] := by unfold stackOf; simp [h0]
    rw [hst]
    cases cmd with
    | init ctx sched =>
      obtain ⟨h1, h2, h3⟩ := C16_init hF h0 h
      have hp := actionsOf_prefix h2
      have hlog := actionsOf_initLog (V := S.Ev) (T := S.St) F (m.discr sm.state)
      unfold initLog at hlog
      rw [hlog] at hp
      obtain ⟨st, r1, r2, r3⟩ := replay_init hp
      rw [h3]
      exact ⟨st, r1, r2, fun ho => r3 (by rw [h1 ho, hlog])⟩
    | handle ev ctx sched =>
      obtain ⟨c0, h1, h2⟩ := (sm_handle_uninitialized h0 ev ctx sched).1 h
      obtain ⟨c', k0, k1, k2, k3, -⟩ := init_call hF mode sm.inner ctx sched
      obtain rfl : c' = c0 := by rw [k0] at h1; exact Option.some.inj h1
      have hp := actionsOf_prefix k2
      have hlog := actionsOf_initLog (V := S.Ev) (T := S.St) F (m.discr sm.inner.state)
      rw [hlog] at hp
      obtain ⟨st, r1, r2, r3⟩ := replay_init hp
      rcases h2 with ⟨h2, rfl⟩ | ⟨h2, d, h3, rfl⟩
      · exact ⟨st, r1, by rw [← k3] at r2; exact r2, fun ho => absurd ho h2⟩
      · have e := r3 (by rw [k1 h2, hlog])
        obtain ⟨st', q1, q2, q3⟩ := replay_handle hF h3
        refine ⟨st', ?_, q2, q3⟩
        have hs : m.steps (c'.trace ++ d.trace) = m.steps c'.trace ++ m.steps d.trace := by
          simp [Machine.steps]
        show replay F (actionsOf (m.steps (c'.trace ++ d.trace))) [] = some st'
        rw [hs, actionsOf_append, replay_append, r1, e]
        have e2 : m.discr (InitializedStateMachine.state ⟨c'.self⟩) = m.discr sm.inner.state := k3
        rw [e2] at q1
        exact q1

/-- C14. Starting from a fresh machine, after any non-empty history of completed calls, replaying all entry
and exit actions (a node may be entered only directly inside its parent and left only if it is innermost)
succeeds and leaves exactly the path of `state()` active. -/
theorem C14_stack_mirrors_state (hF : Follows m F) {sm sm' : StateMachine S} {l}
    (h0 : sm.initialized = false) (h : History mode m sm l sm') (hne : l ≠ [])
    (hok : ∀ p ∈ l, p.2.out = .ok ()) :
    replay F (actionsOf (historySteps m l)) [] = some (F.path (m.discr sm'.state)) := by
  have key : ∀ sm l sm', History mode m sm l sm' → (∀ p ∈ l, p.2.out = .ok ()) →
      (l ≠ [] ∨ sm.initialized = true) →
      replay F (actionsOf (historySteps m l)) (stackOf F m sm) = some (F.path (m.discr sm'.state)) := by
    intro sm l sm' h
    induction h with
    | @nil sm =>
      rintro - (h | h)
      · exact absurd rfl h
      · simp [historySteps, actionsOf, replay, stackOf, h]
    | @cons sm cmd c l sm' h1 _ ih =>
      intro hok _
      have ho := hok (cmd, c) (by simp)
      obtain ⟨st, r1, -, r3⟩ := replay_exec hF h1
      have hinit := (C17_initialized_once h1).2.2.2 ho
      have := ih (fun p hp => hok p (by simp [hp])) (.inr hinit)
      have hs : historySteps m ((cmd, c) :: l) = m.steps c.trace ++ historySteps m l := by
        simp [historySteps]
      rw [hs, actionsOf_append, replay_append, r1, r3 ho]
      have e : stackOf F m c.self = F.path (m.discr c.self.state) := by simp [stackOf, hinit]
      rw [e] at this
      exact this
  have := key sm l sm' h hok (.inl hne)
  have e : stackOf F m sm = [] := by simp [stackOf, h0]
  rwa [e] at this

/-- C14, interrupted: if in addition a last call is made and is cut short anywhere, the replay still succeeds
(nothing is entered outside its parent or left while something inside it is active), and what is left active
is an outer part of the path of `state()`. -/
theorem C14_interrupted (hF : Follows m F) {sm sm' : StateMachine S} {l cmd c}
    (h0 : sm.initialized = false) (h : History mode m sm l sm') (hok : ∀ p ∈ l, p.2.out = .ok ())
    (hc : Command.exec mode m sm' cmd = some c) :
    ∃ st, replay F (actionsOf (historySteps m l ++ m.steps c.trace)) [] = some st ∧
      st <:+ F.path (m.discr c.self.state) := by
  obtain ⟨st, r1, r2, -⟩ := replay_exec hF hc
  rcases List.eq_nil_or_concat l with rfl | ⟨l', p, rfl⟩
  · cases h
    have e : stackOf F m sm = [] := by simp [stackOf, h0]
    rw [e] at r1
    exact ⟨st, by simpa [historySteps] using r1, r2⟩
  · have hm := C14_stack_mirrors_state hF h0 h (by simp) hok
    have hi : sm'.initialized = true :=
      C17_never_again h .nil (.inr ⟨p, by simp, hok p (by simp)⟩)
    have e : stackOf F m sm' = F.path (m.discr sm'.state) := by simp [stackOf, hi]
    rw [e] at r1
    refine ⟨st, ?_, r2⟩
    rw [actionsOf_append, replay_append, hm]
    exact r1

/-- Make a list of calls. -/
def runAll (mode : Mode) (m : Machine S) : StateMachine S → List (Command S) →
    Option (List (Command S × Call S (StateMachine S)) × StateMachine S)
  | sm, [] => some ([], sm)
  | sm, cmd :: cmds =>
    (cmd.exec mode m sm).bind fun c => (runAll mode m c.self cmds).map fun p => ((cmd, c) :: p.1, p.2)

theorem runAll_history {sm : StateMachine S} {cmds p} (h : runAll mode m sm cmds = some p) :
    History mode m sm p.1 p.2 := by
  induction cmds generalizing sm p with
  | nil => cases h; exact .nil
  | cons cmd cmds ih =>
    unfold runAll at h
    obtain ⟨c, h1, h2⟩ := Option.bind_eq_some_iff.1 h
    obtain ⟨q, h3, rfl⟩ := Option.map_eq_some_iff.1 h2
    exact .cons h1 (ih h3)

/-- C14 applies: a history of three completed calls with two transitions. -/
example : ∃ p, runAll .awaitable (Sample.machine false) Sample.fresh
      [.handle .b 0 [], .handle .c 0 [], .init 0 []] = some p ∧
    (∀ q ∈ p.1, q.2.out = .ok ()) ∧ p.2.state = (.s211, 0) ∧
    actionsOf (historySteps (Sample.machine false) p.1) = [.enter (.sup .s), .enter (.sup .s1),
      .enter (.leaf .s11), .leave (.leaf .s11), .enter (.leaf .s12), .leave (.leaf .s12),
      .leave (.sup .s1), .enter (.sup .s2), .enter (.sup .s21), .enter (.leaf .s211)] := by
  simp only [runAll, Command.exec]
  sample_case

end Statig
