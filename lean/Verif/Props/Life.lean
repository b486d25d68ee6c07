import Verif.Spec.Life
import Verif.Props.History
import Verif.Props.Serde
/-!
# Properties of everything that can happen to a machine: C71
-/
namespace Statig
variable {S : Sig} {m : Machine S} {F : Forest S.D S.E} {mode : Mode} {V X : Type} {u : UserImpls S V X}

/-- A call that runs no entry and no exit action leaves the machine initialized or not, as it was, and in a state of
the same variant. -/
theorem idle_call (hF : Follows m F) {sm : StateMachine S} {cmd : Command S} {c}
    (h : cmd.exec mode m sm = some c) (ha : actionsOf (m.steps c.trace) = []) :
    c.self.initialized = sm.initialized ∧ m.discr c.self.state = m.discr sm.state := by
  cases h0 : sm.initialized with
  | true =>
    refine ⟨(C17_initialized_once h).2.2.1 h0, ?_⟩
    cases cmd with
    | init ctx sched =>
      have h' : sm.initWithContext mode m ctx sched = some c := h
      rw [sm_init_initialized h0] at h'
      cases h'; rfl
    | handle ev ctx sched =>
      obtain ⟨d, h1, rfl⟩ := (sm_handle_initialized h0 ev ctx sched).1 h
      by_cases ht : ∃ n t, (responsesOf (m.steps d.trace)).getLast? = some (n, .transition t)
      · obtain ⟨n, t, ht⟩ := ht
        obtain ⟨k, -, -, -, -, -, h4, h5, -⟩ := with_transition hF h1 ht
        refine h5 ?_
        have ha : actionsOf (m.steps d.trace) = [] := ha
        rw [h4] at ha
        cases hk : entriesOf k with
        | nil => rfl
        | cons n l =>
          have : Act.enter n ∈ actionsOf k := mem_enter_iff.2 (by rw [hk]; simp)
          rw [ha] at this; simp at this
      · exact (no_transition hF h1 (fun n t h' => ht ⟨n, t, h'⟩)).2
  | false =>
    obtain ⟨st, r1, r2, r3⟩ := replay_exec hF h
    rw [ha] at r1
    have hst : stackOf F m sm = [] := by unfold stackOf; simp [h0]
    rw [hst] at r1
    cases r1
    have hno : c.out ≠ .ok () := fun ho => by have := r3 ho; simp [Forest.path, Forest.up] at this
    cases cmd with
    | init ctx sched =>
      have h' : sm.initWithContext mode m ctx sched = some c := h
      refine ⟨?_, (C16_init hF h0 h').2.2⟩
      unfold StateMachine.initWithContext at h'
      simp only [h0, ↓reduceIte, Option.bind_eq_bind] at h'
      obtain ⟨c0, -, h2⟩ := Option.bind_eq_some_iff.1 h'
      cases ho : c0.out with
      | ok a => cases a; simp only [ho] at h2; cases h2; exact absurd rfl hno
      | panic => simp only [ho] at h2; cases h2; rfl
      | stopped => simp only [ho] at h2; cases h2; rfl
    | handle ev ctx sched =>
      obtain ⟨c0, h1, h2⟩ := (sm_handle_uninitialized h0 ev ctx sched).1 h
      obtain ⟨c', k0, k1, k2, k3, -⟩ := init_call hF mode sm.inner ctx sched
      obtain rfl : c' = c0 := by rw [k0] at h1; exact Option.some.inj h1
      rcases h2 with ⟨h2, rfl⟩ | ⟨h2, d, h3, rfl⟩
      · exact ⟨rfl, k3⟩
      · have hlog := actionsOf_initLog (V := S.Ev) (T := S.St) F (m.discr sm.inner.state)
        have hs : m.steps (c'.trace ++ d.trace) = m.steps c'.trace ++ m.steps d.trace := by
          simp [Machine.steps]
        have ha : actionsOf (m.steps (c'.trace ++ d.trace)) = [] := ha
        rw [hs, actionsOf_append, k1 h2, hlog] at ha
        simp [Forest.path, Forest.up] at ha

/-- C71.  Whatever happened to a machine since it was constructed or loaded - calls, calls cut short before their first
action, writes to the storage, writes to the state that keep its variant or are made before initialization, cloning -
replaying all entry and exit actions run since then succeeds, and leaves exactly the path of `state()` active, or
nothing if the machine is not initialized. -/
theorem C71_stack_mirrors_state (hF : Follows m F) {T : List (Obs S)} {sm : StateMachine S}
    (h : Lived mode m u T sm) :
    replay F (actionsOf (m.steps T)) [] = some (if sm.initialized then F.path (m.discr sm.state) else []) := by
  have hs : ∀ a b : List (Obs S), m.steps (a ++ b) = m.steps a ++ m.steps b := by simp [Machine.steps]
  induction h with
  | new x => rfl
  | @loaded content sm h =>
    have : sm.initialized = false := by
      unfold StateMachine.deserialize at h
      cases hi : Inner.deserialize u.shared u.state content with
      | error e => simp [hi, bind, Except.bind] at h
      | ok i => simp only [hi, bind, Except.bind, Except.ok.injEq] at h; subst h; rfl
    rw [this]; rfl
  | @call T sm cmd c _ h1 ho ih =>
    obtain ⟨st, r1, -, r3⟩ := replay_exec hF h1
    rw [hs, actionsOf_append, replay_append, ih, (C17_initialized_once h1).2.2.2 ho]
    exact r1.trans (congrArg some (r3 ho))
  | @cut T sm cmd c _ h1 ha ih =>
    obtain ⟨e1, e2⟩ := idle_call hF h1 ha
    rw [hs, actionsOf_append, ha, List.append_nil, ih, e1, e2]
  | writeShared x _ ih => exact ih
  | @writeState T sm s _ hk ih =>
    rw [ih]
    cases h0 : sm.initialized with
    | false =>
      have : (sm.setState s).initialized = false := h0
      rw [this]; rfl
    | true =>
      have e1 : (sm.setState s).initialized = true := h0
      have e2 : (sm.setState s).state = s := rfl
      rw [e1, e2, hk h0]
  | @clone T sm _ hk ih =>
    rw [ih]
    have e1 : (sm.clone u.cloneShared u.cloneState).initialized = sm.initialized := rfl
    have e2 : (sm.clone u.cloneShared u.cloneState).state = u.cloneState sm.state := rfl
    rw [e1, e2, hk]

/-- C71, cut short: if such a machine is called once more and the call is cut short anywhere, the replay still succeeds
and leaves an outer part of the path of `state()` active. -/
theorem C71_interrupted (hF : Follows m F) {T : List (Obs S)} {sm : StateMachine S} (h : Lived mode m u T sm)
    {cmd : Command S} {c} (hc : cmd.exec mode m sm = some c) :
    ∃ st, replay F (actionsOf (m.steps (T ++ c.trace))) [] = some st ∧ st <:+ F.path (m.discr c.self.state) := by
  obtain ⟨st, r1, r2, -⟩ := replay_exec hF hc
  have hs : m.steps (T ++ c.trace) = m.steps T ++ m.steps c.trace := by simp [Machine.steps]
  rw [hs, actionsOf_append, replay_append, C71_stack_mirrors_state hF h]
  exact ⟨st, r1, r2⟩

theorem exits_cons {D E : Type} [DecidableEq D] [DecidableEq E] {F : Forest D E} (d t : D) :
    ∃ l, F.exits d t = .leaf d :: l := by
  unfold Forest.exits
  split
  · exact ⟨_, rfl⟩
  · rename_i h
    have : Node.leaf d ∉ F.path t := fun h' => h ((Forest.mem_path_leaf F).1 h')
    exact ⟨_, by unfold Forest.path Forest.up at *; rw [List.filter_cons, if_pos (by simpa using this)]⟩

/-- C71, the condition on writes to the state is needed: if `state_mut` is used to replace the state of an initialized
machine by one of another variant, what was entered is no longer the path of `state()`, and the first transition made
afterwards leaves a state that was never entered. -/
theorem C71_other_variant (hF : Follows m F) {T : List (Obs S)} {sm : StateMachine S} (h : Lived mode m u T sm)
    (h0 : sm.initialized = true) {s : S.St} (hs : m.discr s ≠ m.discr sm.state) :
    replay F (actionsOf (m.steps T)) [] ≠ some (F.path (m.discr (sm.setState s).state)) ∧
    ∀ (cmd : Command S) c, cmd.exec mode m (sm.setState s) = some c → actionsOf (m.steps c.trace) ≠ [] →
      replay F (actionsOf (m.steps (T ++ c.trace))) [] = none := by
  have hr := C71_stack_mirrors_state hF h
  rw [h0] at hr
  refine ⟨?_, ?_⟩
  · rw [hr]
    intro he
    have := Option.some.inj he
    simp only [↓reduceIte, Forest.path, Forest.up, List.cons.injEq, Node.leaf.injEq] at this
    exact hs this.1.symm
  · intro cmd c hc hx
    have e : m.steps (T ++ c.trace) = m.steps T ++ m.steps c.trace := by simp [Machine.steps]
    rw [e, actionsOf_append, replay_append, hr]
    have h0' : (sm.setState s).initialized = true := h0
    cases cmd with
    | init ctx sched =>
      have h' : (sm.setState s).initWithContext mode m ctx sched = some c := hc
      rw [sm_init_initialized h0'] at h'
      cases h'; exact absurd rfl hx
    | handle ev ctx sched =>
      obtain ⟨d, h1, rfl⟩ := (sm_handle_initialized h0' ev ctx sched).1 hc
      by_cases ht : ∃ n t, (responsesOf (m.steps d.trace)).getLast? = some (n, .transition t)
      · obtain ⟨n, t, ht⟩ := ht
        obtain ⟨k, -, k1, -, -, k3, k4, -⟩ := with_transition hF h1 ht
        have hp := actionsOf_prefix k1
        rw [actionsOf_transitionLog, ← k4] at hp
        obtain ⟨a, l, hl⟩ := List.exists_cons_of_ne_nil hx
        have hl : actionsOf (m.steps d.trace) = a :: l := hl
        show (replay F (actionsOf (m.steps d.trace)) (F.path (m.discr sm.state))) = none
        obtain ⟨x, hxx⟩ := exits_cons (F := F) (m.discr s) (m.discr t)
        have e2 : m.discr (InitializedStateMachine.state ⟨(sm.setState s).inner⟩) = m.discr s := rfl
        rw [e2, hxx, hl] at hp
        obtain ⟨z, hz⟩ := hp
        have hz := (List.cons.inj hz).1
        have hz : a = .leave (.leaf (m.discr s)) := hz
        rw [hl, hz]
        simp only [replay, Forest.path, Forest.up, List.head?_cons, Option.some.injEq, Node.leaf.injEq]
        rw [if_neg (fun h => hs h.symm)]
      · have h2 := (no_transition hF h1 (fun n t h' => ht ⟨n, t, h'⟩)).1
        exact absurd (actionsOf_eq_nil_of h2) hx

namespace Sample

/-- The sample's storage and states can be cloned, saved and loaded. -/
def impls : UserImpls sig (List Nat) String where
  cloneShared x := x
  cloneState s := s
  shared := mCodec
  state := stCodec

/-- C71 applies: a machine is loaded in state `s11`; before initialization its state is set to `s12`; it handles `c`
lazily; its local storage is set to 9 and its storage replaced; it is cloned; a call is dropped while the handler is
suspended; and it handles `d`. -/
example : ∃ T sm, Lived .awaitable (machine true) impls T sm ∧ sm.initialized = true ∧ sm.state = (.s11, 0) ∧
    actionsOf ((machine true).steps T) = [.enter (.sup .s), .enter (.sup .s1), .enter (.leaf .s12),
      .leave (.leaf .s12), .leave (.sup .s1), .enter (.sup .s2), .enter (.sup .s21), .enter (.leaf .s211),
      .leave (.leaf .s211), .leave (.sup .s21), .leave (.sup .s2), .enter (.sup .s1), .enter (.leaf .s11)] := by
  obtain ⟨sm0, h0, e0⟩ : ∃ sm, StateMachine.deserialize (S := sig) mCodec stCodec
      (.map [(.str "state", [0, 7]), (.str "shared_storage", [20])]) = .ok sm ∧
      sm = ⟨⟨⟨[], 20⟩, (.s11, 7)⟩, false⟩ := ⟨_, rfl, rfl⟩
  subst e0
  obtain ⟨c1, h1, o1, e1, a1⟩ : ∃ c, Command.exec .awaitable (machine true)
      (⟨⟨⟨[], 20⟩, (.s12, 7)⟩, false⟩ : StateMachine sig) (.handle .c 0 []) = some c ∧ c.out = .ok () ∧
      (c.self.initialized = true ∧ c.self.state = (.s211, 0)) ∧
      actionsOf ((machine true).steps c.trace) = [.enter (.sup .s), .enter (.sup .s1), .enter (.leaf .s12),
        .leave (.leaf .s12), .leave (.sup .s1), .enter (.sup .s2), .enter (.sup .s21), .enter (.leaf .s211)] := by
    simp only [Command.exec]
    sample_case
  have l1 : Lived .awaitable (machine true) impls _ _ := .call (.writeState (.s12, 7) (.loaded h0) (fun h => nomatch h)) h1 o1
  have l2 := Lived.clone (Lived.writeState (s := (.s211, 9)) (Lived.writeShared (x := (⟨[], 30⟩ : M)) l1)
    (fun _ => by show D.s211 = c1.self.state.1; rw [e1.2])) rfl
  have e1' : ((c1.self.setInner (⟨[], 30⟩ : M)).setState (.s211, 9)).clone impls.cloneShared impls.cloneState =
      (⟨⟨⟨[], 30⟩, (.s211, 9)⟩, true⟩ : StateMachine sig) := by
    show (⟨⟨⟨[], 30⟩, (.s211, 9)⟩, c1.self.initialized⟩ : StateMachine sig) = _
    rw [e1.1]
  rw [e1'] at l2
  obtain ⟨c2, h2, e2, a2⟩ : ∃ c, Command.exec .awaitable (machine true)
      (⟨⟨⟨[], 30⟩, (.s211, 9)⟩, true⟩ : StateMachine sig) (.handle .wait 0 []) = some c ∧
      (c.self.shared = ⟨[], 30⟩ ∧ c.self.state = (.s211, 9) ∧ c.self.initialized = true) ∧
      actionsOf ((machine true).steps c.trace) = [] := by
    simp only [Command.exec]
    sample_case
  have e2 : c2.self = ⟨⟨⟨[], 30⟩, (.s211, 9)⟩, true⟩ := by
    obtain ⟨i1, i2, i3⟩ := e2
    show (⟨⟨c2.self.shared, c2.self.state⟩, c2.self.initialized⟩ : StateMachine sig) = _
    rw [i1, i2, i3]
  have l3 := Lived.cut l2 h2 a2
  obtain ⟨c3, h3, o3, e3, a3⟩ : ∃ c, Command.exec .awaitable (machine true) c2.self (.handle .d 0 []) = some c ∧
      c.out = .ok () ∧ (c.self.initialized = true ∧ c.self.state = (.s11, 0)) ∧
      actionsOf ((machine true).steps c.trace) = [.leave (.leaf .s211), .leave (.sup .s21), .leave (.sup .s2),
        .enter (.sup .s1), .enter (.leaf .s11)] := by
    rw [e2]
    simp only [Command.exec]
    sample_case
  refine ⟨_, _, .call l3 h3 o3, e3.1, e3.2, ?_⟩
  have hs : ∀ a b : List (Obs sig), (machine true).steps (a ++ b) = (machine true).steps a ++ (machine true).steps b := by
    simp [Machine.steps]
  rw [hs, hs, actionsOf_append, actionsOf_append, a2, a3]
  show actionsOf ((machine true).steps c1.trace) ++ [] ++ _ = _
  rw [a1]
  rfl

/-- C71, the condition is needed: the case occurs, and then the replay fails. -/
example : ∃ T sm c, Lived .blocking (machine false) impls T sm ∧ sm.initialized = true ∧ sm.state.1 = .s11 ∧
    Command.exec .blocking (machine false) (sm.setState (.s12, 0)) (.handle .c 0 []) = some c ∧
    actionsOf ((machine false).steps c.trace) ≠ [] := by
  obtain ⟨c1, h1, o1, e1⟩ : ∃ c, Command.exec .blocking (machine false)
      (stateMachine (machine false) ⟨[], 0⟩) (.init 0 []) = some c ∧ c.out = .ok () ∧
      (c.self.initialized = true ∧ c.self.state = (.s11, 0)) := by
    simp only [Command.exec]
    sample_case
  obtain ⟨c2, h2, a2⟩ : ∃ c, Command.exec .blocking (machine false)
      ((c1.self.setInner ⟨[], 0⟩).setState (.s12, 0)) (.handle .c 0 []) = some c ∧ actionsOf ((machine false).steps c.trace) ≠ [] := by
    have e1' : (c1.self.setInner ⟨[], 0⟩).setState (.s12, 0) = (⟨⟨⟨[], 0⟩, (.s12, 0)⟩, true⟩ : StateMachine sig) := by
      show (⟨⟨⟨[], 0⟩, (.s12, 0)⟩, c1.self.initialized⟩ : StateMachine sig) = _
      rw [e1.1]
    rw [e1']
    simp only [Command.exec]
    sample_case
  exact ⟨_, _, c2, .writeShared (⟨[], 0⟩ : M) (.call (.new _) h1 o1), e1.1, congrArg Prod.fst e1.2, h2, a2⟩

end Sample
end Statig
