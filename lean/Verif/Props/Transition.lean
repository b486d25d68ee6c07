import Verif.Proofs.TransitionValues
import Verif.Proofs.Walk
import Verif.Props.Sample
/-!
# Properties of transitions: C07–C13, C15, C31, C36

`sm` is an initialized machine, `c` the result of one `handle_with_context` call, run against an arbitrary
poll schedule.  "The last handler called returned `Transition(t)`" is
`(responsesOf (m.steps c.trace)).getLast? = some (n, .transition t)`.
-/
namespace Statig
variable {S : Sig} {m : Machine S} {F : Forest S.D S.E} {mode : Mode} {sm : InitializedStateMachine S}
  {ev : S.Ev} {ctx : S.Ctx} {sched : List S.In} {c : Call S (InitializedStateMachine S)}

theorem actionsOf_transitionLog {D E V T : Type} [DecidableEq D] [DecidableEq E] (mode : Mode)
    (F : Forest D E) (d t : D) : actionsOf (transitionLog (V := V) (T := T) mode F d t) =
      (F.exits d t).map .leave ++ (F.entries d t).map .enter := by
  unfold transitionLog
  cases mode <;> simp [actionsOf, List.filterMap_append, List.filterMap_map]

theorem exitsOf_transitionLog {D E V T : Type} [DecidableEq D] [DecidableEq E] (mode : Mode)
    (F : Forest D E) (d t : D) : exitsOf (transitionLog (V := V) (T := T) mode F d t) = F.exits d t := by
  unfold transitionLog
  cases mode <;> simp [exitsOf, List.filterMap_append, List.filterMap_map]

theorem entriesOf_transitionLog {D E V T : Type} [DecidableEq D] [DecidableEq E] (mode : Mode)
    (F : Forest D E) (d t : D) : entriesOf (transitionLog (V := V) (T := T) mode F d t) = F.entries d t := by
  unfold transitionLog
  cases mode <;> simp [entriesOf, List.filterMap_append, List.filterMap_map]

theorem actionsOf_prefix {D E V T : Type} {a b : List (Step D E V T)} (h : a <+: b) :
    actionsOf a <+: actionsOf b := by
  obtain ⟨k, rfl⟩ := h
  rw [actionsOf_append]; exact List.prefix_append _ _

theorem exitsOf_prefix {D E V T : Type} {a b : List (Step D E V T)} (h : a <+: b) :
    exitsOf a <+: exitsOf b := by
  obtain ⟨k, rfl⟩ := h
  rw [exitsOf_append]; exact List.prefix_append _ _

theorem exits_ne_nil (hF : Follows m F) (s t : S.St) : F.exits (m.discr s) (m.discr t) ≠ [] := by
  obtain ⟨x, n, -, h1, h2, -, -, h3, -⟩ := transitionPath_spec hF s t
  rw [h3]
  intro h0
  have := congrArg List.length h0
  simp only [List.length_nil, List.length_take] at this
  omega

theorem entries_ne_nil (hF : Follows m F) (s t : S.St) : F.entries (m.discr s) (m.discr t) ≠ [] := by
  obtain ⟨x, n, -, -, -, h1, h2, -, h3⟩ := transitionPath_spec hF s t
  rw [h3]
  intro h0
  have := congrArg List.length h0
  simp only [List.length_nil, List.length_reverse, List.length_take] at this
  omega

/-! ## C07 -/

/-- C07. A completed transition to a different variant runs exactly these actions, in this order: the exit
actions of the active nodes that are not active in the target, innermost first, and the entry actions of the
target's nodes that were not active, outermost first.  An interrupted one runs an initial part of them. -/
theorem C07_exits_and_entries (hF : Follows m F)
    (h : sm.handleWithContext mode m ev ctx sched = some c) {n t}
    (ht : (responsesOf (m.steps c.trace)).getLast? = some (n, .transition t))
    (hne : m.discr sm.state ≠ m.discr t) :
    (c.out = .ok () → actionsOf (m.steps c.trace) =
      ((F.path (m.discr sm.state)).filter (· ∉ F.path (m.discr t))).map .leave ++
      ((F.path (m.discr t)).filter (· ∉ F.path (m.discr sm.state))).reverse.map .enter) ∧
    actionsOf (m.steps c.trace) <+:
      ((F.path (m.discr sm.state)).filter (· ∉ F.path (m.discr t))).map .leave ++
      ((F.path (m.discr t)).filter (· ∉ F.path (m.discr sm.state))).reverse.map .enter := by
  obtain ⟨k, -, h1, h2, -, -, h3, -⟩ := with_transition hF h ht
  have hlog := actionsOf_transitionLog (V := S.Ev) (T := S.St) mode F (m.discr sm.state) (m.discr t)
  unfold Forest.exits Forest.entries at hlog
  rw [if_neg hne, if_neg hne] at hlog
  rw [h3]
  refine ⟨fun ho => by rw [h2 ho, hlog], ?_⟩
  rw [← hlog]
  exact actionsOf_prefix h1

/-- C07 applies: a completed transition over several levels, and one whose second action panics. -/
example : (∃ c, Sample.call .blocking false (Sample.at_ .s12) .c = some c ∧ c.out = .ok () ∧
      (Sample.responses false c).getLast? = some (.leaf .s12, .transition (.s211, 0)) ∧
      (Sample.at_ .s12).state.1 ≠ .s211) ∧
    (∃ c, Sample.call .awaitable true (Sample.at_ .s12 1) .c = some c ∧ c.out = .panic ∧
      (Sample.responses true c).getLast? = some (.leaf .s12, .transition (.s211, 0)) ∧
      actionsOf ((Sample.machine true).steps c.trace) = [.leave (.leaf .s12), .leave (.sup .s1)]) := by
  constructor
  · sample_case
  · sample_case

/-! ## C08 -/

/-- C08. The number of actions of a completed transition between different variants is the length of a
shortest walk between the two leaves in the state tree. -/
theorem C08_shortest_path (hF : Follows m F)
    (h : sm.handleWithContext mode m ev ctx sched = some c) {n t}
    (ht : (responsesOf (m.steps c.trace)).getLast? = some (n, .transition t))
    (hne : m.discr sm.state ≠ m.discr t) (ho : c.out = .ok ()) :
    F.Walk (some (.leaf (m.discr sm.state))) (some (.leaf (m.discr t)))
      (actionsOf (m.steps c.trace)).length ∧
    ∀ k, F.Walk (some (.leaf (m.discr sm.state))) (some (.leaf (m.discr t))) k →
      (actionsOf (m.steps c.trace)).length ≤ k := by
  obtain ⟨k, -, h1, h2, -, -, h3, -⟩ := with_transition hF h ht
  rw [h3, h2 ho, actionsOf_transitionLog, List.length_append, List.length_map, List.length_map]
  exact F.walk_shortest hne

/-- C08 applies. -/
example : ∃ c, Sample.call .awaitable false (Sample.at_ .s12) .c = some c ∧ c.out = .ok () ∧
    (Sample.responses false c).getLast? = some (.leaf .s12, .transition (.s211, 0)) ∧
    (Sample.at_ .s12).state.1 ≠ .s211 ∧ (actionsOf ((Sample.machine false).steps c.trace)).length = 5 := by
  sample_case

/-! ## C09 -/

/-- C09. A completed self-transition (target of the same variant, whatever its local storage) runs exactly
the leaf's exit action and then its entry action. -/
theorem C09_self_transition (hF : Follows m F)
    (h : sm.handleWithContext mode m ev ctx sched = some c) {n t}
    (ht : (responsesOf (m.steps c.trace)).getLast? = some (n, .transition t))
    (heq : m.discr sm.state = m.discr t) :
    (c.out = .ok () → actionsOf (m.steps c.trace) =
      [.leave (.leaf (m.discr sm.state)), .enter (.leaf (m.discr sm.state))]) ∧
    actionsOf (m.steps c.trace) <+:
      [.leave (.leaf (m.discr sm.state)), .enter (.leaf (m.discr sm.state))] := by
  obtain ⟨k, -, h1, h2, -, -, h3, -⟩ := with_transition hF h ht
  have hlog := actionsOf_transitionLog (V := S.Ev) (T := S.St) mode F (m.discr sm.state) (m.discr t)
  unfold Forest.exits Forest.entries at hlog
  rw [if_pos heq, if_pos heq, ← heq] at hlog
  rw [h3]
  rw [← heq] at h1 h2
  refine ⟨fun ho => by rw [h2 ho, hlog]; rfl, ?_⟩
  have := actionsOf_prefix h1
  rwa [hlog] at this

/-- C09 applies: the target has the same variant and other local storage. -/
example : ∃ c, Sample.call .blocking false (Sample.at_ .s11) .a = some c ∧ c.out = .ok () ∧
    (Sample.responses false c).getLast? = some (.leaf .s11, .transition (.s11, 0)) ∧
    (Sample.at_ .s11).state = (.s11, 7) := by
  sample_case

/-! ## C10 -/

/-- C10. (1) If entry actions do not write local storage, the state after a completed transition is exactly
the value passed to `Transition(..)`, whatever exit actions do.  (2) If exit actions do not write local
storage, `after_transition` receives as first argument exactly the state that dispatch (`StateExt::handle`)
left. (3) If in addition handlers do not write it, that is the state before the call. -/
theorem C10_target_unaffected_by_exit (hF : Follows m F)
    (h : sm.handleWithContext mode m ev ctx sched = some c) {n t}
    (ht : (responsesOf (m.steps c.trace)).getLast? = some (n, .transition t)) :
    (m.EntriesKeep → c.out = .ok () → c.self.state = t) ∧
    (m.ExitsKeep → ∀ a b, .afterTransition a b ∈ c.trace →
      ∃ r s1 g1, mode.handle m ev sm.state
        { sh := sm.inner.shared, ctx := ctx, sched := sched, trace := [] } = some (.ok r, s1, g1) ∧ a = s1) ∧
    (m.ExitsKeep → m.HandlersKeep ev → ∀ a b, .afterTransition a b ∈ c.trace → a = sm.state) := by
  rcases handle_values hF (handle_inv h) with ⟨T, hT, hno, -, -, hnt, -⟩ |
    ⟨t', s1, g1, T1, T2, h1, h2, h3, h3', h4, h5, h5', h6, h7, h8, h9, h10⟩
  · have e : c.trace = T := by simpa using hT
    rw [e] at ht
    refine ⟨fun _ ho => absurd ht (hnt ho n t), fun _ a b hab => ?_, fun _ _ a b hab => ?_⟩
    · rw [e] at hab; exact absurd hab (hno.2 a b)
    · rw [e] at hab; exact absurd hab (hno.2 a b)
  · have e : c.trace = T1 ++ .beforeTransition (mode.beforeArgs s1 t').1 (mode.beforeArgs s1 t').2 :: T2 := by
      simpa using h5
    have hmem : ∀ a b, Obs.afterTransition a b ∈ c.trace → Obs.afterTransition a b ∈ T2 := by
      intro a b hab
      rw [e] at hab
      rcases List.mem_append.1 hab with hab | hab
      · exact absurd hab (h3.2 a b)
      · simpa using hab
    have htt : t = t' := by
      have := h5' n _ (by rw [← e]; exact ht)
      injection this
    subst htt
    refine ⟨fun hk ho => h9 hk ?_, fun hk a b hab => ?_, fun hk hh a b hab => ?_⟩
    · obtain ⟨k, -, -, k2, k3, -⟩ := with_transition hF h ht
      have e3 : entriesOf (m.steps c.trace) = entriesOf (m.steps T2) := by
        have : m.steps c.trace = m.steps T1 ++ m.step (.beforeTransition (mode.beforeArgs s1 t).1
            (mode.beforeArgs s1 t).2) :: m.steps T2 := by rw [e]; simp [Machine.steps]
        rw [this, entriesOf_append, h3']
        simp [Machine.step]
      rw [← e3, k3, k2 ho, entriesOf_transitionLog]
      exact entries_ne_nil hF _ _
    · exact ⟨_, s1, g1, h1, (h7 a b (hmem a b hab)).2 hk⟩
    · rw [(h7 a b (hmem a b hab)).2 hk, h4 hh]

/-- C10 applies. -/
example : (∃ c, Sample.call .awaitable false (Sample.at_ .s12) .c = some c ∧ c.out = .ok () ∧
      (Sample.responses false c).getLast? = some (.leaf .s12, .transition (.s211, 0)) ∧
      Sample.lastAfter c = some ((.s12, 7), (.s211, 0))) ∧
    (Sample.machine false).EntriesKeep ∧ (Sample.machine false).ExitsKeep ∧
    (Sample.machine false).HandlersKeep .c :=
  ⟨by sample_case, Sample.entriesKeep _, Sample.exitsKeep _, Sample.handlersKeep _ (by decide)⟩

/-! ## C11 -/

/-- C11. The transition part of a completed call with a transition is: one `before_transition`, then entry
and exit actions only, then one `after_transition`; that of an interrupted call is an initial part of such a
sequence; and without a `Transition` response no transition hook is called. -/
theorem C11_transition_hooks (hF : Follows m F)
    (h : sm.handleWithContext mode m ev ctx sched = some c) :
    (∀ n t, (responsesOf (m.steps c.trace)).getLast? = some (n, .transition t) →
      ∃ a b x y acts, (∀ s ∈ acts, Step.isAction s = true) ∧
        (m.steps c.trace).filter (fun s => s.ofTransition) <+:
          [.beforeTransition a b] ++ acts ++ [.afterTransition x y] ∧
        (c.out = .ok () → (m.steps c.trace).filter (fun s => s.ofTransition) =
          [.beforeTransition a b] ++ acts ++ [.afterTransition x y])) ∧
    ((∀ n t, (responsesOf (m.steps c.trace)).getLast? ≠ some (n, .transition t)) →
      ∀ s ∈ m.steps c.trace, s.isBeforeTransition = false ∧ s.isAfterTransition = false) := by
  constructor
  · intro n t ht
    obtain ⟨k, hk, h1, h2, -⟩ := with_transition hF h ht
    rw [hk]
    have hshape : ∃ a b x y acts, (∀ s ∈ acts, Step.isAction s = true) ∧
        transitionLog (V := S.Ev) (T := S.St) mode F (m.discr sm.state) (m.discr t) =
          [.beforeTransition a b] ++ acts ++ [.afterTransition x y] := by
      have hacts : ∀ s ∈ (F.exits (m.discr sm.state) (m.discr t)).map (Step.exit (V := S.Ev) (T := S.St)) ++
          (F.entries (m.discr sm.state) (m.discr t)).map .entry, Step.isAction s = true := by
        intro s hs
        rcases List.mem_append.1 hs with hs | hs
        · obtain ⟨n, -, rfl⟩ := List.mem_map.1 hs; rfl
        · obtain ⟨n, -, rfl⟩ := List.mem_map.1 hs; rfl
      cases mode
      · exact ⟨_, _, _, _, _, hacts, rfl⟩
      · exact ⟨_, _, _, _, _, hacts, rfl⟩
    obtain ⟨a, b, x, y, acts, ha, hl⟩ := hshape
    exact ⟨a, b, x, y, acts, ha, hl ▸ h1, fun ho => (h2 ho).trans hl⟩
  · intro hno s hs
    have := (no_transition hF h hno).1 s hs
    cases s <;> simp_all [Step.ofTransition, Step.isBeforeTransition, Step.isAfterTransition]

/-- C11 applies, with and without a transition. -/
example : (∃ c, Sample.call .blocking false (Sample.at_ .s12) .c = some c ∧ c.out = .ok () ∧
      (Sample.responses false c).getLast? = some (.leaf .s12, .transition (.s211, 0))) ∧
    (∃ c, Sample.call .blocking false (Sample.at_ .s12) .bump = some c ∧ c.out = .ok () ∧
      (Sample.responses false c).getLast? = some (.sup .s, .handled)) := by
  constructor
  · sample_case
  · sample_case

/-! ## C12 -/

/-- C12. `after_transition(source, target)`: the second argument is exactly the state the machine is left
in, the first is of the variant left, the second of the variant requested.  It is called in every completed
call with a transition (C11). -/
theorem C12_after_transition_arguments (hF : Follows m F)
    (h : sm.handleWithContext mode m ev ctx sched = some c) {a b : S.St}
    (hab : .afterTransition a b ∈ c.trace) :
    b = c.self.state ∧ m.discr a = m.discr sm.state ∧
    ∃ n t, (responsesOf (m.steps c.trace)).getLast? = some (n, .transition t) ∧ m.discr b = m.discr t := by
  have hmem : m.step (.afterTransition a b) ∈ m.steps c.trace := List.mem_map_of_mem hab
  by_cases ht : ∃ n t, (responsesOf (m.steps c.trace)).getLast? = some (n, .transition t)
  · obtain ⟨n, t, ht⟩ := ht
    obtain ⟨k, hk, h1, -⟩ := with_transition hF h ht
    have hm : Step.afterTransition (m.discr a) (m.discr b) ∈
        transitionLog (V := S.Ev) (T := S.St) mode F (m.discr sm.state) (m.discr t) := by
      apply h1.subset
      rw [← hk]
      exact List.mem_filter.2 ⟨hmem, rfl⟩
    have hd : m.discr a = m.discr sm.state ∧ m.discr b = m.discr t := by
      unfold transitionLog at hm
      cases mode <;> simpa using hm
    refine ⟨?_, hd.1, n, t, ht, hd.2⟩
    rcases handle_values hF (handle_inv h) with ⟨T, hT, hno, -⟩ |
      ⟨t', s1, g1, T1, T2, -, -, h3, -, -, h5, -, -, h7, -⟩
    · have e : c.trace = T := by simpa using hT
      rw [e] at hab; exact absurd hab (hno.2 a b)
    · have e : c.trace = T1 ++ .beforeTransition (mode.beforeArgs s1 t').1 (mode.beforeArgs s1 t').2 :: T2 := by
        simpa using h5
      rw [e] at hab
      rcases List.mem_append.1 hab with hab | hab
      · exact absurd hab (h3.2 a b)
      · exact (h7 a b (by simpa using hab)).1
  · exfalso
    have := (no_transition hF h (fun n t h => ht ⟨n, t, h⟩)).1 _ hmem
    simp [Machine.step, Step.ofTransition] at this

/-- C12 applies. -/
example : ∃ c, Sample.call .blocking false (Sample.at_ .s12) .c = some c ∧
    Sample.lastAfter c = some ((.s12, 7), (.s211, 0)) := by
  sample_case

/-! ## C13 -/

/-- Exact arguments of `before_transition` in both modes. -/
theorem before_transition_args (hF : Follows m F)
    (h : sm.handleWithContext mode m ev ctx sched = some c) {a b : S.St}
    (hab : .beforeTransition a b ∈ c.trace) :
    ∃ t s1 g1, mode.handle m ev sm.state
        { sh := sm.inner.shared, ctx := ctx, sched := sched, trace := [] } =
        some (.ok (.transition t), s1, g1) ∧ (a, b) = mode.beforeArgs s1 t ∧ m.discr s1 = m.discr sm.state := by
  rcases handle_values hF (handle_inv h) with ⟨T, hT, hno, -⟩ |
    ⟨t', s1, g1, T1, T2, h1, -, h3, -, -, h5, -, h6, -⟩
  · have e : c.trace = T := by simpa using hT
    rw [e] at hab; exact absurd hab (hno.1 a b)
  · have e : c.trace = T1 ++ .beforeTransition (mode.beforeArgs s1 t').1 (mode.beforeArgs s1 t').2 :: T2 := by
      simpa using h5
    obtain ⟨-, -, htag, -⟩ := (does_modeHandle hF mode ev sm.state).inv h1
    refine ⟨t', s1, g1, h1, ?_, htag⟩
    rw [e] at hab
    rcases List.mem_append.1 hab with hab | hab
    · exact absurd hab (h3.1 a b)
    · rcases List.mem_cons.1 hab with hab | hab
      · injection hab with h1 h2
        rw [h1, h2]
      · exact absurd hab (h6 a b)

/-- C13, awaitable mode only (the full statement, for both modes, is false: see `C13_blocking_is_swapped`).
`before_transition(source, target)` is called with the state exactly as dispatch (`StateExt::handle`) left it
and exactly the requested target. -/
theorem C13_before_transition_arguments_partial (hF : Follows m F)
    (h : sm.handleWithContext .awaitable m ev ctx sched = some c) {a b : S.St}
    (hab : .beforeTransition a b ∈ c.trace) :
    (∃ g1, Awaitable.handle m ev sm.state
        { sh := sm.inner.shared, ctx := ctx, sched := sched, trace := [] } =
        some (.ok (.transition b), a, g1)) ∧ m.discr a = m.discr sm.state := by
  obtain ⟨t, s1, g1, h1, h2, h3⟩ := before_transition_args hF h hab
  cases h2
  exact ⟨⟨g1, h1⟩, h3⟩

/-- C13 fails in blocking mode: the requested target is passed as the parameter documented as source, the
current state as the parameter documented as target. -/
theorem C13_blocking_is_swapped (hF : Follows m F)
    (h : sm.handleWithContext .blocking m ev ctx sched = some c) {a b : S.St}
    (hab : .beforeTransition a b ∈ c.trace) :
    (∃ g1, Blocking.handle m ev sm.state
        { sh := sm.inner.shared, ctx := ctx, sched := sched, trace := [] } =
        some (.ok (.transition a), b, g1)) ∧ m.discr b = m.discr sm.state := by
  obtain ⟨t, s1, g1, h1, h2, h3⟩ := before_transition_args hF h hab
  cases h2
  exact ⟨⟨g1, h1⟩, h3⟩

/-- Both theorems apply, and the blocking arguments really differ from what C13 asks for: the machine is in
variant `s12` and is asked to go to `s211`, but `before_transition` is told that the source is `s211`. -/
example : (∃ c, Sample.call .awaitable false (Sample.at_ .s12) .c = some c ∧
      Sample.before c = [((.s12, 7), (.s211, 0))]) ∧
    (∃ c, Sample.call .blocking false (Sample.at_ .s12) .c = some c ∧
      Sample.before c = [((.s211, 0), (.s12, 7))]) := by
  constructor
  · sample_case
  · sample_case

/-! ## C15 -/

/-- C15. If no user callback panics, no `handle` call and no initialization panics; and every completed
transition runs at least one exit and one entry action. -/
theorem C15_no_own_panic (hF : Follows m F) :
    (m.NoPanic → ∀ mode sm ev ctx sched c,
      InitializedStateMachine.handleWithContext mode m sm ev ctx sched = some c → c.out ≠ .panic) ∧
    (m.NoPanic → ∀ mode sm ctx sched c,
      UninitializedStateMachine.initWithContext mode m sm ctx sched = some c → c.out ≠ .panic) ∧
    (∀ mode sm ev ctx sched c,
      InitializedStateMachine.handleWithContext mode m sm ev ctx sched = some c → c.out = .ok () →
      ∀ n t, (responsesOf (m.steps c.trace)).getLast? = some (n, .transition t) →
      exitsOf (m.steps c.trace) ≠ [] ∧ entriesOf (m.steps c.trace) ≠ []) := by
  refine ⟨fun hp mode sm ev ctx sched c h => ?_, fun hp mode sm ctx sched c h => ?_,
    fun mode sm ev ctx sched c h ho n t ht => ?_⟩
  · obtain ⟨c', cl, h0, -, -, -, -, -, h1, -⟩ := handle_call hF mode sm ev ctx sched
    rw [h0] at h; cases h
    exact h1 hp
  · obtain ⟨c', h0, -, -, -, h1, -⟩ := init_call hF mode sm.inner ctx sched
    unfold UninitializedStateMachine.initWithContext at h
    rw [h0] at h
    have h1 := h1 hp
    simp only [Option.bind_eq_bind, Option.bind_some] at h
    split at h <;> · cases h; exact h1
  · obtain ⟨k, -, -, h2, h3, h4, -⟩ := with_transition hF h ht
    rw [h3, h4, h2 ho, exitsOf_transitionLog, entriesOf_transitionLog]
    exact ⟨exits_ne_nil hF _ _, entries_ne_nil hF _ _⟩

/-- C15 applies: the sample machine does not panic, and makes transitions. -/
example : (Sample.machine false).NoPanic ∧
    (∃ c, Sample.call .awaitable false (Sample.at_ .s12) .c = some c ∧ c.out = .ok () ∧
      (Sample.responses false c).getLast? = some (.leaf .s12, .transition (.s211, 0))) :=
  ⟨Sample.noPanic, by sample_case⟩

/-! ## C31 -/

/-- C31. Whenever a call with a `Transition(t)` response is cut short (or not), the machine is in the source
variant if no entry action was started, and in the target variant otherwise; the value too, if the actions
that ran do not write local storage. -/
theorem C31_interrupted_transition (hF : Follows m F)
    (h : sm.handleWithContext mode m ev ctx sched = some c) {n t}
    (ht : (responsesOf (m.steps c.trace)).getLast? = some (n, .transition t)) :
    (entriesOf (m.steps c.trace) = [] → m.discr c.self.state = m.discr sm.state) ∧
    (entriesOf (m.steps c.trace) ≠ [] → m.discr c.self.state = m.discr t) ∧
    (m.HandlersKeep ev → m.ExitsKeep → entriesOf (m.steps c.trace) = [] → c.self.state = sm.state) ∧
    (m.EntriesKeep → entriesOf (m.steps c.trace) ≠ [] → c.self.state = t) := by
  obtain ⟨k, -, -, -, h3, -, -, h4, h5⟩ := with_transition hF h ht
  rw [h3]
  refine ⟨h4, h5, ?_⟩
  rw [← h3]
  rcases handle_values hF (handle_inv h) with ⟨T, hT, -, hen, hk, -⟩ |
    ⟨t', s1, g1, T1, T2, -, -, h3, h3', h4, h5, h5', h6, h7, h8, h9, h10⟩
  · have e : c.trace = T := by simpa using hT
    rw [e]
    exact ⟨fun hh _ _ => hk hh, fun _ h0 => absurd hen h0⟩
  · have e : c.trace = T1 ++ .beforeTransition (mode.beforeArgs s1 t').1 (mode.beforeArgs s1 t').2 :: T2 := by
      simpa using h5
    have htt : t = t' := by
      have := h5' n _ (by rw [← e]; exact ht)
      injection this
    subst htt
    have e3 : entriesOf (m.steps c.trace) = entriesOf (m.steps T2) := by
      have : m.steps c.trace = m.steps T1 ++ m.step (.beforeTransition (mode.beforeArgs s1 t).1
          (mode.beforeArgs s1 t).2) :: m.steps T2 := by rw [e]; simp [Machine.steps]
      rw [this, entriesOf_append, h3']
      simp [Machine.step]
    rw [e3]
    exact ⟨fun hh hx h0 => by rw [h10 hx h0, h4 hh], h9⟩

/-- C31 applies: a panic in an exit action leaves the source, one in an entry action the target. -/
example : (∃ c, Sample.call .blocking true (Sample.at_ .s12 1) .c = some c ∧ c.out = .panic ∧
      (Sample.responses true c).getLast? = some (.leaf .s12, .transition (.s211, 0)) ∧
      entriesOf ((Sample.machine true).steps c.trace) = [] ∧ c.self.state = (.s12, 7)) ∧
    (∃ c, Sample.call .awaitable true (Sample.at_ .s12 3) .c = some c ∧ c.out = .panic ∧
      (Sample.responses true c).getLast? = some (.leaf .s12, .transition (.s211, 0)) ∧
      entriesOf ((Sample.machine true).steps c.trace) = [.sup .s2, .sup .s21] ∧
      c.self.state = (.s211, 0)) := by
  constructor
  · sample_case
  · sample_case

/-! ## C36 -/

/-- C36. If handlers do not write local storage when given `ev`, then `state()` is the same value after a
call that made no transition (even if it was cut short). -/
theorem C36_untouched_state (hF : Follows m F)
    (h : sm.handleWithContext mode m ev ctx sched = some c) (hk : m.HandlersKeep ev)
    (hno : ∀ n t, (responsesOf (m.steps c.trace)).getLast? ≠ some (n, .transition t)) :
    c.self.state = sm.state := by
  rcases handle_values hF (handle_inv h) with ⟨T, hT, -, -, h1, -⟩ |
    ⟨t', s1, g1, T1, T2, -, -, h3, h3', h4, h5, h5', h6, h7, h8, h9, h10⟩
  · exact h1 hk
  · exfalso
    have e : c.trace = T1 ++ .beforeTransition (mode.beforeArgs s1 t').1 (mode.beforeArgs s1 t').2 :: T2 := by
      simpa using h5
    have hmem : m.step (.beforeTransition (mode.beforeArgs s1 t').1 (mode.beforeArgs s1 t').2) ∈
        m.steps c.trace := by rw [e]; simp [Machine.steps]
    have := (no_transition hF h hno).1 _ hmem
    simp [Machine.step, Step.ofTransition] at this

/-- C36 applies. -/
example : (∃ c, Sample.call .blocking false (Sample.at_ .s211) .skip = some c ∧
      Sample.responses false c = [(.leaf .s211, .super), (.sup .s21, .super), (.sup .s2, .super),
        (.sup .s, .super)]) ∧ (Sample.machine false).HandlersKeep .skip :=
  ⟨by sample_case, Sample.handlersKeep _ (by decide)⟩

end Statig
