import Verif.Proofs.Api
import Verif.Props.Sample
/-!
# Properties of dispatch: C01–C06, C28, C30, C33

`sm` is an initialized machine, `c` the result of one `handle_with_context` call, run against an arbitrary
poll schedule; `c.out` tells whether it completed (`.ok ()`), panicked or was dropped.
-/
namespace Statig
variable {S : Sig} {m : Machine S} {F : Forest S.D S.E} {mode : Mode} {sm : InitializedStateMachine S}
  {ev : S.Ev} {ctx : S.Ctx} {sched : List S.In} {c : Call S (InitializedStateMachine S)}

/-- C01. Whenever a handler is called: the handlers called before it are exactly those of the nodes below
it on the path from the leaf to the root, they have all returned, all with `Super`, and the event is the one
passed to `handle`.  This also holds if the call is interrupted.  If the call completes, at least the leaf's
handler was called, every handler called has returned, and the last one returned something other than
`Super` unless it is the root's. -/
theorem C01_dispatch_climbs (hF : Follows m F)
    (h : sm.handleWithContext mode m ev ctx sched = some c) :
    (∀ pre n e post, m.steps c.trace = pre ++ .handler n e :: post →
      handlersOf pre ++ [n] <+: F.path (m.discr sm.state) ∧
      responsesOf pre = (handlersOf pre).map (fun x => (x, .super)) ∧ e = ev) ∧
    (c.out = .ok () → ∃ below n above r,
      F.path (m.discr sm.state) = below ++ n :: above ∧
      handlersOf (m.steps c.trace) = below ++ [n] ∧
      responsesOf (m.steps c.trace) = below.map (fun x => (x, .super)) ++ [(n, r)] ∧
      (r = .super → above = [])) := by
  obtain ⟨c', cl, h0, h1, h2, h3, -⟩ := handle_call hF mode sm ev ctx sched
  obtain rfl : c' = c := by rw [h0] at h; exact Option.some.inj h
  constructor
  · intro pre n e post hl
    have := always_prefix (always_handleLog (ev := ev) (mode := mode) (F := F) (variant := m.discr)
      (d := m.discr sm.state) h1) h3
    rw [hl] at this
    exact always_split this
  · intro ho
    obtain ⟨below, n, above, r, hp, rfl, hr⟩ := climb_iff.1 h1
    refine ⟨below, n, above, r, hp, ?_, ?_, hr⟩
    · rw [h2 ho, handlersOf_handleLog]; simp [Function.comp_def]
    · rw [h2 ho, responsesOf_handleLog]

/-- C01 applies: `b` climbs from a leaf over three superstates. -/
example : ∃ c, Sample.call .blocking false (Sample.at_ .s211) .b = some c ∧ c.out = .ok () ∧
    handlersOf ((Sample.machine false).steps c.trace) = [.leaf .s211, .sup .s21, .sup .s2, .sup .s] := by
  sample_case

/-- C02. If every handler that returned deferred the event, nothing happens: no transition hook, no entry
and no exit action, and the state variant stays. -/
theorem C02_all_super_changes_nothing (hF : Follows m F)
    (h : sm.handleWithContext mode m ev ctx sched = some c)
    (hsuper : ∀ p ∈ responsesOf (m.steps c.trace), p.2 = .super) :
    (∀ x ∈ m.steps c.trace, x.ofTransition = false) ∧ m.discr c.self.state = m.discr sm.state := by
  refine no_transition hF h ?_
  intro n t hl
  have := hsuper _ (List.mem_of_getLast? hl)
  cases this

/-- C02 applies: everyone defers `skip`. -/
example : ∃ c, Sample.call .awaitable false (Sample.at_ .s211) .skip = some c ∧ c.out = .ok () ∧
    Sample.responses false c = [(.leaf .s211, .super), (.sup .s21, .super), (.sup .s2, .super),
      (.sup .s, .super)] := by
  sample_case

/-- C03. If the last handler called returned `Handled`, there is no transition. -/
theorem C03_handled_no_transition (hF : Follows m F)
    (h : sm.handleWithContext mode m ev ctx sched = some c) {n : Node S.D S.E}
    (hlast : (responsesOf (m.steps c.trace)).getLast? = some (n, .handled)) :
    (∀ x ∈ m.steps c.trace, x.ofTransition = false) ∧ m.discr c.self.state = m.discr sm.state := by
  refine no_transition hF h ?_
  intro n' t hl
  rw [hlast] at hl
  cases hl

/-- C03 applies: `bump` is handled by the root after three deferrals. -/
example : ∃ c, Sample.call .blocking false (Sample.at_ .s211) .bump = some c ∧ c.out = .ok () ∧
    (Sample.responses false c).getLast? = some (.sup .s, .handled) := by
  sample_case

/-- C04. In a completed call a transition happens iff the last handler called returned `Transition(t)`; it
is then a single one (each transition hook is called once) and ends in the variant of `t`.  Even an
interrupted call starts at most one transition. -/
theorem C04_single_transition (hF : Follows m F)
    (h : sm.handleWithContext mode m ev ctx sched = some c) :
    (c.out = .ok () → ((∃ x ∈ m.steps c.trace, x.ofTransition = true) ↔
      ∃ n t, (responsesOf (m.steps c.trace)).getLast? = some (n, .transition t))) ∧
    (c.out = .ok () → ∀ n t, (responsesOf (m.steps c.trace)).getLast? = some (n, .transition t) →
      m.discr c.self.state = m.discr t ∧
      (m.steps c.trace).countP Step.isBeforeTransition = 1 ∧
      (m.steps c.trace).countP Step.isAfterTransition = 1) ∧
    (m.steps c.trace).countP Step.isBeforeTransition ≤ 1 ∧
    (m.steps c.trace).countP Step.isAfterTransition ≤ 1 := by
  have hcount : ∀ (p : Step S.D S.E S.Ev S.St → Bool), (∀ x, p x = true → x.ofTransition = true) →
      ∀ l : List (Step S.D S.E S.Ev S.St), l.countP p = (l.filter (fun x => x.ofTransition)).countP p := by
    intro p hp l
    rw [List.countP_filter]
    apply List.countP_congr
    intro x _
    constructor
    · intro hx; simp [hx, hp x hx]
    · intro hx; simp at hx; exact hx.1
  have hb := hcount Step.isBeforeTransition (fun x => by cases x <;> simp [Step.isBeforeTransition, Step.ofTransition])
  have ha := hcount Step.isAfterTransition (fun x => by cases x <;> simp [Step.isAfterTransition, Step.ofTransition])
  have hone : ∀ t, (transitionLog (V := S.Ev) (T := S.St) mode F (m.discr sm.state) t).countP
        Step.isBeforeTransition = 1 ∧
      (transitionLog (V := S.Ev) (T := S.St) mode F (m.discr sm.state) t).countP
        Step.isAfterTransition = 1 := by
    intro t
    have e1 : ∀ l : List (Node S.D S.E), (l.map (Step.exit (V := S.Ev) (T := S.St))).countP
        Step.isBeforeTransition = 0 := fun l => by
      rw [List.countP_eq_zero]; intro x hx; simp at hx; obtain ⟨n, -, rfl⟩ := hx; simp [Step.isBeforeTransition]
    have e2 : ∀ l : List (Node S.D S.E), (l.map (Step.exit (V := S.Ev) (T := S.St))).countP
        Step.isAfterTransition = 0 := fun l => by
      rw [List.countP_eq_zero]; intro x hx; simp at hx; obtain ⟨n, -, rfl⟩ := hx; simp [Step.isAfterTransition]
    have e3 : ∀ l : List (Node S.D S.E), (l.map (Step.entry (V := S.Ev) (T := S.St))).countP
        Step.isBeforeTransition = 0 := fun l => by
      rw [List.countP_eq_zero]; intro x hx; simp at hx; obtain ⟨n, -, rfl⟩ := hx; simp [Step.isBeforeTransition]
    have e4 : ∀ l : List (Node S.D S.E), (l.map (Step.entry (V := S.Ev) (T := S.St))).countP
        Step.isAfterTransition = 0 := fun l => by
      rw [List.countP_eq_zero]; intro x hx; simp at hx; obtain ⟨n, -, rfl⟩ := hx; simp [Step.isAfterTransition]
    unfold transitionLog
    cases mode <;>
      simp only [List.countP_cons, List.countP_append, e1, e2, e3, e4, List.countP_nil,
        Step.isBeforeTransition, Step.isAfterTransition] <;> simp
  by_cases htr : ∃ n t, (responsesOf (m.steps c.trace)).getLast? = some (n, .transition t)
  · obtain ⟨n, t, ht⟩ := htr
    obtain ⟨k, hk, h1, h2, h3, -, -, h4, h5⟩ := with_transition hF h ht
    rw [hb, ha, hk]
    refine ⟨fun ho => ⟨fun _ => ⟨n, t, ht⟩, fun _ => ?_⟩, fun ho n' t' ht' => ?_, ?_, ?_⟩
    · obtain ⟨k1, hk1⟩ : ∃ x, x ∈ k := by rw [h2 ho]; exact ⟨_, List.mem_cons_self⟩
      rw [← hk] at hk1
      exact ⟨k1, (List.mem_filter.1 hk1).1, (List.mem_filter.1 hk1).2⟩
    · rw [ht] at ht'; cases ht'
      refine ⟨h5 ?_, ?_⟩
      · rw [h2 ho]
        intro he
        have : F.entries (m.discr sm.state) (m.discr t) = [] := by
          cases mode <;> simpa [transitionLog, entriesOf_append, entriesOf, List.filterMap_map,
            Function.comp_def] using he
        obtain ⟨x, n, -, -, -, h1n, h2n, -, hent⟩ := transitionPath_spec hF sm.state t
        rw [this] at hent
        have := congrArg List.length hent
        simp only [List.length_nil, List.length_reverse, List.length_take] at this
        omega
      · rw [h2 ho]; exact hone _
    · have := h1.sublist.countP_le (p := Step.isBeforeTransition)
      rwa [(hone _).1] at this
    · have := h1.sublist.countP_le (p := Step.isAfterTransition)
      rwa [(hone _).2] at this
  · obtain ⟨h1, h2⟩ := no_transition hF h (fun n t ht => htr ⟨n, t, ht⟩)
    have hnil : (m.steps c.trace).filter (fun x => x.ofTransition) = [] := by
      rw [List.filter_eq_nil_iff]; intro x hx; simp [h1 x hx]
    rw [hb, ha, hnil]
    refine ⟨fun _ => ⟨fun ⟨x, hx, hx'⟩ => ?_, fun h => absurd h htr⟩, fun _ n t ht => absurd ⟨n, t, ht⟩ htr,
      by simp, by simp⟩
    rw [h1 x hx] at hx'; simp at hx'

/-- C04 applies: a superstate requests a transition. -/
example : ∃ c, Sample.call .awaitable false (Sample.at_ .s211) .d = some c ∧ c.out = .ok () ∧
    (Sample.responses false c).getLast? = some (.sup .s2, .transition (.s11, 0)) := by
  sample_case

/-- C05. Blocking mode: the dispatch part of a completed call is exactly: the leaf announced, handled and
closed; then the superstates announced and handled in order and closed in the opposite order, each
exactly once and with the event passed to `handle`.  (`responsesOf` lists the handlers called; see C01.)
An interrupted call makes only an initial part of such a sequence. -/
theorem C05_blocking_dispatch_hooks (hF : Follows m F)
    (h : sm.handleWithContext .blocking m ev ctx sched = some c) :
    (c.out = .ok () → (m.steps c.trace).filter (fun x => !x.ofTransition) =
      blockingLog ev (responsesOf (m.steps c.trace))) ∧
    ∃ cl, Climb (F.path (m.discr sm.state)) cl ∧
      (m.steps c.trace).filter (fun x => !x.ofTransition) <+: blockingLog ev cl := by
  obtain ⟨c', cl, h0, h1, h2, h3, -⟩ := handle_call hF .blocking sm ev ctx sched
  obtain rfl : c' = c := by rw [h0] at h; exact Option.some.inj h
  refine ⟨fun ho => ?_, cl, h1, ?_⟩
  · rw [h2 ho, filter_dispatch_handleLog, responsesOf_handleLog]; rfl
  · have := h3.filter (fun x => !x.ofTransition)
    rw [filter_dispatch_handleLog] at this
    exact this

/-- C05 applies: a completed climb over three superstates, and one interrupted in the leaf. -/
example : (∃ c, Sample.call .blocking false (Sample.at_ .s211) .b = some c ∧ c.out = .ok ()) ∧
    (∃ c, Sample.call .blocking true (Sample.at_ .s211) .bomb = some c ∧ c.out = .panic) := by
  constructor
  · sample_case
  · sample_case

/-- C06. Awaitable mode: the dispatch part of a completed call is exactly: for every level dispatched to,
in order, before_dispatch, handler, after_dispatch.  An interrupted call makes only an initial part of such
a sequence. -/
theorem C06_awaitable_dispatch_hooks (hF : Follows m F)
    (h : sm.handleWithContext .awaitable m ev ctx sched = some c) :
    (c.out = .ok () → (m.steps c.trace).filter (fun x => !x.ofTransition) =
      (responsesOf (m.steps c.trace)).flatMap (fun p =>
        [.beforeDispatch p.1 ev, .handler p.1 ev, .returned p.1 p.2, .afterDispatch p.1 ev])) ∧
    ∃ cl, Climb (F.path (m.discr sm.state)) cl ∧
      (m.steps c.trace).filter (fun x => !x.ofTransition) <+: sequentialLog ev cl := by
  have hseq : ∀ cl : List (Node S.D S.E × Response S.St), sequentialLog ev cl = cl.flatMap (fun p =>
        [.beforeDispatch p.1 ev, .handler p.1 ev, .returned p.1 p.2, .afterDispatch p.1 ev]) := by
    intro cl
    induction cl with
    | nil => rfl
    | cons p cl ih => rw [List.flatMap_cons, ← ih]; rfl
  obtain ⟨c', cl, h0, h1, h2, h3, -⟩ := handle_call hF .awaitable sm ev ctx sched
  obtain rfl : c' = c := by rw [h0] at h; exact Option.some.inj h
  refine ⟨fun ho => ?_, cl, h1, ?_⟩
  · rw [h2 ho, filter_dispatch_handleLog, responsesOf_handleLog]; exact hseq cl
  · have := h3.filter (fun x => !x.ofTransition)
    rw [filter_dispatch_handleLog] at this
    exact this

/-- C06 applies: a completed climb over three superstates, and one dropped in the leaf. -/
example : (∃ c, Sample.call .awaitable false (Sample.at_ .s211) .b = some c ∧ c.out = .ok ()) ∧
    (∃ c, Sample.call .awaitable true (Sample.at_ .s211) .wait = some c ∧ c.out = .stopped) := by
  constructor
  · sample_case
  · sample_case

/-- C28, blocking: `StateExt::handle` returns the response of the last handler called. -/
theorem C28_blocking_handle_result (hF : Follows m F) {s s' : S.St} {g g' : Glob S} {r : Response S.St}
    (h : Blocking.handle m ev s g = some (.ok r, s', g')) :
    ∃ T n, g'.trace = g.trace ++ T ∧ (responsesOf (m.steps T)).getLast? = some (n, r) := by
  obtain ⟨o, s1, g1, T, k1, k2, k3, k4, -⟩ := does_handle hF ev s g
  rw [h] at k1
  cases k1
  obtain ⟨cl, hc, hl, hT⟩ := k4 r rfl
  obtain ⟨below, n, above, r', -, rfl, -⟩ := climb_iff.1 hc
  refine ⟨T, n, k2, ?_⟩
  have := responsesOf_dispatchLog .blocking ev (below.map (fun x => (x, Response.super)) ++ [(n, r')])
  rw [hT]
  refine (congrArg List.getLast? this).trans ?_
  simp [lastResponse] at hl
  simp [hl]

/-- C28 (blocking) applies: everyone defers. -/
example : ∃ r, Blocking.handle (Sample.machine false) .skip (.s211, 7)
    { sh := ⟨[], 0⟩, ctx := 0, sched := [], trace := [] } = some r ∧ r.1 = .ok .super := by
  sample_case

/-- C28, awaitable: `StateExt::handle` returns the response of the last handler called, except that it
returns `Handled` instead of `Super` if everyone deferred and the leaf has a superstate. -/
theorem C28_awaitable_handle_result (hF : Follows m F) {s s' : S.St} {g g' : Glob S} {r : Response S.St}
    (h : Awaitable.handle m ev s g = some (.ok r, s', g')) :
    ∃ T n x, g'.trace = g.trace ++ T ∧ (responsesOf (m.steps T)).getLast? = some (n, x) ∧
      (x = .super → (F.leafParent (m.discr s) = none ∧ r = .super) ∨
        (F.leafParent (m.discr s) ≠ none ∧ r = .handled)) ∧
      (x ≠ .super → r = x) := by
  obtain ⟨o, s1, g1, T, k1, k2, k3, k4, -⟩ := does_awaitHandle hF ev s g
  rw [h] at k1
  cases k1
  obtain ⟨cl, x, hc, hl, hr, hT⟩ := k4 r rfl
  obtain ⟨below, n, above, r', -, rfl, -⟩ := climb_iff.1 hc
  have hx : r' = x := by simpa [lastResponse] using hl
  subst hx
  refine ⟨T, n, r', k2, ?_, ?_, ?_⟩
  · rw [hT, responsesOf_sequentialLog]; simp
  · rintro rfl
    have hp := F.leafAnc_eq (m.discr s)
    cases hpar : F.leafParent (m.discr s) with
    | none => left; simp [hp, hpar] at hr; exact ⟨rfl, hr⟩
    | some e => right; simp [hp, hpar, Forest.chain, superToHandled] at hr; exact ⟨by simp, hr⟩
  · intro hne
    rw [hr]
    cases r' with
    | super => exact absurd rfl hne
    | _ => split <;> rfl

/-- C28 (awaitable) applies: everyone defers. -/
example : ∃ r, Awaitable.handle (Sample.machine false) .skip (.s211, 7)
    { sh := ⟨[], 0⟩, ctx := 0, sched := [], trace := [] } = some r ∧ r.1 = .ok .handled := by
  sample_case

/-- C33. If the last callback a call started (say because it panicked or its future was dropped there) is a handler or a dispatch hook, then no
entry action, exit action or transition hook has run and the state variant is unchanged. -/
theorem C33_interrupted_dispatch (hF : Follows m F)
    (h : sm.handleWithContext mode m ev ctx sched = some c)
    (hlast : ∀ x, (m.steps c.trace).getLast? = some x → x.ofTransition = false) :
    (∀ x ∈ m.steps c.trace, x.ofTransition = false) ∧ m.discr c.self.state = m.discr sm.state := by
  obtain ⟨cl, hc, (⟨h1, -, h2⟩ | ⟨h1, k, h2, h3, -, h4, -⟩)⟩ := handle_phases hF h
  · exact ⟨fun x hx => dispatchLog_ofTransition mode ev cl x (h1.subset hx), h2⟩
  · rcases List.eq_nil_or_concat k with rfl | ⟨k', x, rfl⟩
    · refine ⟨?_, h4 rfl⟩
      rw [h2, List.append_nil]
      exact dispatchLog_ofTransition mode ev cl
    · have hx := hlast x (by rw [h2]; simp)
      have := tailLog_ofTransition x (h3.subset (by simp))
      rw [hx] at this; simp at this

/-- C33 applies: the leaf's handler panics, or is dropped while suspended. -/
example : (∃ c, Sample.call .blocking true (Sample.at_ .s211) .bomb = some c ∧ c.out = .panic ∧
      ((Sample.machine true).steps c.trace).getLast?.map (fun x => x.ofTransition) = some false) ∧
    (∃ c, Sample.call .awaitable true (Sample.at_ .s211) .wait = some c ∧ c.out = .stopped ∧
      ((Sample.machine true).steps c.trace).getLast?.map (fun x => x.ofTransition) = some false) := by
  constructor
  · sample_case
  · sample_case

/-- C30. Whatever the poll schedule: the log of a call is a prefix of a log that is allowed for a complete
call (handlers climbing from the leaf, then the transition to the requested variant, if any), and is such a
log if the call completes.  Dropping the future or a panic only truncates it. -/
theorem C30_schedules_cannot_reorder (hF : Follows m F)
    (h : sm.handleWithContext mode m ev ctx sched = some c) :
    ∃ cl, Climb (F.path (m.discr sm.state)) cl ∧
      m.steps c.trace <+: handleLog mode F m.discr (m.discr sm.state) ev cl ∧
      (c.out = .ok () → m.steps c.trace = handleLog mode F m.discr (m.discr sm.state) ev cl) := by
  obtain ⟨c', cl, h0, h1, h2, h3, -⟩ := handle_call hF mode sm ev ctx sched
  obtain rfl : c' = c := by rw [h0] at h; exact Option.some.inj h
  exact ⟨cl, h1, h3, h2⟩

/-- C30 applies: with one poll the suspended handler completes, without it is dropped. -/
example : (∃ c, Sample.call .awaitable true (Sample.at_ .s211) .wait [()] = some c ∧ c.out = .ok ()) ∧
    (∃ c, Sample.call .awaitable true (Sample.at_ .s211) .wait [] = some c ∧ c.out = .stopped) := by
  constructor
  · sample_case
  · sample_case

end Statig
