import Verif.Proofs.ImpureStatic
import Verif.Props.Impure
import Verif.Props.History
/-!
# A `superstate()` that changes data but not the hierarchy: C91
-/
namespace Statig
variable {S : Sig} {m : Impure S} {F : Forest S.D S.E} {mode : Mode}

/-- C91. If `superstate()` changes data only, and the hierarchy is static, then a call of `handle` on an initialized
machine is what it is without those changes: it returns; the handlers called, and their responses, are a climb along
the path of the state; a call that completes has exactly the log of dispatch and, if the last handler asked
for a transition, of that transition; one that is cut short has a part of such a log; the state changes
exactly if an entry action was started, and is then of the variant of the target; and the library does not
panic by itself. -/
theorem C91_handle (hF : m.Static F) {sm : StateMachine S} (hi : sm.initialized = true) (ev : S.Ev) (ctx : S.Ctx)
    (sched : List S.In) :
    ∃ c cl, sm.handleImpure mode m ev ctx sched = some c ∧ c.self.initialized = true ∧
      Climb (F.path (m.base.discr sm.state)) cl ∧
      (c.out = .ok () → m.base.steps c.trace = handleLog mode F m.base.discr (m.base.discr sm.state) ev cl) ∧
      m.base.steps c.trace <+: handleLog mode F m.base.discr (m.base.discr sm.state) ev cl ∧
      (entriesOf (m.base.steps c.trace) = [] → m.base.discr c.self.state = m.base.discr sm.state) ∧
      (entriesOf (m.base.steps c.trace) ≠ [] →
        ∃ t, lastResponse cl = some (.transition t) ∧ m.base.discr c.self.state = m.base.discr t) ∧
      (m.base.NoPanic → c.out ≠ .panic) ∧ (m.base.NoSuspend → c.out ≠ .stopped) := by
  obtain ⟨o, s', g', T, cl, h1, h2, h3, h4, h5, h6, h7, h8, h9⟩ := Impure.handleEvent_static hF mode ev sm.inner.state
    { sh := sm.inner.shared, ctx := ctx, sched := sched, trace := [] }
  rw [Impure.forget_steps] at h4 h5 h6 h7
  refine ⟨⟨o, { inner := ⟨g'.sh, s'⟩, initialized := sm.initialized }, g'.ctx, g'.sched, T⟩, cl, ?_, hi, h3, h4, h5, h6,
    h7, fun h => h8 (Impure.forget_all h), fun h => h9 (Impure.forget_all h)⟩
  unfold StateMachine.handleImpure
  rw [if_neg (by simp [hi])]
  simp only [Inner.run, h1, h2]
  simp

/-- C91. Likewise for initialization: it returns; if it completes, the log is that of the entry actions along the path of
the initial state, from the top down; if it is cut short, a part of it; the variant stays. -/
theorem C91_init (hF : m.Static F) {sm : StateMachine S} (hi : sm.initialized = false) (ctx : S.Ctx)
    (sched : List S.In) :
    ∃ c, sm.initImpure mode m ctx sched = some c ∧ (c.self.initialized = true ↔ c.out = .ok ()) ∧
      (c.out = .ok () → m.base.steps c.trace = initLog F (m.base.discr sm.state)) ∧
      m.base.steps c.trace <+: initLog F (m.base.discr sm.state) ∧
      m.base.discr c.self.state = m.base.discr sm.state ∧
      (m.base.NoPanic → c.out ≠ .panic) ∧ (m.base.NoSuspend → c.out ≠ .stopped) := by
  obtain ⟨o, s', g', T, h1, h2, h3, h4, ⟨L, a, rfl, h6⟩, -, h7, h8⟩ := Impure.does_initMode hF mode sm.inner.state
    { sh := sm.inner.shared, ctx := ctx, sched := sched, trace := [] }
  rw [Impure.forget_steps] at h4 h6
  have h4 := h4 ()
  have h7 := fun h => h7 (Impure.forget_all h)
  have h8 := fun h => h8 (Impure.forget_all h)
  have h2 : g'.trace = T := by simpa using h2
  have e : sm.inner.run (m.init mode) ctx sched = some
      { out := o, self := ⟨g'.sh, s'⟩, ctx := g'.ctx, sched := g'.sched, trace := T } := by
    simp only [Inner.run, h1, h2]
  unfold StateMachine.initImpure
  rw [if_pos hi, e]
  cases o with
  | ok u => exact ⟨_, rfl, by simp, h4, h6, h3, h7, h8⟩
  | panic => exact ⟨_, rfl, by simp [hi], h4, h6, h3, h7, h8⟩
  | stopped => exact ⟨_, rfl, by simp [hi], h4, h6, h3, h7, h8⟩

/-- One completed call. -/
theorem Impure.exec_static (hF : m.Static F) (sm : StateMachine S) (cmd : Command S) :
    ∃ c, cmd.execImpure mode m sm = some c ∧ (m.base.NoPanic → c.out ≠ .panic) ∧
      (c.out = .ok () → c.self.initialized = true ∧
        replay F (actionsOf (m.base.steps c.trace)) (if sm.initialized then F.path (m.base.discr sm.state) else []) =
          some (F.path (m.base.discr c.self.state))) := by
  have hh : ∀ {sm : StateMachine S} (_ : sm.initialized = true) ev ctx sched,
      ∃ c, sm.handleImpure mode m ev ctx sched = some c ∧ (m.base.NoPanic → c.out ≠ .panic) ∧
      (c.out = .ok () → c.self.initialized = true ∧
        replay F (actionsOf (m.base.steps c.trace)) (F.path (m.base.discr sm.state)) =
          some (F.path (m.base.discr c.self.state))) := by
    intro sm hi ev ctx sched
    obtain ⟨c, cl, h1, h2, h3, h4, -, h6, h7, h8, -⟩ := C91_handle (mode := mode) hF hi ev ctx sched
    refine ⟨c, h1, h8, fun ho => ⟨h2, ?_⟩⟩
    have h4 := h4 ho
    have hd : ∀ l : List (Step S.D S.E S.Ev S.St), actionsOf (dispatchLog mode ev cl ++ l) = actionsOf l ∧
        entriesOf (dispatchLog mode ev cl ++ l) = entriesOf l := by
      intro l
      rw [actionsOf_append, entriesOf_append, actionsOf_eq_nil_of (dispatchLog_ofTransition mode ev cl),
        entriesOf_eq_nil_of (dispatchLog_ofTransition mode ev cl)]
      exact ⟨rfl, rfl⟩
    obtain ⟨n, r, rest, p, hcl, -⟩ := h3.head
    cases hr : lastResponse cl with
    | none => simp [lastResponse, hcl] at hr
    | some x =>
      by_cases hx : ∃ t, x = .transition t
      · obtain ⟨t, rfl⟩ := hx
        rw [handleLog_transition hr] at h4
        have hne : entriesOf (m.base.steps c.trace) ≠ [] := by
          rw [h4, (hd _).2, entriesOf_transitionLog]; exact entries_ne_nil hF.follows _ _
        obtain ⟨t', e1, e2⟩ := h7 hne
        rw [hr] at e1; cases e1
        rw [h4, (hd _).1, e2, actionsOf_transitionLog]
        obtain ⟨st, r1, -, -, r4⟩ := replay_transition (F := F) (d := m.base.discr sm.state) (t := m.base.discr t)
          (List.prefix_refl _)
        rw [r1, r4 rfl]
      · have hx : ∀ t, x ≠ .transition t := fun t h => hx ⟨t, h⟩
        rw [handleLog_other hr hx] at h4
        have ha : actionsOf (m.base.steps c.trace) = [] := by
          rw [h4]; exact actionsOf_eq_nil_of (dispatchLog_ofTransition mode ev cl)
        have he : entriesOf (m.base.steps c.trace) = [] := by
          rw [h4]; exact entriesOf_eq_nil_of (dispatchLog_ofTransition mode ev cl)
        rw [ha, h6 he]
        rfl
  have hinit : ∀ {sm : StateMachine S} (_ : sm.initialized = false) ctx sched,
      ∃ c, sm.initImpure mode m ctx sched = some c ∧ (m.base.NoPanic → c.out ≠ .panic) ∧
      (c.out = .ok () → c.self.initialized = true ∧
        replay F (actionsOf (m.base.steps c.trace)) [] = some (F.path (m.base.discr c.self.state))) := by
    intro sm hi ctx sched
    obtain ⟨c, h1, h2, h3, -, h5, h6, -⟩ := C91_init (mode := mode) hF hi ctx sched
    refine ⟨c, h1, h6, fun ho => ⟨h2.2 ho, ?_⟩⟩
    rw [h3 ho, actionsOf_initLog, h5]
    obtain ⟨st, r1, -, r3⟩ := replay_init (F := F) (d := m.base.discr sm.state) (List.prefix_refl _)
    rw [r1, r3 rfl]
  cases hi : sm.initialized with
  | true =>
    simp only [if_true]
    cases cmd with
    | init ctx sched =>
      refine ⟨{ out := .ok (), self := sm, ctx := ctx, sched := sched, trace := [] }, ?_, by simp, fun _ => ⟨hi, rfl⟩⟩
      show sm.initImpure mode m ctx sched = _
      unfold StateMachine.initImpure
      rw [if_neg (by simp [hi])]
    | handle ev ctx sched => exact hh hi ev ctx sched
  | false =>
    simp only [Bool.false_eq_true, if_false]
    cases cmd with
    | init ctx sched => exact hinit hi ctx sched
    | handle ev ctx sched =>
      obtain ⟨c, h1, h2, h3⟩ := hinit hi ctx sched
      have key : (Command.handle ev ctx sched).execImpure mode m sm = _ := C90_first hi
      rw [key, h1, Option.bind_some]
      by_cases ho : c.out = .ok ()
      · rw [if_pos ho]
        obtain ⟨k1, k2⟩ := h3 ho
        obtain ⟨d, j1, j2, j3⟩ := hh k1 ev c.ctx c.sched
        rw [j1]
        refine ⟨_, rfl, j2, fun ho' => ⟨(j3 ho').1, ?_⟩⟩
        have hs : m.base.steps (c.trace ++ d.trace) = m.base.steps c.trace ++ m.base.steps d.trace := by
          simp [Machine.steps]
        show replay F (actionsOf (m.base.steps (c.trace ++ d.trace))) [] = _
        rw [hs, actionsOf_append, replay_append, k2]
        exact (j3 ho').2
      · rw [if_neg ho]
        exact ⟨c, rfl, h2, fun h => absurd h ho⟩

/-- C91. Over any history of a fresh machine: every call returns; none panics unless a callback does; and after calls
that all completed, replaying all entry and exit actions (as in C14) succeeds and leaves exactly the path of
`state()` active. -/
theorem C91_history (hF : m.Static F) {sm : StateMachine S} (hi : sm.initialized = false) (cmds : List (Command S)) :
    (callAllImpure mode m sm cmds).length = cmds.length ∧
    (m.base.NoPanic → ∀ c ∈ callAllImpure mode m sm cmds, c.out ≠ .panic) ∧
    ((∀ c ∈ callAllImpure mode m sm cmds, c.out = .ok ()) →
      ∀ last, (callAllImpure mode m sm cmds).getLast? = some last →
        replay F (actionsOf (m.base.steps ((callAllImpure mode m sm cmds).flatMap (·.trace)))) [] =
          some (F.path (m.base.discr last.self.state))) := by
  refine ⟨?_, ?_, ?_⟩
  · clear hi
    induction cmds generalizing sm with
    | nil => rfl
    | cons cmd cmds ih =>
      obtain ⟨c, h1, -⟩ := Impure.exec_static (mode := mode) hF sm cmd
      unfold callAllImpure
      rw [h1]
      simp [ih]
  · intro hp
    clear hi
    induction cmds generalizing sm with
    | nil => intro c hc; cases hc
    | cons cmd cmds ih =>
      obtain ⟨c, h1, h2, -⟩ := Impure.exec_static (mode := mode) hF sm cmd
      unfold callAllImpure
      rw [h1]
      intro c' hc'
      rcases List.mem_cons.1 hc' with rfl | hc'
      · exact h2 hp
      · exact ih c' hc'
  · have key : ∀ (cmds : List (Command S)) (sm : StateMachine S),
        (∀ c ∈ callAllImpure mode m sm cmds, c.out = .ok ()) →
        ∀ last, (callAllImpure mode m sm cmds).getLast? = some last →
        replay F (actionsOf (m.base.steps ((callAllImpure mode m sm cmds).flatMap (·.trace))))
          (if sm.initialized then F.path (m.base.discr sm.state) else []) =
          some (F.path (m.base.discr last.self.state)) := by
      intro cmds
      induction cmds with
      | nil => intro sm _ last h; simp [callAllImpure] at h
      | cons cmd cmds ih =>
        intro sm hok last hl
        obtain ⟨c, h1, -, h3⟩ := Impure.exec_static (mode := mode) hF sm cmd
        unfold callAllImpure at hok hl ⊢
        rw [h1] at hok hl ⊢
        dsimp only at hok hl ⊢
        obtain ⟨k1, k2⟩ := h3 (hok c (by simp))
        have hs : m.base.steps ((c :: callAllImpure mode m c.self cmds).flatMap (·.trace)) =
            m.base.steps c.trace ++ m.base.steps ((callAllImpure mode m c.self cmds).flatMap (·.trace)) := by
          simp [Machine.steps]
        rw [hs, actionsOf_append, replay_append, k2, Option.bind_some]
        cases hc : callAllImpure mode m c.self cmds with
        | nil =>
          rw [hc] at hl
          cases hl
          rfl
        | cons d ds =>
          have := ih c.self (fun x hx => hok x (by simp [hx])) last (by rw [hc] at hl ⊢; simpa using hl)
          rw [k1, hc] at this
          simpa using this
    intro hok last hl
    have := key cmds sm hok last hl
    rw [hi] at this
    simpa using this

namespace Sample

/-- The machine, with a `superstate()` that counts in local storage how often it was called. -/
def counting : Impure sig where
  base := machine false
  superstate s := .some (leafParent s.1, s.2 + 1) fun v => (s.1, v.2)
  supSuperstate v := match supParent v.1 with
    | none => .none (v.1, v.2 + 1)
    | some p => .some (p, v.2 + 1) fun w => (v.1, w.2)

/-- `C91_handle`, `C91_init` and `C91_history` apply. -/
theorem counting_static : counting.Static forest where
  leaf s := ⟨rfl, fun _ _ => rfl⟩
  sup v := by
    obtain ⟨e, n⟩ := v
    cases e <;> exact ⟨rfl, by first | rfl | exact fun _ _ => rfl⟩
  handler := (follows false).handler
  entry := (follows false).entry
  exit := (follows false).exit
  supHandler := (follows false).supHandler
  supEntry := (follows false).supEntry
  supExit := (follows false).supExit

/-- It does have effects: on the way up from `S11` the number goes from 0 to 3. -/
example : ∃ v back, counting.superstate (.s11, 0) = .some v back ∧ back v = (.s11, 1) ∧
    ∃ w back', counting.supSuperstate v = .some w back' ∧ back (back' w) = (.s11, 2) ∧
      ∃ w', counting.supSuperstate w = .none w' ∧ back (back' w') = (.s11, 3) :=
  ⟨_, _, rfl, rfl, _, _, rfl, rfl, _, rfl, rfl⟩

/-- A case that is not trivial: a transition from `S11` to `S12`, inside `S1`. -/
example : ∀ mode, ∃ c, (lazyAt .s11 0).handleImpure mode counting .b 0 [] = some c ∧ c.out = .ok () ∧
    exitsOf (counting.base.steps c.trace) = [.leaf .s11] ∧ entriesOf (counting.base.steps c.trace) = [.leaf .s12] ∧
    counting.base.discr c.self.state = .s12 := by
  intro mode
  obtain ⟨c, cl, h1, -, h3, h4, -, -, h7, h8, h9⟩ := C91_handle (mode := mode) counting_static (sm := lazyAt .s11 0) rfl
    .b 0 []
  have ho : c.out = .ok () := by
    have h8 := h8 noPanic
    have h9 := h9 noSuspend
    cases hc : c.out with
    | ok u => rfl
    | panic => exact absurd hc h8
    | stopped => exact absurd hc h9
  have hlog := h4 ho
  have hev : ∃ T o s' g', counting.handleEvent mode .b (.s11, 0) ⟨⟨[], 0⟩, 0, [], []⟩ = some (o, s', g') ∧
      g'.trace = [.beforeDispatch (.state (.s11, 0)) .b, .handler (.state (.s11, 0)) .b,
        .returned (.state (.s11, 0)) (.transition (.s12, 0)), .afterDispatch (.state (.s11, 0)) .b] ++ T := by
    have ev : counting.handleEvent mode .b (.s11, 0) ⟨⟨[], 0⟩, 0, [], []⟩ = counting.transition mode (.s12, 0) (.s11, 0)
        ⟨⟨[], 0⟩, 0, [], [.beforeDispatch (.state (.s11, 0)) .b, .handler (.state (.s11, 0)) .b,
          .returned (.state (.s11, 0)) (.transition (.s12, 0)), .afterDispatch (.state (.s11, 0)) .b]⟩ := by
      cases mode <;> rfl
    obtain ⟨o, s', g', T, k1, k2, -⟩ := Impure.transition_static counting_static mode (.s11, 0) (.s12, 0)
      ⟨⟨[], 0⟩, 0, [], [.beforeDispatch (.state (.s11, 0)) .b, .handler (.state (.s11, 0)) .b,
          .returned (.state (.s11, 0)) (.transition (.s12, 0)), .afterDispatch (.state (.s11, 0)) .b]⟩
    exact ⟨T, o, s', g', ev.trans k1, k2⟩
  obtain ⟨T, o, s', g', e1, e2⟩ := hev
  obtain ⟨-, g'', e3, e4⟩ := Impure.handle_inv (m := counting) (sm := lazyAt .s11 0) rfl h1
  have e5 : g'' = g' := by
    have : some (o, s', g') = some (c.out, c.self.state, g'') := e1.symm.trans e3
    cases this; rfl
  rw [e4, e5, e2] at hlog
  have hcl : lastResponse cl = some (.transition (.s12, 0)) := by
    have hr := congrArg responsesOf hlog
    rw [responsesOf_handleLog] at hr
    have : ∃ rest, cl = (.leaf .s11, .transition (.s12, 0)) :: rest := ⟨_, hr.symm⟩
    obtain ⟨rest, rfl⟩ := this
    cases h3 with
    | stop _ => rfl
  rw [← e2, ← e5, ← e4, handleLog_transition hcl] at hlog
  have hd := dispatchLog_ofTransition mode Ev.b cl
  have hx : exitsOf (counting.base.steps c.trace) = [.leaf .s11] := by
    rw [hlog, exitsOf_append]
    have : exitsOf (dispatchLog mode Ev.b cl) = [] := by
      unfold exitsOf
      rw [List.filterMap_eq_nil_iff]
      intro x hx
      have := hd x hx
      cases x <;> simp_all [Step.ofTransition]
    rw [this]
    cases mode <;> rfl
  have hn : entriesOf (counting.base.steps c.trace) = [.leaf .s12] := by
    rw [hlog, entriesOf_append, entriesOf_eq_nil_of hd]
    cases mode <;> rfl
  refine ⟨c, h1, ho, hx, hn, ?_⟩
  obtain ⟨t, t1, t2⟩ := h7 (by rw [hn]; simp)
  rw [hcl] at t1
  cases t1
  exact t2

end Sample
end Statig
