import Verif.Proofs.Api
import Verif.Spec.History
import Verif.Model.Values
/-! # Facts about `StateMachine` calls and histories -/
namespace Statig
variable {S : Sig} {m : Machine S} {F : Forest S.D S.E} {mode : Mode}

theorem sm_init_initialized {sm : StateMachine S} (h0 : sm.initialized = true) (ctx : S.Ctx)
    (sched : List S.In) : sm.initWithContext mode m ctx sched =
      some { out := .ok (), self := sm, ctx := ctx, sched := sched, trace := [] } := by
  unfold StateMachine.initWithContext
  simp [h0]

theorem sm_handle_initialized {sm : StateMachine S} (h0 : sm.initialized = true) (ev : S.Ev) (ctx : S.Ctx)
    (sched : List S.In) {c : Call S (StateMachine S)} :
    sm.handleWithContext mode m ev ctx sched = some c ↔
      ∃ d, (⟨sm.inner⟩ : InitializedStateMachine S).handleWithContext mode m ev ctx sched = some d ∧
        c = { out := d.out, self := ⟨d.self.inner, true⟩, ctx := d.ctx, sched := d.sched, trace := d.trace } := by
  unfold StateMachine.handleWithContext InitializedStateMachine.handleWithContext
  simp only [h0, Bool.true_eq_false, ↓reduceIte, Option.bind_eq_bind]
  cases sm.inner.handle mode m ev ctx sched with
  | none => simp
  | some d => simp [eq_comm]

theorem sm_init_uninitialized {sm : StateMachine S} (h0 : sm.initialized = false) (ctx : S.Ctx)
    (sched : List S.In) {c : Call S (StateMachine S)} :
    sm.initWithContext mode m ctx sched = some c ↔
      ∃ c0, sm.inner.init mode m ctx sched = some c0 ∧
        c = { out := c0.out, self := ⟨c0.self, c0.out.isOk⟩, ctx := c0.ctx, sched := c0.sched,
              trace := c0.trace } := by
  unfold StateMachine.initWithContext
  simp only [h0, ↓reduceIte, Option.bind_eq_bind]
  cases sm.inner.init mode m ctx sched with
  | none => simp
  | some c0 =>
    obtain ⟨o, sf, cx, sc, tr⟩ := c0
    cases o <;> simp [Out.isOk, eq_comm]

theorem sm_handle_uninitialized {sm : StateMachine S} (h0 : sm.initialized = false) (ev : S.Ev) (ctx : S.Ctx)
    (sched : List S.In) {c : Call S (StateMachine S)} :
    sm.handleWithContext mode m ev ctx sched = some c ↔
      ∃ c0, sm.inner.init mode m ctx sched = some c0 ∧
        ((c0.out ≠ .ok () ∧ 
            c = ⟨c0.out, ⟨c0.self, false⟩, c0.ctx, c0.sched, c0.trace⟩) ∨
         (c0.out = .ok () ∧ ∃ d,
            (⟨c0.self⟩ : InitializedStateMachine S).handleWithContext mode m ev c0.ctx c0.sched = some d ∧
            c = ⟨d.out, ⟨d.self.inner, true⟩, d.ctx, d.sched, c0.trace ++ d.trace⟩)) := by
  unfold StateMachine.handleWithContext InitializedStateMachine.handleWithContext
  simp only [h0, ↓reduceIte, Option.bind_eq_bind]
  cases sm.inner.init mode m ctx sched with
  | none => simp
  | some c0 =>
    obtain ⟨o, sf, cx, sc, tr⟩ := c0
    cases o with
    | ok u =>
      simp only [Option.bind_some]
      cases hd : Inner.handle mode m sf ev cx sc with
      | none => simp [hd]
      | some d => simp [hd, eq_comm]
    | panic => simp [eq_comm]
    | stopped => simp [eq_comm]

theorem uninit_init {sm : UninitializedStateMachine S} (ctx : S.Ctx) (sched : List S.In)
    {c : Call S (Option (InitializedStateMachine S))} :
    sm.initWithContext mode m ctx sched = some c ↔
      ∃ c0, sm.inner.init mode m ctx sched = some c0 ∧
        c = { out := c0.out, self := if c0.out.isOk then some ⟨c0.self⟩ else none, ctx := c0.ctx,
              sched := c0.sched, trace := c0.trace } := by
  unfold UninitializedStateMachine.initWithContext
  simp only [Option.bind_eq_bind]
  cases sm.inner.init mode m ctx sched with
  | none => simp
  | some c0 =>
    obtain ⟨o, sf, cx, sc, tr⟩ := c0
    cases o <;> simp only [Out.isOk, Option.bind_some, Option.some.injEq] <;>
      exact ⟨fun h => ⟨_, rfl, h.symm⟩, fun ⟨_, h, h'⟩ => by subst h; exact h'.symm⟩

theorem isOk_iff {o : Out Unit} : o.isOk = true ↔ o = .ok () := by
  cases o <;> simp [Out.isOk]

theorem climb_ne_nil {D E T : Type} {path : List (Node D E)} {cl : List (Node D E × Response T)}
    (h : Climb path cl) : cl ≠ [] := by
  cases h <;> simp

theorem climb_head {D E T : Type} {n : Node D E} {path : List (Node D E)} {cl : List (Node D E × Response T)}
    (h : Climb (n :: path) cl) : ∃ r rest, cl = (n, r) :: rest := by
  cases h
  · exact ⟨_, _, rfl⟩
  · exact ⟨_, _, rfl⟩
  · exact ⟨_, _, rfl⟩

theorem handleLog_head {D E V T : Type} [DecidableEq D] [DecidableEq E] {mode : Mode} {F : Forest D E}
    {variant : T → D} {d : D} {ev : V} {cl : List (Node D E × Response T)} (h : Climb (F.path d) cl) :
    ∃ rest, handleLog mode F variant d ev cl = .beforeDispatch (.leaf d) ev :: rest := by
  obtain ⟨r, rest, rfl⟩ := climb_head h
  cases mode <;> exact ⟨_, rfl⟩

theorem handleEvent_logs (hF : Follows m F) {ev : S.Ev} {s s' : S.St} {g g' : Glob S} {o}
    (h : mode.handleEvent m ev s g = some (o, s', g')) : g'.trace ≠ g.trace := by
  obtain ⟨o1, s1, g1, T1, h1, h2, h3, h4, ⟨L, a, ⟨cl, x, hc, hx, hr, rfl⟩, h6⟩, h9, h7, h8⟩ :=
    does_modeHandle hF mode ev s g
  have hbind : mode.handleEvent m ev s g =
      Eff.bind (mode.handle m ev) (fun r => match r with
        | .transition t => mode.transition m t
        | _ => pure ()) s g := rfl
  have hT1 : T1 ≠ [] := by
    intro h0
    have := h9 h0
    cases o1 with
    | panic => simp [Out.isOk] at this
    | stopped => simp [Out.isOk] at this
    | ok r =>
      obtain ⟨cl, x, hc, -, -, hT⟩ := h4 r rfl
      subst h0
      obtain ⟨r, rest, rfl⟩ := climb_head hc
      cases mode <;> simp [Machine.steps, dispatchLog, blockingLog, sequentialLog] at hT
  have hne : ∀ T2, g.trace ++ T1 ++ T2 ≠ g.trace := by
    intro T2 h0
    rw [List.append_assoc] at h0
    have := List.append_right_eq_self.1 h0
    exact hT1 (List.append_eq_nil_iff.1 this).1
  rw [hbind] at h
  unfold Eff.bind at h
  rw [h1] at h
  cases o1 with
  | panic => cases h; rw [h2]; simpa using hne []
  | stopped => cases h; rw [h2]; simpa using hne []
  | ok r =>
    cases r with
    | handled => cases h; rw [h2]; simpa using hne []
    | super => cases h; rw [h2]; simpa using hne []
    | transition t =>
      obtain ⟨o, s2, g2, T2, k1, k2, -⟩ := transition_spec hF mode s1 t g1
      simp only [k1] at h
      cases h
      rw [k2, h2]
      exact hne T2

/-- The first callback of a `handle` call on an initialized machine is `before_dispatch` of the leaf. -/
theorem handle_first (hF : Follows m F) {sm : InitializedStateMachine S} {ev : S.Ev} {ctx : S.Ctx}
    {sched : List S.In} {d : Call S (InitializedStateMachine S)}
    (h : sm.handleWithContext mode m ev ctx sched = some d) :
    ∃ rest, m.steps d.trace = .beforeDispatch (.leaf (m.discr sm.state)) ev :: rest := by
  have hne : d.trace ≠ [] := by
    have := handleEvent_logs hF (handle_inv h)
    simpa using this
  obtain ⟨c', cl, h0, h1, h2, h3, -⟩ := handle_call hF mode sm ev ctx sched
  obtain rfl : c' = d := by rw [h0] at h; exact Option.some.inj h
  obtain ⟨rest, hr⟩ := handleLog_head (mode := mode) (variant := m.discr) (ev := ev) h1
  rw [hr] at h3
  obtain ⟨x, l, hx⟩ := List.exists_cons_of_ne_nil hne
  have hm : m.steps c'.trace = m.step x :: m.steps l := by rw [hx]; rfl
  rw [hm] at h3
  obtain ⟨k, hk⟩ := h3
  injection hk with hk1 hk2
  exact ⟨m.steps l, by rw [hm, hk1]⟩

end Statig
