import Verif.Proofs.Inline
import Verif.Props.Contract
/-!
# Sharing behaviour in superstates: C76
-/
namespace Statig
variable {S : Sig} {m n : Machine S} {F : Forest S.D S.E}

theorem run_alike {x y : Eff S S.St Unit} (i : Inner S) (ctx : S.Ctx) (sched : List S.In)
    (h : Alike Eq i.state x y) :
    OptRel (fun c d => d.out = c.out ∧ d.self = c.self ∧ d.ctx = c.ctx ∧ d.sched = c.sched ∧
      d.trace.filter Obs.ofTransition = c.trace.filter Obs.ofTransition) (i.run x ctx sched) (i.run y ctx sched) := by
  simp only [Inner.run]
  have := h ⟨i.shared, ctx, sched, []⟩ ⟨i.shared, ctx, sched, []⟩ ⟨rfl, rfl, rfl, rfl⟩
  generalize x i.state _ = a at this
  generalize y i.state _ = b at this
  cases this with
  | none => exact .none
  | @some p q h =>
    obtain ⟨o, s, g⟩ := p
    obtain ⟨o', s', g'⟩ := q
    obtain ⟨h1, h2, h3, h4, h5, h6⟩ := h
    simp only at h1 h2 h3 h4 h5 h6
    refine .some ⟨?_, by simp [h2, h3], h4, h5, h6⟩
    cases h1 with
    | ok h => rfl
    | panic => rfl
    | stopped => rfl

theorem exec_alike (h : m.SameButHandlers n) (hN : m.NoDispatchHooks) (hF : Follows m F) (hF' : Follows n F)
    {whole : Handling S S.St} {supWhole supWhole' : Handling S S.Sup}
    (hT : m.Together whole supWhole) (hT' : n.Together whole supWhole') (mode : Mode)
    (sm : StateMachine S) (cmd : Command S) :
    OptRel SameTransitions (cmd.exec mode m sm) (cmd.exec mode n sm) := by
  have hi : ∀ (i : Inner S) ctx sched, OptRel (fun c d => d.out = c.out ∧ d.self = c.self ∧ d.ctx = c.ctx ∧
      d.sched = c.sched ∧ d.trace.filter Obs.ofTransition = c.trace.filter Obs.ofTransition) (i.init mode m ctx sched)
      (i.init mode n ctx sched) := by
    intro i ctx sched
    rw [Inner.init_eq, Inner.init_eq, h.modeInit hF hF']
    exact run_alike i ctx sched (alike_init m mode i.state)
  have hh : ∀ (i : Inner S) (b : Bool) ev ctx sched (T T' : List (Obs S)),
      T'.filter Obs.ofTransition = T.filter Obs.ofTransition → OptRel SameTransitions
      (do
        let d ← i.handle mode m ev ctx sched
        some { d with self := (⟨d.self, b⟩ : StateMachine S), trace := T ++ d.trace })
      (do
        let d ← i.handle mode n ev ctx sched
        some { d with self := (⟨d.self, b⟩ : StateMachine S), trace := T' ++ d.trace }) := by
    intro i b ev ctx sched T T' hTT
    rw [Inner.handle_eq, Inner.handle_eq]
    have := run_alike i ctx sched (alike_handleEvent h hN hF hF' hT hT' mode ev i.state)
    generalize i.run (mode.handleEvent m ev) ctx sched = x at this
    generalize i.run (mode.handleEvent n ev) ctx sched = y at this
    cases this with
    | none => exact .none
    | some h =>
      obtain ⟨h1, h2, h3, h4, h5⟩ := h
      refine .some ⟨h1, ?_, h3, h4, ?_⟩
      · simp only [h2]
      · simp only [List.filter_append, h5, hTT]
  cases cmd with
  | init ctx sched =>
    simp only [Command.exec, StateMachine.initWithContext]
    by_cases h0 : sm.initialized = false
    · simp only [if_pos h0]
      have := hi sm.inner ctx sched
      generalize sm.inner.init mode m ctx sched = x at this
      generalize sm.inner.init mode n ctx sched = y at this
      cases this with
      | none => exact .none
      | @some c d h =>
        obtain ⟨h1, h2, h3, h4, h5⟩ := h
        simp only [Option.bind_eq_bind, Option.bind_some, h1]
        cases ho : c.out with
        | ok u => exact .some ⟨by simp [h1, ho], by simp [h2], h3, h4, h5⟩
        | panic => exact .some ⟨by simp [h1, ho], by simp [h2], h3, h4, h5⟩
        | stopped => exact .some ⟨by simp [h1, ho], by simp [h2], h3, h4, h5⟩
    · simp only [if_neg h0]
      exact .some ⟨rfl, rfl, rfl, rfl, rfl⟩
  | handle ev ctx sched =>
    simp only [Command.exec, StateMachine.handleWithContext]
    by_cases h0 : sm.initialized = false
    · simp only [if_pos h0]
      have := hi sm.inner ctx sched
      generalize sm.inner.init mode m ctx sched = x at this
      generalize sm.inner.init mode n ctx sched = y at this
      cases this with
      | none => exact .none
      | @some c d h =>
        obtain ⟨h1, h2, h3, h4, h5⟩ := h
        simp only [Option.bind_eq_bind, Option.bind_some, h1]
        cases ho : c.out with
        | ok u =>
          simp only [h2, h3, h4]
          exact hh c.self true ev c.ctx c.sched c.trace d.trace h5
        | panic => exact .some ⟨by simp [h1, ho], by simp [h2], h3, h4, h5⟩
        | stopped => exact .some ⟨by simp [h1, ho], by simp [h2], h3, h4, h5⟩
    · simp only [if_neg h0]
      exact hh sm.inner sm.initialized ev ctx sched [] [] rfl

/-- C76. It does not matter how the handling of events is divided between a state and its superstates: two machines
without dispatch hooks that differ only in their handlers, but whose states do the same with every event together with
their superstates, behave the same.  Every sequence of calls, from every machine value, in both modes, has the same
results call by call, and the same entry and exit actions and calls of transition hooks.  Panicking and dropped calls are
included. -/
theorem C76_divided (h : m.SameButHandlers n) (hN : m.NoDispatchHooks) (hF : Follows m F) (hF' : Follows n F)
    {whole : Handling S S.St} {supWhole supWhole' : Handling S S.Sup}
    (hT : m.Together whole supWhole) (hT' : n.Together whole supWhole') (mode : Mode)
    (sm : StateMachine S) (cmds : List (Command S)) :
    ListRel SameTransitions (callAll mode m sm cmds) (callAll mode n sm cmds) := by
  induction cmds generalizing sm with
  | nil => exact .nil
  | cons cmd cmds ih =>
    unfold callAll
    have := exec_alike h hN hF hF' hT hT' mode sm cmd
    generalize cmd.exec mode m sm = x at this
    generalize cmd.exec mode n sm = y at this
    cases this with
    | none => exact .nil
    | @some c d h => simp only [h.self]; exact .cons h (ih c.self)

/-- C76. What a state does together with its superstates exists and is determined by the machine. -/
theorem C76_exists (hF : Follows m F) : ∃ whole supWhole, m.Together whole supWhole ∧
    ∀ whole' supWhole', m.Together whole' supWhole' → whole' = whole ∧ supWhole' = supWhole :=
  ⟨_, _, together_exists hF, fun _ _ h => together_unique hF (together_exists hF) h⟩

/-- C76. In particular all of it can be done by the states, which leave nothing to their superstates. -/
theorem C76_inlined (hN : m.NoDispatchHooks) (hF : Follows m F) {whole : Handling S S.St}
    {supWhole : Handling S S.Sup} (hT : m.Together whole supWhole) (mode : Mode) (sm : StateMachine S)
    (cmds : List (Command S)) :
    ListRel SameTransitions (callAll mode m sm cmds) (callAll mode (m.inlined whole) sm cmds) :=
  C76_divided (m := m) (n := m.inlined whole) ⟨rfl, rfl, rfl, rfl, rfl, rfl, rfl, rfl, rfl, rfl, rfl, rfl, rfl⟩ hN hF
    (inlined_follows hF hT) hT
    inlined_together mode sm cmds

theorem flat_without (hF : Follows m F) {whole : Handling S S.St} {supWhole : Handling S S.Sup}
    (hT : m.Together whole supWhole) : (m.inlined whole).Without (fun _ => true) (m.flat whole) := by
  have hF' := inlined_follows hF hT
  have key : ∀ {σ : Type} (q : Option (S.Sup × (S.Sup → σ))), (m.inlined whole).Skips (fun _ => true) q none := by
    intro σ q
    obtain ⟨q', h⟩ := skips_exists hF' (fun _ => true) _ q (Nat.le_refl _)
    have := h.chain hF'
    cases q' with
    | none => exact h
    | some p => simp at this
  exact ⟨rfl, rfl, rfl, rfl, rfl, rfl, rfl, rfl, rfl, rfl, rfl, rfl, rfl, fun _ => key _, fun _ => key _⟩

theorem listRel_trans {A B C : Type} {R : A → B → Prop} {Q : B → C → Prop} {T : A → C → Prop}
    (hT : ∀ a b c, R a b → Q b c → T a c) {l : List A} {l' : List B} {l'' : List C} (h : ListRel R l l')
    (h' : ListRel Q l' l'') : ListRel T l l'' := by
  induction h generalizing l'' with
  | nil => cases h'; exact .nil
  | cons h _ ih =>
    cases h' with
    | cons k h' => exact .cons (hT _ _ _ h k) (ih h')

/-- C76. A machine whose superstates have no actions, and that has no dispatch hooks, behaves like a machine without
superstates: superstates are only a way of sharing behaviour. -/
theorem C76_flat (hN : m.NoDispatchHooks) (hA : m.NoSupActions) (hF : Follows m F) {whole : Handling S S.St}
    {supWhole : Handling S S.Sup} (hT : m.Together whole supWhole) (mode : Mode) (sm : StateMachine S)
    (cmds : List (Command S)) :
    ListRel SameStates (callAll mode m sm cmds) (callAll mode (m.flat whole) sm cmds) := by
  have hs : (m.inlined whole).Silent fun _ => true :=
    ⟨fun _ _ _ _ _ => rfl, fun v sh c _ => hA.entry v sh c, fun v sh c _ => hA.exit v sh c,
      fun sh _ ev _ => hN.before sh _ ev, fun sh _ ev _ => hN.after sh _ ev⟩
  refine listRel_trans ?_ (C76_inlined hN hF hT mode sm cmds)
    (C72_removed (inlined_follows hF hT) hs (flat_without hF hT) mode sm cmds)
  intro c d e h1 h2
  refine ⟨h2.out.trans h1.out, h2.self.trans h1.self, h2.ctx.trans h1.ctx, h2.sched.trans h1.sched, ?_⟩
  have f1 : ∀ l : List (Obs S), (l.filter ((m.inlined whole).showsObs fun _ => true)).filter Obs.ofStates =
      l.filter Obs.ofStates := by
    intro l
    rw [List.filter_filter]
    congr 1
    funext o
    rcases o with ⟨_ | _, _⟩ | ⟨_ | _, _⟩ | ⟨_ | _⟩ | ⟨_ | _⟩ | ⟨_ | _, _⟩ | ⟨_ | _, _⟩ | _ | _ <;> rfl
  have f2 : ∀ l : List (Obs S), (l.filter Obs.ofTransition).filter Obs.ofStates = l.filter Obs.ofStates := by
    intro l
    rw [List.filter_filter]
    congr 1
    funext o
    rcases o with ⟨_ | _, _⟩ | ⟨_ | _, _⟩ | ⟨_ | _⟩ | ⟨_ | _⟩ | ⟨_ | _, _⟩ | ⟨_ | _, _⟩ | _ | _ <;> rfl
  rw [h2.trace, f1, ← f2 d.trace, h1.trace, f2]

/-! ## The hypotheses are met -/

namespace Sample

/-- What the states of the sample do with an event, together with their superstates. -/
def everything : Handling sig (D × Nat) := fun s sh ev c =>
  match s.1, ev with
  | _, .bomb => .panic (s, sh, c)
  | _, .wait => .pending (s, sh, c) fun _ => .done (s, sh, c) .handled
  | .s11, .a => .done (s, sh, c) (.transition (.s11, 0))
  | .s11, .b => .done (s, sh, c) (.transition (.s12, 0))
  | .s12, .c => .done (s, sh, c) (.transition (.s211, 0))
  | .s211, .d => .done (s, sh, c) (.transition (.s11, 0))
  | _, .bump => .done ((s.1, s.2 + 1), sh, c) .handled
  | _, .skip => .done (s, sh, c) .super
  | _, _ => .done (s, sh, c) .handled

theorem sample_together : (machine true).Together everything (allLevels (machine true) forest) := by
  refine ⟨?_, (together_exists (follows true)).sup⟩
  rintro ⟨d, k⟩ sh ev c
  cases d <;> cases ev <;> rfl

theorem noDispatchHooks : (machine true).NoDispatchHooks := ⟨fun _ _ _ => rfl, fun _ _ _ => rfl⟩

/-- C76 applies to it: the states can do everything themselves. -/
example (mode : Mode) (cmds : List (Command sig)) (sm : StateMachine sig) :
    ListRel SameTransitions (callAll mode (machine true) sm cmds)
      (callAll mode ((machine true).inlined everything) sm cmds) :=
  C76_inlined noDispatchHooks (follows true) sample_together mode sm cmds

/-- The sample with superstates that have no actions. -/
def quiet : Machine sig := { machine true with
  supEntry := fun v sh c => .done (v, sh, c) ()
  supExit := fun v sh c => .done (v, sh, c) () }

theorem quiet_follows : Follows quiet forest where
  leaf := (follows true).leaf
  sup := (follows true).sup
  leaf_back := (follows true).leaf_back
  sup_back := (follows true).sup_back
  handler := (follows true).handler
  entry := (follows true).entry
  exit := (follows true).exit
  supHandler := (follows true).supHandler
  supEntry _ _ _ := .done rfl
  supExit _ _ _ := .done rfl

theorem quiet_together : quiet.Together everything (allLevels (machine true) forest) :=
  ⟨sample_together.state, sample_together.sup⟩

/-- C76 applies to it: it can do without superstates. -/
example (mode : Mode) (cmds : List (Command sig)) (sm : StateMachine sig) :
    ListRel SameStates (callAll mode quiet sm cmds) (callAll mode (quiet.flat everything) sm cmds) :=
  C76_flat ⟨fun _ _ _ => rfl, fun _ _ _ => rfl⟩ ⟨fun _ _ _ => rfl, fun _ _ _ => rfl⟩ quiet_follows quiet_together
    mode sm cmds

end Sample
end Statig
