import Verif.Proofs.Transition
import Verif.Proofs.LogLemmas
/-! # Facts about API calls and about logs -/
namespace Statig
variable {S : Sig} {m : Machine S} {F : Forest S.D S.E}

/-- Everything about one `handle` call on an initialized machine. -/
theorem handle_call (hF : Follows m F) (mode : Mode) (sm : InitializedStateMachine S) (ev : S.Ev)
    (ctx : S.Ctx) (sched : List S.In) :
    ∃ c cl, sm.handleWithContext mode m ev ctx sched = some c ∧
      Climb (F.path (m.discr sm.state)) cl ∧
      (c.out = .ok () → m.steps c.trace = handleLog mode F m.discr (m.discr sm.state) ev cl) ∧
      m.steps c.trace <+: handleLog mode F m.discr (m.discr sm.state) ev cl ∧
      (entriesOf (m.steps c.trace) = [] → m.discr c.self.state = m.discr sm.state) ∧
      (entriesOf (m.steps c.trace) ≠ [] →
        ∃ t, lastResponse cl = some (.transition t) ∧ m.discr c.self.state = m.discr t) ∧
      (m.NoPanic → c.out ≠ .panic) ∧ (m.NoSuspend → c.out ≠ .stopped) := by
  obtain ⟨o, s', g', T, cl, h1, h2, h3⟩ := handleEvent_spec hF mode ev sm.inner.state
    { sh := sm.inner.shared, ctx := ctx, sched := sched, trace := [] }
  refine ⟨{ out := o, self := ⟨⟨g'.sh, s'⟩⟩, ctx := g'.ctx, sched := g'.sched, trace := T }, cl, ?_, h3⟩
  unfold InitializedStateMachine.handleWithContext
  rw [Inner.handle_eq]
  simp only [Inner.run, h1, h2]
  simp

/-- Everything about one initialization. -/
theorem init_call (hF : Follows m F) (mode : Mode) (i : Inner S) (ctx : S.Ctx) (sched : List S.In) :
    ∃ c, i.init mode m ctx sched = some c ∧
      (c.out = .ok () → m.steps c.trace = initLog F (m.discr i.state)) ∧
      m.steps c.trace <+: initLog F (m.discr i.state) ∧
      m.discr c.self.state = m.discr i.state ∧
      (m.NoPanic → c.out ≠ .panic) ∧ (m.NoSuspend → c.out ≠ .stopped) := by
  obtain ⟨o, s', g', T, h1, h2, h3, h4, ⟨L, a, rfl, h6⟩, -, h7⟩ := does_init hF mode i.state
    { sh := i.shared, ctx := ctx, sched := sched, trace := [] }
  refine ⟨{ out := o, self := ⟨g'.sh, s'⟩, ctx := g'.ctx, sched := g'.sched, trace := T }, ?_, h4 (), h6,
    h3, h7⟩
  rw [Inner.init_eq]
  simp only [Inner.run, h1, h2]
  simp

section logs
variable {D E V T : Type}

/-- `Q` holds between everything before and each step. -/
def Always (Q : List (Step D E V T) → Step D E V T → Prop) :
    List (Step D E V T) → List (Step D E V T) → Prop
  | _, [] => True
  | acc, x :: xs => Q acc x ∧ Always Q (acc ++ [x]) xs

theorem always_append {Q : List (Step D E V T) → Step D E V T → Prop} {acc a b : List (Step D E V T)} :
    Always Q acc (a ++ b) ↔ Always Q acc a ∧ Always Q (acc ++ a) b := by
  induction a generalizing acc with
  | nil => simp [Always]
  | cons x a ih =>
    simp only [List.cons_append, Always, ih, and_assoc, List.append_assoc, List.nil_append]

theorem always_split {Q : List (Step D E V T) → Step D E V T → Prop} {pre x post}
    (h : Always Q [] (pre ++ x :: post)) : Q pre x := by
  rw [always_append] at h
  simpa [Always] using h.2.1

theorem always_prefix {Q : List (Step D E V T) → Step D E V T → Prop} {a b : List (Step D E V T)}
    (h : Always Q [] b) (hp : a <+: b) : Always Q [] a := by
  obtain ⟨c, rfl⟩ := hp
  exact (always_append.1 h).1

theorem always_of_forall {Q : List (Step D E V T) → Step D E V T → Prop} {acc l : List (Step D E V T)}
    (h : ∀ x ∈ l, ∀ acc, Q acc x) : Always Q acc l := by
  induction l generalizing acc with
  | nil => trivial
  | cons x l ih => exact ⟨h x (by simp) acc, ih (fun y hy => h y (by simp [hy]))⟩

variable (a b : List (Step D E V T))

theorem handlersOf_append : handlersOf (a ++ b) = handlersOf a ++ handlersOf b := by simp [handlersOf]
theorem responsesOf_append : responsesOf (a ++ b) = responsesOf a ++ responsesOf b := by simp [responsesOf]
theorem exitsOf_append : exitsOf (a ++ b) = exitsOf a ++ exitsOf b := by simp [exitsOf]
theorem actionsOf_append : actionsOf (a ++ b) = actionsOf a ++ actionsOf b := by simp [actionsOf]
theorem eventsOf_append : eventsOf (a ++ b) = eventsOf a ++ eventsOf b := by simp [eventsOf]

variable {a b}

theorem responsesOf_nestedLog (ev : V) (cl : List (Node D E × Response T)) :
    responsesOf (nestedLog ev cl) = cl := by
  induction cl with
  | nil => rfl
  | cons p cl ih =>
    unfold nestedLog
    rw [responsesOf_append, responsesOf_append, ih]
    simp

theorem handlersOf_nestedLog (ev : V) (cl : List (Node D E × Response T)) :
    handlersOf (nestedLog ev cl) = cl.map (·.1) := by
  induction cl with
  | nil => rfl
  | cons p cl ih =>
    unfold nestedLog
    rw [handlersOf_append, handlersOf_append, ih]
    simp

theorem responsesOf_sequentialLog (ev : V) (cl : List (Node D E × Response T)) :
    responsesOf (sequentialLog ev cl) = cl := by
  induction cl with
  | nil => rfl
  | cons p cl ih =>
    unfold sequentialLog
    rw [responsesOf_append, ih]
    simp

theorem handlersOf_sequentialLog (ev : V) (cl : List (Node D E × Response T)) :
    handlersOf (sequentialLog ev cl) = cl.map (·.1) := by
  induction cl with
  | nil => rfl
  | cons p cl ih =>
    unfold sequentialLog
    rw [handlersOf_append, ih]
    simp

theorem responsesOf_dispatchLog (mode : Mode) (ev : V) (cl : List (Node D E × Response T)) :
    responsesOf (dispatchLog mode ev cl) = cl := by
  cases mode with
  | awaitable => exact responsesOf_sequentialLog ev cl
  | blocking =>
    cases cl with
    | nil => rfl
    | cons p cl =>
      show responsesOf (blockingLog ev (p :: cl)) = _
      unfold blockingLog
      rw [responsesOf_append, responsesOf_nestedLog]
      simp

theorem handlersOf_dispatchLog (mode : Mode) (ev : V) (cl : List (Node D E × Response T)) :
    handlersOf (dispatchLog mode ev cl) = cl.map (·.1) := by
  cases mode with
  | awaitable => exact handlersOf_sequentialLog ev cl
  | blocking =>
    cases cl with
    | nil => rfl
    | cons p cl =>
      show handlersOf (blockingLog ev (p :: cl)) = _
      unfold blockingLog
      rw [handlersOf_append, handlersOf_nestedLog]
      simp

theorem handlersOf_eq_nil_of {l : List (Step D E V T)} (h : ∀ x ∈ l, x.ofTransition = true) :
    handlersOf l = [] := by
  unfold handlersOf
  rw [List.filterMap_eq_nil_iff]
  intro x hx
  have := h x hx
  cases x <;> simp_all [Step.ofTransition]

theorem responsesOf_eq_nil_of {l : List (Step D E V T)} (h : ∀ x ∈ l, x.ofTransition = true) :
    responsesOf l = [] := by
  unfold responsesOf
  rw [List.filterMap_eq_nil_iff]
  intro x hx
  have := h x hx
  cases x <;> simp_all [Step.ofTransition]

theorem actionsOf_eq_nil_of {l : List (Step D E V T)} (h : ∀ x ∈ l, x.ofTransition = false) :
    actionsOf l = [] := by
  unfold actionsOf
  rw [List.filterMap_eq_nil_iff]
  intro x hx
  have := h x hx
  cases x <;> simp_all [Step.ofTransition]

theorem transitionLog_ofTransition [DecidableEq D] [DecidableEq E] (mode : Mode) (F : Forest D E) (d t : D) :
    ∀ x ∈ transitionLog (V := V) (T := T) mode F d t, x.ofTransition = true := by
  intro x hx
  unfold transitionLog at hx
  simp only [List.mem_cons, List.mem_append, List.mem_map, List.not_mem_nil, or_false] at hx
  rcases hx with rfl | (⟨n, -, rfl⟩ | ⟨n, -, rfl⟩) | rfl
  · cases mode <;> rfl
  · rfl
  · rfl
  · rfl

/-- The part of the log of a `handle` call that comes after dispatch. -/
def tailLog [DecidableEq D] [DecidableEq E] (mode : Mode) (F : Forest D E) (variant : T → D) (d : D)
    (cl : List (Node D E × Response T)) : List (Step D E V T) :=
  match lastResponse cl with
  | some (.transition t) => transitionLog mode F d (variant t)
  | _ => []

variable [DecidableEq D] [DecidableEq E] {F : Forest D E} {variant : T → D} {d : D} {ev : V} {mode : Mode}
  {cl : List (Node D E × Response T)}

theorem handleLog_eq : handleLog mode F variant d ev cl =
    dispatchLog mode ev cl ++ tailLog mode F variant d cl := rfl

theorem tailLog_ofTransition : ∀ x ∈ tailLog (V := V) mode F variant d cl, x.ofTransition = true := by
  unfold tailLog
  split
  · exact transitionLog_ofTransition _ _ _ _
  · simp

theorem responsesOf_handleLog : responsesOf (handleLog mode F variant d ev cl) = cl := by
  rw [handleLog_eq, responsesOf_append, responsesOf_dispatchLog,
    responsesOf_eq_nil_of tailLog_ofTransition, List.append_nil]

theorem handlersOf_handleLog : handlersOf (handleLog mode F variant d ev cl) = cl.map (·.1) := by
  rw [handleLog_eq, handlersOf_append, handlersOf_dispatchLog,
    handlersOf_eq_nil_of tailLog_ofTransition, List.append_nil]

theorem filter_dispatch_handleLog :
    (handleLog mode F variant d ev cl).filter (fun x => !x.ofTransition) = dispatchLog mode ev cl := by
  rw [handleLog_eq, List.filter_append]
  have h1 : (dispatchLog mode ev cl).filter (fun x => !x.ofTransition) = dispatchLog mode ev cl := by
    rw [List.filter_eq_self]
    intro x hx; simp [dispatchLog_ofTransition mode ev cl x hx]
  have h2 : (tailLog (V := V) mode F variant d cl).filter (fun x => !x.ofTransition) = [] := by
    rw [List.filter_eq_nil_iff]
    intro x hx; simp [tailLog_ofTransition x hx]
  rw [h1, h2, List.append_nil]

theorem filter_transition_handleLog :
    (handleLog mode F variant d ev cl).filter (fun x => x.ofTransition) = tailLog mode F variant d cl := by
  rw [handleLog_eq, List.filter_append]
  have h1 : (dispatchLog mode ev cl).filter (fun x => x.ofTransition) = [] := by
    rw [List.filter_eq_nil_iff]
    intro x hx; simp [dispatchLog_ofTransition mode ev cl x hx]
  have h2 : (tailLog (V := V) mode F variant d cl).filter (fun x => x.ofTransition) =
      tailLog mode F variant d cl := by
    rw [List.filter_eq_self]
    intro x hx; simp [tailLog_ofTransition x hx]
  rw [h1, h2, List.nil_append]

omit [DecidableEq D] [DecidableEq E] in
/-- A climb is an initial part of the path: `Super` everywhere below the last handler called. -/
theorem climb_iff {path : List (Node D E)} {cl : List (Node D E × Response T)} :
    Climb path cl ↔ ∃ below n above r, path = below ++ n :: above ∧
      cl = below.map (fun x => (x, .super)) ++ [(n, r)] ∧ (r = .super → above = []) := by
  constructor
  · intro h
    induction h with
    | @stop n path r hr => exact ⟨[], n, path, r, rfl, rfl, fun h => absurd h hr⟩
    | @top n => exact ⟨[], n, [], .super, rfl, rfl, fun _ => rfl⟩
    | @up n path cl _ ih =>
      obtain ⟨below, n', above, r, rfl, rfl, h⟩ := ih
      exact ⟨n :: below, n', above, r, rfl, rfl, h⟩
  · rintro ⟨below, n, above, r, rfl, rfl, h⟩
    induction below with
    | nil =>
      by_cases hr : r = .super
      · rw [hr, h hr]; exact .top
      · exact .stop hr
    | cons x below ih => exact .up ih

/-- When a handler is called, the handlers before it are those below it, and all of them deferred. -/
def OnlyAfterSuper (path : List (Node D E)) (ev : V) (pre : List (Step D E V T)) : Step D E V T → Prop
  | .handler n e => handlersOf pre ++ [n] <+: path ∧
      responsesOf pre = (handlersOf pre).map (fun x => (x, .super)) ∧ e = ev
  | _ => True

omit [DecidableEq D] [DecidableEq E] in
theorem always_nested {path : List (Node D E)} {below rest : List (Node D E)} (hpath : path = below ++ rest)
    {cl : List (Node D E × Response T)} (hc : Climb rest cl) (acc : List (Step D E V T))
    (h1 : handlersOf acc = below) (h2 : responsesOf acc = below.map (fun x => (x, .super))) :
    Always (OnlyAfterSuper path ev) acc (nestedLog ev cl) := by
  induction hc generalizing below acc with
  | @stop n rest r _ =>
    subst hpath
    refine ⟨trivial, ⟨?_, ?_, rfl⟩, trivial, trivial, trivial⟩
    · simp [handlersOf_append, h1]
    · simp [handlersOf_append, responsesOf_append, h1, h2]
  | @top n =>
    subst hpath
    refine ⟨trivial, ⟨?_, ?_, rfl⟩, trivial, trivial, trivial⟩
    · simp [handlersOf_append, h1]
    · simp [handlersOf_append, responsesOf_append, h1, h2]
  | @up n rest cl hc ih =>
    subst hpath
    unfold nestedLog
    rw [always_append, always_append]
    refine ⟨⟨⟨trivial, ⟨?_, ?_, rfl⟩, trivial, trivial⟩, ?_⟩, trivial, trivial⟩
    · simp [handlersOf_append, h1]
    · simp [handlersOf_append, responsesOf_append, h1, h2]
    · refine ih (below := below ++ [n]) (by simp) _ ?_ ?_
      · simp [handlersOf_append, h1]
      · simp [responsesOf_append, h2]

omit [DecidableEq D] [DecidableEq E] in
theorem always_sequential {path : List (Node D E)} {below rest : List (Node D E)}
    (hpath : path = below ++ rest)
    {cl : List (Node D E × Response T)} (hc : Climb rest cl) (acc : List (Step D E V T))
    (h1 : handlersOf acc = below) (h2 : responsesOf acc = below.map (fun x => (x, .super))) :
    Always (OnlyAfterSuper path ev) acc (sequentialLog ev cl) := by
  induction hc generalizing below acc with
  | @stop n rest r _ =>
    subst hpath
    refine ⟨trivial, ⟨?_, ?_, rfl⟩, trivial, trivial, trivial⟩
    · simp [handlersOf_append, h1]
    · simp [handlersOf_append, responsesOf_append, h1, h2]
  | @top n =>
    subst hpath
    refine ⟨trivial, ⟨?_, ?_, rfl⟩, trivial, trivial, trivial⟩
    · simp [handlersOf_append, h1]
    · simp [handlersOf_append, responsesOf_append, h1, h2]
  | @up n rest cl hc ih =>
    subst hpath
    unfold sequentialLog
    rw [always_append]
    refine ⟨⟨trivial, ⟨?_, ?_, rfl⟩, trivial, trivial, trivial⟩, ?_⟩
    · simp [handlersOf_append, h1]
    · simp [handlersOf_append, responsesOf_append, h1, h2]
    · refine ih (below := below ++ [n]) (by simp) _ ?_ ?_
      · simp [handlersOf_append, h1]
      · simp [responsesOf_append, h2]

theorem always_handleLog {path : List (Node D E)} {cl : List (Node D E × Response T)} (hc : Climb path cl) :
    Always (OnlyAfterSuper path ev) [] (handleLog mode F variant d ev cl) := by
  rw [handleLog_eq, always_append]
  refine ⟨?_, always_of_forall ?_⟩
  · cases mode with
    | awaitable => exact always_sequential (below := []) rfl hc [] rfl rfl
    | blocking =>
      cases hc with
      | stop => exact ⟨trivial, ⟨by simp, by simp, rfl⟩, trivial, trivial, trivial⟩
      | top => exact ⟨trivial, ⟨by simp, by simp, rfl⟩, trivial, trivial, trivial⟩
      | @up n rest cl hc =>
        show Always _ [] (blockingLog ev ((n, .super) :: cl))
        unfold blockingLog
        rw [always_append]
        refine ⟨⟨trivial, ⟨by simp, by simp, rfl⟩, trivial, trivial, trivial⟩, ?_⟩
        exact always_nested (below := [n]) rfl hc _ (by simp) (by simp)
  · intro x hx acc
    have := tailLog_ofTransition x hx
    cases x <;> simp_all [Step.ofTransition, OnlyAfterSuper]

omit [DecidableEq D] [DecidableEq E] in
theorem prefix_append_iff {A : Type} {l a b : List A} :
    l <+: a ++ b ↔ l <+: a ∨ ∃ k, l = a ++ k ∧ k <+: b := by
  constructor
  · intro h
    by_cases hle : l.length ≤ a.length
    · exact .inl (List.prefix_of_prefix_length_le h (List.prefix_append _ _) hle)
    · have : a <+: l := List.prefix_of_prefix_length_le (List.prefix_append _ _) h (by omega)
      obtain ⟨k, rfl⟩ := this
      exact .inr ⟨k, rfl, (List.prefix_append_right_inj _).1 h⟩
  · rintro (h | ⟨k, rfl, h⟩)
    · exact h.trans (List.prefix_append _ _)
    · exact (List.prefix_append_right_inj _).2 h

end logs

/-- A `handle` call is either still dispatching, or it has dispatched `cl` and is in what follows. -/
theorem handle_phases (hF : Follows m F) {mode : Mode} {sm : InitializedStateMachine S} {ev : S.Ev}
    {ctx : S.Ctx} {sched : List S.In} {c : Call S (InitializedStateMachine S)}
    (h : sm.handleWithContext mode m ev ctx sched = some c) :
    ∃ cl, Climb (F.path (m.discr sm.state)) cl ∧
      ((m.steps c.trace <+: dispatchLog mode ev cl ∧ c.out ≠ .ok () ∧
          m.discr c.self.state = m.discr sm.state) ∨
       (responsesOf (m.steps c.trace) = cl ∧ ∃ k, m.steps c.trace = dispatchLog mode ev cl ++ k ∧
          k <+: tailLog mode F m.discr (m.discr sm.state) cl ∧
          (c.out = .ok () → k = tailLog mode F m.discr (m.discr sm.state) cl) ∧
          (entriesOf k = [] → m.discr c.self.state = m.discr sm.state) ∧
          (entriesOf k ≠ [] →
            ∃ t, lastResponse cl = some (.transition t) ∧ m.discr c.self.state = m.discr t))) := by
  obtain ⟨c', cl, h0, h1, h2, h3, h4, h5, -⟩ := handle_call hF mode sm ev ctx sched
  obtain rfl : c' = c := by rw [h0] at h; exact Option.some.inj h
  refine ⟨cl, h1, ?_⟩
  have hd : entriesOf (dispatchLog mode ev cl) = [] :=
    entriesOf_eq_nil_of (dispatchLog_ofTransition mode ev cl)
  have hsecond : ∀ k, m.steps c'.trace = dispatchLog mode ev cl ++ k →
      k <+: tailLog mode F m.discr (m.discr sm.state) cl →
      (c'.out = .ok () → k = tailLog mode F m.discr (m.discr sm.state) cl) →
      (responsesOf (m.steps c'.trace) = cl ∧ ∃ k, m.steps c'.trace = dispatchLog mode ev cl ++ k ∧
          k <+: tailLog mode F m.discr (m.discr sm.state) cl ∧
          (c'.out = .ok () → k = tailLog mode F m.discr (m.discr sm.state) cl) ∧
          (entriesOf k = [] → m.discr c'.self.state = m.discr sm.state) ∧
          (entriesOf k ≠ [] →
            ∃ t, lastResponse cl = some (.transition t) ∧ m.discr c'.self.state = m.discr t)) := by
    intro k hk hpk hok
    have hek : entriesOf (m.steps c'.trace) = entriesOf k := by
      rw [hk, entriesOf_append, hd, List.nil_append]
    refine ⟨?_, k, hk, hpk, hok, fun he => h4 (hek.trans he), fun he => h5 (by rw [hek]; exact he)⟩
    rw [hk, responsesOf_append, responsesOf_dispatchLog, responsesOf_eq_nil_of, List.append_nil]
    exact fun x hx => tailLog_ofTransition x (hpk.subset hx)
  by_cases ho : c'.out = .ok ()
  · right
    have := h2 ho
    rw [handleLog_eq] at this
    exact hsecond _ this (List.prefix_refl _) (fun _ => rfl)
  · rw [handleLog_eq] at h3
    rcases prefix_append_iff.1 h3 with hp | ⟨k, hk, hpk⟩
    · left
      exact ⟨hp, ho, h4 (entriesOf_prefix hp hd)⟩
    · right
      exact hsecond k hk hpk (fun h => absurd h ho)

theorem tailLog_eq_nil {D E V T : Type} [DecidableEq D] [DecidableEq E] {mode : Mode} {F : Forest D E}
    {variant : T → D} {d : D} {cl : List (Node D E × Response T)} {x : Response T}
    (h : lastResponse cl = some x) (hx : ∀ t, x ≠ .transition t) :
    tailLog (V := V) mode F variant d cl = [] := by
  cases x with
  | transition t => exact absurd rfl (hx t)
  | _ => simp [tailLog, h]

theorem tailLog_transition {D E V T : Type} [DecidableEq D] [DecidableEq E] {mode : Mode} {F : Forest D E}
    {variant : T → D} {d : D} {cl : List (Node D E × Response T)} {t : T}
    (h : lastResponse cl = some (.transition t)) :
    tailLog (V := V) mode F variant d cl = transitionLog mode F d (variant t) := by
  simp [tailLog, h]

theorem lastResponse_of_getLast? {D E T : Type} {cl : List (Node D E × Response T)} {n r}
    (h : cl.getLast? = some (n, r)) : lastResponse cl = some r := by
  simp [lastResponse, h]

/-- Without a `Transition` response there is no transition. -/
theorem no_transition (hF : Follows m F) {mode : Mode} {sm : InitializedStateMachine S} {ev : S.Ev}
    {ctx : S.Ctx} {sched : List S.In} {c : Call S (InitializedStateMachine S)}
    (h : sm.handleWithContext mode m ev ctx sched = some c)
    (hno : ∀ n t, (responsesOf (m.steps c.trace)).getLast? ≠ some (n, .transition t)) :
    (∀ x ∈ m.steps c.trace, x.ofTransition = false) ∧ m.discr c.self.state = m.discr sm.state := by
  obtain ⟨cl, hc, (⟨h1, -, h2⟩ | ⟨h1, k, h2, h3, -, h4, -⟩)⟩ := handle_phases hF h
  · exact ⟨fun x hx => dispatchLog_ofTransition mode ev cl x (h1.subset hx), h2⟩
  · rw [h1] at hno
    have hlast : ∃ n r, cl.getLast? = some (n, r) := by
      obtain ⟨y, hy⟩ := Option.isSome_iff_exists.1 (List.getLast?_isSome.2 hc.ne_nil)
      exact ⟨y.1, y.2, hy⟩
    obtain ⟨n, r, hr⟩ := hlast
    have ht := tailLog_eq_nil (V := S.Ev) (mode := mode) (F := F) (variant := m.discr)
      (d := m.discr sm.state) (lastResponse_of_getLast? hr) (fun t ht => hno n t (by rw [hr, ht]))
    rw [ht, List.prefix_nil] at h3
    subst h3
    refine ⟨?_, h4 rfl⟩
    rw [h2, List.append_nil]
    exact dispatchLog_ofTransition mode ev cl

/-- With a `Transition` response, the log is the dispatch log followed by (part of) the transition log. -/
theorem with_transition (hF : Follows m F) {mode : Mode} {sm : InitializedStateMachine S} {ev : S.Ev}
    {ctx : S.Ctx} {sched : List S.In} {c : Call S (InitializedStateMachine S)}
    (h : sm.handleWithContext mode m ev ctx sched = some c) {n t}
    (ht : (responsesOf (m.steps c.trace)).getLast? = some (n, .transition t)) :
    ∃ k, (m.steps c.trace).filter (fun x => x.ofTransition) = k ∧
      k <+: transitionLog mode F (m.discr sm.state) (m.discr t) ∧
      (c.out = .ok () → k = transitionLog mode F (m.discr sm.state) (m.discr t)) ∧
      entriesOf (m.steps c.trace) = entriesOf k ∧
      exitsOf (m.steps c.trace) = exitsOf k ∧
      actionsOf (m.steps c.trace) = actionsOf k ∧
      (entriesOf k = [] → m.discr c.self.state = m.discr sm.state) ∧
      (entriesOf k ≠ [] → m.discr c.self.state = m.discr t) := by
  have hfil : ∀ l : List (Step S.D S.E S.Ev S.St),
      entriesOf l = entriesOf (l.filter (fun x => x.ofTransition)) ∧
      exitsOf l = exitsOf (l.filter (fun x => x.ofTransition)) ∧
      actionsOf l = actionsOf (l.filter (fun x => x.ofTransition)) := by
    intro l
    induction l with
    | nil => exact ⟨rfl, rfl, rfl⟩
    | cons x l ih => cases x <;> simp [Step.ofTransition, ih.1, ih.2.1, ih.2.2]
  refine ⟨_, rfl, ?_⟩
  obtain ⟨cl, hc, (⟨h1, h1', h2⟩ | ⟨h1, k, h2, h3, h3', h4, h5⟩)⟩ := handle_phases hF h
  · have hnil : (m.steps c.trace).filter (fun x => x.ofTransition) = [] := by
      rw [List.filter_eq_nil_iff]
      intro x hx; simp [dispatchLog_ofTransition mode ev cl x (h1.subset hx)]
    obtain ⟨e1, e2, e3⟩ := hfil (m.steps c.trace)
    rw [hnil] at e1 e2 e3 ⊢
    exact ⟨List.nil_prefix, fun h => absurd h h1', e1, e2, e3, fun _ => h2, fun h => absurd rfl h⟩
  · rw [h1] at ht
    have hlast := lastResponse_of_getLast? ht
    rw [tailLog_transition hlast] at h3 h3'
    have hk : (m.steps c.trace).filter (fun x => x.ofTransition) = k := by
      rw [h2, List.filter_append]
      have e1 : (dispatchLog mode ev cl).filter (fun x => x.ofTransition) = [] := by
        rw [List.filter_eq_nil_iff]
        intro x hx; simp [dispatchLog_ofTransition mode ev cl x hx]
      have e2 : k.filter (fun x => x.ofTransition) = k := by
        rw [List.filter_eq_self]
        exact fun x hx => transitionLog_ofTransition _ _ _ _ x (h3.subset hx)
      rw [e1, e2, List.nil_append]
    obtain ⟨e1, e2, e3⟩ := hfil (m.steps c.trace)
    rw [hk] at e1 e2 e3 ⊢
    refine ⟨h3, h3', e1, e2, e3, h4, fun h => ?_⟩
    obtain ⟨t', ht', hd⟩ := h5 h
    rw [hlast] at ht'
    cases ht'
    exact hd

/-- The call as a run of the mode's `handle_with_context`. -/
theorem handle_inv {S : Sig} {m : Machine S} {mode : Mode} {sm : InitializedStateMachine S}
    {ev : S.Ev} {ctx : S.Ctx} {sched : List S.In} {c : Call S (InitializedStateMachine S)} (h : sm.handleWithContext mode m ev ctx sched = some c) :
    mode.handleEvent m ev sm.state { sh := sm.inner.shared, ctx := ctx, sched := sched, trace := [] } =
      some (c.out, c.self.state,
        { sh := c.self.inner.shared, ctx := c.ctx, sched := c.sched, trace := c.trace }) := by
  unfold InitializedStateMachine.handleWithContext at h
  rw [Inner.handle_eq] at h
  unfold Inner.run at h
  unfold InitializedStateMachine.state
  split at h
  · cases h
  · rename_i o st g hx
    simp only [Option.bind_eq_bind, Option.bind_some, Option.some.injEq] at h
    subst h
    exact hx

end Statig
