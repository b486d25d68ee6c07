import Verif.Proofs.StateMachine
import Verif.Props.Sample
/-!
# Properties of construction and initialization: C16–C22, C32

`Command.exec mode m sm cmd` is a call of `init_with_context` or `handle_with_context` on a `StateMachine`.
-/
namespace Statig
variable {S : Sig} {m : Machine S} {F : Forest S.D S.E} {mode : Mode}
  {ev : S.Ev} {ctx : S.Ctx} {sched : List S.In}

namespace Sample

/-- A fresh, uninitialized machine. -/
def fresh (fuse : Nat := 0) : StateMachine sig := stateMachine (machine false) ⟨[], fuse⟩

/-- A fresh machine of the other kind. -/
def freshU (fuse : Nat := 0) : UninitializedStateMachine sig := uninitializedStateMachine (machine false) ⟨[], fuse⟩

end Sample

/-! ## C16 -/

/-- C16, `UninitializedStateMachine::init_with_context`: a completed call runs exactly the entry actions from
the root down to the initial state, and yields a machine in the same variant; an interrupted call runs an
initial part of them. -/
theorem C16_uninitialized_init (hF : Follows m F) {sm : UninitializedStateMachine S}
    {c : Call S (Option (InitializedStateMachine S))}
    (h : sm.initWithContext mode m ctx sched = some c) :
    (c.out = .ok () → m.steps c.trace = (F.path (m.discr sm.state)).reverse.map .entry ∧
      ∃ ism, c.self = some ism ∧ m.discr ism.state = m.discr sm.state) ∧
    m.steps c.trace <+: (F.path (m.discr sm.state)).reverse.map .entry := by
  obtain ⟨c0, h1, rfl⟩ := (uninit_init ctx sched).1 h
  obtain ⟨c', k0, k1, k2, k3, -⟩ := init_call hF mode sm.inner ctx sched
  obtain rfl : c' = c0 := by rw [k0] at h1; exact Option.some.inj h1
  refine ⟨fun ho => ⟨k1 ho, ⟨c'.self⟩, ?_, k3⟩, k2⟩
  simp [isOk_iff.2 ho]

/-- C16, `StateMachine::init_with_context` on an uninitialized machine. -/
theorem C16_init (hF : Follows m F) {sm : StateMachine S} (h0 : sm.initialized = false)
    {c : Call S (StateMachine S)} (h : sm.initWithContext mode m ctx sched = some c) :
    (c.out = .ok () → m.steps c.trace = (F.path (m.discr sm.state)).reverse.map .entry) ∧
    m.steps c.trace <+: (F.path (m.discr sm.state)).reverse.map .entry ∧
    m.discr c.self.state = m.discr sm.state := by
  obtain ⟨c0, h1, rfl⟩ := (sm_init_uninitialized h0 ctx sched).1 h
  obtain ⟨c', k0, k1, k2, k3, -⟩ := init_call hF mode sm.inner ctx sched
  obtain rfl : c' = c0 := by rw [k0] at h1; exact Option.some.inj h1
  exact ⟨k1, k2, k3⟩

/-- C16, `StateMachine::handle_with_context` on an uninitialized machine: a completed call first runs exactly
the entry actions from the root down to the current state, then announces the event to that state and is a
normal `handle` call from then on. -/
theorem C16_handle (hF : Follows m F) {sm : StateMachine S} (h0 : sm.initialized = false)
    {c : Call S (StateMachine S)} (h : sm.handleWithContext mode m ev ctx sched = some c)
    (ho : c.out = .ok ()) :
    ∃ cl, Climb (F.path (m.discr sm.state)) cl ∧
      m.steps c.trace = (F.path (m.discr sm.state)).reverse.map .entry ++
        handleLog mode F m.discr (m.discr sm.state) ev cl := by
  obtain ⟨c0, h1, (⟨h2, rfl⟩ | ⟨h2, d, h3, rfl⟩)⟩ := (sm_handle_uninitialized h0 ev ctx sched).1 h
  · exact absurd ho h2
  · obtain ⟨c', k0, k1, k2, k3, -⟩ := init_call hF mode sm.inner ctx sched
    obtain rfl : c' = c0 := by rw [k0] at h1; exact Option.some.inj h1
    obtain ⟨d', cl, j0, j1, j2, -⟩ := handle_call hF mode ⟨c'.self⟩ ev c'.ctx c'.sched
    obtain rfl : d' = d := by rw [j0] at h3; exact Option.some.inj h3
    have e : m.discr (InitializedStateMachine.state ⟨c'.self⟩) = m.discr sm.state := k3
    rw [e] at j1 j2
    refine ⟨cl, j1, ?_⟩
    have hs : m.steps (c'.trace ++ d'.trace) = m.steps c'.trace ++ m.steps d'.trace := by
      simp [Machine.steps]
    show m.steps (c'.trace ++ d'.trace) = _
    rw [hs, j2 ho, k1 h2]
    rfl

/-- C16 applies: two levels of superstates are entered; an entry action panics after one. -/
example : (∃ c, Sample.freshU.initWithContext .awaitable (Sample.machine false) 0 [] = some c ∧
      c.out = .ok () ∧ actionsOf ((Sample.machine false).steps c.trace) =
        [.enter (.sup .s), .enter (.sup .s1), .enter (.leaf .s11)]) ∧
    (∃ c, (Sample.fresh 1).initWithContext .blocking (Sample.machine true) 0 [] = some c ∧
      c.out = .panic ∧ actionsOf ((Sample.machine true).steps c.trace) =
        [.enter (.sup .s), .enter (.sup .s1)]) ∧
    (∃ c, Sample.fresh.handleWithContext .blocking (Sample.machine false) .b 0 [] = some c ∧
      c.out = .ok () ∧ actionsOf ((Sample.machine false).steps c.trace) =
        [.enter (.sup .s), .enter (.sup .s1), .enter (.leaf .s11), .leave (.leaf .s11),
          .enter (.leaf .s12)]) := by
  refine ⟨?_, ?_, ?_⟩
  · sample_case
  · sample_case
  · sample_case

/-! ## C17 -/

/-- C17. (1) On an initialized machine `init` is a no-op without any callback. (2) On an initialized machine
`handle` is exactly `handle` of an `InitializedStateMachine`: no initialization takes place, and the machine
stays initialized. (3) A completed call leaves the machine initialized. -/
theorem C17_initialized_once {sm : StateMachine S} {cmd : Command S} {c : Call S (StateMachine S)}
    (h : cmd.exec mode m sm = some c) :
    (sm.initialized = true → ∀ ctx sched, cmd = .init ctx sched →
      c = { out := .ok (), self := sm, ctx := ctx, sched := sched, trace := [] }) ∧
    (sm.initialized = true → ∀ ev ctx sched, cmd = .handle ev ctx sched →
      ∃ d, (⟨sm.inner⟩ : InitializedStateMachine S).handleWithContext mode m ev ctx sched = some d ∧
        c.out = d.out ∧ c.self.inner = d.self.inner ∧ c.ctx = d.ctx ∧ c.sched = d.sched ∧
        c.trace = d.trace) ∧
    (sm.initialized = true → c.self.initialized = true) ∧
    (c.out = .ok () → c.self.initialized = true) := by
  by_cases h0 : sm.initialized = true
  · cases cmd with
    | init ctx sched =>
      have h' : sm.initWithContext mode m ctx sched = some c := h
      rw [sm_init_initialized h0] at h'
      cases h'
      refine ⟨fun _ _ _ hc => by cases hc; rfl, fun _ _ _ _ hc => (by cases hc), fun _ => h0, fun _ => h0⟩
    | handle ev ctx sched =>
      obtain ⟨d, h1, rfl⟩ := (sm_handle_initialized h0 ev ctx sched).1 h
      refine ⟨fun _ _ _ hc => (by cases hc), fun _ _ _ _ hc => by cases hc; exact ⟨d, h1, rfl, rfl, rfl, rfl, rfl⟩,
        fun _ => rfl, fun _ => rfl⟩
  · refine ⟨fun h => absurd h h0, fun h => absurd h h0, fun h => absurd h h0, fun ho => ?_⟩
    have h0 : sm.initialized = false := by simpa using h0
    cases cmd with
    | init ctx sched =>
      obtain ⟨c0, h1, rfl⟩ := (sm_init_uninitialized h0 ctx sched).1 h
      exact isOk_iff.2 ho
    | handle ev ctx sched =>
      obtain ⟨c0, h1, (⟨h2, rfl⟩ | ⟨h2, d, h3, rfl⟩)⟩ := (sm_handle_uninitialized h0 ev ctx sched).1 h
      · exact absurd ho h2
      · rfl

theorem history_initialized {sm sm' : StateMachine S} {l}
    (h : History mode m sm l sm') (h0 : sm.initialized = true) : sm'.initialized = true := by
  induction h with
  | nil => exact h0
  | cons h1 _ ih => exact ih ((C17_initialized_once h1).2.2.1 h0)

/-- C17 over histories: once some call has completed (or the machine was initialized to begin with), every
later call is made on an initialized machine, so by `C17_initialized_once` it initializes nothing. -/
theorem C17_never_again {sm b sm' : StateMachine S} {l1 l2}
    (h1 : History mode m sm l1 b) (_h2 : History mode m b l2 sm')
    (hd : sm.initialized = true ∨ ∃ p ∈ l1, p.2.out = .ok ()) : b.initialized = true := by
  induction h1 with
  | nil =>
    rcases hd with hd | ⟨p, hp, -⟩
    · exact hd
    · simp at hp
  | @cons sm cmd c l sm1 hx h1 ih =>
    apply ih _h2
    rcases hd with hd | ⟨p, hp, hp'⟩
    · exact .inl ((C17_initialized_once hx).2.2.1 hd)
    · rcases List.mem_cons.1 hp with rfl | hp
      · exact .inl ((C17_initialized_once hx).2.2.2 hp')
      · exact .inr ⟨p, hp, hp'⟩

/-- A call that initializes nothing: an `init` call runs no callback, a `handle` call starts with announcing the
event. -/
def Command.skipsInit (mm : Machine S) (p : Command S × Call S (StateMachine S)) : Prop :=
  match p.1 with
  | .init _ _ => p.2.trace = []
  | .handle ev _ _ => ∃ d rest, mm.steps p.2.trace = .beforeDispatch (.leaf d) ev :: rest

/-- A call that initializes: it runs all the entry actions from the root down to variant `d`, and then nothing
else (`init`) or first of all announces the event to that state (`handle`). -/
def Command.initializes (mm : Machine S) (F : Forest S.D S.E) (d : S.D)
    (p : Command S × Call S (StateMachine S)) : Prop :=
  match p.1 with
  | .init _ _ => mm.steps p.2.trace = (F.path d).reverse.map .entry
  | .handle ev _ _ => ∃ rest, mm.steps p.2.trace =
      (F.path d).reverse.map .entry ++ .beforeDispatch (.leaf d) ev :: rest

theorem history_skips (hF : Follows m F) {sm sm' : StateMachine S} {l}
    (h : History mode m sm l sm') (h0 : sm.initialized = true) : ∀ p ∈ l, Command.skipsInit m p := by
  induction h with
  | nil => simp
  | @cons sm cmd c l sm1 hx _ ih =>
    intro p hp
    rcases List.mem_cons.1 hp with rfl | hp
    · cases cmd with
      | init ctx sched =>
        have h' : sm.initWithContext mode m ctx sched = some c := hx
        rw [sm_init_initialized h0] at h'
        cases h'
        rfl
      | handle ev ctx sched =>
        obtain ⟨d, h1, rfl⟩ := (sm_handle_initialized h0 ev ctx sched).1 hx
        obtain ⟨rest, hr⟩ := handle_first hF h1
        exact ⟨_, rest, hr⟩
    · exact ih ((C17_initialized_once hx).2.2.1 h0) p hp

/-- C17 for every history of a machine made by `state_machine()`: first come calls that are cut short while
initializing, then (unless the history ends before) exactly one call that initializes, then only calls that
initialize nothing. -/
theorem C17_exactly_once (hF : Follows m F) {x : S.M} {sm' : StateMachine S} {l}
    (h : History mode m (stateMachine m x) l sm') :
    ∃ failed rest, l = failed ++ rest ∧
      (∀ p ∈ failed, p.2.out ≠ .ok () ∧
        m.steps p.2.trace <+: (F.path (m.discr m.initial)).reverse.map .entry) ∧
      (∀ p later, rest = p :: later →
        Command.initializes m F (m.discr m.initial) p ∧ ∀ q ∈ later, Command.skipsInit m q) := by
  have key : ∀ sm l sm', History mode m sm l sm' → sm.initialized = false →
      ∃ failed rest, l = failed ++ rest ∧
        (∀ p ∈ failed, p.2.out ≠ .ok () ∧
          m.steps p.2.trace <+: (F.path (m.discr sm.state)).reverse.map .entry) ∧
        (∀ p later, rest = p :: later →
          Command.initializes m F (m.discr sm.state) p ∧ ∀ q ∈ later, Command.skipsInit m q) := by
    intro sm l sm' h
    induction h with
    | nil => exact fun _ => ⟨[], [], rfl, by simp, by simp⟩
    | @cons sm cmd c l sm1 hx h1 ih =>
      intro h0
      have first : Command.initializes m F (m.discr sm.state) (cmd, c) → c.self.initialized = true →
          ∃ failed rest, (cmd, c) :: l = failed ++ rest ∧
            (∀ p ∈ failed, p.2.out ≠ .ok () ∧
              m.steps p.2.trace <+: (F.path (m.discr sm.state)).reverse.map .entry) ∧
            (∀ p later, rest = p :: later →
              Command.initializes m F (m.discr sm.state) p ∧ ∀ q ∈ later, Command.skipsInit m q) := by
        intro hi hc
        refine ⟨[], (cmd, c) :: l, rfl, by simp, ?_⟩
        rintro p later e
        cases e
        exact ⟨hi, history_skips hF h1 hc⟩
      have more : c.out ≠ .ok () →
          m.steps c.trace <+: (F.path (m.discr sm.state)).reverse.map .entry →
          c.self.initialized = false → m.discr c.self.state = m.discr sm.state →
          ∃ failed rest, (cmd, c) :: l = failed ++ rest ∧
            (∀ p ∈ failed, p.2.out ≠ .ok () ∧
              m.steps p.2.trace <+: (F.path (m.discr sm.state)).reverse.map .entry) ∧
            (∀ p later, rest = p :: later →
              Command.initializes m F (m.discr sm.state) p ∧ ∀ q ∈ later, Command.skipsInit m q) := by
        intro ho hs hc he
        obtain ⟨failed, rest, rfl, i1, i2⟩ := ih hc
        rw [he] at i1 i2
        refine ⟨(cmd, c) :: failed, rest, rfl, ?_, i2⟩
        intro p hp
        rcases List.mem_cons.1 hp with rfl | hp
        · exact ⟨ho, hs⟩
        · exact i1 p hp
      cases cmd with
      | init ctx sched =>
        obtain ⟨k1, k2, k3⟩ := C16_init hF h0 hx
        obtain ⟨c0, i1, rfl⟩ := (sm_init_uninitialized h0 ctx sched).1 hx
        by_cases ho : c0.out = .ok ()
        · exact first (k1 ho) (isOk_iff.2 ho)
        · refine more ho k2 ?_ k3
          cases hk : c0.out.isOk with
          | false => rfl
          | true => exact absurd (isOk_iff.1 hk) ho
      | handle ev ctx sched =>
        obtain ⟨c0, i1, h2⟩ := (sm_handle_uninitialized h0 ev ctx sched).1 hx
        obtain ⟨c', k0, k1, k2, k3, -⟩ := init_call hF mode sm.inner ctx sched
        obtain rfl : c' = c0 := by rw [k0] at i1; exact Option.some.inj i1
        rcases h2 with ⟨ho, rfl⟩ | ⟨ho, d, h3, rfl⟩
        · exact more ho k2 rfl k3
        · obtain ⟨rest, hr⟩ := handle_first hF h3
          refine first ⟨rest, ?_⟩ rfl
          have hs : m.steps (c'.trace ++ d.trace) = m.steps c'.trace ++ m.steps d.trace := by
            simp [Machine.steps]
          have e : m.discr (InitializedStateMachine.state ⟨c'.self⟩) = m.discr sm.state := k3
          show m.steps (c'.trace ++ d.trace) = _
          rw [hs, hr, k1 ho, e]
          rfl
  exact key _ _ _ h rfl

/-- C17 applies: a history of a lazy `handle` and an `init`. -/
example : ∃ c1 c2, History .blocking (Sample.machine false) Sample.fresh
      [(.handle .b 0 [], c1), (.init 5 [], c2)] c2.self ∧ c1.out = .ok () ∧
      c1.self.initialized = true ∧ c2.ctx = 5 := by
  have h1 : ∃ c1, Sample.fresh.handleWithContext .blocking (Sample.machine false) .b 0 [] = some c1 ∧
      c1.out = .ok () ∧ c1.self.initialized = true := by sample_case
  obtain ⟨c1, h1, h2, h3⟩ := h1
  exact ⟨c1, _, .cons h1 (.cons (sm_init_initialized h3 5 []) .nil), h2, h3, rfl⟩

/-! ## C18 -/

/-- C18. A lazy `handle` on an uninitialized `StateMachine` is `init` of an `UninitializedStateMachine` with
the same contents followed by `handle` on the result: same callbacks, context, contents and outcome; if the
initialization is interrupted the lazy call is interrupted in the same way; and it returns whenever both
calls do. -/
theorem C18_lazy_is_explicit {sm : StateMachine S} (h0 : sm.initialized = false) :
    (∀ c ism d, (⟨sm.inner⟩ : UninitializedStateMachine S).initWithContext mode m ctx sched = some c →
      c.self = some ism → ism.handleWithContext mode m ev c.ctx c.sched = some d →
      sm.handleWithContext mode m ev ctx sched = some { out := d.out, self := ⟨d.self.inner, true⟩,
                                                        ctx := d.ctx, sched := d.sched,
                                                        trace := c.trace ++ d.trace }) ∧
    (∀ c, (⟨sm.inner⟩ : UninitializedStateMachine S).initWithContext mode m ctx sched = some c →
      c.self = none → c.out ≠ .ok () ∧ ∃ c', sm.handleWithContext mode m ev ctx sched = some c' ∧
        c'.out = c.out ∧ c'.ctx = c.ctx ∧ c'.sched = c.sched ∧ c'.trace = c.trace) ∧
    (sm.handleWithContext mode m ev ctx sched = none ↔
      ((⟨sm.inner⟩ : UninitializedStateMachine S).initWithContext mode m ctx sched = none ∨
       ∃ c ism, (⟨sm.inner⟩ : UninitializedStateMachine S).initWithContext mode m ctx sched = some c ∧
         c.self = some ism ∧ ism.handleWithContext mode m ev c.ctx c.sched = none)) := by
  unfold StateMachine.handleWithContext UninitializedStateMachine.initWithContext
    InitializedStateMachine.handleWithContext
  simp only [h0, ↓reduceIte, Option.bind_eq_bind]
  cases hi : sm.inner.init mode m ctx sched with
  | none => simp
  | some c0 =>
    obtain ⟨o, sf, cx, sc, tr⟩ := c0
    cases o with
    | ok u =>
      simp only [Option.bind_some, Option.some.injEq]
      refine ⟨?_, ?_, ?_⟩
      · rintro c ism d rfl h1 h2
        cases h1
        cases hd : Inner.handle mode m sf ev cx sc with
        | none => simp [hd] at h2
        | some d0 => simp [hd] at h2; subst h2; simp
      · rintro c rfl h1; simp at h1
      · cases hd : Inner.handle mode m sf ev cx sc with
        | none => simp [hd]
        | some d0 => simp [hd]
    | panic => simp; rintro c ism d rfl h; simp at h
    | stopped => simp; rintro c ism d rfl h; simp at h

/-- C18 from construction: on machines made by `state_machine()` and `uninitialized_state_machine()` from the same
storage, the first `handle` call of the former equals explicit initialization of the latter followed by
`handle`. -/
theorem C18_from_construction (x : S.M) {c ism d}
    (hi : (uninitializedStateMachine m x).initWithContext mode m ctx sched = some c)
    (hs : c.self = some ism) (hh : ism.handleWithContext mode m ev c.ctx c.sched = some d) :
    (stateMachine m x).handleWithContext mode m ev ctx sched =
      some { out := d.out, self := ⟨d.self.inner, true⟩, ctx := d.ctx, sched := d.sched,
             trace := c.trace ++ d.trace } :=
  (C18_lazy_is_explicit (sm := stateMachine m x) rfl).1 c ism d hi hs hh

/-- A sequence of events handled one after the other by an `InitializedStateMachine`. -/
inductive Runs (mode : Mode) (m : Machine S) : InitializedStateMachine S →
    List (S.Ev × S.Ctx × List S.In) → List (Call S (InitializedStateMachine S)) → Prop where
  | nil {sm} : Runs mode m sm [] []
  | cons {sm e c es cs} : sm.handleWithContext mode m e.1 e.2.1 e.2.2 = some c → Runs mode m c.self es cs →
      Runs mode m sm (e :: es) (c :: cs)

/-- C18, from then on: an initialized `StateMachine` and an `InitializedStateMachine` with the same contents
behave identically on every further sequence of events. -/
theorem C18_identical_afterwards {sm : StateMachine S} (h0 : sm.initialized = true)
    {es : List (S.Ev × S.Ctx × List S.In)} {cs : List (Call S (InitializedStateMachine S))}
    (h : Runs mode m ⟨sm.inner⟩ es cs) :
    ∃ sm' l, History mode m sm l sm' ∧ l.map (·.1) = es.map (fun e => .handle e.1 e.2.1 e.2.2) ∧
      l.map (fun p => (p.2.out, p.2.self.inner, p.2.ctx, p.2.sched, p.2.trace)) =
        cs.map (fun d => (d.out, d.self.inner, d.ctx, d.sched, d.trace)) := by
  generalize hi : (⟨sm.inner⟩ : InitializedStateMachine S) = ism at h
  induction h generalizing sm with
  | nil => exact ⟨sm, [], .nil, rfl, rfl⟩
  | @cons ism e c es cs hc _ ih =>
    subst hi
    have := (sm_handle_initialized h0 e.1 e.2.1 e.2.2).2 ⟨c, hc, rfl⟩
    obtain ⟨sm', l, hl1, hl2, hl3⟩ := ih (sm := ⟨c.self.inner, true⟩) rfl rfl
    exact ⟨sm', (.handle e.1 e.2.1 e.2.2, _) :: l, .cons this hl1, by simp [hl2], by simp [hl3]⟩

/-- C18 applies: the explicit calls succeed. -/
example : (∃ c, Sample.freshU.initWithContext .awaitable (Sample.machine false) 0 [] = some c ∧
      c.self.isSome ∧ (c.self.bind fun ism =>
        ism.handleWithContext .awaitable (Sample.machine false) .b c.ctx c.sched).isSome) ∧
    (∃ c, (Sample.freshU 1).initWithContext .blocking (Sample.machine true) 0 [] = some c ∧
      c.self.isNone) ∧
    (∃ cs, Runs .blocking (Sample.machine false) (Sample.at_ .s12) [(.c, 0, []), (.d, 0, [])] cs) := by
  refine ⟨?_, ?_, ?_⟩
  · obtain ⟨c, h1, h2, h3⟩ : ∃ c, Sample.freshU.initWithContext .awaitable (Sample.machine false) 0 [] =
      some c ∧ c.self.isSome = true ∧ c.out = .ok () := by sample_case
    refine ⟨c, h1, h2, ?_⟩
    obtain ⟨ism, h4⟩ := Option.isSome_iff_exists.1 h2
    obtain ⟨d, cl, h5, -⟩ := handle_call (Sample.follows false) .awaitable ism .b c.ctx c.sched
    simp [h4, h5]
  · sample_case
  · obtain ⟨c1, cl1, h1, -⟩ := handle_call (Sample.follows false) .blocking (Sample.at_ .s12) .c 0 []
    obtain ⟨c2, cl2, h2, -⟩ := handle_call (Sample.follows false) .blocking c1.self .d 0 []
    exact ⟨[c1, c2], .cons h1 (.cons h2 .nil)⟩

/-! ## C19 -/

/-- C19. The three ways of constructing a machine give `state() = initial()` and the given (or default)
storage, and no initialization has taken place: the first completed call of any kind starts with the entry
actions from the root down to `initial()`; and however many calls are interrupted while initializing, the
variant stays that of `initial()`. -/
theorem C19_construction (hF : Follows m F) (x : S.M) :
    (stateMachine m x).state = m.initial ∧ (stateMachine m x).shared = x ∧
    StateMachine.default m x = stateMachine m x ∧
    (uninitializedStateMachine m x).state = m.initial ∧ (uninitializedStateMachine m x).shared = x ∧
    ∀ l b, History mode m (stateMachine m x) l b → b.initialized = false →
      m.discr b.state = m.discr m.initial ∧
      ∀ cmd c, Command.exec mode m b cmd = some c → c.out = .ok () →
        (F.path (m.discr m.initial)).reverse.map .entry <+: m.steps c.trace := by
  refine ⟨rfl, rfl, rfl, rfl, rfl, ?_⟩
  have key : ∀ sm l b, History mode m sm l b → b.initialized = false →
      m.discr b.state = m.discr sm.state := by
    intro sm l b h
    induction h with
    | nil => intro _; rfl
    | @cons sm cmd c l sm1 hx h1 ih =>
      intro hb
      have hc : c.self.initialized = false := by
        cases hci : c.self.initialized with
        | false => rfl
        | true => rw [history_initialized h1 hci] at hb; simp at hb
      have h0 : sm.initialized = false := by
        cases hci : sm.initialized with
        | false => rfl
        | true => rw [(C17_initialized_once hx).2.2.1 hci] at hc; simp at hc
      rw [ih hb]
      have hi := fun ctx sched => init_call hF mode sm.inner ctx sched
      cases cmd with
      | init ctx sched =>
        obtain ⟨c0, i1, rfl⟩ := (sm_init_uninitialized h0 ctx sched).1 hx
        obtain ⟨c', k0, k1, k2, k3, -⟩ := hi ctx sched
        obtain rfl : c' = c0 := by rw [k0] at i1; exact Option.some.inj i1
        exact k3
      | handle ev ctx sched =>
        obtain ⟨c0, i1, (⟨h2, rfl⟩ | ⟨h2, d, h3, rfl⟩)⟩ := (sm_handle_uninitialized h0 ev ctx sched).1 hx
        · obtain ⟨c', k0, k1, k2, k3, -⟩ := hi ctx sched
          obtain rfl : c' = c0 := by rw [k0] at i1; exact Option.some.inj i1
          exact k3
        · simp at hc
  intro l b h hb
  have e := key _ _ _ h hb
  have e' : m.discr b.state = m.discr m.initial := e
  refine ⟨e', fun cmd c hc ho => ?_⟩
  rw [← e']
  cases cmd with
  | init ctx sched => rw [(C16_init hF hb hc).1 ho]; exact List.prefix_refl _
  | handle ev ctx sched =>
    obtain ⟨cl, -, hs⟩ := C16_handle hF hb hc ho
    rw [hs]; exact List.prefix_append _ _

/-- C19 applies: an interrupted and then a completed initialization. -/
example : ∃ c, (Sample.fresh 1).initWithContext .blocking (Sample.machine true) 0 [] = some c ∧
    c.self.initialized = false ∧ c.self.state = (Sample.machine true).initial := by
  sample_case

/-! ## C20 -/

/-- C20. For machines with unit context, `handle(e)` is `handle_with_context(e, ())`; with unit event,
`step_with_context` is `handle_with_context(())` and `step` is `handle(())`; on both kinds of machine. -/
theorem C20_entry_points_agree (unitEv : S.Ev) (unitCtx : S.Ctx) (ctx : S.Ctx) (sched : List S.In) :
    (∀ sm : StateMachine S,
      StateMachine.handle mode m unitCtx sm ev sched = sm.handleWithContext mode m ev unitCtx sched ∧
      StateMachine.init mode m unitCtx sm sched = sm.initWithContext mode m unitCtx sched ∧
      StateMachine.stepWithContext mode m unitEv sm ctx sched =
        sm.handleWithContext mode m unitEv ctx sched ∧
      StateMachine.step mode m unitEv unitCtx sm sched =
        StateMachine.handle mode m unitCtx sm unitEv sched) ∧
    (∀ sm : InitializedStateMachine S,
      InitializedStateMachine.handle mode m unitCtx sm ev sched =
        sm.handleWithContext mode m ev unitCtx sched ∧
      InitializedStateMachine.stepWithContext mode m unitEv sm ctx sched =
        sm.handleWithContext mode m unitEv ctx sched ∧
      InitializedStateMachine.step mode m unitEv unitCtx sm sched =
        InitializedStateMachine.handle mode m unitCtx sm unitEv sched) ∧
    (∀ sm : UninitializedStateMachine S,
      UninitializedStateMachine.init mode m unitCtx sm sched =
        sm.initWithContext mode m unitCtx sched) :=
  ⟨fun _ => ⟨rfl, rfl, rfl, rfl⟩, fun _ => ⟨rfl, rfl, rfl⟩, fun _ => rfl⟩

/-! ## C21 -/

/-- C21. On an acyclic hierarchy every call returns (possibly because a callback panicked or the future was
dropped), and if no callback panics or suspends it returns normally. -/
theorem C21_calls_return (hF : Follows m F) :
    (∀ (sm : InitializedStateMachine S) ev ctx sched, ∃ c,
      sm.handleWithContext mode m ev ctx sched = some c ∧ (m.NoPanic → m.NoSuspend → c.out = .ok ())) ∧
    (∀ (sm : StateMachine S) (cmd : Command S), ∃ c,
      cmd.exec mode m sm = some c ∧ (m.NoPanic → m.NoSuspend → c.out = .ok ())) ∧
    (∀ (sm : UninitializedStateMachine S) ctx sched, ∃ c,
      sm.initWithContext mode m ctx sched = some c ∧
        (m.NoPanic → m.NoSuspend → c.out = .ok () ∧ c.self.isSome)) := by
  have hok : ∀ o : Out Unit, (m.NoPanic → o ≠ .panic) → (m.NoSuspend → o ≠ .stopped) →
      m.NoPanic → m.NoSuspend → o = .ok () := by
    intro o h1 h2 hp hs
    cases o with
    | ok => rfl
    | panic => exact absurd rfl (h1 hp)
    | stopped => exact absurd rfl (h2 hs)
  have hh : ∀ (sm : InitializedStateMachine S) ev ctx sched, ∃ c,
      sm.handleWithContext mode m ev ctx sched = some c ∧ (m.NoPanic → m.NoSuspend → c.out = .ok ()) := by
    intro sm ev ctx sched
    obtain ⟨c, cl, h0, -, -, -, -, -, h1, h2⟩ := handle_call hF mode sm ev ctx sched
    exact ⟨c, h0, hok _ h1 h2⟩
  have hi : ∀ (i : Inner S) ctx sched, ∃ c, i.init mode m ctx sched = some c ∧
      (m.NoPanic → m.NoSuspend → c.out = .ok ()) := by
    intro i ctx sched
    obtain ⟨c, h0, -, -, -, h1, h2⟩ := init_call hF mode i ctx sched
    exact ⟨c, h0, hok _ h1 h2⟩
  refine ⟨hh, ?_, ?_⟩
  · intro sm cmd
    cases hin : sm.initialized with
    | true =>
      cases cmd with
      | init ctx sched => exact ⟨_, sm_init_initialized hin ctx sched, fun _ _ => rfl⟩
      | handle ev ctx sched =>
        obtain ⟨d, h1, h2⟩ := hh ⟨sm.inner⟩ ev ctx sched
        exact ⟨_, (sm_handle_initialized hin ev ctx sched).2 ⟨d, h1, rfl⟩, h2⟩
    | false =>
      cases cmd with
      | init ctx sched =>
        obtain ⟨c0, h1, h2⟩ := hi sm.inner ctx sched
        exact ⟨_, (sm_init_uninitialized hin ctx sched).2 ⟨c0, h1, rfl⟩, h2⟩
      | handle ev ctx sched =>
        obtain ⟨c0, h1, h2⟩ := hi sm.inner ctx sched
        by_cases ho : c0.out = .ok ()
        · obtain ⟨d, h3, h4⟩ := hh ⟨c0.self⟩ ev c0.ctx c0.sched
          exact ⟨_, (sm_handle_uninitialized hin ev ctx sched).2 ⟨c0, h1, .inr ⟨ho, d, h3, rfl⟩⟩, h4⟩
        · exact ⟨_, (sm_handle_uninitialized hin ev ctx sched).2 ⟨c0, h1, .inl ⟨ho, rfl⟩⟩, h2⟩
  · intro sm ctx sched
    obtain ⟨c0, h1, h2⟩ := hi sm.inner ctx sched
    refine ⟨_, (uninit_init ctx sched).2 ⟨c0, h1, rfl⟩, fun hp hs => ⟨h2 hp hs, ?_⟩⟩
    simp [isOk_iff.2 (h2 hp hs)]

/-- C21 applies: a well-behaved machine exists. -/
example : Follows (Sample.machine false) Sample.forest ∧ (Sample.machine false).NoPanic ∧
    (Sample.machine false).NoSuspend :=
  ⟨Sample.follows false, Sample.noPanic, Sample.noSuspend⟩

/-! ## C22 -/

/-- The superstates of `s` form an endless chain: `up 0` is the superstate of `s`, and `up (n + 1)` that of
`up n`. -/
def Endless (m : Machine S) (s : S.St) (up : Nat → S.Sup) : Prop :=
  (m.superstate s).map (·.1) = some (up 0) ∧ ∀ n, (m.supSuperstate (up n)).map (·.1) = some (up (n + 1))

theorem supDepth_endless {up : Nat → S.Sup}
    (h : ∀ n, (m.supSuperstate (up n)).map (·.1) = some (up (n + 1))) (n : Nat) :
    supDepth m (up n) = none := by
  have key : ∀ v r, supDepth m v = some r → ∀ n, v ≠ up n := by
    apply supDepth.partial_correctness m (fun v _ => ∀ n, v ≠ up n)
    intro f ih v r hr n hv
    subst hv
    have hn := h n
    cases hs : m.supSuperstate (up n) with
    | none => simp [hs] at hn
    | some p =>
      obtain ⟨w, back⟩ := p
      have hw : w = up (n + 1) := by simpa [hs] using hn
      simp only [hs] at hr
      cases hf : f w with
      | none => simp [hf] at hr
      | some d => exact ih w d hf (n + 1) hw
  cases hd : supDepth m (up n) with
  | none => rfl
  | some r => exact absurd rfl (key _ _ hd n)

theorem depth_endless {s : S.St} {up : Nat → S.Sup} (h : Endless m s up) : depth m s = none := by
  obtain ⟨h1, h2⟩ := h
  unfold depth
  cases hs : m.superstate s with
  | none => simp [hs] at h1
  | some p =>
    obtain ⟨v, back⟩ := p
    have hv : v = up 0 := by simpa [hs] using h1
    simp [hv, supDepth_endless h2]

/-- C22. If the superstate chain of the current state never ends, no initialization returns, whatever the
callbacks do: neither `init` of either kind of machine nor the first `handle`. -/
theorem C22_endless_chain_never_returns {up : Nat → S.Sup} :
    (∀ (sm : UninitializedStateMachine S) ctx sched, Endless m sm.state up →
      sm.initWithContext mode m ctx sched = none) ∧
    (∀ (sm : StateMachine S) (cmd : Command S), sm.initialized = false → Endless m sm.state up →
      cmd.exec mode m sm = none) := by
  have hi : ∀ (i : Inner S) ctx sched, Endless m i.state up → i.init mode m ctx sched = none := by
    intro i ctx sched h
    have hd := depth_endless h
    cases mode <;>
      simp only [Inner.init, Inner.run, Blocking.init, Awaitable.init, Bind.bind, Eff.bind, Eff.self,
        Eff.lift, hd, Option.map_none]
  constructor
  · intro sm ctx sched h
    unfold UninitializedStateMachine.initWithContext
    rw [hi sm.inner ctx sched h]; rfl
  · intro sm cmd h0 h
    cases cmd with
    | init ctx sched =>
      show StateMachine.initWithContext mode m sm ctx sched = none
      unfold StateMachine.initWithContext
      rw [hi sm.inner ctx sched h]; simp [h0]
    | handle ev ctx sched =>
      show StateMachine.handleWithContext mode m sm ev ctx sched = none
      unfold StateMachine.handleWithContext
      rw [hi sm.inner ctx sched h]; simp [h0]

/-- C22 applies: the sample machine with `S` made its own superstate. -/
example : ∃ up, Endless { Sample.machine false with
    supSuperstate := fun v => some ((.s, v.2), fun w => (v.1, w.2))
    supSuperstate_back := by
      intro v w back h
      simp only [Option.some.injEq, Prod.mk.injEq] at h
      obtain ⟨h1, h2⟩ := h
      subst h1; subst h2; rfl } ((.s11, 7) : Sample.D × Nat) up :=
  ⟨fun n => if n = 0 then (.s1, 7) else (.s, 7), rfl, fun n => by cases n <;> rfl⟩

/-! ## C32 -/

/-- C32. If a call on an uninitialized machine is cut short while initializing (it did not complete and all
it has run are entry actions), the machine remains uninitialized, in the same variant, and the next call
runs the entry actions from the root again (all of them, before anything else, if it completes). -/
theorem C32_interrupted_init_starts_over (hF : Follows m F) {sm : StateMachine S}
    (h0 : sm.initialized = false) {cmd : Command S} {c : Call S (StateMachine S)}
    (h : cmd.exec mode m sm = some c) (ho : c.out ≠ .ok ())
    (hent : ∀ x ∈ m.steps c.trace, ∃ n, x = .entry n) :
    c.self.initialized = false ∧ m.discr c.self.state = m.discr sm.state ∧
    m.steps c.trace <+: (F.path (m.discr sm.state)).reverse.map .entry ∧
    ∀ cmd' c', Command.exec mode m c.self cmd' = some c' →
      (c'.out = .ok () → (F.path (m.discr sm.state)).reverse.map .entry <+: m.steps c'.trace) ∧
      (m.steps c'.trace <+: (F.path (m.discr sm.state)).reverse.map .entry ∨
        (F.path (m.discr sm.state)).reverse.map .entry <+: m.steps c'.trace) := by
  have key : c.self.initialized = false ∧ m.discr c.self.state = m.discr sm.state ∧
      m.steps c.trace <+: (F.path (m.discr sm.state)).reverse.map .entry := by
    cases cmd with
    | init ctx sched =>
      obtain ⟨c0, h1, rfl⟩ := (sm_init_uninitialized h0 ctx sched).1 h
      obtain ⟨-, k2, k3⟩ := C16_init hF h0 h
      refine ⟨?_, k3, k2⟩
      cases hk : c0.out.isOk with
      | false => rfl
      | true => exact absurd (isOk_iff.1 hk) ho
    | handle ev ctx sched =>
      obtain ⟨c0, h1, (⟨h2, rfl⟩ | ⟨h2, d, h3, rfl⟩)⟩ := (sm_handle_uninitialized h0 ev ctx sched).1 h
      · obtain ⟨c', k0, k1, k2, k3, -⟩ := init_call hF mode sm.inner ctx sched
        obtain rfl : c' = c0 := by rw [k0] at h1; exact Option.some.inj h1
        exact ⟨rfl, k3, k2⟩
      · exfalso
        obtain ⟨rest, hr⟩ := handle_first hF h3
        obtain ⟨n, hn⟩ := hent (.beforeDispatch (.leaf (m.discr c0.self.state)) ev) (by
          have : m.steps (c0.trace ++ d.trace) = m.steps c0.trace ++ m.steps d.trace := by
            simp [Machine.steps]
          show _ ∈ m.steps (c0.trace ++ d.trace)
          rw [this, hr]
          simp [InitializedStateMachine.state])
        cases hn
  obtain ⟨k1, k2, k3⟩ := key
  refine ⟨k1, k2, k3, fun cmd' c' h' => ?_⟩
  cases cmd' with
  | init ctx sched =>
    obtain ⟨j1, j2, -⟩ := C16_init hF k1 h'
    rw [k2] at j1 j2
    exact ⟨fun ho => by rw [j1 ho]; exact List.prefix_refl _, .inl j2⟩
  | handle ev ctx sched =>
    refine ⟨fun ho => ?_, ?_⟩
    · obtain ⟨cl, -, hs⟩ := C16_handle hF k1 h' ho
      rw [k2] at hs
      rw [hs]; exact List.prefix_append _ _
    · obtain ⟨c0, h1, (⟨h2, rfl⟩ | ⟨h2, d, h3, rfl⟩)⟩ := (sm_handle_uninitialized k1 ev ctx sched).1 h'
      · obtain ⟨c', i0, i1, i2, i3, -⟩ := init_call hF mode c.self.inner ctx sched
        obtain rfl : c' = c0 := by rw [i0] at h1; exact Option.some.inj h1
        left
        have e : m.discr c.self.inner.state = m.discr sm.state := k2
        rw [e] at i2
        exact i2
      · obtain ⟨c', i0, i1, i2, i3, -⟩ := init_call hF mode c.self.inner ctx sched
        obtain rfl : c' = c0 := by rw [i0] at h1; exact Option.some.inj h1
        right
        have e : m.discr c.self.inner.state = m.discr sm.state := k2
        have : m.steps (c'.trace ++ d.trace) = m.steps c'.trace ++ m.steps d.trace := by
          simp [Machine.steps]
        show _ <+: m.steps (c'.trace ++ d.trace)
        rw [this, i1 h2, e]
        exact List.prefix_append _ _

/-- C32, the converse: if a call on an uninitialized machine got as far as announcing the event, the entry
actions have all run and the machine is initialized, whatever happens afterwards. -/
theorem C32_initialized_before_dispatch (hF : Follows m F) {sm : StateMachine S}
    (h0 : sm.initialized = false) {c : Call S (StateMachine S)}
    (h : sm.handleWithContext mode m ev ctx sched = some c) {x}
    (hx : x ∈ m.steps c.trace) (hx' : ∀ n, x ≠ .entry n) :
    c.self.initialized = true ∧ (F.path (m.discr sm.state)).reverse.map .entry <+: m.steps c.trace := by
  obtain ⟨c0, h1, h2⟩ := (sm_handle_uninitialized h0 ev ctx sched).1 h
  obtain ⟨c', k0, k1, k2, k3, -⟩ := init_call hF mode sm.inner ctx sched
  obtain rfl : c' = c0 := by rw [k0] at h1; exact Option.some.inj h1
  rcases h2 with ⟨h2, rfl⟩ | ⟨h2, d, h3, rfl⟩
  · exfalso
    have := k2.subset hx
    unfold initLog at this
    obtain ⟨n, -, rfl⟩ := List.mem_map.1 this
    exact hx' n rfl
  · refine ⟨rfl, ?_⟩
    have : m.steps (c'.trace ++ d.trace) = m.steps c'.trace ++ m.steps d.trace := by
      simp [Machine.steps]
    show _ <+: m.steps (c'.trace ++ d.trace)
    rw [this, k1 h2]
    exact List.prefix_append _ _

/-- C32 applies: the second entry action panics; and, once initialized, a handler panics. -/
example : (∃ c, (Sample.fresh 1).handleWithContext .awaitable (Sample.machine true) .b 0 [] = some c ∧
      c.out = .panic ∧ actionsOf ((Sample.machine true).steps c.trace) =
        [.enter (.sup .s), .enter (.sup .s1)] ∧ c.trace.length = 2) ∧
    (∃ c, (Sample.fresh 9).handleWithContext .blocking (Sample.machine true) .bomb 0 [] = some c ∧
      c.out = .panic ∧ c.self.initialized = true ∧
      handlersOf ((Sample.machine true).steps c.trace) = [.leaf .s11]) := by
  constructor
  · sample_case
  · sample_case

end Statig
