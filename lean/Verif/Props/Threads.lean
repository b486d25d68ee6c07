import Verif.Proofs.Threads
import Verif.Props.Dispatch
/-!
# Properties of what callbacks see of each other: C34, C35
-/
namespace Statig
variable {S : Sig} {mode : Mode} {m : Machine S} {F : Forest S.D S.E}

/-! ## C34 -/

/-- C34, `handle` on an initialized machine.  The observed callbacks run one after the other, each on the
state, shared storage, context and poll inputs left by the previous one, starting from those of the machine
and the caller and ending in those of the machine and the caller; all get the caller's event. -/
theorem C34_handle (hF : Follows m F) (hL : Lawful m) {sm : InitializedStateMachine S} {ev ctx sched c}
    (h : sm.handleWithContext mode m ev ctx sched = some c) :
    ∃ w', Threads mode m (some ev) ⟨sm.inner.state, sm.inner.shared, ctx, sched, none, none⟩ c.trace c.out w' ∧
      w'.state = c.self.inner.state ∧ w'.shared = c.self.inner.shared ∧ w'.ctx = c.ctx ∧
      w'.sched = c.sched ∧ (c.out = .ok () → w'.pending = none) := by
  unfold InitializedStateMachine.handleWithContext at h
  cases hd : sm.inner.handle mode m ev ctx sched with
  | none => rw [hd] at h; cases h
  | some d =>
    rw [hd] at h; cases h
    obtain ⟨w', h1, h2, h3, h4, h5, h6⟩ := inner_handle_threads hF hL hd
    exact ⟨w', h1, h2, h3, h4, h5, h6⟩

/-- C34, `init`. -/
theorem C34_init (hF : Follows m F) (hL : Lawful m) {sm : StateMachine S} {ctx sched c}
    (h : sm.initWithContext mode m ctx sched = some c) :
    ∃ w', Threads mode m none ⟨sm.inner.state, sm.inner.shared, ctx, sched, none, none⟩ c.trace c.out w' ∧
      w'.state = c.self.inner.state ∧ w'.shared = c.self.inner.shared ∧ w'.ctx = c.ctx ∧
      w'.sched = c.sched := by
  unfold StateMachine.initWithContext at h
  by_cases hi : sm.initialized = false
  · rw [if_pos hi] at h
    cases hd : sm.inner.init mode m ctx sched with
    | none => rw [hd] at h; cases h
    | some d =>
      rw [hd] at h
      obtain ⟨w', h1, h2, h3, h4, h5, -⟩ := inner_init_threads (ev := none) hF hL hd
      have h : (match d.out with
        | .ok () => some { d with self := (⟨d.self, true⟩ : StateMachine S) }
        | _ => some { d with self := ⟨d.self, sm.initialized⟩ }) = some c := h
      split at h <;> (cases h; exact ⟨w', h1, h2, h3, h4, h5⟩)
  · rw [if_neg hi] at h
    cases h
    exact ⟨_, .nil, rfl, rfl, rfl, rfl⟩

/-- C34, `handle` on a lazily initialized machine: the actions of the initialization and the callbacks of the
event handling form one sequence. -/
theorem C34_lazy_handle (hF : Follows m F) (hL : Lawful m) {sm : StateMachine S} {ev ctx sched c}
    (h : sm.handleWithContext mode m ev ctx sched = some c) :
    ∃ w', Threads mode m (some ev) ⟨sm.inner.state, sm.inner.shared, ctx, sched, none, none⟩ c.trace c.out w' ∧
      w'.state = c.self.inner.state ∧ w'.shared = c.self.inner.shared ∧ w'.ctx = c.ctx ∧
      w'.sched = c.sched ∧ (c.out = .ok () → w'.pending = none) := by
  unfold StateMachine.handleWithContext at h
  by_cases hi : sm.initialized = false
  · rw [if_pos hi] at h
    cases hd : sm.inner.init mode m ctx sched with
    | none => rw [hd] at h; cases h
    | some d =>
      rw [hd] at h
      obtain ⟨w1, h1, h2, h3, h4, h5, h6⟩ := inner_init_threads (ev := some ev) hF hL hd
      have h : (match d.out with
        | .ok () => do
          let e ← d.self.handle mode m ev d.ctx d.sched
          some { e with self := (⟨e.self, true⟩ : StateMachine S), trace := d.trace ++ e.trace }
        | _ => some { d with self := ⟨d.self, sm.initialized⟩ }) = some c := h
      split at h
      · rename_i ho
        cases he : d.self.handle mode m ev d.ctx d.sched with
        | none => rw [he] at h; cases h
        | some e =>
          rw [he] at h; cases h
          obtain ⟨w2, k1, k2, k3, k4, k5, k6⟩ := inner_handle_threads hF hL he
          obtain ⟨s, x, ct, l, p, q⟩ := w1
          obtain ⟨rfl, rfl⟩ := h6 ho
          simp only at h2 h3 h4 h5
          subst h2; subst h3; subst h4; subst h5
          rw [ho] at h1
          exact ⟨w2, h1.append k1, k2, k3, k4, k5, k6⟩
      · rename_i ho
        cases h
        exact ⟨w1, h1, h2, h3, h4, h5, fun ho' => (ho ho').elim⟩
  · rw [if_neg hi] at h
    cases hd : sm.inner.handle mode m ev ctx sched with
    | none => rw [hd] at h; cases h
    | some d =>
      rw [hd] at h; cases h
      obtain ⟨w', h1, h2, h3, h4, h5, h6⟩ := inner_handle_threads hF hL hd
      exact ⟨w', h1, h2, h3, h4, h5, h6⟩

/-- C34 applies: a transition of the sample machine runs five actions on the shared storage and the context,
counting them. -/
example : Follows (Sample.machine false) Sample.forest ∧ Lawful (Sample.machine false) ∧
    ∃ c, Sample.call .blocking false (Sample.at_ .s12) .c = some c ∧ c.out = .ok () ∧ c.ctx = 5 ∧
      c.self.inner.shared.path =
        [.leave (.leaf .s12), .leave (.sup .s1), .enter (.sup .s2), .enter (.sup .s21), .enter (.leaf .s211)] :=
  ⟨Sample.follows _, Sample.lawful _, by sample_case⟩

/-! ## C35 -/

/-- The superstate `k` levels above the superstate `v`. -/
def Machine.above (m : Machine S) : Nat → S.Sup → Option S.Sup
  | 0, v => some v
  | k + 1, v =>
    match m.above k v with
    | none => none
    | some u => (m.supSuperstate u).map (·.1)

theorem view_above {j : Nat} {s : S.St} {v : S.Sup} {put} (h : m.view j s = some (v, put)) (i : Nat) :
    (m.view (j + i) s).map (·.1) = m.above i v := by
  induction i with
  | zero => rw [Nat.add_zero, h]; rfl
  | succ i ih =>
    show (m.view ((j + i) + 1) s).map (·.1) = _
    rw [Machine.view, Machine.above]
    cases hv : m.view (j + i) s with
    | none => rw [hv] at ih; rw [← ih]; rfl
    | some p =>
      obtain ⟨u, put'⟩ := p
      rw [hv] at ih
      rw [← ih]
      simp only [Option.map_some]
      cases m.supSuperstate u with
      | none => rfl
      | some q => rfl

theorem view_below {j i : Nat} {s : S.St} {p} (h : m.view (j + i) s = some p) : ∃ q, m.view j s = some q := by
  induction i generalizing p with
  | zero => exact ⟨p, h⟩
  | succ i ih =>
    have h : m.view ((j + i) + 1) s = some p := h
    rw [Machine.view] at h
    cases hv : m.view (j + i) s with
    | none => rw [hv] at h; cases h
    | some q => exact ih hv

theorem view_discr (hF : Follows m F) (k : Nat) : ∀ (s : S.St) (v : S.Sup) put (w : S.Sup),
    m.view k s = some (v, put) → m.supDiscr w = m.supDiscr v → m.discr (put w) = m.discr s := by
  induction k with
  | zero => exact fun s v put w h hw => hF.leaf_back s v put w h hw
  | succ k ih =>
    intro s v put w h hw
    rw [Machine.view] at h
    cases hv : m.view k s with
    | none => rw [hv] at h; cases h
    | some p =>
      obtain ⟨u, put1⟩ := p
      rw [hv] at h
      simp only at h
      cases hu : m.supSuperstate u with
      | none => rw [hu] at h; cases h
      | some q =>
        obtain ⟨v', put2⟩ := q
        rw [hu] at h
        cases h
        exact ih s u put1 (put2 w) hv (hF.sup_back u v put2 w hu hw)

/-- C35. A superstate, at any level, is a view of the local storage of the state: not writing through it leaves
the state as it is; the state has the variant it had after a write; what is written is what is seen the next
time, at that level, by the superstates above it, and — through them — by the superstates between it and the
state; and a second write replaces the first. -/
theorem C35_views (hF : Follows m F) (hL : Lawful m) {k : Nat} {s : S.St} {v : S.Sup} {put}
    (h : m.view k s = some (v, put)) :
    put v = s ∧
    ∀ w, m.supDiscr w = m.supDiscr v →
      m.discr (put w) = m.discr s ∧
      (∃ put', m.view k (put w) = some (w, put') ∧ ∀ w', m.supDiscr w' = m.supDiscr v → put' w' = put w') ∧
      (∀ i, (m.view (k + i) (put w)).map (·.1) = m.above i w) ∧
      (∀ j ≤ k, ∃ u put'', m.view j (put w) = some (u, put'') ∧ m.above (k - j) u = some w) := by
  refine ⟨view_self m k s v put h, fun w hw => ?_⟩
  obtain ⟨put', h1, h2⟩ := view_focus hF hL k s v put w h hw
  refine ⟨view_discr hF k s v put w h hw, ⟨put', h1, h2⟩, fun i => view_above h1 i, fun j hj => ?_⟩
  obtain ⟨i, rfl⟩ := Nat.exists_eq_add_of_le hj
  obtain ⟨⟨u, put''⟩, hq⟩ := view_below h1
  refine ⟨u, put'', hq, ?_⟩
  rw [Nat.add_sub_cancel_left, ← view_above hq i, h1]; rfl

/-- A callback that cannot write the state and does not request a transition. -/
def Obs.quiet : Obs S → Bool
  | .handler _ _ | .entry _ | .exit _ => false
  | _ => true

theorem Runs1.quiet {ev w T o w'} (h : Runs1 mode m ev w T o w') (hT : ∀ x ∈ T, x.quiet = true) :
    w'.state = w.state ∧ w'.pending = w.pending := by
  cases h <;> first
    | exact ⟨rfl, rfl⟩
    | (have := hT _ (List.mem_cons_self); cases this)

theorem Threads.quiet {ev w T o w'} (h : Threads mode m ev w T o w') (hT : ∀ x ∈ T, x.quiet = true)
    (hp : w.pending = none) : w'.state = w.state := by
  induction h with
  | nil => rfl
  | call h1 _ ih =>
    have := h1.quiet fun x hx => hT x (List.mem_append_left _ hx)
    rw [ih (fun x hx => hT x (List.mem_append_right _ hx)) (this.2.trans hp), this.1]
  | cut h1 _ => exact (h1.quiet hT).1
  | swap h1 _ _ => rw [hp] at h1; cases h1

/-- The local storage a state or superstate had is that of the current state. -/
def Machine.Shows (m : Machine S) (s : S.St) : StateOrSuperstate S.St S.Sup → Prop
  | .state s' => s = s'
  | .superstate v => ∃ k put, m.view k s = some (v, put)

theorem Runs1.after_returned (hF : Follows m F) (hL : Lawful m) {ev w T o w'} (h : Runs1 mode m ev w T o w')
    {A n r B} (hT : T = A ++ .returned n r :: B) :
    B = [] ∧ o = .ok () ∧ m.Shows w'.state n ∧ w'.pending = requested (.ok r) := by
  have one : ∀ {x : Obs S}, (∀ n r, x ≠ .returned n r) → [x] = A ++ .returned n r :: B → False := by
    intro x hx he
    cases A with
    | nil => simp only [List.nil_append, List.cons.injEq] at he; exact hx _ _ he.1
    | cons a A =>
      simp only [List.cons_append, List.cons.injEq] at he
      exact List.append_ne_nil_of_right_ne_nil _ (List.cons_ne_nil _ _) he.2.symm
  have two : ∀ {n0 : StateOrSuperstate S.St S.Sup} {e} {n1 : StateOrSuperstate S.St S.Sup} {q},
      Obs.handler n0 e :: returnedObs n1 q = A ++ .returned n r :: B → B = [] ∧ n = n1 ∧ q = .ok r := by
    intro n0 e n1 q he
    cases A with
    | nil => simp at he
    | cons a A =>
      simp only [List.cons_append, List.cons.injEq] at he
      cases q with
      | ok r' =>
        have he := he.2
        cases A with
        | nil =>
          simp only [returnedObs, List.nil_append, List.cons.injEq, Obs.returned.injEq] at he
          exact ⟨he.2.symm, he.1.1.symm, congrArg _ he.1.2⟩
        | cons b A => simp [returnedObs] at he
      | panic => simp [returnedObs] at he
      | stopped => simp [returnedObs] at he
  cases h with
  | handler he hp hr =>
    obtain ⟨h1, rfl, rfl⟩ := two hT
    exact ⟨h1, rfl, rfl, rfl⟩
  | supHandler he hp hv hr =>
    rename_i e k v put o v' x ct l
    obtain ⟨h1, rfl, rfl⟩ := two hT
    have htag : m.supDiscr v' = m.supDiscr v := by
      have := Fut.run_all (hF.supHandler v w.shared e w.ctx) w.sched
      rw [hr] at this; exact this
    obtain ⟨put', k1, -⟩ := view_focus hF hL _ _ _ _ v' hv htag
    exact ⟨h1, rfl, ⟨_, put', k1⟩, rfl⟩
  | _ => exact (one (by intro n r; cases mode <;> simp) hT).elim

theorem Threads.after_returned (hF : Follows m F) (hL : Lawful m) {ev w T o w'} (h : Threads mode m ev w T o w')
    {A n r B} (hT : T = A ++ .returned n r :: B) :
    ∃ w1, m.Shows w1.state n ∧ w1.pending = requested (.ok r) ∧ Threads mode m ev w1 B o w' := by
  induction h generalizing A with
  | nil => exact (List.append_ne_nil_of_right_ne_nil _ (List.cons_ne_nil _ _) hT.symm).elim
  | @call w T w1 T' o w2 h1 h2 ih =>
    rcases List.append_eq_append_iff.1 hT with ⟨A', h3, h4⟩ | ⟨B', h3, h4⟩
    · exact ih h4
    · cases B' with
      | nil =>
        simp only [List.nil_append] at h4
        exact ih (A := []) h4.symm
      | cons x B' =>
        simp only [List.cons_append, List.cons.injEq] at h4
        obtain ⟨rfl, rfl⟩ := h4
        obtain ⟨rfl, -, k1, k2⟩ := h1.after_returned hF hL h3
        exact ⟨w1, k1, k2, h2⟩
  | @cut w T o w1 h1 h2 =>
    obtain ⟨rfl, k, k1, k2⟩ := h1.after_returned hF hL hT
    exact absurd k h2
  | swap h1 _ ih => exact ih hT

theorem Runs1.no_returned {ev w T o w'} (h : Runs1 mode m ev w T o w')
    (hT : ∀ n e, Obs.handler n e ∉ T) : ∀ n r, Obs.returned n r ∉ T := by
  intro n r hm
  cases h with
  | handler => exact hT _ _ List.mem_cons_self
  | supHandler => exact hT _ _ List.mem_cons_self
  | _ => cases mode <;> simp at hm

/-- Every `returned` observation comes after the observation of the start of that handler. -/
theorem Threads.no_returned {ev w T o w'} (h : Threads mode m ev w T o w')
    (hT : ∀ n e, Obs.handler n e ∉ T) : ∀ n r, Obs.returned n r ∉ T := by
  induction h with
  | nil => simp
  | call h1 _ ih =>
    intro n r hm
    rcases List.mem_append.1 hm with hm | hm
    · exact h1.no_returned (fun n e he => hT n e (List.mem_append_left _ he)) n r hm
    · exact ih (fun n e he => hT n e (List.mem_append_right _ he)) n r hm
  | cut h1 _ => exact h1.no_returned hT
  | swap _ _ ih => exact ih hT

/-- C35, what a handler writes.  When a handler at any level has considered an event handled, then after the
call the local storage of that state or superstate, as the handler left it, is found in `state()`. -/
theorem C35_handler_writes_reach_state (hF : Follows m F) (hL : Lawful m) {sm : InitializedStateMachine S}
    {ev ctx sched c} (h : sm.handleWithContext mode m ev ctx sched = some c) {n}
    (hn : Obs.returned n .handled ∈ c.trace) : m.Shows c.self.state n := by
  obtain ⟨A, B, hT⟩ := List.append_of_mem hn
  obtain ⟨w', h1, h2, -⟩ := C34_handle hF hL h
  obtain ⟨w1, k1, k2, k3⟩ := h1.after_returned hF hL hT
  -- no handler is called after that
  have hB : ∀ n' e, Obs.handler n' e ∉ B := by
    intro n' e he
    obtain ⟨B1, B2, rfl⟩ := List.append_of_mem he
    obtain ⟨-, h3, -⟩ := (C01_dispatch_climbs hF h).1 (m.steps (A ++ .returned n .handled :: B1)) (m.node n') e
      (m.steps B2) (by rw [hT]; simp [Machine.steps, Machine.step])
    have : (m.node n, (Response.handled : Response S.St)) ∈
        (handlersOf (m.steps (A ++ .returned n .handled :: B1))).map (fun x => (x, (Response.super : Response S.St))) := by
      rw [← h3]; simp [Machine.steps, Machine.step, responsesOf]
    simp at this
  have hR := k3.no_returned hB
  have hlast : (responsesOf (m.steps c.trace)).getLast? = some (m.node n, .handled) := by
    have hnil : responsesOf (m.steps B) = [] := by
      unfold responsesOf Machine.steps
      rw [List.filterMap_map, List.filterMap_eq_nil_iff]
      intro x hx
      cases x with
      | returned n' r' => exact (hR _ _ hx).elim
      | _ => rfl
    rw [hT]
    have : responsesOf (m.steps (A ++ .returned n .handled :: B)) =
        responsesOf (m.steps A) ++ (m.node n, .handled) :: responsesOf (m.steps B) := by
      simp [Machine.steps, Machine.step, responsesOf]
    rw [this, hnil]; simp
  have hquiet : ∀ x ∈ B, x.quiet = true := by
    intro x hx
    have := (C03_handled_no_transition hF h hlast).1 (m.step x)
      (List.mem_map_of_mem (by rw [hT]; exact List.mem_append_right _ (List.mem_cons_of_mem _ hx)))
    cases x with
    | handler n' e => exact (hB _ _ hx).elim
    | entry _ => cases this
    | exit _ => cases this
    | _ => rfl
  have := k3.quiet hquiet k2
  show m.Shows c.self.inner.state n
  rw [← h2, this]
  exact k1

/-- C35 applies: the root superstate handles `bump` by writing to its borrowed local storage; the state it is
borrowed from, two levels below, has the new value. -/
example : Follows (Sample.machine false) Sample.forest ∧ Lawful (Sample.machine false) ∧
    ∃ c, Sample.call .awaitable false (Sample.at_ .s211) .bump = some c ∧ c.out = .ok () ∧
      c.self.inner.state = (.s211, 8) ∧ c.trace.any (fun o => match o with
        | .returned (.superstate (.s, 8)) .handled => true
        | _ => false) = true :=
  ⟨Sample.follows _, Sample.lawful _, by sample_case⟩

example : (Sample.machine false).view 2 (.s211, 7) = some ((.s, 7), fun v => (.s211, v.2)) := rfl

end Statig
