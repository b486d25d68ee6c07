import Verif.Proofs.Values
import Verif.Proofs.Api
/-! # Values passed to the transition hooks and left in the state -/
namespace Statig
variable {S : Sig} {m : Machine S} {F : Forest S.D S.E} {σ τ α β : Type}

theorem Eff.inv_hook {o : σ → Obs S} {f : σ → S.M → Fut S.In S.M Unit} {s s' g g' r}
    (h : Eff.hook o f s g = some (r, s', g')) : s' = s ∧ g'.trace = g.trace ++ [o s] := by
  unfold Eff.hook at h
  split at h
  cases h
  exact ⟨rfl, rfl⟩

/-- `T` contains no transition hook. -/
def NoHook (T : List (Obs S)) : Prop :=
  (∀ a b, Obs.beforeTransition a b ∉ T) ∧ (∀ a b, Obs.afterTransition a b ∉ T)

/-- A step of a transition hook. -/
def Step.isHook {D E V T : Type} (x : Step D E V T) : Prop := x.isBeforeTransition = true ∨ x.isAfterTransition = true

theorem noHook_of {T : List (Obs S)} {L} (h : m.steps T <+: L) (hL : ∀ x ∈ L, ¬ x.isHook) : NoHook T := by
  have hm : ∀ o ∈ T, m.step o ∈ L := fun o ho => h.subset (List.mem_map_of_mem ho)
  constructor
  · intro a b hab
    exact hL _ (hm _ hab) (.inl rfl)
  · intro a b hab
    exact hL _ (hm _ hab) (.inr rfl)

/-- What `before_transition` receives. -/
def Mode.beforeArgs (mode : Mode) (s t : S.St) : S.St × S.St :=
  match mode with
  | .blocking => (t, s)
  | .awaitable => (s, t)

theorem inv_before {mode : Mode} {s t s0 s' : S.St} {g g'} {o}
    (h : mode.before m s t s0 g = some (o, s', g')) :
    s' = s0 ∧ g'.trace = g.trace ++ [.beforeTransition (mode.beforeArgs s t).1 (mode.beforeArgs s t).2] := by
  cases mode
  · exact Eff.inv_hook (o := fun _ => .beforeTransition t s) (f := fun _ sh => m.beforeTransition sh t s) h
  · exact Eff.inv_hook (o := fun _ => .beforeTransition s t) (f := fun _ sh => m.beforeTransition sh s t) h

/-- The trace of a computation that `Does` something. -/
theorem Does.inv {κ : Type} {tag : σ → κ} {x : Eff S σ α} {s : σ} {A} (h : Does m tag x s A) {g o s' g'}
    (hx : x s g = some (o, s', g')) :
    ∃ T, g'.trace = g.trace ++ T ∧ tag s' = tag s ∧ (∀ a, o = .ok a → A (m.steps T) a) ∧
      (∃ L a, A L a ∧ m.steps T <+: L) := by
  obtain ⟨o1, s1, g1, T, h1, h2, h3, h4, h5, -⟩ := h g
  rw [hx] at h1
  cases h1
  exact ⟨T, h2, h3, h4, h5⟩

theorem noHook_exit (hF : Follows m F) {mode : Mode} {n : Nat} {s s' : S.St} {g g'} {o}
    (h : mode.exit m n s g = some (o, s', g')) :
    ∃ T, g'.trace = g.trace ++ T ∧ NoHook T ∧ entriesOf (m.steps T) = [] := by
  obtain ⟨T, h1, -, -, L, -, rfl, h2⟩ := (does_modeExit hF mode n s).inv h
  refine ⟨T, h1, noHook_of h2 ?_, entriesOf_prefix h2 (entriesOf_map_exit _)⟩
  intro x hx
  obtain ⟨a, -, rfl⟩ := List.mem_map.1 hx
  rintro (h | h) <;> cases h

theorem noHook_enter (hF : Follows m F) {mode : Mode} {n : Nat} {s s' : S.St} {g g'} {o}
    (hn : n ≤ (F.path (m.discr s)).length)
    (h : mode.enter m n s g = some (o, s', g')) :
    ∃ T, g'.trace = g.trace ++ T ∧ NoHook T := by
  obtain ⟨T, h1, -, -, L, -, rfl, h2⟩ := (does_modeEnter hF mode n s hn).inv h
  refine ⟨T, h1, noHook_of h2 ?_⟩
  intro x hx
  obtain ⟨a, -, rfl⟩ := List.mem_map.1 hx
  rintro (h | h) <;> cases h

theorem noHook_handle (hF : Follows m F) {mode : Mode} {ev : S.Ev} {s s' : S.St} {g g'} {o}
    (h : mode.handle m ev s g = some (o, s', g')) :
    ∃ T, g'.trace = g.trace ++ T ∧ NoHook T ∧ entriesOf (m.steps T) = [] := by
  obtain ⟨T, h1, -, -, L, -, ⟨cl, x, -, -, -, rfl⟩, h2⟩ := (does_modeHandle hF mode ev s).inv h
  refine ⟨T, h1, noHook_of h2 ?_,
    entriesOf_prefix h2 (entriesOf_eq_nil_of (dispatchLog_ofTransition mode ev cl))⟩
  intro x hx
  have := dispatchLog_ofTransition mode ev cl x hx
  cases x <;> simp_all [Step.ofTransition, Step.isHook, Step.isBeforeTransition, Step.isAfterTransition]

/-- The first part of a transition. -/
theorem leave_values (hF : Follows m F) {mode : Mode} {s t s' : S.St} {g g'} {o : Out Nat}
    (h : mode.leave m t s g = some (o, s', g')) :
    (∃ T, g'.trace = g.trace ++ .beforeTransition (mode.beforeArgs s t).1 (mode.beforeArgs s t).2 :: T ∧
      NoHook T ∧ entriesOf (m.steps T) = []) ∧
    (m.ExitsKeep → s' = s) ∧ (∀ n, o = .ok n → n ≤ (F.path (m.discr t)).length ∧ 1 ≤ n) := by
  unfold Mode.leave at h
  obtain ⟨x, n, hp, -, -, hn1, hn, -⟩ := transitionPath_spec hF s t
  rcases Eff.inv_bind h with ⟨a, s1, g1, h1, h⟩ | ⟨o', h1, h2, -⟩
  swap; · cases h1; cases h2
  cases h1
  rcases Eff.inv_bind h with ⟨u, s2, g2, h1, h⟩ | ⟨o', h1, h2, h3⟩
  · obtain ⟨rfl, hg2⟩ := inv_before h1
    rcases Eff.inv_bind h with ⟨p, s3, g3, h1, h⟩ | ⟨o', h1, h2, -⟩
    · unfold Eff.lift at h1
      rw [hp] at h1
      cases h1
      rcases Eff.inv_bind h with ⟨u, s4, g4, h1, h⟩ | ⟨o', h1, h2, h3⟩
      · obtain ⟨rfl, rfl, rfl⟩ := Eff.inv_pure h
        obtain ⟨T, hT, hno, hen⟩ := noHook_exit hF h1
        refine ⟨⟨T, ?_, hno, hen⟩, fun hk => keeps_exit m hk mode _ _ _ _ _ _ h1, ?_⟩
        · rw [hT, hg2]; simp
        · intro n' hn'; cases hn'; exact ⟨hn, hn1⟩
      · obtain ⟨T, hT, hno, hen⟩ := noHook_exit hF h1
        refine ⟨⟨T, ?_, hno, hen⟩, fun hk => keeps_exit m hk mode _ _ _ _ _ _ h1, ?_⟩
        · rw [hT, hg2]; simp
        · rintro n rfl; cases h3
    · unfold Eff.lift at h1
      rw [hp] at h1
      cases h1; cases h2
  · obtain ⟨rfl, hg2⟩ := inv_before h1
    refine ⟨⟨[], hg2, ⟨by simp, by simp⟩, rfl⟩, fun _ => rfl, ?_⟩
    rintro n rfl; cases h3

/-- Values in a transition. -/
theorem transition_values (hF : Follows m F) {mode : Mode} {s t s' : S.St} {g g'} {o}
    (h : mode.transition m t s g = some (o, s', g')) :
    ∃ T, g'.trace = g.trace ++ .beforeTransition (mode.beforeArgs s t).1 (mode.beforeArgs s t).2 :: T ∧
      (∀ a b, .beforeTransition a b ∉ T) ∧
      (∀ a b, .afterTransition a b ∈ T → b = s' ∧ (m.ExitsKeep → a = s)) ∧
      (o = .ok () → ∃ a, .afterTransition a s' ∈ T) ∧
      (m.EntriesKeep → entriesOf (m.steps T) ≠ [] → s' = t) ∧
      (m.ExitsKeep → entriesOf (m.steps T) = [] → s' = s) := by
  unfold Mode.transition at h
  rcases Eff.inv_bind h with ⟨n, s1, g1, h1, h⟩ | ⟨o', h1, h2, h3⟩
  · obtain ⟨⟨T1, hT1, hno1, hen1⟩, hk1, hn⟩ := leave_values hF h1
    have hn := hn n rfl
    have h : Eff.bind (Eff.swap t) (fun old => mode.arrive m old n) s1 g1 = some (o, s', g') := h
    have h : mode.arrive m s1 n t g1 = some (o, s', g') := h
    unfold Mode.arrive at h
    have hent : ∀ {o2 : Out Unit} {s2 g2 T2}, mode.enter m n t g1 = some (o2, s2, g2) →
        g2.trace = g1.trace ++ T2 → entriesOf (m.steps T2) ≠ [] := by
      intro o2 s2 g2 T2 he hT2
      obtain ⟨o3, s3, g3, T3, k1, k2, k3, k4, ⟨L, a, rfl, k5⟩, k6, -⟩ := does_modeEnter hF mode n t hn.1 g1
      rw [he] at k1
      cases k1
      have hT : T3 = T2 := by rw [hT2] at k2; exact (List.append_cancel_left k2).symm
      subst hT
      have hne : ∃ y ys, ((F.path (m.discr t)).take n).reverse = y :: ys := by
        apply List.exists_cons_of_ne_nil
        intro h0
        have := congrArg List.length h0
        simp only [List.length_reverse, List.length_take, List.length_nil] at this
        omega
      obtain ⟨y, ys, hy⟩ := hne
      cases hT3 : T3 with
      | nil =>
        have hok := k6 hT3
        cases o2 with
        | ok u => have := k4 u rfl; rw [hT3, hy] at this; simp [Machine.steps] at this
        | panic => cases hok
        | stopped => cases hok
      | cons z zs =>
        rw [hT3, hy] at k5
        simp only [Machine.steps, List.map_cons, List.cons_prefix_cons] at k5
        intro h0
        simp [Machine.steps, k5.1] at h0
    rcases Eff.inv_bind h with ⟨u, s2, g2, h2, h⟩ | ⟨o', h2, h3, h4⟩
    · obtain ⟨T2, hT2, hno2⟩ := noHook_enter hF hn.1 h2
      rcases Eff.inv_bind h with ⟨u, s3, g3, h3, h⟩ | ⟨o', h3, h4, -⟩
      swap; · cases h3; cases h4
      cases h3
      obtain ⟨rfl, hg'⟩ := Eff.inv_hook h
      refine ⟨T1 ++ T2 ++ [.afterTransition s1 s'], ?_, ?_, ?_, ?_, ?_, ?_⟩
      · rw [hg', hT2, hT1]; simp
      · intro a b hab
        simp only [List.mem_append, List.mem_singleton, reduceCtorEq, or_false] at hab
        rcases hab with hab | hab
        · exact hno1.1 _ _ hab
        · exact hno2.1 _ _ hab
      · intro a b hab
        simp only [List.mem_append, List.mem_singleton, Obs.afterTransition.injEq] at hab
        rcases hab with (hab | hab) | ⟨rfl, rfl⟩
        · exact absurd hab (hno1.2 _ _)
        · exact absurd hab (hno2.2 _ _)
        · exact ⟨rfl, hk1⟩
      · intro _; exact ⟨s1, by simp⟩
      · intro hk _; exact keeps_enter m hk mode _ _ _ _ _ _ h2
      · intro _ h0
        exact absurd (by
          have e : m.steps (T1 ++ T2 ++ [Obs.afterTransition s1 s']) = m.steps T1 ++ m.steps T2 ++
            m.steps [Obs.afterTransition s1 s'] := by simp [Machine.steps]
          rw [e, entriesOf_append, entriesOf_append, List.append_eq_nil_iff, List.append_eq_nil_iff] at h0
          exact h0.1.2) (hent h2 hT2)
    · obtain ⟨T2, hT2, hno2⟩ := noHook_enter hF hn.1 h2
      refine ⟨T1 ++ T2, ?_, ?_, ?_, ?_, ?_, ?_⟩
      · rw [hT2, hT1]; simp
      · intro a b hab
        rcases List.mem_append.1 hab with hab | hab
        · exact hno1.1 _ _ hab
        · exact hno2.1 _ _ hab
      · intro a b hab
        rcases List.mem_append.1 hab with hab | hab
        · exact absurd hab (hno1.2 _ _)
        · exact absurd hab (hno2.2 _ _)
      · rintro rfl; cases h4
      · intro hk _; exact keeps_enter m hk mode _ _ _ _ _ _ h2
      · intro _ h0
        exact absurd (by
          have e : m.steps (T1 ++ T2) = m.steps T1 ++ m.steps T2 := by simp [Machine.steps]
          rw [e, entriesOf_append, List.append_eq_nil_iff] at h0
          exact h0.2) (hent h2 hT2)
  · obtain ⟨⟨T, hT, hno, hen⟩, hk, hn⟩ := leave_values hF h1
    refine ⟨T, hT, hno.1, fun a b hab => absurd hab (hno.2 a b), ?_, fun _ h0 => absurd hen h0, fun h _ => hk h⟩
    rintro rfl; cases h3

/-- After dispatch no handler is called. -/
theorem transition_responses (hF : Follows m F) {mode : Mode} {s t s' : S.St} {g g'} {o} {T}
    (h : mode.transition m t s g = some (o, s', g')) (hT : g'.trace = g.trace ++ T) :
    responsesOf (m.steps T) = [] := by
  obtain ⟨o1, s1, g1, T1, h1, h2, -, h4, -⟩ := transition_spec hF mode s t g
  rw [h] at h1
  cases h1
  rw [hT] at h2
  rw [List.append_cancel_left h2]
  exact responsesOf_eq_nil_of fun x hx => transitionLog_ofTransition _ _ _ _ x (h4.subset hx)

/-- Values in a `handle` call. -/
theorem handle_values (hF : Follows m F) {mode : Mode} {ev : S.Ev} {s s' : S.St} {g g'} {o}
    (h : mode.handleEvent m ev s g = some (o, s', g')) :
    (∃ T, g'.trace = g.trace ++ T ∧ NoHook T ∧ entriesOf (m.steps T) = [] ∧ (m.HandlersKeep ev → s' = s) ∧
      (o = .ok () → ∀ n t, (responsesOf (m.steps T)).getLast? ≠ some (n, .transition t)) ∧
      ∃ o', mode.handle m ev s g = some (o', s', g') ∧ (∀ t, o' ≠ .ok (.transition t))) ∨
    (∃ t s1 g1 T1 T2, mode.handle m ev s g = some (.ok (.transition t), s1, g1) ∧
      g1.trace = g.trace ++ T1 ∧ NoHook T1 ∧ entriesOf (m.steps T1) = [] ∧ (m.HandlersKeep ev → s1 = s) ∧
      g'.trace = g.trace ++ T1 ++ .beforeTransition (mode.beforeArgs s1 t).1 (mode.beforeArgs s1 t).2 :: T2 ∧
      (∀ n r, (responsesOf (m.steps (T1 ++ .beforeTransition (mode.beforeArgs s1 t).1
        (mode.beforeArgs s1 t).2 :: T2))).getLast? = some (n, r) → r = .transition t) ∧
      (∀ a b, .beforeTransition a b ∉ T2) ∧
      (∀ a b, .afterTransition a b ∈ T2 → b = s' ∧ (m.ExitsKeep → a = s1)) ∧
      (o = .ok () → ∃ a, .afterTransition a s' ∈ T2) ∧
      (m.EntriesKeep → entriesOf (m.steps T2) ≠ [] → s' = t) ∧
      (m.ExitsKeep → entriesOf (m.steps T2) = [] → s' = s1)) := by
  unfold Mode.handleEvent at h
  rcases Eff.inv_bind h with ⟨r, s1, g1, h1, h⟩ | ⟨o', h1, h2, h3⟩
  · obtain ⟨T, hT, hno, hen⟩ := noHook_handle hF h1
    have hk := fun hk : m.HandlersKeep ev => keeps_handle hk mode _ _ _ _ _ h1
    obtain ⟨T', q1, -, q2, -⟩ := (does_modeHandle hF mode ev s).inv h1
    obtain ⟨cl, x, hc, hx, hr, hlog⟩ := q2 _ rfl
    have : T' = T := by rw [hT] at q1; exact (List.append_cancel_left q1).symm
    subst this
    have hresp : responsesOf (m.steps T') = cl := by rw [hlog, responsesOf_dispatchLog]
    have hlast : ∀ n r', (responsesOf (m.steps T')).getLast? = some (n, r') →
        ∀ t, (r = .transition t ↔ r' = .transition t) := by
      intro n r' hl t
      rw [hresp] at hl
      rw [lastResponse_of_getLast? hl] at hx
      cases hx
      exact hr t
    cases r with
    | transition t =>
      right
      obtain ⟨T2, k1, k2, k3, k4, k5, k6⟩ := transition_values hF h
      refine ⟨t, s1, g1, T', T2, h1, hT, hno, hen, hk, by rw [k1, hT], ?_, k2, k3, k4, k5, k6⟩
      intro n r hl
      have e : m.steps (T' ++ .beforeTransition (mode.beforeArgs s1 t).1 (mode.beforeArgs s1 t).2 :: T2) =
        m.steps T' ++ m.steps (.beforeTransition (mode.beforeArgs s1 t).1 (mode.beforeArgs s1 t).2 :: T2) := by
        simp [Machine.steps]
      rw [e, responsesOf_append, transition_responses hF h k1, List.append_nil] at hl
      exact (hlast n r hl t).1 rfl
    | handled =>
      left
      cases h
      refine ⟨T', hT, hno, hen, hk, ?_, _, h1, by simp⟩
      intro _ n t hl
      have := (hlast n _ hl t).2 rfl
      cases this
    | super =>
      left
      cases h
      refine ⟨T', hT, hno, hen, hk, ?_, _, h1, by simp⟩
      intro _ n t hl
      have := (hlast n _ hl t).2 rfl
      cases this
  · left
    obtain ⟨T, hT, hno, hen⟩ := noHook_handle hF h1
    refine ⟨T, hT, hno, hen, fun hk => keeps_handle hk mode _ _ _ _ _ h1, ?_, o', h1, ?_⟩
    · rintro rfl; cases h3
    · rintro t rfl; cases h2

end Statig
