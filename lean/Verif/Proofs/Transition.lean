import Verif.Proofs.Dispatch
import Verif.Model.Api
/-! # Log of transitions, `handle` and `init` -/
namespace Statig
variable {S : Sig} {m : Machine S} {F : Forest S.D S.E}

instance {σ : Type} : LawfulMonad (Eff S σ) := LawfulMonad.mk'
  (id_map := by
    intro α x
    show Eff.bind x (fun a => Eff.pure (id a)) = x
    funext s g
    unfold Eff.bind Eff.pure
    cases hx : x s g with
    | none => rfl
    | some p => obtain ⟨o, s', g'⟩ := p; cases o <;> rfl)
  (pure_bind := by intros; rfl)
  (bind_assoc := by
    intro α β γ x f h
    show Eff.bind (Eff.bind x f) h = Eff.bind x (fun a => Eff.bind (f a) h)
    funext s g
    unfold Eff.bind
    cases hx : x s g with
    | none => rfl
    | some p => obtain ⟨o, s', g'⟩ := p; cases o <;> rfl)

def Mode.before (mode : Mode) (m : Machine S) (s t : S.St) : Eff S S.St Unit :=
  match mode with
  | .blocking => hookBeforeTransition m t s
  | .awaitable => hookBeforeTransition m s t

/-- First part of a transition: everything up to the swap; returns the number of levels to enter. -/
def Mode.leave (mode : Mode) (m : Machine S) (target : S.St) : Eff S S.St Nat := do
  let s ← Eff.self
  mode.before m s target
  let p ← Eff.lift (transitionPath m s target)
  mode.exit m p.1
  pure p.2

/-- Last part of a transition, after the swap. -/
def Mode.arrive (mode : Mode) (m : Machine S) (old : S.St) (n : Nat) : Eff S S.St Unit := do
  mode.enter m n
  let new ← Eff.self
  hookAfterTransition m old new

def Mode.transition (mode : Mode) (m : Machine S) (target : S.St) : Eff S S.St Unit := do
  let n ← mode.leave m target
  let old ← Eff.swap target
  mode.arrive m old n

def Mode.handleEvent (mode : Mode) (m : Machine S) (ev : S.Ev) : Eff S S.St Unit := do
  let r ← mode.handle m ev
  match r with
  | .transition t => mode.transition m t
  | _ => pure ()

def Mode.init (mode : Mode) (m : Machine S) : Eff S S.St Unit := do
  let s ← Eff.self
  let n ← Eff.lift ((depth m s).map .ok)
  mode.enter m n

theorem blocking_transition_eq (t : S.St) : Blocking.transition m t = Mode.blocking.transition m t := by
  unfold Blocking.transition Mode.transition Mode.leave Mode.arrive Mode.before Mode.exit Mode.enter
  simp only [bind_assoc, pure_bind]

theorem awaitable_transition_eq (t : S.St) : Awaitable.transition m t = Mode.awaitable.transition m t := by
  unfold Awaitable.transition Mode.transition Mode.leave Mode.arrive Mode.before Mode.exit Mode.enter
  simp only [bind_assoc, pure_bind]

theorem blocking_handleEvent_eq (ev : S.Ev) :
    Blocking.handleEvent m ev = Mode.blocking.handleEvent m ev := by
  unfold Blocking.handleEvent Mode.handleEvent Mode.handle
  congr 1; funext r; cases r <;> simp [blocking_transition_eq]

theorem awaitable_handleEvent_eq (ev : S.Ev) :
    Awaitable.handleEvent m ev = Mode.awaitable.handleEvent m ev := by
  unfold Awaitable.handleEvent Mode.handleEvent Mode.handle
  congr 1; funext r; cases r <;> simp [awaitable_transition_eq]

theorem Inner.handle_eq (mode : Mode) (i : Inner S) (ev : S.Ev) (ctx : S.Ctx) (sched : List S.In) :
    i.handle mode m ev ctx sched = i.run (mode.handleEvent m ev) ctx sched := by
  cases mode
  · simp [Inner.handle, blocking_handleEvent_eq]
  · simp [Inner.handle, awaitable_handleEvent_eq]

theorem Inner.init_eq (mode : Mode) (i : Inner S) (ctx : S.Ctx) (sched : List S.In) :
    i.init mode m ctx sched = i.run (mode.init m) ctx sched := by
  cases mode <;> rfl

/-! ## Logs -/

theorem does_modeExit (hF : Follows m F) (mode : Mode) (n : Nat) (s : S.St) :
    Does m m.discr (mode.exit m n) s
      (fun L _ => L = ((F.path (m.discr s)).take n).map .exit) := by
  cases mode
  · exact does_exit hF n s
  · exact does_awaitExit hF n s

theorem does_modeEnter (hF : Follows m F) (mode : Mode) (n : Nat) (s : S.St)
    (hn : n ≤ (F.path (m.discr s)).length) :
    Does m m.discr (mode.enter m n) s
      (fun L _ => L = ((F.path (m.discr s)).take n).reverse.map .entry) := by
  cases mode
  · exact does_enter hF n s
  · exact does_awaitEnter hF n s hn

theorem does_init (hF : Follows m F) (mode : Mode) (s : S.St) :
    Does m m.discr (mode.init m) s (fun L _ => L = initLog F (m.discr s)) := by
  unfold Mode.init
  refine (Does.self s).bindR ?_
  rintro s0 s1 _ hs1 ⟨rfl, h0⟩
  subst h0
  refine ⟨_, ?_, fun L2 b h => h⟩
  refine (Does.lift_ok (a := (F.path (m.discr s0)).length) ?_ s1).bindR ?_
  · rw [depth_eq hF]; simp [Forest.path, Forest.up, Forest.anc]
  rintro _ s2 _ hs2 ⟨rfl, rfl⟩
  rw [hs1] at hs2
  refine ⟨_, does_modeEnter hF mode _ s2 (by rw [hs2]; exact Nat.le_refl _), ?_⟩
  rintro L2 _ rfl
  rw [hs2]
  simp [initLog]

/-- The `before_transition` step of the given mode. -/
def Mode.beforeStep (mode : Mode) (d t : S.D) : Step S.D S.E S.Ev S.St :=
  match mode with
  | .blocking => .beforeTransition t d
  | .awaitable => .beforeTransition d t

theorem does_before (mode : Mode) (s t s0 : S.St) :
    Does m m.discr (mode.before m s t) s0 (fun L _ => L = [mode.beforeStep (m.discr s) (m.discr t)]) := by
  cases mode
  · exact does_hookBeforeTransition t s s0
  · exact does_hookBeforeTransition s t s0

theorem does_leave (hF : Follows m F) (mode : Mode) (s t : S.St) :
    Does m m.discr (mode.leave m t) s (fun L n =>
      n ≤ (F.path (m.discr t)).length ∧ F.entries (m.discr s) (m.discr t) ≠ [] ∧
      F.entries (m.discr s) (m.discr t) = ((F.path (m.discr t)).take n).reverse ∧
      L = mode.beforeStep (m.discr s) (m.discr t) :: (F.exits (m.discr s) (m.discr t)).map .exit) := by
  obtain ⟨x, n, hp, h1, h2, h3, h4, h5, h6⟩ := transitionPath_spec hF s t
  unfold Mode.leave
  refine (Does.self s).bindR ?_
  rintro _ s1 _ hs1 ⟨rfl, rfl⟩
  refine ⟨_, ?_, fun L2 b h => h⟩
  refine (does_before mode _ t s1).bindR ?_
  rintro _ s2 _ hs2 rfl
  refine ⟨_, ?_, fun L2 b h => h⟩
  refine (Does.lift_ok hp s2).bindR ?_
  rintro _ s3 _ hs3 ⟨rfl, rfl⟩
  refine ⟨_, ?_, fun L2 b h => h⟩
  refine (does_modeExit hF mode x s3).bindR ?_
  rintro _ s4 _ hs4 rfl
  refine ⟨_, Does.pure _ s4, ?_⟩
  rintro L2 b ⟨rfl, rfl⟩
  refine ⟨h4, ?_, h6, ?_⟩
  · rw [h6]; intro h; have := congrArg List.length h
    simp only [List.length_reverse, List.length_take, List.length_nil] at this; omega
  rw [hs3, hs2, hs1, h5]
  simp

theorem does_arrive (hF : Follows m F) (mode : Mode) (old s : S.St) (n : Nat)
    (hn : n ≤ (F.path (m.discr s)).length) :
    Does m m.discr (mode.arrive m old n) s (fun L _ =>
      L = ((F.path (m.discr s)).take n).reverse.map .entry ++
        [.afterTransition (m.discr old) (m.discr s)]) := by
  unfold Mode.arrive
  refine (does_modeEnter hF mode n s hn).seq ?_
  intro _ s1 hs1
  refine ((Does.self s1).bind (fun a s2 hs2 => does_hookAfterTransition old a s2)).mono ?_
  rintro L _ ⟨l1, a, l2, ⟨rfl, rfl⟩, rfl, rfl⟩
  rw [hs1]; rfl

theorem prefix_of_append_right {A : Type} {T1 T2 L1 L2 : List A} (h : T2 <+: L2) (h1 : T1 = L1) :
    T1 ++ T2 <+: L1 ++ L2 := by
  rw [h1]; exact (List.prefix_append_right_inj _).2 h

theorem entriesOf_append {D E V T : Type} (a b : List (Step D E V T)) :
    entriesOf (a ++ b) = entriesOf a ++ entriesOf b := by
  simp [entriesOf]

theorem entriesOf_map_exit {D E V T : Type} (l : List (Node D E)) :
    entriesOf (l.map (Step.exit (V := V) (T := T))) = [] := by
  simp [entriesOf, List.filterMap_map]

theorem entriesOf_prefix {D E V T : Type} {a b : List (Step D E V T)} (h : a <+: b)
    (hb : entriesOf b = []) : entriesOf a = [] := by
  obtain ⟨c, rfl⟩ := h
  rw [entriesOf_append] at hb
  exact (List.append_eq_nil_iff.1 hb).1

/-- Everything about one transition. -/
theorem transition_spec (hF : Follows m F) (mode : Mode) (s t : S.St) (g : Glob S) :
    ∃ o s' g' T, mode.transition m t s g = some (o, s', g') ∧ g'.trace = g.trace ++ T ∧
      (o = .ok () → m.steps T = transitionLog mode F (m.discr s) (m.discr t)) ∧
      m.steps T <+: transitionLog mode F (m.discr s) (m.discr t) ∧
      m.discr s' = (if entriesOf (m.steps T) = [] then m.discr s else m.discr t) ∧
      (m.NoPanic → o ≠ .panic) ∧ (m.NoSuspend → o ≠ .stopped) := by
  have hlog : transitionLog mode F (m.discr s) (m.discr t) =
      (mode.beforeStep (m.discr s) (m.discr t) :: (F.exits (m.discr s) (m.discr t)).map .exit) ++
      ((F.entries (m.discr s) (m.discr t)).map .entry ++
        [Step.afterTransition (V := S.Ev) (T := S.St) (m.discr s) (m.discr t)]) := by
    cases mode <;> simp [transitionLog, Mode.beforeStep]
  have hno : entriesOf (mode.beforeStep (S := S) (m.discr s) (m.discr t) ::
      (F.exits (m.discr s) (m.discr t)).map .exit) = [] := by
    cases mode <;> simp [entriesOf, Mode.beforeStep]
  obtain ⟨o, s1, g1, T1, h1, h2, h3, h4, ⟨L, a, ⟨-, -, -, h5⟩, h6⟩, h9, h7, h8⟩ := does_leave hF mode s t g
  have hbind : mode.transition m t s g =
      Eff.bind (mode.leave m t) (fun n => Eff.bind (Eff.swap t) (fun old => mode.arrive m old n)) s g := rfl
  subst h5
  cases o with
  | panic =>
    refine ⟨.panic, s1, g1, T1, ?_, h2, by simp, ?_, ?_, by simpa using h7, by simp⟩
    · rw [hbind]; unfold Eff.bind; rw [h1]
    · rw [hlog]; exact h6.trans (List.prefix_append _ _)
    · rw [if_pos (entriesOf_prefix h6 hno), h3]
  | stopped =>
    refine ⟨.stopped, s1, g1, T1, ?_, h2, by simp, ?_, ?_, by simp, by simpa using h8⟩
    · rw [hbind]; unfold Eff.bind; rw [h1]
    · rw [hlog]; exact h6.trans (List.prefix_append _ _)
    · rw [if_pos (entriesOf_prefix h6 hno), h3]
  | ok n =>
    obtain ⟨hn, hne, hent, hT1⟩ := h4 n rfl
    obtain ⟨o, s2, g2, T2, k1, k2, k3, k4, ⟨L', a', k5, k6⟩, k9, k7, k8⟩ := does_arrive hF mode s1 t n hn g1
    rw [← hent, h3] at k4 k5
    subst k5
    have hsteps : m.steps (T1 ++ T2) = m.steps T1 ++ m.steps T2 := by simp [Machine.steps]
    refine ⟨o, s2, g2, T1 ++ T2, ?_, ?_, ?_, ?_, ?_, k7, k8⟩
    · rw [hbind]; unfold Eff.bind; rw [h1]; exact k1
    · rw [k2, h2, List.append_assoc]
    · intro ho
      rw [hsteps, hlog, k4 () ho, hT1]
    · rw [hsteps, hlog]
      exact prefix_of_append_right k6 hT1
    · -- at least the leaf's entry action has been started
      have hne2 : entriesOf (m.steps (T1 ++ T2)) ≠ [] := by
        rw [hsteps, entriesOf_append]
        intro h
        have h := (List.append_eq_nil_iff.1 h).2
        obtain ⟨n0, rest, hnr⟩ := List.exists_cons_of_ne_nil hne
        rw [hnr] at k6 k4
        cases hT2 : T2 with
        | nil =>
          have hk := k9 hT2
          cases o with
          | ok u => have := k4 u rfl; simp [hT2, Machine.steps] at this
          | panic => simp [Out.isOk] at hk
          | stopped => simp [Out.isOk] at hk
        | cons x xs =>
          rw [hT2] at k6 h
          simp only [Machine.steps, List.map_cons, List.cons_append, List.cons_prefix_cons] at k6
          simp [Machine.steps, entriesOf, k6.1] at h
      rw [if_neg hne2, k3]

section dispatchSteps
variable {D E V T : Type}

/-- A step that belongs to dispatch: handler calls and dispatch hooks. -/
theorem dispatchLog_ofTransition (mode : Mode) (ev : V) (cl : List (Node D E × Response T)) :
    ∀ x ∈ dispatchLog mode ev cl, x.ofTransition = false := by
  have hn : ∀ cl : List (Node D E × Response T), ∀ x ∈ nestedLog ev cl, x.ofTransition = false := by
    intro cl
    induction cl with
    | nil => simp [nestedLog]
    | cons p cl ih =>
      intro x hx
      simp only [nestedLog, List.cons_append, List.nil_append, List.mem_cons, List.mem_append,
        List.not_mem_nil, or_false] at hx
      rcases hx with rfl | rfl | rfl | hx | rfl
      · rfl
      · rfl
      · rfl
      · exact ih x hx
      · rfl
  cases mode with
  | blocking =>
    cases cl with
    | nil => simp [dispatchLog, blockingLog]
    | cons p cl =>
      intro x hx
      simp only [dispatchLog, blockingLog, List.cons_append, List.nil_append, List.mem_cons] at hx
      rcases hx with rfl | rfl | rfl | rfl | hx
      · rfl
      · rfl
      · rfl
      · rfl
      · exact hn cl x hx
  | awaitable =>
    show ∀ x ∈ sequentialLog ev cl, x.ofTransition = false
    induction cl with
    | nil => simp [sequentialLog]
    | cons p cl ih =>
      intro x hx
      simp only [sequentialLog, List.cons_append, List.nil_append, List.mem_cons] at hx
      rcases hx with rfl | rfl | rfl | rfl | hx
      · rfl
      · rfl
      · rfl
      · rfl
      · exact ih x hx

theorem entriesOf_eq_nil_of {l : List (Step D E V T)} (h : ∀ x ∈ l, x.ofTransition = false) :
    entriesOf l = [] := by
  unfold entriesOf
  rw [List.filterMap_eq_nil_iff]
  intro x hx
  have := h x hx
  cases x <;> simp_all [Step.ofTransition]

end dispatchSteps

theorem superToHandled_transition {A : Type} {r : Response A} {t : A} :
    superToHandled r = .transition t ↔ r = .transition t := by
  cases r <;> simp [superToHandled]

/-- Dispatch in either mode: `r` is what `StateExt::handle` returns, `x` the response of the last handler. -/
theorem does_modeHandle (hF : Follows m F) (mode : Mode) (ev : S.Ev) (s : S.St) :
    Does m m.discr (mode.handle m ev) s (fun L r =>
      ∃ cl x, Climb (F.path (m.discr s)) cl ∧ lastResponse cl = some x ∧
        (∀ t, r = .transition t ↔ x = .transition t) ∧ L = dispatchLog mode ev cl) := by
  cases mode with
  | blocking =>
    refine (does_handle hF ev s).mono ?_
    rintro L r ⟨cl, h1, h2, h3⟩
    exact ⟨cl, r, h1, h2, fun t => Iff.rfl, h3⟩
  | awaitable =>
    refine (does_awaitHandle hF ev s).mono ?_
    rintro L r ⟨cl, x, h1, h2, rfl, h3⟩
    refine ⟨cl, x, h1, h2, fun t => ?_, h3⟩
    split
    · rfl
    · exact superToHandled_transition

theorem handleLog_transition {D E V T : Type} [DecidableEq D] [DecidableEq E] {mode : Mode}
    {F : Forest D E} {variant : T → D} {d : D} {ev : V} {cl : List (Node D E × Response T)} {t : T}
    (h : lastResponse cl = some (.transition t)) :
    handleLog mode F variant d ev cl = dispatchLog mode ev cl ++ transitionLog mode F d (variant t) := by
  simp [handleLog, h]

theorem handleLog_other {D E V T : Type} [DecidableEq D] [DecidableEq E] {mode : Mode}
    {F : Forest D E} {variant : T → D} {d : D} {ev : V} {cl : List (Node D E × Response T)} {x : Response T}
    (h : lastResponse cl = some x) (hx : ∀ t, x ≠ .transition t) :
    handleLog mode F variant d ev cl = dispatchLog mode ev cl := by
  cases x with
  | transition t => exact absurd rfl (hx t)
  | _ => simp [handleLog, h]

/-- Everything about one `handle` call on an initialized machine. -/
theorem handleEvent_spec (hF : Follows m F) (mode : Mode) (ev : S.Ev) (s : S.St) (g : Glob S) :
    ∃ o s' g' T cl, mode.handleEvent m ev s g = some (o, s', g') ∧ g'.trace = g.trace ++ T ∧
      Climb (F.path (m.discr s)) cl ∧
      (o = .ok () → m.steps T = handleLog mode F m.discr (m.discr s) ev cl) ∧
      m.steps T <+: handleLog mode F m.discr (m.discr s) ev cl ∧
      (entriesOf (m.steps T) = [] → m.discr s' = m.discr s) ∧
      (entriesOf (m.steps T) ≠ [] → ∃ t, lastResponse cl = some (.transition t) ∧ m.discr s' = m.discr t) ∧
      (m.NoPanic → o ≠ .panic) ∧ (m.NoSuspend → o ≠ .stopped) := by
  obtain ⟨o, s1, g1, T1, h1, h2, h3, h4, ⟨L, a, ⟨cl, x, hc, hx, hr, rfl⟩, h6⟩, h9, h7, h8⟩ :=
    does_modeHandle hF mode ev s g
  have hbind : mode.handleEvent m ev s g =
      Eff.bind (mode.handle m ev) (fun r => match r with
        | .transition t => mode.transition m t
        | _ => pure ()) s g := rfl
  have hpre : ∀ cl : List (Node S.D S.E × Response S.St), dispatchLog mode ev cl <+:
      handleLog mode F m.discr (m.discr s) ev cl := fun cl => List.prefix_append _ _
  have hnone : ∀ cl, m.steps T1 <+: dispatchLog mode ev cl → entriesOf (m.steps T1) = [] := fun cl h =>
    entriesOf_prefix h (entriesOf_eq_nil_of (dispatchLog_ofTransition mode ev cl))
  cases o with
  | panic =>
    refine ⟨.panic, s1, g1, T1, cl, ?_, h2, hc, by simp, h6.trans (hpre cl), fun _ => h3, ?_,
      by simpa using h7, by simp⟩
    · rw [hbind]; unfold Eff.bind; rw [h1]
    · intro h; exact absurd (hnone cl h6) h
  | stopped =>
    refine ⟨.stopped, s1, g1, T1, cl, ?_, h2, hc, by simp, h6.trans (hpre cl), fun _ => h3, ?_,
      by simp, by simpa using h8⟩
    · rw [hbind]; unfold Eff.bind; rw [h1]
    · intro h; exact absurd (hnone cl h6) h
  | ok r =>
    obtain ⟨cl, x, hc, hx, hr, hT1⟩ := h4 r rfl
    by_cases htr : ∃ t, r = .transition t
    · obtain ⟨t, rfl⟩ := htr
      have hxt := (hr t).1 rfl
      subst hxt
      obtain ⟨o, s2, g2, T2, k1, k2, k3, k4, k5, k6, k7⟩ := transition_spec hF mode s1 t g1
      rw [h3] at k3 k4 k5
      have hsteps : m.steps (T1 ++ T2) = m.steps T1 ++ m.steps T2 := by simp [Machine.steps]
      have hent : entriesOf (m.steps (T1 ++ T2)) = entriesOf (m.steps T2) := by
        rw [hsteps, entriesOf_append, hnone cl (by rw [hT1]; exact List.prefix_refl _), List.nil_append]
      refine ⟨o, s2, g2, T1 ++ T2, cl, ?_, ?_, hc, ?_, ?_, ?_, ?_, k6, k7⟩
      · rw [hbind]; unfold Eff.bind; rw [h1]; exact k1
      · rw [k2, h2, List.append_assoc]
      · intro ho
        rw [handleLog_transition hx, hsteps, hT1, k3 ho]
      · rw [handleLog_transition hx, hsteps]
        exact prefix_of_append_right k4 hT1
      · intro h; rw [hent] at h; rw [k5, if_pos h]
      · intro h; rw [hent] at h; exact ⟨t, hx, by rw [k5, if_neg h]⟩
    · have hxt : ∀ t, x ≠ .transition t := fun t ht => htr ⟨t, (hr t).2 ht⟩
      refine ⟨.ok (), s1, g1, T1, cl, ?_, h2, hc, ?_, ?_, fun _ => h3, ?_, by simp, by simp⟩
      · rw [hbind]; unfold Eff.bind; rw [h1]
        cases r with
        | transition t => exact absurd ⟨t, rfl⟩ htr
        | _ => rfl
      · intro _; rw [handleLog_other hx hxt, hT1]
      · rw [handleLog_other hx hxt, hT1]; exact List.prefix_refl _
      · intro h; exact absurd (hnone cl (by rw [hT1]; exact List.prefix_refl _)) h

end Statig
