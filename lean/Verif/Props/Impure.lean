import Verif.Proofs.Impure
import Verif.Proofs.ImpureConduct
import Verif.Props.Sample
/-!
# Machines whose `superstate()` has effects: C90
-/
namespace Statig
variable {S : Sig} {m : Impure S} {R : S.St → S.St → Prop} {R' : S.Sup → S.Sup → Prop} {mode : Mode}
  {sm : StateMachine S} {ev : S.Ev} {ctx : S.Ctx} {sched : List S.In} {c : Call S (StateMachine S)}

/-- C90. A machine whose `superstate()` has no effects does the same in this model and in the rest of the model, call
by call. -/
theorem C90_pure (m : Machine S) (mode : Mode) (sm : StateMachine S) (cmds : List (Command S)) :
    callAllImpure mode m.impure sm cmds = callAll mode m sm cmds := by
  induction cmds generalizing sm with
  | nil => rfl
  | cons cmd cmds ih =>
    have e : cmd.execImpure mode m.impure sm = cmd.exec mode m sm := by
      cases cmd with
      | init ctx sched => exact Impure.initImpure_impure m mode sm ctx sched
      | handle ev ctx sched => exact Impure.handleImpure_impure m mode sm ev ctx sched
    unfold callAllImpure callAll
    rw [e]
    cases cmd.exec mode m sm with
    | none => rfl
    | some c => exact congrArg (c :: ·) (ih c.self)

theorem Impure.handle_inv (hi : sm.initialized = true) (h : sm.handleImpure mode m ev ctx sched = some c) :
    c.self.initialized = true ∧ ∃ g', m.handleEvent mode ev sm.state
      { sh := sm.inner.shared, ctx := ctx, sched := sched, trace := [] } = some (c.out, c.self.state, g') ∧
        c.trace = g'.trace := by
  unfold StateMachine.handleImpure at h
  rw [if_neg (by simp [hi])] at h
  unfold Inner.run at h
  cases e : m.handleEvent mode ev sm.inner.state
      { sh := sm.inner.shared, ctx := ctx, sched := sched, trace := [] } with
  | none => simp [e] at h
  | some r =>
    obtain ⟨o, s', g'⟩ := r
    simp only [e, Option.bind_eq_bind, Option.bind_some, Option.some.injEq] at h
    subst h
    exact ⟨hi, g', e, rfl⟩

/-- C90. Whatever `superstate()` does, panic included, a call of `handle` on an initialized machine conducts itself: it
gives the event to one handler after the other as long as they defer; only if the last one asked for a transition,
`before_transition`, then exit actions, then the change to the target, then entry actions, then `after_transition`
follow, in this order; and the state is changed only as `R` allows by callbacks and `superstate()`, or by
becoming the target. -/
theorem C90_conduct (hR : m.Respects R R') (hi : sm.initialized = true)
    (h : sm.handleImpure mode m ev ctx sched = some c) :
    Conduct mode R ev sm.state c.trace c.out c.self.state ∧ c.self.initialized = true := by
  obtain ⟨h1, g', h2, h3⟩ := Impure.handle_inv hi h
  rw [h3]
  exact ⟨Impure.conduct_handleEvent hR mode ev rfl h2, h1⟩

/-- C90. Whatever `superstate()` does, initialization starts entry actions only; the machine is initialized if and only
if it returns; and a second one does nothing. -/
theorem C90_init (hR : m.Respects R R') (h : sm.initImpure mode m ctx sched = some c) :
    (sm.initialized = false → (∀ ob ∈ c.trace, ob.Enters) ∧ R sm.state c.self.state ∧
      (c.self.initialized = true ↔ c.out = .ok ())) ∧
    (sm.initialized = true → c = { out := .ok (), self := sm, ctx := ctx, sched := sched, trace := [] }) := by
  unfold StateMachine.initImpure at h
  refine ⟨fun hi => ?_, fun hi => ?_⟩
  · rw [if_pos hi] at h
    unfold Inner.run at h
    cases e : m.init mode sm.inner.state
        { sh := sm.inner.shared, ctx := ctx, sched := sched, trace := [] } with
    | none => simp [e] at h
    | some r =>
      obtain ⟨o, s', g'⟩ := r
      obtain ⟨L, e1, r1, p1⟩ := Impure.only_init hR mode _ _ _ _ _ e
      have e1 : g'.trace = L := by simpa using e1
      simp only [e, Option.bind_eq_bind, Option.bind_some] at h
      cases o with
      | ok u => cases h; exact ⟨by rw [e1]; exact p1, r1, by simp⟩
      | panic => cases h; exact ⟨by rw [e1]; exact p1, r1, by simp [hi]⟩
      | stopped => cases h; exact ⟨by rw [e1]; exact p1, r1, by simp [hi]⟩
  · rw [if_neg (by simp [hi])] at h
    cases h; rfl

/-- C90. Whatever `superstate()` does, `handle` on a machine that is not initialized yet is an initialization and, if
that returns, a `handle`. -/
theorem C90_first (hi : sm.initialized = false) :
    sm.handleImpure mode m ev ctx sched = (sm.initImpure mode m ctx sched).bind fun c =>
      if c.out = .ok () then (c.self.handleImpure mode m ev c.ctx c.sched).map fun d =>
        { d with trace := c.trace ++ d.trace }
      else some c := by
  unfold StateMachine.handleImpure StateMachine.initImpure
  rw [if_pos hi, if_pos hi]
  cases sm.inner.run (m.init mode) ctx sched with
  | none => rfl
  | some c =>
    simp only [Option.bind_eq_bind, Option.bind_some]
    cases ho : c.out with
    | panic => simp [ho]
    | stopped => simp [ho]
    | ok u =>
      simp only [Option.bind_some, if_true]
      rw [if_neg (by simp)]
      cases c.self.run (m.handleEvent mode ev) c.ctx c.sched <;> simp [ho]

/-- C90. If callbacks and `superstate()` do not change the variant of the state they are given, then after a call the
state is of the variant it was of before or of the variant of a target that a handler asked for; if the call
returned, it is the latter exactly if the last handler asked for a transition. -/
theorem C90_variant (hR : m.Respects (fun a b => m.base.discr b = m.base.discr a) R') (hi : sm.initialized = true)
    (h : sm.handleImpure mode m ev ctx sched = some c) :
    ∃ D r, Asked ev (D.filter Obs.isHandling) r ∧ D <+: c.trace ∧ (∀ ob ∈ c.trace, ob.isHandling = true → ob ∈ D) ∧
      (m.base.discr c.self.state = m.base.discr sm.state ∨
        ∃ t, r = some (.transition t) ∧ m.base.discr c.self.state = m.base.discr t) ∧
      (c.out = .ok () → m.base.discr c.self.state = match r with
        | some (.transition t) => m.base.discr t
        | _ => m.base.discr sm.state) := by
  have hX : ∀ {L : List (Obs S)}, (∀ ob ∈ L, ob.Exits) → ∀ ob ∈ L, ob.isHandling = false := by
    intro L hL ob hob
    have := hL ob hob
    cases ob <;> first | rfl | exact this.elim
  have hN : ∀ {L : List (Obs S)}, (∀ ob ∈ L, ob.Enters) → ∀ ob ∈ L, ob.isHandling = false := by
    intro L hL ob hob
    have := hL ob hob
    cases ob <;> first | rfl | exact this.elim
  have ha : ∀ s t : S.St, (announcement mode s t : Obs S).isHandling = false := by intro s t; cases mode <;> rfl
  obtain ⟨hc, -⟩ := C90_conduct hR hi h
  generalize c.trace = T at hc ⊢
  generalize c.out = o at hc ⊢
  generalize c.self.state = s' at hc ⊢
  cases hc with
  | @dispatched _ r' _ _ p q k r =>
    refine ⟨_, _, q, List.prefix_rfl, fun ob hob _ => hob, .inl r, fun ho => ?_⟩
    rcases r' with _ | _ | _ | t
    · exact r
    · exact r
    · exact r
    · exact absurd ho (k t rfl)
  | left p q r0 hx ho r =>
    refine ⟨_, _, q, List.prefix_append _ _, fun ob hob hh => ?_, .inl r, fun ho' => absurd ho' ho⟩
    simp only [List.mem_append, List.mem_cons] at hob
    rcases hob with hob | rfl | hob
    · exact hob
    · rw [ha] at hh; cases hh
    · rw [hX hx ob hob] at hh; cases hh
  | entering p q r0 hx hn ho r =>
    refine ⟨_, _, q, List.prefix_append _ _, fun ob hob hh => ?_, .inr ⟨_, rfl, r⟩, fun ho' => absurd ho' ho⟩
    simp only [List.mem_append, List.mem_cons] at hob
    rcases hob with hob | rfl | hob | hob
    · exact hob
    · rw [ha] at hh; cases hh
    · rw [hX hx ob hob] at hh; cases hh
    · rw [hN hn ob hob] at hh; cases hh
  | made p q r0 hx hn hold r =>
    refine ⟨_, _, q, List.prefix_append _ _, fun ob hob hh => ?_, .inr ⟨_, rfl, r⟩, fun _ => r⟩
    simp only [List.mem_append, List.mem_cons, List.not_mem_nil, or_false] at hob
    rcases hob with hob | rfl | (hob | hob) | rfl
    · exact hob
    · rw [ha] at hh; cases hh
    · rw [hX hx ob hob] at hh; cases hh
    · rw [hN hn ob hob] at hh; cases hh
    · cases hh

theorem Impure.Maintains.respects {P : S.St → Prop} {Q : S.Sup → Prop} (h : m.Maintains P Q) :
    m.Respects (fun a b => P a → P b) (fun v w => Q v → Q w) := by
  have imp : ∀ {In W α : Type} {A : Prop} {B : W → Prop} {f : Fut In W α}, (A → f.All B) →
      f.All fun w => A → B w := by
    intro In W α A B f hf
    by_cases hA : A
    · have := hf hA
      clear hf
      induction this with
      | done h => exact .done fun _ => h
      | panic h => exact .panic fun _ => h
      | pending h _ ih => exact .pending (fun _ => h) ih
    · clear hf
      induction f with
      | done w a => exact .done fun h => absurd h hA
      | panic w => exact .panic fun h => absurd h hA
      | pending w k ih => exact .pending (fun h => absurd h hA) ih
  exact {
    refl := fun s h => h
    trans := fun a b c h1 h2 h3 => h2 (h1 h3)
    supRefl := fun s h => h
    supTrans := fun a b c h1 h2 h3 => h2 (h1 h3)
    handler := fun s sh ev c => imp (h.keepsHandler s sh ev c)
    entry := fun s sh c => imp (h.entry s sh c)
    exit := fun s sh c => imp (h.exit s sh c)
    supHandler := fun s sh ev c => imp (h.keepsSupHandler s sh ev c)
    supEntry := fun s sh c => imp (h.supEntry s sh c)
    supExit := fun s sh c => imp (h.supExit s sh c)
    superstate := by
      intro s
      have := h.superstate s
      cases e : m.superstate s <;> simp only [e] at this ⊢
      · exact fun v' hv hs => (this hs).2 v' (hv (this hs).1)
      · exact this
      · exact this
    supSuperstate := by
      intro s
      have := h.supSuperstate s
      cases e : m.supSuperstate s <;> simp only [e] at this ⊢
      · exact fun v' hv hs => (this hs).2 v' (hv (this hs).1)
      · exact this
      · exact this }

theorem Impure.maintained {P : S.St → Prop} {Q : S.Sup → Prop} (hm : m.Maintains P Q) (hi : sm.initialized = true)
    (hP : P sm.state) (h : sm.handleImpure mode m ev ctx sched = some c) : P c.self.state := by
  obtain ⟨-, g', h2, h3⟩ := Impure.handle_inv hi h
  obtain ⟨L, e, hL⟩ := Impure.proper_handleEvent hm.toTargets mode ev h2
  have e : c.trace = L := by rw [h3, e]; rfl
  have hc := (C90_conduct hm.respects hi h).1
  have tgt : ∀ {D : List (Obs S)} {t}, (∀ ob ∈ D, ob ∈ c.trace) → Asked ev (D.filter Obs.isHandling) (some (.transition t)) → P t := by
    intro D t hD hq
    obtain ⟨n, hn⟩ := Impure.Asked.mem hq rfl
    have := hD _ (List.mem_filter.1 hn).1
    rw [e] at this
    exact hL _ this n t rfl
  clear h3 h2 e hL
  generalize c.trace = T at hc tgt
  cases hc with
  | dispatched p q k r => exact r hP
  | left p q r0 hx ho r => exact r hP
  | entering p q r0 hx hn ho r => exact r (tgt (fun ob hob => by simp [hob]) q)
  | made p q r0 hx hn hold r => exact r (tgt (fun ob hob => by simp [hob]) q)

/-- C90. What callbacks and `superstate()` maintain holds of the state after every call of any history, even if calls are
cut short, and handlers or `superstate()` panic. -/
theorem C90_invariant {P : S.St → Prop} {Q : S.Sup → Prop} (hm : m.Maintains P Q) (hP : P sm.state)
    (cmds : List (Command S)) : ∀ c ∈ callAllImpure mode m sm cmds, P c.self.state := by
  have hinit : ∀ {sm : StateMachine S} {ctx sched c}, P sm.state → sm.initImpure mode m ctx sched = some c →
      P c.self.state := by
    intro sm ctx sched c hP h
    have := C90_init hm.respects h
    cases hi : sm.initialized with
    | false => exact (this.1 hi).2.1 hP
    | true => rw [this.2 hi]; exact hP
  have hexec : ∀ {sm : StateMachine S} {cmd : Command S} {c}, P sm.state → cmd.execImpure mode m sm = some c →
      P c.self.state := by
    intro sm cmd c hP h
    cases cmd with
    | init ctx sched => exact hinit hP h
    | handle ev ctx sched =>
      have h : sm.handleImpure mode m ev ctx sched = some c := h
      cases hi : sm.initialized with
      | true => exact Impure.maintained hm hi hP h
      | false =>
        rw [C90_first hi] at h
        cases e : sm.initImpure mode m ctx sched with
        | none => rw [e] at h; cases h
        | some c0 =>
          rw [e, Option.bind_some] at h
          have hP0 := hinit hP e
          split at h
          · rename_i ho
            cases e1 : c0.self.handleImpure mode m ev c0.ctx c0.sched with
            | none => rw [e1] at h; cases h
            | some d =>
              rw [e1] at h
              cases h
              show P d.self.state
              exact Impure.maintained hm (((C90_init hm.respects e).1 hi).2.2.2 ho) hP0 e1
          · cases h; exact hP0
  induction cmds generalizing sm with
  | nil => intro c hc; cases hc
  | cons cmd cmds ih =>
    intro c hc
    unfold callAllImpure at hc
    cases e : cmd.execImpure mode m sm with
    | none => rw [e] at hc; cases hc
    | some c0 =>
      rw [e] at hc
      rcases List.mem_cons.1 hc with rfl | hc
      · exact hexec hP e
      · exact ih (hexec hP e) c hc

namespace Sample

/-- The machine, with simpler handlers: `b` leads to `S12`. -/
def toS12 : Machine sig :=
  { machine false with
    handler := fun s sh ev c => .done (s, sh, c) (if ev = .b then .transition (.s12, 0) else .super)
    supHandler := fun v sh _ c => .done (v, sh, c) .super }

/-- A `superstate()` that on the first call notes in local storage that it was called, and returns `None`. -/
def lazy : Impure sig where
  base := toS12
  superstate s := if s.2 = 0 then .none (s.1, 1) else .some (leafParent s.1, s.2) fun v => (s.1, v.2)
  supSuperstate v := match supParent v.1 with
    | none => .none v
    | some p => .some (p, v.2) fun w => (v.1, w.2)

theorem lazy_zero (d : D) : lazy.superstate (d, 0) = .none (d, 1) := rfl

theorem lazy_succ (d : D) (n : Nat) : lazy.superstate (d, n + 1) = .some (leafParent d, n + 1) fun v => (d, v.2) := rfl

theorem lazy_top {e : E} {n : Nat} (h : supParent e = none) : lazy.supSuperstate (e, n) = .none (e, n) := by
  simp [lazy, h]

theorem lazy_up {e p : E} {n : Nat} (h : supParent e = some p) :
    lazy.supSuperstate (e, n) = .some (p, n) fun w => (e, w.2) := by
  simp [lazy, h]

/-- In `S11` or `S12`, and the superstate was called or was not. -/
def Settled (s : sig.St) : Prop := s.1 ≠ .s211 ∧ s.2 ≤ 1

/-- `C90_variant` applies. -/
theorem lazy_variant : lazy.Respects (fun a b => lazy.base.discr b = lazy.base.discr a) fun _ _ => True where
  refl _ := rfl
  trans _ _ _ h1 h2 := h2.trans h1
  supRefl _ := trivial
  supTrans _ _ _ _ _ := trivial
  handler _ _ _ _ := .done rfl
  entry _ _ _ := .done rfl
  exit _ _ _ := .done rfl
  supHandler _ _ _ _ := .done trivial
  supEntry _ _ _ := .done trivial
  supExit _ _ _ := .done trivial
  superstate s := by
    obtain ⟨d, n⟩ := s
    cases n with
    | zero => rw [lazy_zero]; rfl
    | succ n => rw [lazy_succ]; exact fun _ _ => rfl
  supSuperstate v := by
    cases lazy.supSuperstate v <;> simp

/-- `C90_invariant` applies. -/
theorem lazy_maintains : lazy.Maintains Settled (fun v => v.2 ≤ 1) where
  handler s sh ev c l t w l' h := by
    have h : (Out.ok (if ev = .b then .transition (.s12, 0) else .super), (s, sh, c), l) =
      ((.ok (.transition t), w, l') : Out (Response sig.St) × _ × _) := h
    simp only [Prod.mk.injEq, Out.ok.injEq] at h
    split at h
    · obtain ⟨h, -⟩ := h; cases h; exact ⟨by simp, by simp⟩
    · obtain ⟨h, -⟩ := h; cases h
  supHandler v sh ev c l t w l' h := by
    have h : (Out.ok .super, (v, sh, c), l) = ((.ok (.transition t), w, l') : Out (Response sig.St) × _ × _) := h
    cases h
  keepsHandler _ _ _ _ h := .done h
  entry _ _ _ h := .done h
  exit _ _ _ h := .done h
  keepsSupHandler _ _ _ _ h := .done h
  supEntry _ _ _ h := .done h
  supExit _ _ _ h := .done h
  superstate s h := by
    obtain ⟨d, n⟩ := s
    cases n with
    | zero => rw [lazy_zero]; exact ⟨h.1, by simp⟩
    | succ n => rw [lazy_succ]; exact ⟨h.2, fun v' hv => ⟨h.1, hv⟩⟩
  supSuperstate v h := by
    obtain ⟨e, n⟩ := v
    cases hp : supParent e with
    | none => rw [lazy_top hp]; exact h
    | some p => rw [lazy_up hp]; exact ⟨h, fun w hw => hw⟩

/-- An initialized machine in the given state. -/
def lazyAt (d : D) (n : Nat) : StateMachine sig := ⟨⟨⟨[], 0⟩, (d, n)⟩, true⟩

theorem lazy_supDepth_s (n : Nat) (g : Glob sig) : lazy.supDepth (.s, n) g = some (.ok 1, (.s, n), g) := by
  rw [Impure.supDepth]
  show Eff.bind _ _ _ _ = _
  simp only [Eff.bind, Impure.climb, lazy_top (e := .s) rfl]
  rfl

theorem lazy_supDepth_s1 (n : Nat) (g : Glob sig) : lazy.supDepth (.s1, n) g = some (.ok 2, (.s1, n), g) := by
  rw [Impure.supDepth]
  show Eff.bind _ _ _ _ = _
  simp only [Eff.bind, Impure.climb, lazy_up (e := .s1) rfl, lazy_supDepth_s]
  rfl

theorem lazy_common (n k : Nat) (g : Glob sig) :
    lazy.supCommonAncestorDepth ((.s1, n), (.s1, k)) g = some (.ok 2, ((.s1, n), (.s1, k)), g) := by
  rw [Impure.supCommonAncestorDepth]
  show Eff.bind _ _ _ _ = _
  simp only [Eff.bind, Impure.first, lazy_supDepth_s1]
  show Eff.bind _ _ _ _ = _
  simp only [Eff.bind, Impure.second, lazy_supDepth_s1]
  show Impure.first lazy.supDepth _ _ = _
  simp only [Impure.first, lazy_supDepth_s1]

theorem lazy_path (g : Glob sig) :
    lazy.transitionPath ((.s11, 0), (.s12, 0)) g = some (.panic, ((.s11, 1), (.s12, 1)), g) := by
  have h : Impure.climb (Impure.both lazy.superstate) lazy.supCommonAncestorDepth ((.s11, 1), (.s12, 1)) g =
      some (.ok (some 2), ((.s11, 1), (.s12, 1)), g) := by
    have e : Impure.both lazy.superstate ((.s11, 1), (.s12, 1)) =
      .some ((.s1, 1), (.s1, 1)) fun q => ((.s11, q.1.2), (.s12, q.2.2)) := rfl
    unfold Impure.climb
    rw [e]
    simp only
    rw [lazy_common 1 1 g]
    rfl
  have h' : ∀ f : Option Nat → Eff sig (sig.St × sig.St) (Nat × Nat),
      (Impure.climb (Impure.both lazy.superstate) lazy.supCommonAncestorDepth >>= f) ((.s11, 1), (.s12, 1)) g =
        f (some 2) ((.s11, 1), (.s12, 1)) g := by
    intro f
    show Eff.bind _ _ _ _ = _
    unfold Eff.bind
    rw [h]
  refine (h' fun r => match r with
    | some common => do
      let x ← Eff.lift (some (usizeSub 1 common))
      let n ← Eff.lift (some (usizeSub 1 common))
      pure (x, n)
    | none => pure (1, 1)).trans ?_
  rfl

/-- C90. The library does not keep its promises to machines whose `superstate()` has effects.  In `lazy` neither a
callback nor `superstate()` ever panics, and no variant is ever changed but by a transition; still
`handle` panics when it computes the path of a transition, and the transition is not made (C15 does not hold). -/
theorem C90_effects_matter :
    (∀ s, ∀ s', lazy.superstate s ≠ .panic s') ∧ (∀ v, ∀ v', lazy.supSuperstate v ≠ .panic v') ∧
    (∀ s sh ev c l, ((lazy.base.handler s sh ev c).run l).1.isOk = true) ∧
    (∀ v sh ev c l, ((lazy.base.supHandler v sh ev c).run l).1.isOk = true) ∧
    ∀ mode, ∃ c n, (lazyAt .s11 0).handleImpure mode lazy .b 0 [] = some c ∧ c.out = .panic ∧
      c.self.state = (.s11, 1) ∧ .returned n (.transition (.s12, 0)) ∈ c.trace := by
  refine ⟨?_, ?_, fun _ _ _ _ _ => rfl, fun _ _ _ _ _ => rfl, ?_⟩
  · rintro ⟨d, n⟩ s' h
    cases n with
    | zero => rw [lazy_zero] at h; cases h
    | succ n => rw [lazy_succ] at h; cases h
  · rintro ⟨e, n⟩ v' h
    cases hp : supParent e with
    | none => rw [lazy_top hp] at h; cases h
    | some p => rw [lazy_up hp] at h; cases h
  · have key : ∀ mode (g : Glob sig), lazy.transition mode (.s12, 0) (.s11, 0) g =
        some (.panic, (.s11, 1), { g with trace := g.trace ++ [announcement mode (.s11, 0) (.s12, 0)] }) := by
      intro mode g
      have hl : ∀ (f : (Nat × Nat) × sig.St → Eff sig sig.St Unit) (g : Glob sig),
          (Impure.withLocal (.s12, 0) lazy.transitionPath >>= f) (.s11, 0) g = some (.panic, (.s11, 1), g) := by
        intro f g
        have e : Impure.withLocal (.s12, 0) lazy.transitionPath (.s11, 0) g = some (.panic, (.s11, 1), g) := by
          unfold Impure.withLocal
          rw [lazy_path]
          rfl
        show Eff.bind _ _ _ _ = _
        unfold Eff.bind
        rw [e]
      cases mode with
      | blocking =>
        exact hl _ _
      | awaitable =>
        exact hl _ _
    intro mode
    have ev : lazy.handleEvent mode .b (.s11, 0) ⟨⟨[], 0⟩, 0, [], []⟩ = lazy.transition mode (.s12, 0) (.s11, 0)
        ⟨⟨[], 0⟩, 0, [], [.beforeDispatch (.state (.s11, 0)) .b, .handler (.state (.s11, 0)) .b,
          .returned (.state (.s11, 0)) (.transition (.s12, 0)), .afterDispatch (.state (.s11, 0)) .b]⟩ := by
      cases mode <;> rfl
    rw [key] at ev
    have run : (lazyAt .s11 0).handleImpure mode lazy .b 0 [] = some
        { out := .panic, self := ⟨⟨⟨[], 0⟩, (.s11, 1)⟩, true⟩, ctx := 0, sched := [],
          trace := [.beforeDispatch (.state (.s11, 0)) .b, .handler (.state (.s11, 0)) .b,
          .returned (.state (.s11, 0)) (.transition (.s12, 0)), .afterDispatch (.state (.s11, 0)) .b] ++
          [announcement mode (.s11, 0) (.s12, 0)] } := by
      unfold StateMachine.handleImpure
      rw [if_neg (by simp [lazyAt])]
      have e : (lazyAt .s11 0).inner.run (lazy.handleEvent mode .b) 0 [] = some
          { out := .panic, self := ⟨⟨[], 0⟩, (.s11, 1)⟩, ctx := 0, sched := [],
            trace := [.beforeDispatch (.state (.s11, 0)) .b, .handler (.state (.s11, 0)) .b,
            .returned (.state (.s11, 0)) (.transition (.s12, 0)), .afterDispatch (.state (.s11, 0)) .b] ++
            [announcement mode (.s11, 0) (.s12, 0)] } := by
        unfold Inner.run lazyAt
        simp only [ev]
      rw [e]
      rfl
    exact ⟨_, .state (.s11, 0), run, rfl, rfl, by simp⟩

/-- `C90_conduct`, `C90_variant` and `C90_invariant` apply where a transition is made: in `S12`, event `b` leads to `S12`
again. -/
example : ∀ mode, ∃ c, (lazyAt .s12 1).handleImpure mode lazy .b 0 [] = some c ∧ c.out = .ok () ∧
    c.self.state = (.s12, 0) ∧ Settled (lazyAt .s12 1).state ∧
    Conduct mode (fun a b => lazy.base.discr b = lazy.base.discr a) .b (.s12, 1) c.trace c.out c.self.state := by
  intro mode
  have h : ∃ c, (lazyAt .s12 1).handleImpure mode lazy .b 0 [] = some c ∧ c.out = .ok () ∧ c.self.state = (.s12, 0) := by
    cases mode
    · exact ⟨_, rfl, rfl, rfl⟩
    · exact ⟨_, rfl, rfl, rfl⟩
  obtain ⟨c, h1, h2, h3⟩ := h
  exact ⟨c, h1, h2, h3, ⟨by simp [lazyAt, StateMachine.state], by simp [lazyAt, StateMachine.state]⟩,
    (C90_conduct lazy_variant rfl h1).1⟩

end Sample
end Statig
