import Verif.Spec.Impure
import Verif.Proofs.Values
/-! # Machines whose `superstate()` has effects: what a call may do -/
namespace Statig
namespace Impure
variable {S : Sig} {σ τ ρ α β : Type} {m : Impure S}

/-- `x` changes `self` as `R` allows, and observes only what `P` allows. -/
def Only (R : σ → σ → Prop) (P : Obs S → Prop) (x : Eff S σ α) : Prop :=
  ∀ s g o s' g', x s g = some (o, s', g') → ∃ L, g'.trace = g.trace ++ L ∧ R s s' ∧ ∀ ob ∈ L, P ob

/-- A call of `sup`, and what is done to the view it returns, changes `self` as `R` allows. -/
def SupRespects (R : σ → σ → Prop) (R' : τ → τ → Prop) (sup : σ → Borrowed σ τ) : Prop :=
  ∀ s, match sup s with
    | .some v back => ∀ v', R' v v' → R s (back v')
    | .none s' => R s s'
    | .panic s' => R s s'

namespace Only
variable {R : σ → σ → Prop} {R' : τ → τ → Prop} {P : Obs S → Prop}

theorem admissible (R : σ → σ → Prop) (P : Obs S → Prop) :
    Lean.Order.admissible (fun x : Eff S σ α => Only R P x) := by
  have h := Eff.admissible (S := S) (σ := σ) (α := α)
    (fun s g r => ∃ L, r.2.2.trace = g.trace ++ L ∧ R s r.2.1 ∧ ∀ ob ∈ L, P ob)
  have e : (fun x : Eff S σ α => ∀ s g r, x s g = some r →
      ∃ L, r.2.2.trace = g.trace ++ L ∧ R s r.2.1 ∧ ∀ ob ∈ L, P ob) = fun x => Only R P x := by
    funext x
    apply propext
    exact ⟨fun h s g o s' g' hx => h s g _ hx, fun h s g r hx => h s g r.1 r.2.1 r.2.2 hx⟩
  rw [← e]; exact h

theorem pure (hr : ∀ s, R s s) (a : α) : Only R P (Pure.pure a : Eff S σ α) := by
  rintro s g o s' g' h; cases h; exact ⟨[], by simp, hr s, by simp⟩

theorem self (hr : ∀ s, R s s) : Only R P (Eff.self : Eff S σ σ) := by
  rintro s g o s' g' h; cases h; exact ⟨[], by simp, hr s, by simp⟩

theorem lift (hr : ∀ s, R s s) (x : Option (Out α)) : Only R P (Eff.lift x : Eff S σ α) := by
  rintro s g o s' g' h
  unfold Eff.lift at h
  cases x with
  | none => cases h
  | some o => cases h; exact ⟨[], by simp, hr s, by simp⟩

theorem hook (hr : ∀ s, R s s) {ob : σ → Obs S} (hP : ∀ s, P (ob s)) (f : σ → S.M → Fut S.In S.M Unit) :
    Only R P (Eff.hook ob f) := by
  intro s g o s' g' h
  unfold Eff.hook at h
  cases h
  exact ⟨[ob s], rfl, hr s, by simpa using hP s⟩

theorem callback {ob : σ → Obs S} {f : σ → S.M → S.Ctx → Fut S.In (σ × S.M × S.Ctx) α}
    (hf : ∀ s sh c, (f s sh c).All fun w => R s w.1) (hP : ∀ s, P (ob s)) : Only R P (Eff.callback ob f) := by
  intro s g o s' g' h
  unfold Eff.callback at h
  split at h
  rename_i hr
  cases h
  refine ⟨[ob s], rfl, ?_, by simpa using hP s⟩
  have := Fut.run_all (hf s g.sh g.ctx) g.sched
  rw [hr] at this
  exact this

theorem bind (ht : ∀ a b c, R a b → R b c → R a c) {x : Eff S σ α} {f : α → Eff S σ β} (hx : Only R P x)
    (hf : ∀ a, Only R P (f a)) : Only R P (x >>= f) := by
  intro s g o s' g' h
  rcases Eff.inv_bind h with ⟨a, s1, g1, h1, h2⟩ | ⟨o', h1, -, -⟩
  · obtain ⟨L1, e1, r1, p1⟩ := hx _ _ _ _ _ h1
    obtain ⟨L2, e2, r2, p2⟩ := hf a _ _ _ _ _ h2
    refine ⟨L1 ++ L2, by rw [e2, e1, List.append_assoc], ht _ _ _ r1 r2, fun ob hob => ?_⟩
    rcases List.mem_append.1 hob with hob | hob
    · exact p1 ob hob
    · exact p2 ob hob
  · exact hx _ _ _ _ _ h1

theorem climb {sup : σ → Borrowed σ τ} (hs : SupRespects R R' sup) {x : Eff S τ α} (hx : Only R' P x) :
    Only R P (climb sup x) := by
  intro s g o s' g' h
  have hs := hs s
  unfold Impure.climb at h
  cases e : sup s with
  | panic s1 => rw [e] at h hs; cases h; exact ⟨[], by simp, hs, by simp⟩
  | none s1 => rw [e] at h hs; cases h; exact ⟨[], by simp, hs, by simp⟩
  | some v back =>
    rw [e] at h hs
    simp only at h hs
    cases hr : x v g with
    | none => simp [hr] at h
    | some r =>
      rw [hr] at h
      cases h
      obtain ⟨L, e1, r1, p1⟩ := hx _ _ _ _ _ hr
      exact ⟨L, e1, hs _ r1, p1⟩

theorem mono {Q : Obs S → Prop} {x : Eff S σ α} (h : Only R P x) (hPQ : ∀ ob, P ob → Q ob) : Only R Q x := by
  intro s g o s' g' hx
  obtain ⟨L, e, r, p⟩ := h _ _ _ _ _ hx
  exact ⟨L, e, r, fun ob hob => hPQ _ (p ob hob)⟩

theorem first {R2 : ρ → ρ → Prop} (hr : ∀ s, R2 s s) {x : Eff S σ α} (h : Only R P x) :
    Only (fun p q : σ × ρ => R p.1 q.1 ∧ R2 p.2 q.2) P (first x) := by
  intro s g o s' g' hx
  unfold Impure.first at hx
  cases e : x s.1 g with
  | none => rw [e] at hx; cases hx
  | some r =>
    rw [e] at hx
    cases hx
    obtain ⟨L, e, r, p⟩ := h _ _ _ _ _ e
    exact ⟨L, e, ⟨r, hr _⟩, p⟩

theorem second {R2 : ρ → ρ → Prop} (hr : ∀ s, R2 s s) {x : Eff S σ α} (h : Only R P x) :
    Only (fun p q : ρ × σ => R2 p.1 q.1 ∧ R p.2 q.2) P (second x) := by
  intro s g o s' g' hx
  unfold Impure.second at hx
  cases e : x s.2 g with
  | none => rw [e] at hx; cases hx
  | some r =>
    rw [e] at hx
    cases hx
    obtain ⟨L, e, r, p⟩ := h _ _ _ _ _ e
    exact ⟨L, e, ⟨hr _, r⟩, p⟩

end Only

namespace SupRespects
variable {R : σ → σ → Prop} {R' : τ → τ → Prop} {sup : σ → Borrowed σ τ}

theorem both (hR : ∀ s, R s s) (hr : ∀ v, R' v v) (h : SupRespects R R' sup) :
    SupRespects (fun p q : σ × σ => R p.1 q.1 ∧ R p.2 q.2) (fun p q : τ × τ => R' p.1 q.1 ∧ R' p.2 q.2) (both sup) := by
  rintro ⟨a, b⟩
  have ha := h a
  have hb := h b
  simp only [Impure.both]
  cases ea : sup a with
  | panic _ => rw [ea] at ha; exact ⟨ha, hR _⟩
  | none _ =>
    rw [ea] at ha
    cases eb : sup b with
    | panic _ => rw [eb] at hb; exact ⟨ha, hb⟩
    | none _ => rw [eb] at hb; exact ⟨ha, hb⟩
    | some w bw => rw [eb] at hb; exact ⟨ha, hb _ (hr _)⟩
  | some v bv =>
    rw [ea] at ha
    cases eb : sup b with
    | panic _ => rw [eb] at hb; exact ⟨ha _ (hr _), hb⟩
    | none _ => rw [eb] at hb; exact ⟨ha _ (hr _), hb⟩
    | some w bw => rw [eb] at hb; exact fun q hq => ⟨ha _ hq.1, hb _ hq.2⟩

theorem left {Q : ρ → ρ → Prop} (hQ : ∀ s, Q s s) (h : SupRespects R R' sup) :
    SupRespects (fun p q : σ × ρ => R p.1 q.1 ∧ Q p.2 q.2) (fun p q : τ × ρ => R' p.1 q.1 ∧ Q p.2 q.2) (left sup) := by
  rintro ⟨a, b⟩
  have ha := h a
  simp only [Impure.left]
  cases ea : sup a with
  | panic _ => rw [ea] at ha; exact ⟨ha, hQ _⟩
  | none _ => rw [ea] at ha; exact ⟨ha, hQ _⟩
  | some v bv => rw [ea] at ha; exact fun q hq => ⟨ha _ hq.1, hq.2⟩

theorem right {Q : ρ → ρ → Prop} (hQ : ∀ s, Q s s) (h : SupRespects R R' sup) :
    SupRespects (fun p q : ρ × σ => Q p.1 q.1 ∧ R p.2 q.2) (fun p q : ρ × τ => Q p.1 q.1 ∧ R' p.2 q.2) (right sup) := by
  rintro ⟨a, b⟩
  have hb := h b
  simp only [Impure.right]
  cases eb : sup b with
  | panic _ => rw [eb] at hb; exact ⟨hQ _, hb⟩
  | none _ => rw [eb] at hb; exact ⟨hQ _, hb⟩
  | some v bv => rw [eb] at hb; exact fun q hq => ⟨hq.1, hb _ hq.2⟩

end SupRespects

section
variable {R : S.St → S.St → Prop} {R' : S.Sup → S.Sup → Prop} {P : Obs S → Prop}

/-- A relation on two variables. -/
def Pairs (R : σ → σ → Prop) (p q : σ × σ) : Prop := R p.1 q.1 ∧ R p.2 q.2

theorem Respects.sup (h : m.Respects R R') : SupRespects R R' m.superstate := by
  intro s
  have := h.superstate s
  cases e : m.superstate s <;> rw [e] at this <;> exact this

theorem Respects.supSup (h : m.Respects R R') : SupRespects R' R' m.supSuperstate := by
  intro s
  have := h.supSuperstate s
  cases e : m.supSuperstate s <;> rw [e] at this <;> exact this

theorem only_supDepth (h : m.Respects R R') : Only R' P (supDepth m) := by
  refine supDepth.fixpoint_induct m (fun x => Only R' P x) (Only.admissible _ _) ?_
  intro x hx
  refine (Only.climb h.supSup hx).bind h.supTrans fun r => ?_
  cases r <;> exact .pure h.supRefl _

theorem only_depth (h : m.Respects R R') : Only R P (depth m) := by
  refine (Only.climb h.sup (only_supDepth h)).bind h.trans fun r => ?_
  cases r <;> exact .pure h.refl _

theorem only_common (h : m.Respects R R') : Only (Pairs R') P (supCommonAncestorDepth m) := by
  have hr : ∀ p, Pairs R' p p := fun p => ⟨h.supRefl _, h.supRefl _⟩
  have ht : ∀ a b c, Pairs R' a b → Pairs R' b c → Pairs R' a c :=
    fun a b c h1 h2 => ⟨h.supTrans _ _ _ h1.1 h2.1, h.supTrans _ _ _ h1.2 h2.2⟩
  refine supCommonAncestorDepth.fixpoint_induct m (fun x => Only (Pairs R') P x) (Only.admissible _ _) ?_
  intro x hx
  refine (Only.first h.supRefl (only_supDepth h)).bind ht fun ds =>
    (Only.second h.supRefl (only_supDepth h)).bind ht fun dt => ?_
  generalize compare ds dt = c
  cases c with
  | lt =>
    refine (Only.climb (SupRespects.right h.supRefl h.supSup) hx).bind ht fun r => ?_
    cases r <;> exact .pure hr _
  | gt =>
    refine (Only.climb (SupRespects.left h.supRefl h.supSup) hx).bind ht fun r => ?_
    cases r <;> exact .pure hr _
  | eq =>
    refine (Only.self hr).bind ht fun p => ?_
    show Only (Pairs R') P (match supSameState m.base p.1 p.2 with
      | true => _
      | false => _)
    cases supSameState m.base p.1 p.2 with
    | true => exact Only.first h.supRefl (only_supDepth h)
    | false =>
      refine (Only.climb (SupRespects.both h.supRefl h.supRefl h.supSup) hx).bind ht fun r => ?_
      cases r <;> exact .pure hr _

theorem only_transitionPath (h : m.Respects R R') : Only (Pairs R) P (transitionPath m) := by
  have hr : ∀ p, Pairs R p p := fun p => ⟨h.refl _, h.refl _⟩
  have ht : ∀ a b c, Pairs R a b → Pairs R b c → Pairs R a c :=
    fun a b c h1 h2 => ⟨h.trans _ _ _ h1.1 h2.1, h.trans _ _ _ h1.2 h2.2⟩
  refine (Only.self hr).bind ht fun p => ?_
  show Only (Pairs R) P (if sameState m.base p.1 p.2 then _ else _)
  split
  · exact .pure hr _
  · refine (Only.first h.refl (only_depth h)).bind ht fun ds =>
      (Only.second h.refl (only_depth h)).bind ht fun dt => ?_
    refine (Only.climb (SupRespects.both h.refl h.supRefl h.sup) (only_common h)).bind ht fun r => ?_
    cases r with
    | none => exact .pure hr _
    | some c => exact (Only.lift hr _).bind ht fun _ => (Only.lift hr _).bind ht fun _ => .pure hr _

theorem only_supEnter (h : m.Respects R R') : ∀ n, Only R' Obs.Enters (blockingSupEnter m n)
  | 0 => .pure h.supRefl _
  | 1 => .callback h.supEntry fun _ => trivial
  | n + 2 => (Only.climb h.supSup (only_supEnter h (n + 1))).bind h.supTrans fun _ =>
      .callback h.supEntry fun _ => trivial

theorem only_supExit (h : m.Respects R R') : ∀ n, Only R' Obs.Exits (blockingSupExit m n)
  | 0 => .pure h.supRefl _
  | 1 => .callback h.supExit fun _ => trivial
  | n + 2 => Only.bind h.supTrans (.callback h.supExit fun _ => trivial) fun _ =>
      (Only.climb h.supSup (only_supExit h (n + 1))).bind h.supTrans fun _ => .pure h.supRefl _

theorem only_climbEntry (h : m.Respects R R') : ∀ n, Only R' Obs.Enters (awaitableClimbEntry m n)
  | 0 => .callback h.supEntry fun _ => trivial
  | n + 1 => (Only.climb h.supSup (only_climbEntry h n)).bind h.supTrans fun r => by
      cases r with
      | some u => exact .pure h.supRefl _
      | none => exact .callback h.supEntry fun _ => trivial

theorem only_awaitableEnter (h : m.Respects R R') : ∀ n, Only R Obs.Enters (awaitableEnter m n)
  | 0 => .pure h.refl _
  | 1 => .callback h.entry fun _ => trivial
  | n + 2 => (Only.climb h.sup (only_climbEntry h n)).bind h.trans fun _ => only_awaitableEnter h (n + 1)

theorem only_exitLoop (h : m.Respects R R') : ∀ n, Only R' Obs.Exits (awaitableExitLoop m n)
  | 0 => .pure h.supRefl _
  | 1 => .pure h.supRefl _
  | n + 2 => Only.bind h.supTrans (.callback h.supExit fun _ => trivial) fun _ =>
      (Only.climb h.supSup (only_exitLoop h (n + 1))).bind h.supTrans fun _ => .pure h.supRefl _

theorem only_enter (h : m.Respects R R') (mode : Mode) (n : Nat) : Only R Obs.Enters (m.enter mode n) := by
  cases mode with
  | blocking =>
    show Only R Obs.Enters (blockingEnter m n)
    match n with
    | 0 => exact .pure h.refl _
    | 1 => exact .callback h.entry fun _ => trivial
    | n + 2 =>
      exact (Only.climb h.sup (only_supEnter h (n + 1))).bind h.trans fun _ =>
        .callback h.entry fun _ => trivial
  | awaitable => exact only_awaitableEnter h n

theorem only_exit (h : m.Respects R R') (mode : Mode) (n : Nat) : Only R Obs.Exits (m.exit mode n) := by
  cases mode with
  | blocking =>
    show Only R Obs.Exits (blockingExit m n)
    match n with
    | 0 => exact .pure h.refl _
    | 1 => exact .callback h.exit fun _ => trivial
    | n + 2 =>
      exact Only.bind h.trans (.callback h.exit fun _ => trivial) fun _ =>
        (Only.climb h.sup (only_supExit h (n + 1))).bind h.trans fun _ => .pure h.refl _
  | awaitable =>
    show Only R Obs.Exits (awaitableExit m n)
    have hb : Only R Obs.Exits (climb m.superstate (awaitableExitLoop m n) >>= fun _ => Pure.pure ()) :=
      (Only.climb h.sup (only_exitLoop h n)).bind h.trans fun _ => .pure h.refl _
    unfold awaitableExit
    split
    · exact Only.bind h.trans (.callback h.exit fun _ => trivial) fun _ => hb
    · exact hb

theorem only_init (h : m.Respects R R') (mode : Mode) : Only R Obs.Enters (m.init mode) :=
  (only_depth h).bind h.trans fun n => only_enter h mode n

/-! ## Dispatch -/

/-- A hook around a dispatch. -/
def IsHook (ev : S.Ev) (ob : Obs S) : Prop := ob.Dispatches ev ∧ ob.isHandling = false

/-- `x` asks handlers, from the inside out. -/
def Asks (R : σ → σ → Prop) (ev : S.Ev) (x : Eff S σ (Response S.St)) : Prop :=
  ∀ s g o s' g', x s g = some (o, s', g') → ∃ L r, g'.trace = g.trace ++ L ∧ R s s' ∧ (∀ ob ∈ L, ob.Dispatches ev) ∧
    Asked ev (L.filter Obs.isHandling) r ∧ ∀ a, o = .ok a → r = some a ∨ (r = some .super ∧ a = .handled)

/-- `x` asks the superstates, if there are any. -/
def AsksMore (R : σ → σ → Prop) (ev : S.Ev) (x : Eff S σ (Response S.St)) : Prop :=
  ∀ s g o s' g', x s g = some (o, s', g') → ∃ L, g'.trace = g.trace ++ L ∧ R s s' ∧ (∀ ob ∈ L, ob.Dispatches ev) ∧
    ((L.filter Obs.isHandling = [] ∧ ∀ a, o = .ok a → a = .super ∨ a = .handled) ∨
      ∃ r, Asked ev (L.filter Obs.isHandling) r ∧ ∀ a, o = .ok a → r = some a ∨ (r = some .super ∧ a = .handled))

theorem filter_hooks {ev : S.Ev} {L : List (Obs S)} (h : ∀ ob ∈ L, IsHook ev ob) : L.filter Obs.isHandling = [] :=
  List.filter_eq_nil_iff.2 fun ob hob => by simp [(h ob hob).2]

theorem Asks.admissible (R : σ → σ → Prop) (ev : S.Ev) :
    Lean.Order.admissible (fun x : Eff S σ (Response S.St) => Asks R ev x) := by
  have h := Eff.admissible (S := S) (σ := σ) (α := Response S.St)
    (fun s g q => ∃ L r, q.2.2.trace = g.trace ++ L ∧ R s q.2.1 ∧ (∀ ob ∈ L, ob.Dispatches ev) ∧
      Asked ev (L.filter Obs.isHandling) r ∧ ∀ a, q.1 = .ok a → r = some a ∨ (r = some .super ∧ a = .handled))
  have e : (fun x : Eff S σ (Response S.St) => ∀ s g q, x s g = some q →
      ∃ L r, q.2.2.trace = g.trace ++ L ∧ R s q.2.1 ∧ (∀ ob ∈ L, ob.Dispatches ev) ∧
      Asked ev (L.filter Obs.isHandling) r ∧ ∀ a, q.1 = .ok a → r = some a ∨ (r = some .super ∧ a = .handled)) =
      fun x => Asks R ev x := by
    funext x
    apply propext
    exact ⟨fun h s g o s' g' hx => h s g _ hx, fun h s g r hx => h s g r.1 r.2.1 r.2.2 hx⟩
  rw [← e]; exact h

theorem Asks.after {Q : σ → σ → Prop} {ev : S.Ev} (ht : ∀ a b c, Q a b → Q b c → Q a c) {x : Eff S σ Unit}
    {y : Eff S σ (Response S.St)} (hx : Only Q (IsHook ev) x) (hy : Asks Q ev y) : Asks Q ev (x >>= fun _ => y) := by
  intro s g o s' g' h
  rcases Eff.inv_bind h with ⟨a, s1, g1, h1, h2⟩ | ⟨o', h1, -, ho⟩
  · obtain ⟨L1, e1, r1, p1⟩ := hx _ _ _ _ _ h1
    obtain ⟨L2, r, e2, r2, p2, q2, k2⟩ := hy _ _ _ _ _ h2
    refine ⟨L1 ++ L2, r, by rw [e2, e1, List.append_assoc], ht _ _ _ r1 r2, fun ob hob => ?_, ?_, k2⟩
    · rcases List.mem_append.1 hob with hob | hob
      · exact (p1 ob hob).1
      · exact p2 ob hob
    · rw [List.filter_append, filter_hooks p1]; exact q2
  · obtain ⟨L1, e1, r1, p1⟩ := hx _ _ _ _ _ h1
    refine ⟨L1, none, e1, r1, fun ob hob => (p1 ob hob).1, by rw [filter_hooks p1]; exact .nobody, ?_⟩
    rintro a rfl; cases ho

theorem AsksMore.after {Q : σ → σ → Prop} {ev : S.Ev} (ht : ∀ a b c, Q a b → Q b c → Q a c) {x : Eff S σ Unit}
    {y : Eff S σ (Response S.St)} (hx : Only Q (IsHook ev) x) (hy : AsksMore Q ev y) :
    AsksMore Q ev (x >>= fun _ => y) := by
  intro s g o s' g' h
  rcases Eff.inv_bind h with ⟨a, s1, g1, h1, h2⟩ | ⟨o', h1, -, ho⟩
  · obtain ⟨L1, e1, r1, p1⟩ := hx _ _ _ _ _ h1
    obtain ⟨L2, e2, r2, p2, q2⟩ := hy _ _ _ _ _ h2
    refine ⟨L1 ++ L2, by rw [e2, e1, List.append_assoc], ht _ _ _ r1 r2, fun ob hob => ?_, ?_⟩
    · rcases List.mem_append.1 hob with hob | hob
      · exact (p1 ob hob).1
      · exact p2 ob hob
    · rw [List.filter_append, filter_hooks p1]; exact q2
  · obtain ⟨L1, e1, r1, p1⟩ := hx _ _ _ _ _ h1
    refine ⟨L1, e1, r1, fun ob hob => (p1 ob hob).1, .inl ⟨filter_hooks p1, ?_⟩⟩
    rintro a rfl; cases ho

theorem Asks.before {Q : σ → σ → Prop} {ev : S.Ev} (ht : ∀ a b c, Q a b → Q b c → Q a c) {x : Eff S σ Unit}
    {y : Eff S σ (Response S.St)} (hx : Only Q (IsHook ev) x) (hy : Asks Q ev y) :
    Asks Q ev (y >>= fun a => x >>= fun _ => pure a) := by
  intro s g o s' g' h
  rcases Eff.inv_bind h with ⟨a, s1, g1, h1, h2⟩ | ⟨o', h1, -, ho⟩
  · obtain ⟨L1, r, e1, r1, p1, q1, k1⟩ := hy _ _ _ _ _ h1
    rcases Eff.inv_bind h2 with ⟨b, s2, g2, h3, h4⟩ | ⟨o', h3, -, ho⟩
    · obtain ⟨L2, e2, r2, p2⟩ := hx _ _ _ _ _ h3
      obtain ⟨rfl, rfl, rfl⟩ := Eff.inv_pure h4
      refine ⟨L1 ++ L2, r, by rw [e2, e1, List.append_assoc], ht _ _ _ r1 r2, fun ob hob => ?_, ?_, ?_⟩
      · rcases List.mem_append.1 hob with hob | hob
        · exact p1 ob hob
        · exact (p2 ob hob).1
      · rw [List.filter_append, filter_hooks p2, List.append_nil]; exact q1
      · rintro c hc; cases hc; exact k1 a rfl
    · obtain ⟨L2, e2, r2, p2⟩ := hx _ _ _ _ _ h3
      refine ⟨L1 ++ L2, r, by rw [e2, e1, List.append_assoc], ht _ _ _ r1 r2, fun ob hob => ?_, ?_, ?_⟩
      · rcases List.mem_append.1 hob with hob | hob
        · exact p1 ob hob
        · exact (p2 ob hob).1
      · rw [List.filter_append, filter_hooks p2, List.append_nil]; exact q1
      · rintro c rfl; cases ho
  · obtain ⟨L1, r, e1, r1, p1, q1, k1⟩ := hy _ _ _ _ _ h1
    refine ⟨L1, r, e1, r1, p1, q1, ?_⟩
    rintro c rfl; cases ho

theorem AsksMore.climb {Q : σ → σ → Prop} {Q' : τ → τ → Prop} {ev : S.Ev} {sup : σ → Borrowed σ τ}
    (hs : SupRespects Q Q' sup) {x : Eff S τ (Response S.St)} (hx : Asks Q' ev x) {d : Response S.St}
    (hd : d = .super ∨ d = .handled) :
    AsksMore Q ev (climb sup x >>= fun r => match r with
      | some response => pure response
      | none => pure d) := by
  intro s g o s' g' h
  have hs := hs s
  rcases Eff.inv_bind h with ⟨a, s1, g1, h1, h2⟩ | ⟨o', h1, ho', ho⟩
  · unfold Impure.climb at h1
    cases e : sup s with
    | panic s1 => rw [e] at h1; cases h1
    | none s1 =>
      rw [e] at h1 hs
      cases h1
      obtain ⟨rfl, rfl, rfl⟩ := Eff.inv_pure h2
      refine ⟨[], by simp, hs, by simp, .inl ⟨rfl, ?_⟩⟩
      rintro a ha; cases ha; exact hd
    | some v back =>
      rw [e] at h1 hs
      simp only at h1 hs
      cases hr : x v g with
      | none => simp [hr] at h1
      | some q =>
        obtain ⟨o1, v1, g2⟩ := q
        rw [hr] at h1
        obtain ⟨L, r, e1, r1, p1, q1, k1⟩ := hx _ _ _ _ _ hr
        cases o1 with
        | panic => cases h1
        | stopped => cases h1
        | ok b =>
          cases h1
          obtain ⟨rfl, rfl, rfl⟩ := Eff.inv_pure h2
          refine ⟨L, e1, hs _ r1, p1, .inr ⟨r, q1, ?_⟩⟩
          rintro a ha; cases ha; exact k1 b rfl
  · unfold Impure.climb at h1
    cases e : sup s with
    | none s1 => rw [e] at h1; cases h1; cases ho'
    | panic s1 =>
      rw [e] at h1 hs
      cases h1
      refine ⟨[], by simp, hs, by simp, .inl ⟨rfl, ?_⟩⟩
      rintro a rfl; cases ho
    | some v back =>
      rw [e] at h1 hs
      simp only at h1 hs
      cases hr : x v g with
      | none => simp [hr] at h1
      | some q =>
        obtain ⟨o1, v1, g2⟩ := q
        rw [hr] at h1
        obtain ⟨L, r, e1, r1, p1, q1, k1⟩ := hx _ _ _ _ _ hr
        cases h1
        refine ⟨L, e1, hs _ r1, p1, .inr ⟨r, q1, ?_⟩⟩
        rintro a rfl; cases ho

/-- A handler is asked, then what its response calls for. -/
theorem Asks.handler {Q : σ → σ → Prop} {ev : S.Ev} (ht : ∀ a b c, Q a b → Q b c → Q a c)
    {n : σ → StateOrSuperstate S.St S.Sup} {f : σ → S.M → S.Ctx → Fut S.In (σ × S.M × S.Ctx) (Response S.St)}
    (hf : ∀ s sh c, (f s sh c).All fun w => Q s w.1) {k : Response S.St → Eff S σ (Response S.St)}
    (hk : ∀ r, r ≠ .super → ∃ x : Eff S σ Unit, Only Q (IsHook ev) x ∧ k r = x >>= fun _ => pure r)
    (hsup : AsksMore Q ev (k .super)) :
    Asks Q ev ((Eff.callback (fun s => .handler (n s) ev) f >>= fun r =>
      Eff.log (fun s => .returned (n s) r) >>= fun _ => pure r) >>= k) := by
  intro s g o s' g' h
  have key : ∀ {o1 s1 g1}, Eff.callback (fun s => .handler (n s) ev) f s g = some (o1, s1, g1) →
      Q s s1 ∧ g1.trace = g.trace ++ [.handler (n s) ev] := by
    intro o1 s1 g1 h1
    unfold Eff.callback at h1
    split at h1
    rename_i hr
    cases h1
    have := Fut.run_all (hf s g.sh g.ctx) g.sched
    rw [hr] at this
    exact ⟨this, rfl⟩
  rcases Eff.inv_bind h with ⟨r, s1, g1, h1, h2⟩ | ⟨o', h1, ho', ho⟩
  · obtain ⟨r', s2, g2, h3, h4⟩ := Eff.inv_bind_ok h1
    obtain ⟨u, s3, g3, h5, h6⟩ := Eff.inv_bind_ok h4
    obtain ⟨hr, rfl, rfl⟩ := Eff.inv_pure h6
    cases hr
    obtain ⟨q2, e2⟩ := key h3
    cases h5
    have e3 : g2.trace ++ [.returned (n s1) r] = g.trace ++ [.handler (n s) ev, .returned (n s1) r] := by
      rw [e2, List.append_assoc]; rfl
    by_cases hr : r = .super
    · subst hr
      obtain ⟨L, e4, r4, p4, q4⟩ := hsup _ _ _ _ _ h2
      have e5 : g'.trace = g.trace ++ (.handler (n s) ev :: .returned (n s1) .super :: L) := by
        rw [e4]; show (g2.trace ++ [_]) ++ L = _; rw [e3]; simp
      have p5 : ∀ ob ∈ Obs.handler (n s) ev :: .returned (n s1) .super :: L, ob.Dispatches ev := by
        intro ob hob
        rcases List.mem_cons.1 hob with rfl | hob
        · exact rfl
        rcases List.mem_cons.1 hob with rfl | hob
        · exact trivial
        exact p4 ob hob
      have e6 : (Obs.handler (n s) ev :: .returned (n s1) .super :: L).filter Obs.isHandling =
          .handler (n s) ev :: .returned (n s1) .super :: L.filter Obs.isHandling := rfl
      rcases q4 with ⟨q4, k4⟩ | ⟨r, q4, k4⟩
      · refine ⟨_, some .super, e5, ht _ _ _ q2 r4, p5, by rw [e6, q4]; exact .answered, ?_⟩
        intro a ha
        rcases k4 a ha with rfl | rfl
        · exact .inl rfl
        · exact .inr ⟨rfl, rfl⟩
      · exact ⟨_, r, e5, ht _ _ _ q2 r4, p5, by rw [e6]; exact .deferred q4, k4⟩
    · obtain ⟨x, hx, hkr⟩ := hk r hr
      rw [hkr] at h2
      have hfin : ∀ {L : List (Obs S)} {s4} {g4 : Glob S} {o4 : Out (Response S.St)},
          g4.trace = (g2.trace ++ [.returned (n s1) r]) ++ L → Q s1 s4 → (∀ ob ∈ L, IsHook ev ob) →
          (∀ a, o4 = .ok a → a = r) → ∃ L r, g4.trace = g.trace ++ L ∧ Q s s4 ∧ (∀ ob ∈ L, ob.Dispatches ev) ∧
            Asked ev (L.filter Obs.isHandling) r ∧ ∀ a, o4 = .ok a → r = some a ∨ (r = some .super ∧ a = .handled) := by
        intro L s4 g4 o4 e4 r4 p4 k4
        refine ⟨.handler (n s) ev :: .returned (n s1) r :: L, some r, ?_, ht _ _ _ q2 r4, ?_, ?_, ?_⟩
        · rw [e4, e3]; simp
        · intro ob hob
          rcases List.mem_cons.1 hob with rfl | hob
          · exact rfl
          rcases List.mem_cons.1 hob with rfl | hob
          · exact trivial
          exact (p4 ob hob).1
        · have e6 : (Obs.handler (n s) ev :: .returned (n s1) r :: L).filter Obs.isHandling =
              .handler (n s) ev :: .returned (n s1) r :: L.filter Obs.isHandling := rfl
          rw [e6, filter_hooks p4]; exact .answered
        · intro a ha; rw [k4 a ha]; exact .inl rfl
      rcases Eff.inv_bind h2 with ⟨u, s4, g4, h7, h8⟩ | ⟨o', h7, -, ho⟩
      · obtain ⟨L, e4, r4, p4⟩ := hx _ _ _ _ _ h7
        obtain ⟨rfl, rfl, rfl⟩ := Eff.inv_pure h8
        exact hfin e4 r4 p4 fun a ha => by cases ha; rfl
      · obtain ⟨L, e4, r4, p4⟩ := hx _ _ _ _ _ h7
        exact hfin e4 r4 p4 fun a ha => by subst ha; cases ho
  · rcases Eff.inv_bind h1 with ⟨a, s1, g1, h3, h4⟩ | ⟨o'', h3, -, -⟩
    · rcases Eff.inv_bind h4 with ⟨u, s3, g3, h5, h6⟩ | ⟨o'', h5, ho'', -⟩
      · obtain ⟨rfl, -, -⟩ := Eff.inv_pure h6; cases ho'
      · cases h5; cases ho''
    · obtain ⟨q2, e2⟩ := key h3
      refine ⟨_, none, e2, q2, fun ob hob => ?_, ?_, ?_⟩
      · rw [List.mem_singleton.1 hob]; exact rfl
      · exact .cut
      · rintro a rfl; cases ho

theorem only_hook_before {Q : σ → σ → Prop} (hr : ∀ s, Q s s) (ev : S.Ev) (n : σ → StateOrSuperstate S.St S.Sup)
    (f : σ → S.M → Fut S.In S.M Unit) : Only Q (IsHook ev) (Eff.hook (fun s => .beforeDispatch (n s) ev) f) :=
  .hook hr (fun _ => ⟨rfl, rfl⟩) f

theorem only_hook_after {Q : σ → σ → Prop} (hr : ∀ s, Q s s) (ev : S.Ev) (n : σ → StateOrSuperstate S.St S.Sup)
    (f : σ → S.M → Fut S.In S.M Unit) : Only Q (IsHook ev) (Eff.hook (fun s => .afterDispatch (n s) ev) f) :=
  .hook hr (fun _ => ⟨rfl, rfl⟩) f

theorem asks_supHandle (h : m.Respects R R') (ev : S.Ev) : Asks R' ev (blockingSupHandle m ev) := by
  refine blockingSupHandle.fixpoint_induct m ev (fun x => Asks R' ev x) (Asks.admissible _ _) ?_
  intro x hx
  refine Asks.handler (n := .superstate) h.supTrans (fun s sh c => h.supHandler s sh ev c) ?_ ?_
  · intro r hr
    refine ⟨pure (), .pure h.supRefl _, ?_⟩
    cases r with
    | super => exact absurd rfl hr
    | handled => rfl
    | transition t => rfl
  · exact AsksMore.climb h.supSup (Asks.after h.supTrans (only_hook_before h.supRefl ev .superstate _)
      (Asks.before h.supTrans (only_hook_after h.supRefl ev .superstate _) hx)) (.inl rfl)

theorem asks_loop (h : m.Respects R R') (ev : S.Ev) : Asks R' ev (awaitableHandleLoop m ev) := by
  refine awaitableHandleLoop.fixpoint_induct m ev (fun x => Asks R' ev x) (Asks.admissible _ _) ?_
  intro x hx
  refine Asks.after h.supTrans (only_hook_before h.supRefl ev .superstate _) ?_
  refine Asks.handler (n := .superstate) h.supTrans (fun s sh c => h.supHandler s sh ev c) ?_ ?_
  · intro r hr
    refine ⟨hookSupAfterDispatch m.base ev, only_hook_after h.supRefl ev .superstate _, ?_⟩
    cases r with
    | super => exact absurd rfl hr
    | handled => rfl
    | transition t => rfl
  · exact AsksMore.after h.supTrans (only_hook_after h.supRefl ev .superstate _) (AsksMore.climb h.supSup hx (.inr rfl))

theorem asks_handle (h : m.Respects R R') (mode : Mode) (ev : S.Ev) : Asks R ev (m.handle mode ev) := by
  cases mode with
  | blocking =>
    refine Asks.after h.trans (only_hook_before h.refl ev .state _) ?_
    refine Asks.handler (n := .state) h.trans (fun s sh c => h.handler s sh ev c) ?_ ?_
    · intro r hr
      refine ⟨hookAfterDispatch m.base ev, only_hook_after h.refl ev .state _, ?_⟩
      cases r with
      | super => exact absurd rfl hr
      | handled => rfl
      | transition t => rfl
    · exact AsksMore.after h.trans (only_hook_after h.refl ev .state _) (AsksMore.climb h.sup
        (Asks.after h.supTrans (only_hook_before h.supRefl ev .superstate _)
          (Asks.before h.supTrans (only_hook_after h.supRefl ev .superstate _) (asks_supHandle h ev))) (.inl rfl))
  | awaitable =>
    refine Asks.after h.trans (only_hook_before h.refl ev .state _) ?_
    refine Asks.handler (n := .state) h.trans (fun s sh c => h.handler s sh ev c) ?_ ?_
    · intro r hr
      refine ⟨hookAfterDispatch m.base ev, only_hook_after h.refl ev .state _, ?_⟩
      cases r with
      | super => exact absurd rfl hr
      | handled => rfl
      | transition t => rfl
    · exact AsksMore.after h.trans (only_hook_after h.refl ev .state _)
        (AsksMore.climb h.sup (asks_loop h ev) (.inl rfl))

/-- What a transition to `t` may do. -/
theorem conduct_transition (h : m.Respects R R') (mode : Mode) {t s s' : S.St} {g g' : Glob S} {o : Out Unit}
    (hx : m.transition mode t s g = some (o, s', g')) :
    ∃ X, (∀ ob ∈ X, ob.Exits) ∧
      ((g'.trace = g.trace ++ announcement mode s t :: X ∧ o.isOk = false ∧ R s s') ∨
        ∃ N, (∀ ob ∈ N, ob.Enters) ∧ R t s' ∧
          ((g'.trace = g.trace ++ announcement mode s t :: (X ++ N) ∧ o.isOk = false) ∨
            ∃ old, R s old ∧ g'.trace = g.trace ++ announcement mode s t :: (X ++ N ++ [.afterTransition old s']))) := by
  have key : ∀ (g0 : Glob S), (withLocal t (transitionPath m) >>= fun x => match x with
      | ((exitLevels, enterLevels), target) => do
        m.exit mode exitLevels
        let old ← Eff.swap target
        m.enter mode enterLevels
        let new ← Eff.self
        hookAfterTransition m.base old new : Eff S S.St Unit) s g0 = some (o, s', g') →
      ∃ X, (∀ ob ∈ X, ob.Exits) ∧
      ((g'.trace = g0.trace ++ X ∧ o.isOk = false ∧ R s s') ∨
        ∃ N, (∀ ob ∈ N, ob.Enters) ∧ R t s' ∧
          ((g'.trace = g0.trace ++ (X ++ N) ∧ o.isOk = false) ∨
            ∃ old, R s old ∧ g'.trace = g0.trace ++ (X ++ N ++ [.afterTransition old s']))) := by
    intro g0 hx
    have local_inv : ∀ {o1 s1 g1}, withLocal t (transitionPath m) s g0 = some (o1, s1, g1) →
        g1.trace = g0.trace ∧ R s s1 ∧ ∀ p, o1 = .ok p → R t p.2 := by
      intro o1 s1 g1 h1
      unfold withLocal at h1
      cases e : transitionPath m (s, t) g0 with
      | none => rw [e] at h1; cases h1
      | some q =>
        obtain ⟨o2, p2, g2⟩ := q
        rw [e] at h1
        cases h1
        obtain ⟨L, e1, r1, p1⟩ := only_transitionPath (P := fun _ => False) h _ _ _ _ _ e
        have : L = [] := by
          cases L with
          | nil => rfl
          | cons a l => exact (p1 a List.mem_cons_self).elim
        subst this
        refine ⟨by simpa using e1, r1.1, fun p hp => ?_⟩
        cases o2 with
        | ok a => cases hp; exact r1.2
        | panic => cases hp
        | stopped => cases hp
    rcases Eff.inv_bind hx with ⟨⟨⟨x, n⟩, t'⟩, s1, g1, h1, h2⟩ | ⟨o', h1, -, ho⟩
    · obtain ⟨e1, r1, rt⟩ := local_inv h1
      have rt : R t t' := rt _ rfl
      rcases Eff.inv_bind h2 with ⟨u, s2, g2, h3, h4⟩ | ⟨o', h3, -, ho⟩
      · obtain ⟨X, e2, r2, p2⟩ := only_exit h mode x _ _ _ _ _ h3
        rcases Eff.inv_bind h4 with ⟨old, s3, g3, h5, h6⟩ | ⟨o', h5, ho', -⟩
        · cases h5
          rcases Eff.inv_bind h6 with ⟨u, s4, g4, h7, h8⟩ | ⟨o', h7, -, ho⟩
          · obtain ⟨N, e3, r3, p3⟩ := only_enter h mode n _ _ _ _ _ h7
            rcases Eff.inv_bind h8 with ⟨new, s5, g5, h9, h10⟩ | ⟨o', h9, ho', -⟩
            · cases h9
              unfold hookAfterTransition Eff.hook at h10
              cases h10
              refine ⟨X, p2, .inr ⟨N, p3, h.trans _ _ _ rt r3, .inr ⟨s2, h.trans _ _ _ r1 r2, ?_⟩⟩⟩
              show g4.trace ++ [_] = _
              rw [e3, e2, e1]; simp
            · cases h9; cases ho'
          · obtain ⟨N, e3, r3, p3⟩ := only_enter h mode n _ _ _ _ _ h7
            exact ⟨X, p2, .inr ⟨N, p3, h.trans _ _ _ rt r3, .inl ⟨by rw [e3, e2, e1]; simp, ho⟩⟩⟩
        · cases h5; cases ho'
      · obtain ⟨X, e2, r2, p2⟩ := only_exit h mode x _ _ _ _ _ h3
        exact ⟨X, p2, .inl ⟨by rw [e2, e1], ho, h.trans _ _ _ r1 r2⟩⟩
    · obtain ⟨e1, r1, -⟩ := local_inv h1
      exact ⟨[], by simp, .inl ⟨by rw [e1]; simp, ho, r1⟩⟩
  have hook_inv : ∀ {a b : S.St} {o1 s1 g1}, hookBeforeTransition m.base a b s g = some (o1, s1, g1) →
      s1 = s ∧ g1.trace = g.trace ++ [.beforeTransition a b] := by
    intro a b o1 s1 g1 h1
    unfold hookBeforeTransition Eff.hook at h1
    cases h1; exact ⟨rfl, rfl⟩
  have fin : ∀ {a b : S.St}, (hookBeforeTransition m.base a b >>= fun _ =>
      withLocal t (transitionPath m) >>= fun x => match x with
      | ((exitLevels, enterLevels), target) => do
        m.exit mode exitLevels
        let old ← Eff.swap target
        m.enter mode enterLevels
        let new ← Eff.self
        hookAfterTransition m.base old new : Eff S S.St Unit) s g = some (o, s', g') →
      ∃ X, (∀ ob ∈ X, ob.Exits) ∧
      ((g'.trace = g.trace ++ .beforeTransition a b :: X ∧ o.isOk = false ∧ R s s') ∨
        ∃ N, (∀ ob ∈ N, ob.Enters) ∧ R t s' ∧
          ((g'.trace = g.trace ++ .beforeTransition a b :: (X ++ N) ∧ o.isOk = false) ∨
            ∃ old, R s old ∧ g'.trace = g.trace ++ .beforeTransition a b :: (X ++ N ++ [.afterTransition old s']))) := by
    intro a b hx
    rcases Eff.inv_bind hx with ⟨u, s1, g1, h1, h2⟩ | ⟨o', h1, -, ho⟩
    · obtain ⟨rfl, e1⟩ := hook_inv h1
      obtain ⟨X, hX, hc⟩ := key g1 h2
      refine ⟨X, hX, ?_⟩
      rw [e1] at hc
      simpa using hc
    · obtain ⟨rfl, e1⟩ := hook_inv h1
      exact ⟨[], by simp, .inl ⟨e1, ho, h.refl _⟩⟩
  cases mode with
  | blocking => exact fin hx
  | awaitable => exact fin hx

theorem conduct_handleEvent (h : m.Respects R R') (mode : Mode) (ev : S.Ev) {s s' : S.St} {g g' : Glob S}
    {o : Out Unit} (hg : g.trace = []) (hx : m.handleEvent mode ev s g = some (o, s', g')) :
    Conduct mode R ev s g'.trace o s' := by
  rcases Eff.inv_bind hx with ⟨a, s1, g1, h1, h2⟩ | ⟨o', h1, ho', ho⟩
  · obtain ⟨D, r, e1, r1, p1, q1, k1⟩ := asks_handle h mode ev _ _ _ _ _ h1
    rw [hg, List.nil_append] at e1
    have k1 := k1 a rfl
    cases a with
    | super =>
      obtain ⟨rfl, rfl, rfl⟩ := Eff.inv_pure h2
      rw [e1]
      refine .dispatched p1 q1 (fun t ht => ?_) r1
      rcases k1 with k1 | ⟨k1, -⟩ <;> rw [k1] at ht <;> cases ht
    | handled =>
      obtain ⟨rfl, rfl, rfl⟩ := Eff.inv_pure h2
      rw [e1]
      refine .dispatched p1 q1 (fun t ht => ?_) r1
      rcases k1 with k1 | ⟨k1, -⟩ <;> rw [k1] at ht <;> cases ht
    | transition t =>
      have k1 : r = some (.transition t) := by
        rcases k1 with k1 | ⟨-, k1⟩
        · exact k1
        · cases k1
      subst k1
      obtain ⟨X, hX, hc⟩ := conduct_transition h mode h2
      have hne : o.isOk = false → o ≠ .ok () := by rintro ho rfl; cases ho
      rcases hc with ⟨e, ho, hr⟩ | ⟨N, hN, hr, ⟨e, ho⟩ | ⟨old, hold, e⟩⟩
      · rw [e, e1]; exact .left p1 q1 r1 hX (hne ho) (h.trans _ _ _ r1 hr)
      · rw [e, e1]; exact .entering p1 q1 r1 hX hN (hne ho) hr
      · rw [e, e1]; exact .made p1 q1 r1 hX hN (h.trans _ _ _ r1 hold) hr
  · obtain ⟨D, r, e1, r1, p1, q1, k1⟩ := asks_handle h mode ev _ _ _ _ _ h1
    rw [hg, List.nil_append] at e1
    rw [e1]
    exact .dispatched p1 q1 (fun t _ => by rintro rfl; cases ho) r1

/-! ## Targets -/

/-- Only targets that satisfy `P` are returned. -/
def Proper (P : S.St → Prop) (ob : Obs S) : Prop := ∀ n t, ob = .returned n (.transition t) → P t

/-- Any change. -/
def Any (_ _ : σ) : Prop := True

theorem proper_handler {P : S.St → Prop} {n : σ → StateOrSuperstate S.St S.Sup} {ev : S.Ev}
    {f : σ → S.M → S.Ctx → Fut S.In (σ × S.M × S.Ctx) (Response S.St)}
    (hf : ∀ s sh c l t w l', (f s sh c).run l = (.ok (.transition t), w, l') → P t) :
    Only Any (Proper P) (Eff.callback (fun s => .handler (n s) ev) f >>= fun r =>
      Eff.log (fun s => .returned (n s) r) >>= fun _ => pure r) := by
  intro s g o s' g' h
  rcases Eff.inv_bind h with ⟨r, s1, g1, h1, h2⟩ | ⟨o', h1, -, -⟩
  · obtain ⟨u, s2, g2, h3, h4⟩ : ∃ u s2 g2, Eff.log (fun s => .returned (n s) r) s1 g1 = some (.ok u, s2, g2) ∧
        (pure r : Eff S σ _) s2 g2 = some (o, s', g') := by
      rcases Eff.inv_bind h2 with h | ⟨o', h3, ho', -⟩
      · exact h
      · cases h3; cases ho'
    cases h3
    obtain ⟨rfl, rfl, rfl⟩ := Eff.inv_pure h4
    unfold Eff.callback at h1
    split at h1
    rename_i r' s3 m3 c3 l3 hr
    cases h1
    refine ⟨[.handler (n s) ev, .returned (n s') r], by simp, trivial, fun ob hob => ?_⟩
    rcases List.mem_cons.1 hob with rfl | hob
    · intro _ _ h; cases h
    · rw [List.mem_singleton.1 hob]
      intro n' t h
      cases h
      exact hf _ _ _ _ _ _ _ hr
  · unfold Eff.callback at h1
    cases h1
    refine ⟨_, rfl, trivial, fun ob hob => ?_⟩
    rw [List.mem_singleton.1 hob]
    intro _ _ h; cases h

theorem proper_hook {P : S.St → Prop} {ob : σ → Obs S} (h : ∀ s n r, ob s ≠ .returned n r)
    (f : σ → S.M → Fut S.In S.M Unit) : Only Any (Proper P) (Eff.hook ob f) :=
  .hook (fun _ => trivial) (fun s n t e => absurd e (h s n _)) f

theorem any_climb {sup : σ → Borrowed σ τ} {P : Obs S → Prop} {x : Eff S τ α} (h : Only Any P x) :
    Only Any P (climb sup x) :=
  Only.climb (R' := Any) (fun s => by cases sup s <;> simp [Any]) h

theorem any_bind {P : Obs S → Prop} {x : Eff S σ α} {f : α → Eff S σ β} (hx : Only Any P x)
    (hf : ∀ a, Only Any P (f a)) : Only Any P (x >>= f) := hx.bind (fun _ _ _ _ _ => trivial) hf

theorem any_pure {P : Obs S → Prop} (a : α) : Only Any P (pure a : Eff S σ α) := .pure (fun _ => trivial) a

theorem proper_supHandle {P : S.St → Prop} (h : Targets m P) (ev : S.Ev) :
    Only Any (Proper P) (blockingSupHandle m ev) := by
  refine blockingSupHandle.fixpoint_induct m ev (fun x => Only Any (Proper P) x) (Only.admissible _ _) ?_
  intro x hx
  refine any_bind (proper_handler (n := .superstate) fun s sh c => h.supHandler s sh ev c) fun r => ?_
  cases r with
  | handled => exact any_pure _
  | transition t => exact any_pure _
  | super =>
    refine any_bind (any_climb (any_bind (proper_hook (fun _ _ _ h => by cases h) _) fun _ =>
      any_bind hx fun _ => any_bind (proper_hook (fun _ _ _ h => by cases h) _) fun _ => any_pure _)) fun r => ?_
    cases r <;> exact any_pure _

theorem proper_loop {P : S.St → Prop} (h : Targets m P) (ev : S.Ev) :
    Only Any (Proper P) (awaitableHandleLoop m ev) := by
  refine awaitableHandleLoop.fixpoint_induct m ev (fun x => Only Any (Proper P) x) (Only.admissible _ _) ?_
  intro x hx
  refine any_bind (proper_hook (fun _ _ _ h => by cases h) _) fun _ =>
    any_bind (proper_handler (n := .superstate) fun s sh c => h.supHandler s sh ev c) fun r =>
    any_bind (proper_hook (fun _ _ _ h => by cases h) _) fun _ => ?_
  cases r with
  | handled => exact any_pure _
  | transition t => exact any_pure _
  | super =>
    refine any_bind (any_climb hx) fun r => ?_
    cases r <;> exact any_pure _

theorem proper_handle {P : S.St → Prop} (h : Targets m P) (mode : Mode) (ev : S.Ev) :
    Only Any (Proper P) (m.handle mode ev) := by
  cases mode with
  | blocking =>
    refine any_bind (proper_hook (fun _ _ _ h => by cases h) _) fun _ =>
      any_bind (proper_handler (n := .state) fun s sh c => h.handler s sh ev c) fun r =>
      any_bind (proper_hook (fun _ _ _ h => by cases h) _) fun _ => ?_
    cases r with
    | handled => exact any_pure _
    | transition t => exact any_pure _
    | super =>
      refine any_bind (any_climb (any_bind (proper_hook (fun _ _ _ h => by cases h) _) fun _ =>
        any_bind (proper_supHandle h ev) fun _ =>
          any_bind (proper_hook (fun _ _ _ h => by cases h) _) fun _ => any_pure _)) fun r => ?_
      cases r <;> exact any_pure _
  | awaitable =>
    refine any_bind (proper_hook (fun _ _ _ h => by cases h) _) fun _ =>
      any_bind (proper_handler (n := .state) fun s sh c => h.handler s sh ev c) fun r =>
      any_bind (proper_hook (fun _ _ _ h => by cases h) _) fun _ => ?_
    cases r with
    | handled => exact any_pure _
    | transition t => exact any_pure _
    | super =>
      refine any_bind (any_climb (proper_loop h ev)) fun r => ?_
      cases r <;> exact any_pure _

theorem fut_all_any {In W : Type} : ∀ (f : Fut In W α), f.All fun _ => True
  | .done _ _ => .done trivial
  | .panic _ => .panic trivial
  | .pending _ k => .pending trivial fun i => fut_all_any (k i)

theorem respects_any (m : Impure S) : m.Respects Any Any where
  refl _ := trivial
  trans _ _ _ _ _ := trivial
  supRefl _ := trivial
  supTrans _ _ _ _ _ := trivial
  handler _ _ _ _ := fut_all_any _
  entry _ _ _ := fut_all_any _
  exit _ _ _ := fut_all_any _
  supHandler _ _ _ _ := fut_all_any _
  supEntry _ _ _ := fut_all_any _
  supExit _ _ _ := fut_all_any _
  superstate s := by cases m.superstate s <;> simp [Any]
  supSuperstate s := by cases m.supSuperstate s <;> simp [Any]

theorem proper_handleEvent {P : S.St → Prop} (h : Targets m P) (mode : Mode) (ev : S.Ev) {s s' : S.St}
    {g g' : Glob S} {o : Out Unit} (hx : m.handleEvent mode ev s g = some (o, s', g')) :
    ∃ L, g'.trace = g.trace ++ L ∧ ∀ ob ∈ L, Proper P ob := by
  rcases Eff.inv_bind hx with ⟨a, s1, g1, h1, h2⟩ | ⟨o', h1, -, -⟩
  · obtain ⟨L1, e1, -, p1⟩ := proper_handle h mode ev _ _ _ _ _ h1
    cases a with
    | super => obtain ⟨-, -, rfl⟩ := Eff.inv_pure h2; exact ⟨L1, e1, p1⟩
    | handled => obtain ⟨-, -, rfl⟩ := Eff.inv_pure h2; exact ⟨L1, e1, p1⟩
    | transition t =>
      obtain ⟨X, hX, hc⟩ := conduct_transition (respects_any m) mode h2
      have pX : ∀ ob ∈ X, Proper P ob := fun ob hob n t e => by have := hX ob hob; rw [e] at this; exact this.elim
      have pa : Proper P (announcement mode s1 t : Obs S) := fun n t e => by cases mode <;> cases e
      rcases hc with ⟨e, -⟩ | ⟨N, hN, -, ⟨e, -⟩ | ⟨old, -, e⟩⟩
      · refine ⟨L1 ++ announcement mode s1 t :: X, by rw [e, e1, List.append_assoc], fun ob hob => ?_⟩
        simp only [List.mem_append, List.mem_cons] at hob
        rcases hob with hob | rfl | hob
        · exact p1 ob hob
        · exact pa
        · exact pX ob hob
      · have pN : ∀ ob ∈ N, Proper P ob := fun ob hob n t e => by have := hN ob hob; rw [e] at this; exact this.elim
        refine ⟨L1 ++ announcement mode s1 t :: (X ++ N), by rw [e, e1, List.append_assoc], fun ob hob => ?_⟩
        simp only [List.mem_append, List.mem_cons] at hob
        rcases hob with hob | rfl | hob | hob
        · exact p1 ob hob
        · exact pa
        · exact pX ob hob
        · exact pN ob hob
      · have pN : ∀ ob ∈ N, Proper P ob := fun ob hob n t e => by have := hN ob hob; rw [e] at this; exact this.elim
        refine ⟨L1 ++ announcement mode s1 t :: (X ++ N ++ [.afterTransition old s']),
          by rw [e, e1, List.append_assoc], fun ob hob => ?_⟩
        simp only [List.mem_append, List.mem_cons, List.not_mem_nil, or_false] at hob
        rcases hob with hob | rfl | (hob | hob) | rfl
        · exact p1 ob hob
        · exact pa
        · exact pX ob hob
        · exact pN ob hob
        · intro _ _ e; cases e
  · obtain ⟨L1, e1, -, p1⟩ := proper_handle h mode ev _ _ _ _ _ h1
    exact ⟨L1, e1, p1⟩

/-- An answer was given by somebody. -/
theorem Asked.mem {ev : S.Ev} {l : List (Obs S)} {r : Option (Response S.St)} (h : Asked ev l r) {a} (ha : r = some a) :
    ∃ n, .returned n a ∈ l := by
  induction h with
  | nobody => cases ha
  | cut => cases ha
  | @answered n n' r => cases ha; exact ⟨n', by simp⟩
  | deferred _ ih => obtain ⟨n, hn⟩ := ih ha; exact ⟨n, by simp [hn]⟩

end
end Impure
end Statig
