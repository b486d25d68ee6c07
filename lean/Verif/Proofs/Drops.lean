import Verif.Spec.Drops
import Verif.Proofs.Values
/-! # State values are neither lost nor duplicated -/
namespace Statig
variable {S : Sig} {σ τ κ α β : Type}

/-! ## What is logged -/

/-- Only observations that satisfy `P` are added to the log, and one is when `x` does not return. -/
def Adds (P : Obs S → Prop) (x : Eff S σ α) : Prop :=
  ∀ s g o s' g', x s g = some (o, s', g') →
    ∃ L, g'.trace = g.trace ++ L ∧ (∀ ob ∈ L, P ob) ∧ (o.isOk = false → L ≠ [])

namespace Adds
variable {P : Obs S → Prop}

theorem pure (a : α) : Adds P (Pure.pure a : Eff S σ α) := by
  rintro s g o s' g' h; cases h; exact ⟨[], by simp [Out.isOk]⟩

theorem bind {x : Eff S σ α} {f : α → Eff S σ β} (hx : Adds P x) (hf : ∀ a, Adds P (f a)) : Adds P (x >>= f) := by
  intro s g o s' g' h
  rcases Eff.inv_bind h with ⟨a, s1, g1, h1, h2⟩ | ⟨o', h1, ho', -⟩
  · obtain ⟨L1, e1, p1, -⟩ := hx _ _ _ _ _ h1
    obtain ⟨L2, e2, p2, n2⟩ := hf a _ _ _ _ _ h2
    refine ⟨L1 ++ L2, by rw [e2, e1, List.append_assoc], fun ob hob => ?_, fun ho e => n2 ho (List.append_eq_nil_iff.1 e).2⟩
    rcases List.mem_append.1 hob with hob | hob
    · exact p1 ob hob
    · exact p2 ob hob
  · obtain ⟨L1, e1, p1, n1⟩ := hx _ _ _ _ _ h1
    exact ⟨L1, e1, p1, fun _ => n1 ho'⟩

theorem borrow {sup : σ → Option (τ × (τ → σ))} {x : Eff S τ α} (hx : Adds P x) : Adds P (Eff.borrow sup x) := by
  intro s g o s' g' h
  unfold Eff.borrow at h
  cases hs : sup s with
  | none => rw [hs] at h; cases h; exact ⟨[], by simp [Out.isOk]⟩
  | some p =>
    rw [hs] at h
    simp only at h
    cases hr : x p.1 g with
    | none => simp [hr] at h
    | some r =>
      rw [hr] at h
      cases h
      obtain ⟨L1, e1, p1, n1⟩ := hx _ _ _ _ _ hr
      refine ⟨L1, e1, p1, fun ho => n1 ?_⟩
      revert ho; cases r.1 <;> simp [Out.isOk, Out.map]

theorem callback {ob : σ → Obs S} (hP : ∀ s, P (ob s)) (f : σ → S.M → S.Ctx → Fut S.In (σ × S.M × S.Ctx) α) :
    Adds P (Eff.callback ob f) := by
  intro s g o s' g' h
  unfold Eff.callback at h
  cases h
  exact ⟨[ob s], rfl, by simpa using hP s, by simp⟩

theorem hook {ob : σ → Obs S} (hP : ∀ s, P (ob s)) (f : σ → S.M → Fut S.In S.M Unit) : Adds P (Eff.hook ob f) := by
  intro s g o s' g' h
  unfold Eff.hook at h
  cases h
  exact ⟨[ob s], rfl, by simpa using hP s, by simp⟩

theorem log {ob : σ → Obs S} (hP : ∀ s, P (ob s)) : Adds P (Eff.log ob) := by
  intro s g o s' g' h
  cases h
  exact ⟨[ob s], rfl, by simpa using hP s, by simp⟩

end Adds

variable {m : Machine S}

/-- The observation is the start of an entry action. -/
def Obs.IsEntry : Obs S → Prop
  | .entry _ => True
  | _ => False

/-- The observation is the start of an exit action. -/
def Obs.IsExit : Obs S → Prop
  | .exit _ => True
  | _ => False

theorem supEnter_adds : ∀ n, Adds Obs.IsEntry (Blocking.supEnter m n)
  | 0 => .pure _
  | 1 => .callback (fun _ => trivial) _
  | n + 2 => (Adds.borrow (supEnter_adds (n + 1))).bind fun _ => .callback (fun _ => trivial) _

theorem enter_adds : ∀ n, Adds Obs.IsEntry (Blocking.enter m n)
  | 0 => .pure _
  | 1 => .callback (fun _ => trivial) _
  | n + 2 => (Adds.borrow (supEnter_adds (n + 1))).bind fun _ => .callback (fun _ => trivial) _

theorem supExit_adds : ∀ n, Adds Obs.IsExit (Blocking.supExit m n)
  | 0 => .pure _
  | 1 => .callback (fun _ => trivial) _
  | n + 2 => Adds.bind (.callback (fun _ => trivial) _) fun _ => (Adds.borrow (supExit_adds (n + 1))).bind fun _ => .pure _

theorem exit_adds : ∀ n, Adds Obs.IsExit (Blocking.exit m n)
  | 0 => .pure _
  | 1 => .callback (fun _ => trivial) _
  | n + 2 => Adds.bind (.callback (fun _ => trivial) _) fun _ => (Adds.borrow (supExit_adds (n + 1))).bind fun _ => .pure _

theorem climbEntry_adds : ∀ n, Adds Obs.IsEntry (Awaitable.climbEntry m n)
  | 0 => .callback (fun _ => trivial) _
  | n + 1 => (Adds.borrow (climbEntry_adds n)).bind fun r => by
    cases r with
    | some u => exact .pure _
    | none => exact .callback (fun _ => trivial) _

theorem awaitable_enter_adds : ∀ n, Adds Obs.IsEntry (Awaitable.enter m n)
  | 0 => .pure _
  | 1 => .callback (fun _ => trivial) _
  | n + 2 => (Adds.borrow (climbEntry_adds n)).bind fun _ => awaitable_enter_adds (n + 1)

theorem exitLoop_adds : ∀ n, Adds Obs.IsExit (Awaitable.exitLoop m n)
  | 0 => .pure _
  | 1 => .pure _
  | n + 2 => Adds.bind (.callback (fun _ => trivial) _) fun _ => (Adds.borrow (exitLoop_adds (n + 1))).bind fun _ => .pure _

theorem awaitable_exit_adds (n : Nat) : Adds Obs.IsExit (Awaitable.exit m n) := by
  have hb : Adds Obs.IsExit (Eff.borrow m.superstate (Awaitable.exitLoop m n) >>= fun _ => Pure.pure ()) :=
    (Adds.borrow (exitLoop_adds n)).bind fun _ => .pure _
  unfold Awaitable.exit
  split
  · exact Adds.bind (.callback (fun _ => trivial) _) fun _ => hb
  · exact hb

/-! ## Tags -/

/-- `x` does not change the tag of `self`. -/
def Tagged {T : Type} (tag : σ → T) (x : Eff S σ α) : Prop :=
  ∀ s g o s' g', x s g = some (o, s', g') → tag s' = tag s

namespace Tagged
variable {T : Type} {tag : σ → T}

theorem pure (a : α) : Tagged tag (Pure.pure a : Eff S σ α) := by
  rintro s g o s' g' h; cases h; rfl

theorem bind {x : Eff S σ α} {f : α → Eff S σ β} (hx : Tagged tag x) (hf : ∀ a, Tagged tag (f a)) :
    Tagged tag (x >>= f) := by
  intro s g o s' g' h
  rcases Eff.inv_bind h with ⟨a, s1, g1, h1, h2⟩ | ⟨o', h1, -, -⟩
  · exact (hf a _ _ _ _ _ h2).trans (hx _ _ _ _ _ h1)
  · exact hx _ _ _ _ _ h1

theorem of_keeps {x : Eff S σ α} (h : Keeps x) : Tagged tag x := fun s g o s' g' hx => congrArg tag (h s g o s' g' hx)

theorem callback {ob : σ → Obs S} {f : σ → S.M → S.Ctx → Fut S.In (σ × S.M × S.Ctx) α}
    (hf : ∀ s sh c, (f s sh c).All fun w => tag w.1 = tag s) : Tagged tag (Eff.callback ob f) := by
  intro s g o s' g' h
  unfold Eff.callback at h
  have := Fut.run_all (hf s g.sh g.ctx) g.sched
  cases h
  exact this

theorem borrow {sup : σ → Option (τ × (τ → σ))} (hs : ∀ s v back, sup s = some (v, back) → ∀ v', tag (back v') = tag s)
    (x : Eff S τ α) : Tagged tag (Eff.borrow sup x) := by
  intro s g o s' g' h
  unfold Eff.borrow at h
  cases e : sup s with
  | none => rw [e] at h; cases h; rfl
  | some p =>
    rw [e] at h
    simp only at h
    cases hr : x p.1 g with
    | none => simp [hr] at h
    | some r =>
      rw [hr] at h
      cases h
      exact hs _ _ _ e _

end Tagged

section
variable {T : Type} {tag : S.St → T} (hk : m.KeepsTag tag)
include hk

theorem enter_tagged (n : Nat) : Tagged tag (Blocking.enter m n) :=
  match n with
  | 0 => .pure _
  | 1 => .callback hk.entry
  | n + 2 => (Tagged.borrow hk.superstate _).bind fun _ => .callback hk.entry

theorem exit_tagged (n : Nat) : Tagged tag (Blocking.exit m n) :=
  match n with
  | 0 => .pure _
  | 1 => .callback hk.exit
  | n + 2 => Tagged.bind (.callback hk.exit) fun _ => (Tagged.borrow hk.superstate _).bind fun _ => .pure _

theorem awaitable_enter_tagged : ∀ n, Tagged tag (Awaitable.enter m n)
  | 0 => .pure _
  | 1 => .callback hk.entry
  | n + 2 => (Tagged.borrow hk.superstate _).bind fun _ => awaitable_enter_tagged (n + 1)

theorem awaitable_exit_tagged (n : Nat) : Tagged tag (Awaitable.exit m n) := by
  have hb : Tagged tag (Eff.borrow m.superstate (Awaitable.exitLoop m n) >>= fun _ => Pure.pure ()) :=
    (Tagged.borrow hk.superstate _).bind fun _ => .pure _
  unfold Awaitable.exit
  split
  · exact Tagged.bind (.callback hk.exit) fun _ => hb
  · exact hb

theorem callHandler_tagged (ev : S.Ev) : Tagged tag (callHandler m ev) :=
  Tagged.bind (.callback fun s sh c => hk.handler s sh ev c) fun _ => Tagged.bind (.of_keeps (Keeps.log _)) fun _ => .pure _

theorem handle_tagged (mode : Mode) (ev : S.Ev) : Tagged tag (mode.handle m ev) := by
  cases mode <;> (
    refine Tagged.bind (.of_keeps (Keeps.hook _ _)) fun _ => Tagged.bind (callHandler_tagged hk ev) fun r =>
      Tagged.bind (.of_keeps (Keeps.hook _ _)) fun _ => ?_
    cases r with
    | handled => exact .pure _
    | transition t => exact .pure _
    | super => exact (Tagged.borrow hk.superstate _).bind fun r => by cases r <;> exact .pure _)

end

/-! ## The versions with drops do the same as those without -/

/-- The three ways in which a sequence of two computations can end. -/
theorem Eff.inv_bind3 {x : Eff S σ α} {f : α → Eff S σ β} {s s' g g' o}
    (h : (x >>= f) s g = some (o, s', g')) :
    (∃ a s1 g1, x s g = some (.ok a, s1, g1) ∧ f a s1 g1 = some (o, s', g')) ∨
    (x s g = some (.panic, s', g') ∧ o = .panic) ∨ (x s g = some (.stopped, s', g') ∧ o = .stopped) := by
  have h' : Eff.bind x f s g = some (o, s', g') := h
  unfold Eff.bind at h'
  split at h'
  · cases h'
  · rename_i a s1 g1 hx; exact .inl ⟨a, s1, g1, hx, h'⟩
  · rename_i s1 g1 hx; cases h'; exact .inr (.inl ⟨hx, rfl⟩)
  · rename_i s1 g1 hx; cases h'; exact .inr (.inr ⟨hx, rfl⟩)

theorem Eff.bind_of_ok {x : Eff S σ α} {f : α → Eff S σ β} {s s1 g g1 a} (h : x s g = some (.ok a, s1, g1)) :
    (x >>= f) s g = f a s1 g1 := by
  show Eff.bind x f s g = _
  unfold Eff.bind; rw [h]

theorem Eff.bind_of_panic {x : Eff S σ α} {f : α → Eff S σ β} {s s1 g g1} (h : x s g = some (.panic, s1, g1)) :
    (x >>= f) s g = some (.panic, s1, g1) := by
  show Eff.bind x f s g = _
  unfold Eff.bind; rw [h]

theorem Eff.bind_of_stopped {x : Eff S σ α} {f : α → Eff S σ β} {s s1 g g1} (h : x s g = some (.stopped, s1, g1)) :
    (x >>= f) s g = some (.stopped, s1, g1) := by
  show Eff.bind x f s g = _
  unfold Eff.bind; rw [h]

open Owned

theorem zoom_some {x : Eff S σ α} {s s' : σ} {k : κ} {g g' : Glob S} {o : Out α} (h : x s g = some (o, s', g')) :
    zoom x (s, k) g = some (o, (s', k), g') := by
  unfold zoom; simp only [h]

theorem zoom_inv {x : Eff S σ α} {p q : σ × κ} {g g' : Glob S} {o : Out α} (h : zoom x p g = some (o, q, g')) :
    x p.1 g = some (o, q.1, g') ∧ q.2 = p.2 := by
  unfold zoom at h
  split at h
  · cases h
  · rename_i hx; cases h; exact ⟨hx, rfl⟩

theorem holding_ok {x : Eff S (σ × List (Drop S)) Unit} {p q g g'} (h : x p g = some (.ok (), q, g'))
    (r : Response S.St) : holding r x p g = some (.ok (), q, g') := by
  unfold holding; simp only [h]

theorem holding_panic {x : Eff S (σ × List (Drop S)) Unit} {p q g g'} (h : x p g = some (.panic, q, g'))
    (r : Response S.St) : holding r x p g =
      some (.panic, (q.1, q.2 ++ (target? r).toList.map (Drop.mk g'.trace.length)), g') := by
  unfold holding; simp only [h]

theorem holding_stopped {x : Eff S (σ × List (Drop S)) Unit} {p q g g'} (h : x p g = some (.stopped, q, g'))
    (r : Response S.St) : holding r x p g =
      some (.stopped, (q.1, q.2 ++ (target? r).toList.map (Drop.mk g'.trace.length)), g') := by
  unfold holding; simp only [h]

/-- A call of the version with drops is a call of the version without. -/
def Down (x : Eff S σ α) (y : Eff S (σ × κ) α) : Prop :=
  ∀ p g o q g', y p g = some (o, q, g') → x p.1 g = some (o, q.1, g')

namespace Down

theorem zoom (x : Eff S σ α) : Down x (zoom x : Eff S (σ × κ) α) := fun _ _ _ _ _ h => (zoom_inv h).1

theorem pure (a : α) : Down (Pure.pure a : Eff S σ α) (Pure.pure a : Eff S (σ × κ) α) := by
  intro p g o q g' h; cases h; rfl

theorem bind {x : Eff S σ α} {y : Eff S (σ × κ) α} {f : α → Eff S σ β} {f' : α → Eff S (σ × κ) β} (hx : Down x y)
    (hf : ∀ a, Down (f a) (f' a)) : Down (x >>= f) (y >>= f') := by
  intro p g o q g' h
  rcases Eff.inv_bind3 h with ⟨a, q1, g1, h1, h2⟩ | ⟨h1, rfl⟩ | ⟨h1, rfl⟩
  · rw [Eff.bind_of_ok (hx _ _ _ _ _ h1)]; exact hf a _ _ _ _ _ h2
  · rw [Eff.bind_of_panic (hx _ _ _ _ _ h1)]
  · rw [Eff.bind_of_stopped (hx _ _ _ _ _ h1)]

theorem holding {x : Eff S σ Unit} {y : Eff S (σ × List (Drop S)) Unit} (hx : Down x y) (r : Response S.St) :
    Down x (holding r y) := by
  intro p g o q g' h
  unfold Owned.holding at h
  split at h
  · cases h
  · rename_i hy; cases h; exact hx _ _ _ _ _ hy
  · rename_i hy; cases h; exact (hx _ _ _ _ _ hy : _)

theorem borrow {sup : σ → Option (τ × (τ → σ))} {x : Eff S τ α} {y : Eff S (τ × κ) α} (hx : Down x y) :
    Down (Eff.borrow sup x) (Eff.borrow (via sup) y) := by
  intro p g o q g' h
  unfold Eff.borrow via at h
  unfold Eff.borrow
  cases e : sup p.1 with
  | none => simp only [e] at h ⊢; cases h; rfl
  | some w =>
    obtain ⟨v, back⟩ := w
    simp only [e] at h ⊢
    cases hy : y (v, p.2) g with
    | none => simp [hy] at h
    | some r =>
      obtain ⟨o1, q1, g1⟩ := r
      simp only [hy] at h
      cases h
      have := hx _ _ _ _ _ hy
      simp only at this
      rw [this]

theorem admissible (x : Eff S σ α) : Lean.Order.admissible (fun y : Eff S (σ × κ) α => Down x y) := by
  have := Eff.admissible (S := S) (σ := σ × κ) (α := α) fun p g r => x p.1 g = some (r.1, r.2.1.1, r.2.2)
  have e : (fun y : Eff S (σ × κ) α => Down x y) =
      fun y => ∀ p g r, y p g = some r → x p.1 g = some (r.1, r.2.1.1, r.2.2) := by
    funext y
    exact propext ⟨fun h p g r hr => h p g r.1 r.2.1 r.2.2 hr, fun h p g o q g' hr => h p g (o, q, g') hr⟩
  rw [e]; exact this

end Down

/-- No target of a transition is logged. -/
def Obs.NoTarget (ob : Obs S) : Prop := targets [ob] = []

theorem targets_append (L L' : List (Obs S)) : targets (L ++ L') = targets L ++ targets L' := by
  simp [targets]

theorem targets_eq_nil {L : List (Obs S)} (h : ∀ ob ∈ L, ob.NoTarget) : targets L = [] := by
  induction L with
  | nil => rfl
  | cons ob L ih =>
    rw [show ob :: L = [ob] ++ L from rfl, targets_append, h ob (by simp), ih fun o ho => h o (by simp [ho])]; rfl

/-- What becomes of the states in the responses of handlers: if one is returned it is not dropped, otherwise it is. -/
def Fate (L : List (Obs S)) (n : Nat) (d : List (Drop S)) : Out (Response S.St) → Prop
  | .ok r => d = [] ∧ targets L = (target? r).toList
  | _ => d = (targets L).map (Drop.mk n) ∧ (targets L).length ≤ 1

/-- A call of the version without drops is a call of the version with drops. -/
def Up (x : Eff S σ (Response S.St)) (y : Eff S (σ × List (Drop S)) (Response S.St)) : Prop :=
  ∀ s g o s' g', x s g = some (o, s', g') → ∃ L, g'.trace = g.trace ++ L ∧
    ∀ l, ∃ d, y (s, l) g = some (o, (s', l ++ d), g') ∧ Fate L g'.trace.length d o

namespace Up

theorem pure_quiet {r : Response S.St} (hr : target? r = none) :
    Up (Pure.pure r : Eff S σ _) (Pure.pure r) := by
  intro s g o s' g' h
  cases h
  exact ⟨[], by simp, fun l => ⟨[], by simp [Pure.pure, Eff.pure], rfl, by simp [targets, hr]⟩⟩

theorem before {x : Eff S σ Unit} (hx : Adds Obs.NoTarget x) {f : Eff S σ (Response S.St)}
    {f' : Eff S (σ × List (Drop S)) (Response S.St)} (hf : Up f f') : Up (x >>= fun _ => f) (zoom x >>= fun _ => f') := by
  intro s g o s' g' h
  rcases Eff.inv_bind3 h with ⟨a, s1, g1, h1, h2⟩ | ⟨h1, rfl⟩ | ⟨h1, rfl⟩
  · obtain ⟨L1, e1, p1, -⟩ := hx _ _ _ _ _ h1
    obtain ⟨L2, e2, p2⟩ := hf _ _ _ _ _ h2
    refine ⟨L1 ++ L2, by rw [e2, e1, List.append_assoc], fun l => ?_⟩
    obtain ⟨d, hd, fd⟩ := p2 l
    refine ⟨d, by rw [Eff.bind_of_ok (zoom_some h1)]; exact hd, ?_⟩
    unfold Fate at fd ⊢
    rw [targets_append, targets_eq_nil p1]
    exact fd
  · obtain ⟨L1, e1, p1, -⟩ := hx _ _ _ _ _ h1
    exact ⟨L1, e1, fun l => ⟨[], by rw [Eff.bind_of_panic (zoom_some h1)]; simp, by simp [targets_eq_nil p1], by
      simp [targets_eq_nil p1]⟩⟩
  · obtain ⟨L1, e1, p1, -⟩ := hx _ _ _ _ _ h1
    exact ⟨L1, e1, fun l => ⟨[], by rw [Eff.bind_of_stopped (zoom_some h1)]; simp, by simp [targets_eq_nil p1], by
      simp [targets_eq_nil p1]⟩⟩

/-- A hook while a response is held. -/
theorem after {x : Eff S σ (Response S.St)} {y : Eff S (σ × List (Drop S)) (Response S.St)} (hx : Up x y)
    {k : Eff S σ Unit} (hk : Adds Obs.NoTarget k) :
    Up (do let r ← x; k; Pure.pure r) (do let r ← y; holding r (zoom k); Pure.pure r) := by
  intro s g o s' g' h
  rcases Eff.inv_bind3 h with ⟨r, s1, g1, h1, h2⟩ | ⟨h1, rfl⟩ | ⟨h1, rfl⟩
  · obtain ⟨L1, e1, p1⟩ := hx _ _ _ _ _ h1
    rcases Eff.inv_bind3 h2 with ⟨u, s2, g2, k2, k3⟩ | ⟨k2, rfl⟩ | ⟨k2, rfl⟩
    · obtain ⟨L2, e2, p2, -⟩ := hk _ _ _ _ _ k2
      cases k3
      refine ⟨L1 ++ L2, by rw [e2, e1, List.append_assoc], fun l => ?_⟩
      obtain ⟨d, hd, rfl, fd⟩ := p1 l
      refine ⟨[], ?_, rfl, by rw [targets_append, targets_eq_nil p2, List.append_nil, fd]⟩
      rw [Eff.bind_of_ok hd, Eff.bind_of_ok (holding_ok (zoom_some k2) r)]
      rfl
    · obtain ⟨L2, e2, p2, -⟩ := hk _ _ _ _ _ k2
      refine ⟨L1 ++ L2, by rw [e2, e1, List.append_assoc], fun l => ?_⟩
      obtain ⟨d, hd, rfl, fd⟩ := p1 l
      refine ⟨(target? r).toList.map (Drop.mk g'.trace.length), ?_, ?_, ?_⟩
      · rw [Eff.bind_of_ok hd]
        rw [Eff.bind_of_panic (holding_panic (zoom_some k2) r)]; simp
      · rw [targets_append, targets_eq_nil p2, List.append_nil, fd]
      · rw [targets_append, targets_eq_nil p2, List.append_nil, fd]; cases target? r <;> simp
    · obtain ⟨L2, e2, p2, -⟩ := hk _ _ _ _ _ k2
      refine ⟨L1 ++ L2, by rw [e2, e1, List.append_assoc], fun l => ?_⟩
      obtain ⟨d, hd, rfl, fd⟩ := p1 l
      refine ⟨(target? r).toList.map (Drop.mk g'.trace.length), ?_, ?_, ?_⟩
      · rw [Eff.bind_of_ok hd]
        rw [Eff.bind_of_stopped (holding_stopped (zoom_some k2) r)]; simp
      · rw [targets_append, targets_eq_nil p2, List.append_nil, fd]
      · rw [targets_append, targets_eq_nil p2, List.append_nil, fd]; cases target? r <;> simp
  · obtain ⟨L1, e1, p1⟩ := hx _ _ _ _ _ h1
    refine ⟨L1, e1, fun l => ?_⟩
    obtain ⟨d, hd, fd⟩ := p1 l
    exact ⟨d, Eff.bind_of_panic hd, fd⟩
  · obtain ⟨L1, e1, p1⟩ := hx _ _ _ _ _ h1
    refine ⟨L1, e1, fun l => ?_⟩
    obtain ⟨d, hd, fd⟩ := p1 l
    exact ⟨d, Eff.bind_of_stopped hd, fd⟩

/-- Continuing only when the response is `Super`. -/
theorem cont {x : Eff S σ (Response S.St)} {y : Eff S (σ × List (Drop S)) (Response S.St)} (hx : Up x y)
    {f : Response S.St → Eff S σ (Response S.St)} {f' : Response S.St → Eff S (σ × List (Drop S)) (Response S.St)}
    (hf : Up (f .super) (f' .super)) (h1 : f .handled = Pure.pure .handled) (h1' : f' .handled = Pure.pure .handled)
    (h2 : ∀ t, f (.transition t) = Pure.pure (.transition t))
    (h2' : ∀ t, f' (.transition t) = Pure.pure (.transition t)) : Up (x >>= f) (y >>= f') := by
  intro s g o s' g' h
  rcases Eff.inv_bind3 h with ⟨r, s1, g1, k1, k2⟩ | ⟨k1, rfl⟩ | ⟨k1, rfl⟩
  · obtain ⟨L1, e1, p1⟩ := hx _ _ _ _ _ k1
    cases r with
    | handled =>
      rw [h1] at k2
      cases k2
      refine ⟨L1, e1, fun l => ?_⟩
      obtain ⟨d, hd, fd⟩ := p1 l
      exact ⟨d, by rw [Eff.bind_of_ok hd, h1']; rfl, fd⟩
    | transition t =>
      rw [h2] at k2
      cases k2
      refine ⟨L1, e1, fun l => ?_⟩
      obtain ⟨d, hd, fd⟩ := p1 l
      exact ⟨d, by rw [Eff.bind_of_ok hd, h2']; rfl, fd⟩
    | super =>
      obtain ⟨L2, e2, p2⟩ := hf _ _ _ _ _ k2
      refine ⟨L1 ++ L2, by rw [e2, e1, List.append_assoc], fun l => ?_⟩
      obtain ⟨d, hd, rfl, fd⟩ := p1 l
      obtain ⟨d2, hd2, fd2⟩ := p2 l
      refine ⟨d2, by rw [Eff.bind_of_ok hd, List.append_nil]; exact hd2, ?_⟩
      unfold Fate at fd2 ⊢
      rw [targets_append, fd]
      exact fd2
  · obtain ⟨L1, e1, p1⟩ := hx _ _ _ _ _ k1
    refine ⟨L1, e1, fun l => ?_⟩
    obtain ⟨d, hd, fd⟩ := p1 l
    exact ⟨d, Eff.bind_of_panic hd, fd⟩
  · obtain ⟨L1, e1, p1⟩ := hx _ _ _ _ _ k1
    refine ⟨L1, e1, fun l => ?_⟩
    obtain ⟨d, hd, fd⟩ := p1 l
    exact ⟨d, Eff.bind_of_stopped hd, fd⟩

/-- Continuing on the superstate. -/
theorem climb {sup : σ → Option (τ × (τ → σ))} {x : Eff S τ (Response S.St)}
    {y : Eff S (τ × List (Drop S)) (Response S.St)} (hx : Up x y) {r0 : Response S.St} (hr : target? r0 = none)
    {f : Option (Response S.St) → Eff S σ (Response S.St)}
    {f' : Option (Response S.St) → Eff S (σ × List (Drop S)) (Response S.St)}
    (hf : ∀ r, f r = Pure.pure (r.getD r0)) (hf' : ∀ r, f' r = Pure.pure (r.getD r0)) :
    Up (Eff.borrow sup x >>= f) (Eff.borrow (via sup) y >>= f') := by
  intro s g o s' g' h
  have key : (∃ r, Eff.borrow sup x s g = some (.ok r, s', g') ∧ o = .ok (r.getD r0)) ∨
      (Eff.borrow sup x s g = some (.panic, s', g') ∧ o = .panic) ∨
      (Eff.borrow sup x s g = some (.stopped, s', g') ∧ o = .stopped) := by
    rcases Eff.inv_bind3 h with ⟨r, s1, g1, k1, k2⟩ | k | k
    · rw [hf] at k2; cases k2; exact .inl ⟨r, k1, rfl⟩
    · exact .inr (.inl k)
    · exact .inr (.inr k)
  cases e : sup s with
  | none =>
    have hb : Eff.borrow sup x s g = some (.ok none, s, g) := by unfold Eff.borrow; simp only [e]
    have hb' : ∀ l, Eff.borrow (via sup) y (s, l) g = some (.ok none, (s, l), g) := by
      intro l; unfold Eff.borrow via; simp only [e]
    rcases key with ⟨r, k, rfl⟩ | ⟨k, -⟩ | ⟨k, -⟩
    · rw [hb] at k; cases k
      exact ⟨[], by simp, fun l => ⟨[], by rw [Eff.bind_of_ok (hb' l), hf']; simp [Pure.pure, Eff.pure], rfl, by
        simp [targets, hr]⟩⟩
    · rw [hb] at k; cases k
    · rw [hb] at k; cases k
  | some w =>
    obtain ⟨v, back⟩ := w
    cases hv : x v g with
    | none =>
      have hb : Eff.borrow sup x s g = none := by unfold Eff.borrow; simp only [e, hv]
      rcases key with ⟨r, k, -⟩ | ⟨k, -⟩ | ⟨k, -⟩ <;> (rw [hb] at k; cases k)
    | some res =>
      obtain ⟨o1, v1, g1⟩ := res
      obtain ⟨L, e1, p1⟩ := hx _ _ _ _ _ hv
      have hb : Eff.borrow sup x s g = some (o1.map some, back v1, g1) := by unfold Eff.borrow; simp only [e, hv]
      have hb' : ∀ l d, y (v, l) g = some (o1, (v1, l ++ d), g1) →
          Eff.borrow (via sup) y (s, l) g = some (o1.map some, (back v1, l ++ d), g1) := by
        intro l d hy; unfold Eff.borrow via; simp only [e, hy]
      cases o1 with
      | ok r1 =>
        rcases key with ⟨r, k, rfl⟩ | ⟨k, -⟩ | ⟨k, -⟩
        · rw [hb] at k; cases k
          refine ⟨L, e1, fun l => ?_⟩
          obtain ⟨d, hd, fd⟩ := p1 l
          exact ⟨d, by rw [Eff.bind_of_ok (hb' l d hd), hf']; rfl, fd⟩
        · rw [hb] at k; cases k
        · rw [hb] at k; cases k
      | panic =>
        rcases key with ⟨r, k, -⟩ | ⟨k, rfl⟩ | ⟨k, -⟩
        · rw [hb] at k; cases k
        · rw [hb] at k; cases k
          refine ⟨L, e1, fun l => ?_⟩
          obtain ⟨d, hd, fd⟩ := p1 l
          exact ⟨d, Eff.bind_of_panic (hb' l d hd), fd⟩
        · rw [hb] at k; cases k
      | stopped =>
        rcases key with ⟨r, k, -⟩ | ⟨k, -⟩ | ⟨k, rfl⟩
        · rw [hb] at k; cases k
        · rw [hb] at k; cases k
        · rw [hb] at k; cases k
          refine ⟨L, e1, fun l => ?_⟩
          obtain ⟨d, hd, fd⟩ := p1 l
          exact ⟨d, Eff.bind_of_stopped (hb' l d hd), fd⟩

/-- Calling a handler. -/
theorem call {ob : σ → Obs S} (hob : ∀ s, (ob s).NoTarget) {n : σ → StateOrSuperstate S.St S.Sup}
    (f : σ → S.M → S.Ctx → Fut S.In (σ × S.M × S.Ctx) (Response S.St)) :
    Up (do let r ← Eff.callback ob f; Eff.log (fun s => .returned (n s) r); Pure.pure r)
      (zoom (do let r ← Eff.callback ob f; Eff.log (fun s => .returned (n s) r); Pure.pure r)) := by
  intro s g o s' g' h
  have h0 := h
  rcases Eff.inv_bind3 h with ⟨r, s1, g1, h1, h2⟩ | ⟨h1, rfl⟩ | ⟨h1, rfl⟩
  · obtain ⟨L1, e1, p1, -⟩ := Adds.callback hob f _ _ _ _ _ h1
    cases h2
    refine ⟨L1 ++ [.returned (n s') r], by simp [e1], fun l => ⟨[], by rw [List.append_nil]; exact zoom_some h0, rfl, ?_⟩⟩
    rw [targets_append, targets_eq_nil p1]
    cases r <;> rfl
  · obtain ⟨L1, e1, p1, -⟩ := Adds.callback hob f _ _ _ _ _ h1
    exact ⟨L1, e1, fun l => ⟨[], by rw [List.append_nil]; exact zoom_some h0, by simp [targets_eq_nil p1], by
      simp [targets_eq_nil p1]⟩⟩
  · obtain ⟨L1, e1, p1, -⟩ := Adds.callback hob f _ _ _ _ _ h1
    exact ⟨L1, e1, fun l => ⟨[], by rw [List.append_nil]; exact zoom_some h0, by simp [targets_eq_nil p1], by
      simp [targets_eq_nil p1]⟩⟩

theorem admissible (y : Eff S (σ × List (Drop S)) (Response S.St)) :
    Lean.Order.admissible (fun x : Eff S σ (Response S.St) => Up x y) := by
  have := Eff.admissible (S := S) (σ := σ) (α := Response S.St) fun s g r => ∃ L, r.2.2.trace = g.trace ++ L ∧
    ∀ l, ∃ d, y (s, l) g = some (r.1, (r.2.1, l ++ d), r.2.2) ∧ Fate L r.2.2.trace.length d r.1
  have e : (fun x : Eff S σ (Response S.St) => Up x y) = fun x => ∀ s g r, x s g = some r →
      ∃ L, r.2.2.trace = g.trace ++ L ∧
        ∀ l, ∃ d, y (s, l) g = some (r.1, (r.2.1, l ++ d), r.2.2) ∧ Fate L r.2.2.trace.length d r.1 := by
    funext x
    exact propext ⟨fun h s g r hr => h s g r.1 r.2.1 r.2.2 hr, fun h s g o s' g' hr => h s g (o, s', g') hr⟩
  rw [e]; exact this

end Up

theorem hookAfter_quiet (ev : S.Ev) : Adds Obs.NoTarget (hookAfterDispatch m ev) := by
  unfold hookAfterDispatch; refine Adds.hook ?_ _; intro _; rfl
theorem hookBefore_quiet (ev : S.Ev) : Adds Obs.NoTarget (hookBeforeDispatch m ev) := by
  unfold hookBeforeDispatch; refine Adds.hook ?_ _; intro _; rfl
theorem hookSupAfter_quiet (ev : S.Ev) : Adds Obs.NoTarget (hookSupAfterDispatch m ev) := by
  unfold hookSupAfterDispatch; refine Adds.hook ?_ _; intro _; rfl
theorem hookSupBefore_quiet (ev : S.Ev) : Adds Obs.NoTarget (hookSupBeforeDispatch m ev) := by
  unfold hookSupBeforeDispatch; refine Adds.hook ?_ _; intro _; rfl

theorem callHandler_up (ev : S.Ev) : Up (callHandler m ev) (zoom (callHandler m ev)) :=
  Up.call (ob := fun s => .handler (.state s) ev) (fun _ => rfl) (n := .state) fun s sh c => m.handler s sh ev c

theorem callSupHandler_up (ev : S.Ev) : Up (callSupHandler m ev) (zoom (callSupHandler m ev)) :=
  Up.call (ob := fun v => .handler (.superstate v) ev) (fun _ => rfl) (n := .superstate) fun v sh c => m.supHandler v sh ev c

theorem blockingSupHandle_up (ev : S.Ev) : Up (Blocking.supHandle m ev) (blockingSupHandle m ev) := by
  refine Blocking.supHandle.fixpoint_induct m ev (fun x => Up x (blockingSupHandle m ev)) (Up.admissible _) ?_
  intro f ih
  rw [blockingSupHandle]
  refine Up.cont (callSupHandler_up ev) ?_ rfl rfl (fun _ => rfl) fun _ => rfl
  exact Up.climb (.before (hookSupBefore_quiet ev) (ih.after (hookSupAfter_quiet ev))) (r0 := .super) rfl
    (fun r => by cases r <;> rfl) (fun r => by cases r <;> rfl)

theorem blockingSupHandle_down (ev : S.Ev) : Down (Blocking.supHandle m ev) (blockingSupHandle m ev) := by
  refine blockingSupHandle.fixpoint_induct m ev (fun y => Down (Blocking.supHandle m ev) y) (Down.admissible _) ?_
  intro f ih
  rw [Blocking.supHandle]
  refine Down.bind (.zoom _) fun r => ?_
  cases r with
  | handled => exact .pure _
  | transition t => exact .pure _
  | super =>
    refine Down.bind (Down.borrow (Down.bind (.zoom _) fun _ => ih.bind fun r =>
      Down.bind (Down.holding (.zoom _) _) fun _ => .pure _)) fun r => ?_
    cases r <;> exact .pure _

theorem awaitableHandleLoop_up (ev : S.Ev) : Up (Awaitable.handleLoop m ev) (awaitableHandleLoop m ev) := by
  refine Awaitable.handleLoop.fixpoint_induct m ev (fun x => Up x (awaitableHandleLoop m ev)) (Up.admissible _) ?_
  intro f ih
  rw [awaitableHandleLoop]
  refine Up.before (hookSupBefore_quiet ev) ?_
  have := Up.cont ((callSupHandler_up (m := m) ev).after (hookSupAfter_quiet ev (m := m)))
    (f := fun response => match response with
      | .handled => Pure.pure .handled
      | .super => do
        let r ← Eff.borrow m.supSuperstate f
        match r with
        | some response => Pure.pure response
        | none => Pure.pure .handled
      | .transition state => Pure.pure (.transition state))
    (f' := fun response => match response with
      | .handled => Pure.pure .handled
      | .super => do
        let r ← Eff.borrow (via m.supSuperstate) (awaitableHandleLoop m ev)
        match r with
        | some response => Pure.pure response
        | none => Pure.pure .handled
      | .transition state => Pure.pure (.transition state))
    (Up.climb ih (r0 := .handled) rfl (fun r => by cases r <;> rfl) (fun r => by cases r <;> rfl)) rfl rfl (fun _ => rfl) fun _ => rfl
  simp only [bind_assoc, pure_bind] at this
  exact this

theorem awaitableHandleLoop_down (ev : S.Ev) : Down (Awaitable.handleLoop m ev) (awaitableHandleLoop m ev) := by
  refine awaitableHandleLoop.fixpoint_induct m ev (fun y => Down (Awaitable.handleLoop m ev) y) (Down.admissible _) ?_
  intro f ih
  rw [Awaitable.handleLoop]
  refine Down.bind (.zoom _) fun _ => Down.bind (.zoom _) fun r => Down.bind (Down.holding (.zoom _) _) fun _ => ?_
  cases r with
  | handled => exact .pure _
  | transition t => exact .pure _
  | super =>
    refine Down.bind (Down.borrow ih) fun r => ?_
    cases r <;> exact .pure _


theorem blockingHandle_up (ev : S.Ev) : Up (Blocking.handle m ev) (blockingHandle m ev) := by
  refine Up.before (hookBefore_quiet ev) ?_
  have := Up.cont ((callHandler_up (m := m) ev).after (hookAfter_quiet ev (m := m)))
    (f := fun response => match response with
      | .handled => Pure.pure .handled
      | .super => do
        let r ← Eff.borrow m.superstate (do
          hookSupBeforeDispatch m ev
          let response ← Blocking.supHandle m ev
          hookSupAfterDispatch m ev
          Pure.pure response)
        match r with
        | some response => Pure.pure response
        | none => Pure.pure .super
      | .transition state => Pure.pure (.transition state))
    (f' := fun response => match response with
      | .handled => Pure.pure .handled
      | .super => do
        let r ← Eff.borrow (via m.superstate) (do
          zoom (hookSupBeforeDispatch m ev)
          let response ← blockingSupHandle m ev
          holding response (zoom (hookSupAfterDispatch m ev))
          Pure.pure response)
        match r with
        | some response => Pure.pure response
        | none => Pure.pure .super
      | .transition state => Pure.pure (.transition state))
    (Up.climb (.before (hookSupBefore_quiet ev) ((blockingSupHandle_up ev).after (hookSupAfter_quiet ev)))
      (r0 := .super) rfl (fun r => by cases r <;> rfl) (fun r => by cases r <;> rfl)) rfl rfl (fun _ => rfl) fun _ => rfl
  simp only [bind_assoc, pure_bind] at this
  exact this

theorem blockingHandle_down (ev : S.Ev) : Down (Blocking.handle m ev) (blockingHandle m ev) := by
  refine Down.bind (.zoom _) fun _ => Down.bind (.zoom _) fun r => Down.bind (Down.holding (.zoom _) _) fun _ => ?_
  cases r with
  | handled => exact .pure _
  | transition t => exact .pure _
  | super =>
    refine Down.bind (Down.borrow (Down.bind (.zoom _) fun _ => (blockingSupHandle_down ev).bind fun r =>
      Down.bind (Down.holding (.zoom _) _) fun _ => .pure _)) fun r => ?_
    cases r <;> exact .pure _

theorem awaitableHandle_up (ev : S.Ev) : Up (Awaitable.handle m ev) (awaitableHandle m ev) := by
  refine Up.before (hookBefore_quiet ev) ?_
  have := Up.cont ((callHandler_up (m := m) ev).after (hookAfter_quiet ev (m := m)))
    (f := fun response => match response with
      | .handled => Pure.pure .handled
      | .super => do
        let r ← Eff.borrow m.superstate (Awaitable.handleLoop m ev)
        match r with
        | some response => Pure.pure response
        | none => Pure.pure .super
      | .transition state => Pure.pure (.transition state))
    (f' := fun response => match response with
      | .handled => Pure.pure .handled
      | .super => do
        let r ← Eff.borrow (via m.superstate) (awaitableHandleLoop m ev)
        match r with
        | some response => Pure.pure response
        | none => Pure.pure .super
      | .transition state => Pure.pure (.transition state))
    (Up.climb (awaitableHandleLoop_up ev)
      (r0 := .super) rfl (fun r => by cases r <;> rfl) (fun r => by cases r <;> rfl)) rfl rfl (fun _ => rfl) fun _ => rfl
  simp only [bind_assoc, pure_bind] at this
  exact this

theorem awaitableHandle_down (ev : S.Ev) : Down (Awaitable.handle m ev) (awaitableHandle m ev) := by
  refine Down.bind (.zoom _) fun _ => Down.bind (.zoom _) fun r => Down.bind (Down.holding (.zoom _) _) fun _ => ?_
  cases r with
  | handled => exact .pure _
  | transition t => exact .pure _
  | super =>
    refine Down.bind (Down.borrow (awaitableHandleLoop_down ev)) fun r => ?_
    cases r <;> exact .pure _

/-! ## Transitions -/

/-- An outcome without a value. -/
def Out.cast : Out α → Out β
  | .stopped => .stopped
  | _ => .panic

theorem Out.isOk_cast (o : Out α) : (o.cast : Out β).isOk = false := by cases o <;> rfl

theorem Out.cast_self {o : Out α} (h : o.isOk = false) : o.cast = o := by
  cases o with
  | ok a => cases h
  | panic => rfl
  | stopped => rfl

theorem Eff.inv_bind2 {x : Eff S σ α} {f : α → Eff S σ β} {s s' g g' o}
    (h : (x >>= f) s g = some (o, s', g')) :
    (∃ a s1 g1, x s g = some (.ok a, s1, g1) ∧ f a s1 g1 = some (o, s', g')) ∨
    (∃ o', x s g = some (o', s', g') ∧ o'.isOk = false ∧ o = o'.cast) := by
  rcases Eff.inv_bind3 h with k | ⟨k, rfl⟩ | ⟨k, rfl⟩
  · exact .inl k
  · exact .inr ⟨_, k, rfl, rfl⟩
  · exact .inr ⟨_, k, rfl, rfl⟩

theorem Eff.bind_of_fail {x : Eff S σ α} {f : α → Eff S σ β} {s s1 g g1 o} (h : x s g = some (o, s1, g1))
    (ho : o.isOk = false) : (x >>= f) s g = some (o.cast, s1, g1) := by
  cases o with
  | ok a => cases ho
  | panic => exact Eff.bind_of_panic h
  | stopped => exact Eff.bind_of_stopped h

/-- The body of `transition` in either mode. -/
def transitionBody (hb : S.St → S.St → Eff S S.St Unit) (path : S.St → S.St → Option (Out (Nat × Nat)))
    (ex en : Nat → Eff S S.St Unit) (ha : S.St → S.St → Eff S S.St Unit) (target : S.St) : Eff S S.St Unit := do
  let s ← Eff.self
  hb s target
  let (a, b) ← Eff.lift (path s target)
  ex a
  let old ← Eff.swap target
  en b
  let new ← Eff.self
  ha old new

/-- The body of `transition` with the variable `target`. -/
def ownedBody (hb : S.St → S.St → Eff S S.St Unit) (path : S.St → S.St → Option (Out (Nat × Nat)))
    (ex en : Nat → Eff S S.St Unit) (ha : S.St → S.St → Eff S S.St Unit) : Eff S (S.St × S.St) Unit := do
  let (state, target) ← Eff.self
  zoom (hb state target)
  let (a, b) ← Eff.lift (path state target)
  zoom (ex a)
  swapVars
  zoom (en b)
  let (state, target) ← Eff.self
  zoom (ha target state)

/-- The observation is the start of the hook after the transition. -/
def Obs.IsAfterTransition : Obs S → Prop
  | .afterTransition _ _ => True
  | _ => False

/-- What is dropped at the end of a transition from `s` to `t` that logs `L` and leaves the state `s'`. -/
def Leftover {T : Type} (tag : S.St → T) (L : List (Obs S)) (s t s' v : S.St) (o : Out Unit) : Prop :=
  (o.isOk = false ∧ v = t ∧ tag s' = tag s ∧ ∀ ob ∈ L, ¬ ob.IsEntry ∧ ¬ ob.IsAfterTransition) ∨
  (tag s' = tag t ∧ tag v = tag s ∧
    (o.isOk = true → ∃ L0, L = L0 ++ [.afterTransition v s']) ∧
    (o.isOk = false → ((∃ ob ∈ L, ob.IsEntry) ∧ ∀ ob ∈ L, ¬ ob.IsAfterTransition) ∨
      ∃ L0, L = L0 ++ [.afterTransition v s']))

theorem lift_inv {x : Option (Out α)} {s s' : σ} {g g' : Glob S} {o} (h : Eff.lift x s g = some (o, s', g')) :
    x = some o ∧ s' = s ∧ g' = g := by
  unfold Eff.lift at h
  cases x with
  | none => cases h
  | some o => cases h; exact ⟨rfl, rfl, rfl⟩

theorem lift_some {o : Out α} {s : σ} {g : Glob S} : Eff.lift (some o) s g = some (o, s, g) := rfl

section
variable {T : Type} {tag : S.St → T} {hb : S.St → S.St → Eff S S.St Unit}
  {path : S.St → S.St → Option (Out (Nat × Nat))} {ex en : Nat → Eff S S.St Unit}

theorem transitionBody_up {t s : S.St} {g : Glob S} {o s' g'}
    (hbA : Adds (fun ob => ob.NoTarget ∧ ¬ ob.IsEntry ∧ ¬ ob.IsAfterTransition) (hb s t)) (hbT : Keeps (hb s t))
    (exA : ∀ n, Adds Obs.IsExit (ex n)) (exT : ∀ n, Tagged tag (ex n)) (enA : ∀ n, Adds Obs.IsEntry (en n))
    (enT : ∀ n, Tagged tag (en n))
    (h : transitionBody hb path ex en (hookAfterTransition m) t s g = some (o, s', g')) :
    ∃ L v, g'.trace = g.trace ++ L ∧ targets L = [] ∧
      ownedBody hb path ex en (hookAfterTransition m) (s, t) g = some (o, (s', v), g') ∧
      Leftover tag L s t s' v o := by
  have exN : ∀ ob : Obs S, ob.IsExit → ob.NoTarget ∧ ¬ ob.IsEntry ∧ ¬ ob.IsAfterTransition := by
    intro ob h; cases ob <;> simp_all [Obs.IsExit, Obs.IsEntry, Obs.IsAfterTransition, Obs.NoTarget, targets]
  have enN : ∀ ob : Obs S, ob.IsEntry → ob.NoTarget ∧ ¬ ob.IsAfterTransition := by
    intro ob h; cases ob <;> simp_all [Obs.IsEntry, Obs.IsAfterTransition, Obs.NoTarget, targets]
  have h0 : (hb s t >>= fun _ => Eff.lift (path s t) >>= fun p => ex p.1 >>= fun _ => Eff.swap t >>= fun old =>
      en p.2 >>= fun _ => Eff.self >>= fun new => hookAfterTransition m old new) s g = some (o, s', g') := h
  have goal0 : ∀ r, (zoom (hb s t) >>= fun _ => Eff.lift (path s t) >>= fun p => zoom (ex p.1) >>= fun _ => swapVars >>= fun _ =>
      zoom (en p.2) >>= fun _ => Eff.self >>= fun q => zoom (hookAfterTransition m q.2 q.1)) (s, t) g = r →
      ownedBody hb path ex en (hookAfterTransition m) (s, t) g = r := fun r hr => hr
  rcases Eff.inv_bind2 h0 with ⟨u, s1, g1, k1, h1⟩ | ⟨o', k1, ho, rfl⟩
  case inr =>
    obtain ⟨L, e, p, -⟩ := hbA _ _ _ _ _ k1
    exact ⟨L, t, e, targets_eq_nil fun ob h => (p ob h).1, goal0 _ (Eff.bind_of_fail (zoom_some k1) ho),
      .inl ⟨Out.isOk_cast _, rfl, congrArg tag (hbT _ _ _ _ _ k1), fun ob h => (p ob h).2⟩⟩
  obtain ⟨L1, e1, p1, -⟩ := hbA _ _ _ _ _ k1
  obtain rfl := hbT _ _ _ _ _ k1
  rcases Eff.inv_bind2 h1 with ⟨⟨a, b⟩, s2, g2, k2, h2⟩ | ⟨o', k2, ho, rfl⟩
  case inr =>
    obtain ⟨ep, rfl, rfl⟩ := lift_inv k2
    refine ⟨L1, t, e1, targets_eq_nil fun ob h => (p1 ob h).1, goal0 _ ?_,
      .inl ⟨Out.isOk_cast _, rfl, rfl, fun ob h => (p1 ob h).2⟩⟩
    rw [Eff.bind_of_ok (zoom_some k1), ep, Eff.bind_of_fail lift_some ho]
  obtain ⟨ep, rfl, rfl⟩ := lift_inv k2
  rcases Eff.inv_bind2 h2 with ⟨u, s3, g3, k3, h3⟩ | ⟨o', k3, ho, rfl⟩
  case inr =>
    obtain ⟨L2, e2, p2, -⟩ := exA _ _ _ _ _ _ k3
    have pall : ∀ ob ∈ L1 ++ L2, ob.NoTarget ∧ ¬ ob.IsEntry ∧ ¬ ob.IsAfterTransition := by
      intro ob hob
      rcases List.mem_append.1 hob with hob | hob
      · exact p1 ob hob
      · exact exN ob (p2 ob hob)
    refine ⟨L1 ++ L2, t, by rw [e2, e1, List.append_assoc], targets_eq_nil fun ob h => (pall ob h).1, goal0 _ ?_,
      .inl ⟨Out.isOk_cast _, rfl, exT _ _ _ _ _ _ k3, fun ob h => (pall ob h).2⟩⟩
    rw [Eff.bind_of_ok (zoom_some k1), ep, Eff.bind_of_ok lift_some, Eff.bind_of_fail (zoom_some k3) ho]
  obtain ⟨L2, e2, p2, -⟩ := exA _ _ _ _ _ _ k3
  have t3 := exT _ _ _ _ _ _ k3
  have pall : ∀ ob ∈ L1 ++ L2, ob.NoTarget ∧ ¬ ob.IsEntry ∧ ¬ ob.IsAfterTransition := by
    intro ob hob
    rcases List.mem_append.1 hob with hob | hob
    · exact p1 ob hob
    · exact exN ob (p2 ob hob)
  have h3' : (en b >>= fun _ => Eff.self >>= fun new => hookAfterTransition m s3 new) t g3 = some (o, s', g') := h3
  have goal1 : ∀ r, (zoom (en b) >>= fun _ => Eff.self >>= fun q => zoom (hookAfterTransition m q.2 q.1)) (t, s3) g3 = r →
      ownedBody hb path ex en (hookAfterTransition m) (s2, t) g = r := by
    intro r hr
    refine goal0 _ ?_
    rw [Eff.bind_of_ok (zoom_some k1), ep, Eff.bind_of_ok lift_some, Eff.bind_of_ok (zoom_some k3)]
    exact hr
  rcases Eff.inv_bind2 h3' with ⟨u, s4, g4, k4, h4⟩ | ⟨o', k4, ho, rfl⟩
  case inr =>
    obtain ⟨L3, e3, p3, n3⟩ := enA _ _ _ _ _ _ k4
    refine ⟨L1 ++ L2 ++ L3, s3, by rw [e3, e2, e1]; simp, ?_, goal1 _ (Eff.bind_of_fail (zoom_some k4) ho),
      .inr ⟨enT _ _ _ _ _ _ k4, t3, fun hc => ?_, fun _ => .inl ⟨?_, ?_⟩⟩⟩
    · rw [targets_append, targets_eq_nil fun ob h => (pall ob h).1, targets_eq_nil fun ob h => (enN ob (p3 ob h)).1]; rfl
    · rw [Out.isOk_cast] at hc; cases hc
    · obtain ⟨x, L3', rfl⟩ := List.exists_cons_of_ne_nil (n3 ho)
      exact ⟨x, by simp, p3 x (by simp)⟩
    · intro ob hob
      rcases List.mem_append.1 hob with hob | hob
      · exact (pall ob hob).2.2
      · exact (enN ob (p3 ob hob)).2
  obtain ⟨L3, e3, p3, -⟩ := enA _ _ _ _ _ _ k4
  have h5 : hookAfterTransition m s3 s4 s4 g4 = some (o, s', g') := h4
  obtain rfl := (Keeps.hook _ _ : Keeps (hookAfterTransition m s3 s4)) _ _ _ _ _ h5
  have e5 : g'.trace = g4.trace ++ [.afterTransition s3 s'] := by
    unfold hookAfterTransition Eff.hook at h5; cases h5; rfl
  refine ⟨L1 ++ L2 ++ L3 ++ [.afterTransition s3 s'], s3, by rw [e5, e3, e2, e1]; simp, ?_, goal1 _ ?_,
    .inr ⟨enT _ _ _ _ _ _ k4, t3, fun _ => ⟨_, rfl⟩, fun _ => .inr ⟨_, rfl⟩⟩⟩
  · rw [targets_append, targets_append, targets_eq_nil fun ob h => (pall ob h).1,
      targets_eq_nil fun ob h => (enN ob (p3 ob h)).1]; rfl
  · rw [Eff.bind_of_ok (zoom_some k4)]
    exact zoom_some h5

theorem ownedBody_down {t s : S.St} {g : Glob S} {o q g'} {ha : S.St → S.St → Eff S S.St Unit}
    (h : ownedBody hb path ex en ha (s, t) g = some (o, q, g')) :
    transitionBody hb path ex en ha t s g = some (o, q.1, g') := by
  have h0 : (zoom (hb s t) >>= fun _ => Eff.lift (path s t) >>= fun p => zoom (ex p.1) >>= fun _ => swapVars >>= fun _ =>
      zoom (en p.2) >>= fun _ => Eff.self >>= fun q => zoom (ha q.2 q.1)) (s, t) g = some (o, q, g') := h
  show (hb s t >>= fun _ => Eff.lift (path s t) >>= fun p => ex p.1 >>= fun _ => Eff.swap t >>= fun old =>
      en p.2 >>= fun _ => Eff.self >>= fun new => ha old new) s g = some (o, q.1, g')
  rcases Eff.inv_bind2 h0 with ⟨u, q1, g1, k1, h1⟩ | ⟨o', k1, ho, rfl⟩
  case inr => exact Eff.bind_of_fail (zoom_inv k1).1 ho
  obtain ⟨j1, ht1⟩ := zoom_inv k1
  rw [Eff.bind_of_ok j1]
  rcases Eff.inv_bind2 h1 with ⟨⟨a, b⟩, q2, g2, k2, h2⟩ | ⟨o', k2, ho, rfl⟩
  case inr =>
    obtain ⟨ep, rfl, rfl⟩ := lift_inv k2
    rw [ep, Eff.bind_of_fail lift_some ho]
  obtain ⟨ep, rfl, rfl⟩ := lift_inv k2
  rw [ep, Eff.bind_of_ok lift_some]
  rcases Eff.inv_bind2 h2 with ⟨u, q3, g3, k3, h3⟩ | ⟨o', k3, ho, rfl⟩
  case inr => exact Eff.bind_of_fail (zoom_inv k3).1 ho
  obtain ⟨j3, ht3⟩ := zoom_inv k3
  rw [Eff.bind_of_ok j3]
  obtain ⟨a3, b3⟩ := q3
  obtain rfl : b3 = t := by simpa [ht1] using ht3
  have h3' : (zoom (en b) >>= fun _ => Eff.self >>= fun q => zoom (ha q.2 q.1)) (b3, a3) g3 = some (o, q, g') := h3
  show (en b >>= fun _ => Eff.self >>= fun new => ha a3 new) b3 g3 = some (o, q.1, g')
  rcases Eff.inv_bind2 h3' with ⟨u, q4, g4, k4, h4⟩ | ⟨o', k4, ho, rfl⟩
  case inr => exact Eff.bind_of_fail (zoom_inv k4).1 ho
  obtain ⟨j4, ht4⟩ := zoom_inv k4
  rw [Eff.bind_of_ok j4]
  have h5 : zoom (ha q4.2 q4.1) q4 g4 = some (o, q, g') := h4
  rw [ht4] at h5
  exact (zoom_inv h5).1

end


/-! ## Whole calls -/

/-- The observation shows neither an entry action nor the hook after a transition. -/
def Obs.BeforeTarget (ob : Obs S) : Prop := ¬ ob.IsEntry ∧ ¬ ob.IsAfterTransition

theorem Adds.admissible (P : Obs S → Prop) : Lean.Order.admissible (fun x : Eff S σ α => Adds P x) := by
  have := Eff.admissible (S := S) (σ := σ) (α := α) fun _ g r =>
    ∃ L, r.2.2.trace = g.trace ++ L ∧ (∀ ob ∈ L, P ob) ∧ (r.1.isOk = false → L ≠ [])
  have e : (fun x : Eff S σ α => Adds P x) = fun x => ∀ s g r, x s g = some r →
      ∃ L, r.2.2.trace = g.trace ++ L ∧ (∀ ob ∈ L, P ob) ∧ (r.1.isOk = false → L ≠ []) := by
    funext x
    exact propext ⟨fun h s g r hr => h s g r.1 r.2.1 r.2.2 hr, fun h s g o s' g' hr => h s g (o, s', g') hr⟩
  rw [e]; exact this

/-- The observation is part of the dispatch of an event. -/
def Obs.OfDispatch : Obs S → Prop
  | .handler _ _ | .returned _ _ | .beforeDispatch _ _ | .afterDispatch _ _ => True
  | _ => False

theorem ofDispatch_hook (n : σ → StateOrSuperstate S.St S.Sup) (ev : S.Ev) (f : σ → S.M → Fut S.In S.M Unit) :
    Adds Obs.OfDispatch (Eff.hook (fun s => .beforeDispatch (n s) ev) f) ∧
    Adds Obs.OfDispatch (Eff.hook (fun s => .afterDispatch (n s) ev) f) :=
  ⟨Adds.hook (fun _ => trivial) _, Adds.hook (fun _ => trivial) _⟩

theorem ofDispatch_call (n : σ → StateOrSuperstate S.St S.Sup) (ev : S.Ev)
    (f : σ → S.M → S.Ctx → Fut S.In (σ × S.M × S.Ctx) (Response S.St)) :
    Adds Obs.OfDispatch (do
      let r ← Eff.callback (fun s => .handler (n s) ev) f
      Eff.log (fun s => .returned (n s) r)
      Pure.pure r) :=
  Adds.bind (.callback (fun _ => trivial) _) fun _ => Adds.bind (.log fun _ => trivial) fun _ => .pure _

theorem handle_ofDispatch (mode : Mode) (ev : S.Ev) : Adds Obs.OfDispatch (mode.handle m ev) := by
  cases mode with
  | blocking =>
    have hs : Adds Obs.OfDispatch (Blocking.supHandle m ev) := by
      refine Blocking.supHandle.fixpoint_induct m ev (fun x => Adds Obs.OfDispatch x) (Adds.admissible _) ?_
      intro f ih
      refine Adds.bind (ofDispatch_call _ _ _) fun r => ?_
      cases r with
      | handled => exact .pure _
      | transition t => exact .pure _
      | super =>
        refine Adds.bind (Adds.borrow (Adds.bind (ofDispatch_hook _ _ _).1 fun _ => ih.bind fun r =>
          Adds.bind (ofDispatch_hook _ _ _).2 fun _ => .pure _)) fun r => ?_
        cases r <;> exact .pure _
    refine Adds.bind (ofDispatch_hook _ _ _).1 fun _ => Adds.bind (ofDispatch_call _ _ _) fun r =>
      Adds.bind (ofDispatch_hook _ _ _).2 fun _ => ?_
    cases r with
    | handled => exact .pure _
    | transition t => exact .pure _
    | super =>
      refine Adds.bind (Adds.borrow (Adds.bind (ofDispatch_hook _ _ _).1 fun _ => hs.bind fun r =>
        Adds.bind (ofDispatch_hook _ _ _).2 fun _ => .pure _)) fun r => ?_
      cases r <;> exact .pure _
  | awaitable =>
    have hs : Adds Obs.OfDispatch (Awaitable.handleLoop m ev) := by
      refine Awaitable.handleLoop.fixpoint_induct m ev (fun x => Adds Obs.OfDispatch x) (Adds.admissible _) ?_
      intro f ih
      refine Adds.bind (ofDispatch_hook _ _ _).1 fun _ => Adds.bind (ofDispatch_call _ _ _) fun r =>
        Adds.bind (ofDispatch_hook _ _ _).2 fun _ => ?_
      cases r with
      | handled => exact .pure _
      | transition t => exact .pure _
      | super =>
        refine Adds.bind (Adds.borrow ih) fun r => ?_
        cases r <;> exact .pure _
    refine Adds.bind (ofDispatch_hook _ _ _).1 fun _ => Adds.bind (ofDispatch_call _ _ _) fun r =>
      Adds.bind (ofDispatch_hook _ _ _).2 fun _ => ?_
    cases r with
    | handled => exact .pure _
    | transition t => exact .pure _
    | super =>
      refine Adds.bind (Adds.borrow hs) fun r => ?_
      cases r <;> exact .pure _

theorem handle_beforeTarget (mode : Mode) (ev : S.Ev) : Adds Obs.BeforeTarget (mode.handle m ev) := by
  intro s g o s' g' h
  obtain ⟨L, e, p, n⟩ := handle_ofDispatch mode ev _ _ _ _ _ h
  refine ⟨L, e, fun ob hob => ?_, n⟩
  have := p ob hob
  cases ob with
  | handler => exact ⟨id, id⟩
  | returned => exact ⟨id, id⟩
  | beforeDispatch => exact ⟨id, id⟩
  | afterDispatch => exact ⟨id, id⟩
  | _ => exact this.elim

theorem targets_split {L : List (Obs S)} {t : S.St} (h : targets L = [t]) :
    ∃ pre n post, L = pre ++ .returned n (.transition t) :: post ∧ targets pre = [] ∧ targets post = [] := by
  induction L with
  | nil => cases h
  | cons ob L ih =>
    rw [show ob :: L = [ob] ++ L from rfl, targets_append] at h
    by_cases hob : targets [ob] = []
    · rw [hob, List.nil_append] at h
      obtain ⟨pre, n, post, rfl, h1, h2⟩ := ih h
      refine ⟨ob :: pre, n, post, rfl, ?_, h2⟩
      rw [show ob :: pre = [ob] ++ pre from rfl, targets_append, hob, h1]; rfl
    · cases ob with
      | returned n r =>
        cases r with
        | transition t' =>
          have h' : t' :: targets L = [t] := h
          injection h' with e1 e2
          subst e1
          exact ⟨[], n, L, rfl, rfl, e2⟩
        | handled => exact absurd rfl hob
        | super => exact absurd rfl hob
      | _ => exact absurd rfl hob

theorem not_reached {l : List (Obs S)} (h : ∀ ob ∈ l, ob.BeforeTarget) : ¬ reachedTarget l := by
  rintro (⟨n, hn⟩ | ⟨a, b, hn⟩)
  · exact (h _ hn).1 trivial
  · exact (h _ hn).2 trivial

/-- `transition` of the chosen mode. -/
def Mode.transitionTo (mode : Mode) (m : Machine S) (t : S.St) : Eff S S.St Unit :=
  match mode with
  | .blocking => Blocking.transition m t
  | .awaitable => Awaitable.transition m t

/-- `transition` of the chosen mode, with drops. -/
def Mode.ownedTransition (mode : Mode) (m : Machine S) (t : S.St) : Eff S (S.St × List (Drop S)) Unit :=
  match mode with
  | .blocking => blockingTransition m t
  | .awaitable => awaitableTransition m t

/-- `handle` of the chosen mode, with drops. -/
def Mode.ownedHandle (mode : Mode) (m : Machine S) (ev : S.Ev) : Eff S (S.St × List (Drop S)) (Response S.St) :=
  match mode with
  | .blocking => blockingHandle m ev
  | .awaitable => awaitableHandle m ev

theorem ownedHandle_up (mode : Mode) (ev : S.Ev) : Up (mode.handle m ev) (mode.ownedHandle m ev) := by
  cases mode with
  | blocking => exact blockingHandle_up ev
  | awaitable => exact awaitableHandle_up ev

theorem ownedHandle_down (mode : Mode) (ev : S.Ev) : Down (mode.handle m ev) (mode.ownedHandle m ev) := by
  cases mode with
  | blocking => exact blockingHandle_down ev
  | awaitable => exact awaitableHandle_down ev

/-- The hook before a transition, with its arguments in the order the mode uses. -/
def Mode.hookBefore (mode : Mode) (m : Machine S) (s t : S.St) : Eff S S.St Unit :=
  match mode with
  | .blocking => hookBeforeTransition m t s
  | .awaitable => hookBeforeTransition m s t

theorem transitionTo_eq (mode : Mode) (t : S.St) : mode.transitionTo m t =
    transitionBody (mode.hookBefore m) (transitionPath m) (mode.exit m) (mode.enter m) (hookAfterTransition m) t := by
  cases mode <;> rfl

theorem ownedTransition_eq (mode : Mode) (t : S.St) : mode.ownedTransition m t = owning t
    (ownedBody (mode.hookBefore m) (transitionPath m) (mode.exit m) (mode.enter m) (hookAfterTransition m)) := by
  cases mode <;> rfl

section
variable {T : Type} {tag : S.St → T}

theorem mode_enter_adds (mode : Mode) (n : Nat) : Adds Obs.IsEntry (mode.enter m n) := by
  cases mode with
  | blocking => exact enter_adds n
  | awaitable => exact awaitable_enter_adds n

theorem mode_exit_adds (mode : Mode) (n : Nat) : Adds Obs.IsExit (mode.exit m n) := by
  cases mode with
  | blocking => exact exit_adds n
  | awaitable => exact awaitable_exit_adds n

theorem mode_enter_tagged (hk : m.KeepsTag tag) (mode : Mode) (n : Nat) : Tagged tag (mode.enter m n) := by
  cases mode with
  | blocking => exact enter_tagged hk n
  | awaitable => exact awaitable_enter_tagged hk n

theorem mode_exit_tagged (hk : m.KeepsTag tag) (mode : Mode) (n : Nat) : Tagged tag (mode.exit m n) := by
  cases mode with
  | blocking => exact exit_tagged hk n
  | awaitable => exact awaitable_exit_tagged hk n

theorem hookBefore_adds (mode : Mode) (s t : S.St) :
    Adds (fun ob => ob.NoTarget ∧ ¬ ob.IsEntry ∧ ¬ ob.IsAfterTransition) (mode.hookBefore m s t) := by
  cases mode <;> (
    unfold Mode.hookBefore hookBeforeTransition
    refine Adds.hook ?_ _
    intro _
    exact ⟨rfl, id, id⟩)

theorem hookBefore_keeps (mode : Mode) (s t : S.St) : Keeps (mode.hookBefore m s t) := by
  cases mode <;> (
    unfold Mode.hookBefore hookBeforeTransition
    exact Keeps.hook _ _)

theorem transition_up (hk : m.KeepsTag tag) (mode : Mode) {t s : S.St} {g : Glob S} {o s' g'}
    (h : mode.transitionTo m t s g = some (o, s', g')) :
    ∃ L v, g'.trace = g.trace ++ L ∧ targets L = [] ∧
      (∀ l, mode.ownedTransition m t (s, l) g = some (o, (s', l ++ [⟨g'.trace.length, v⟩]), g')) ∧
      Leftover tag L s t s' v o := by
  rw [transitionTo_eq] at h
  obtain ⟨L, v, e, hn, hb, hl⟩ := transitionBody_up (tag := tag)
    (hookBefore_adds mode _ _)
    (hookBefore_keeps mode _ _) (mode_exit_adds mode) (mode_exit_tagged hk mode) (mode_enter_adds mode)
    (mode_enter_tagged hk mode) h
  refine ⟨L, v, e, hn, fun l => ?_, hl⟩
  rw [ownedTransition_eq]
  unfold owning
  simp only [hb]

theorem transition_down (mode : Mode) {t : S.St} : Down (mode.transitionTo m t) (mode.ownedTransition m t) := by
  intro p g o q g' h
  rw [ownedTransition_eq] at h
  unfold owning at h
  split at h
  · cases h
  · rename_i hy
    cases h
    rw [transitionTo_eq]
    exact ownedBody_down hy

/-- `handle_with_context` of `Inner`, in the chosen mode. -/
def Mode.plainHandleEvent (mode : Mode) (m : Machine S) (ev : S.Ev) : Eff S S.St Unit :=
  match mode with
  | .blocking => Blocking.handleEvent m ev
  | .awaitable => Awaitable.handleEvent m ev

/-- `handle_with_context` of `Inner`, in the chosen mode, with drops. -/
def Mode.ownedHandleEvent (mode : Mode) (m : Machine S) (ev : S.Ev) : Eff S (S.St × List (Drop S)) Unit :=
  match mode with
  | .blocking => blockingHandleEvent m ev
  | .awaitable => awaitableHandleEvent m ev

theorem handleEvent_eq (mode : Mode) (ev : S.Ev) : mode.plainHandleEvent m ev = (mode.handle m ev >>= fun r =>
    match r with
    | .super => Pure.pure ()
    | .handled => Pure.pure ()
    | .transition t => mode.transitionTo m t) := by cases mode <;> rfl

theorem ownedHandleEvent_eq (mode : Mode) (ev : S.Ev) : mode.ownedHandleEvent m ev = (mode.ownedHandle m ev >>= fun r =>
    match r with
    | .super => Pure.pure ()
    | .handled => Pure.pure ()
    | .transition t => mode.ownedTransition m t) := by cases mode <;> rfl

theorem handleEvent_down (mode : Mode) (ev : S.Ev) : Down (mode.plainHandleEvent m ev) (mode.ownedHandleEvent m ev) := by
  rw [handleEvent_eq, ownedHandleEvent_eq]
  refine Down.bind (ownedHandle_down mode ev) fun r => ?_
  cases r with
  | handled => exact .pure _
  | super => exact .pure _
  | transition t => exact transition_down mode

theorem handleEvent_up (hk : m.KeepsTag tag) (mode : Mode) (ev : S.Ev) {s : S.St} {g : Glob S} {o s' g'}
    (h : mode.plainHandleEvent m ev s g = some (o, s', g')) (hg : g.trace = []) :
    ∃ d, mode.ownedHandleEvent m ev (s, []) g = some (o, (s', d), g') ∧ Dropping tag s s' g'.trace o d := by
  rw [handleEvent_eq] at h
  rw [ownedHandleEvent_eq]
  rcases Eff.inv_bind2 h with ⟨r, s1, g1, k1, k2⟩ | ⟨o', k1, ho, rfl⟩
  · obtain ⟨L1, e1, p1⟩ := ownedHandle_up mode ev _ _ _ _ _ k1
    have t1 := handle_tagged hk mode ev _ _ _ _ _ k1
    obtain ⟨d, hd, rfl, fd⟩ := p1 []
    rw [hg, List.nil_append] at e1
    rw [List.append_nil] at hd
    cases r with
    | handled =>
      cases k2
      exact ⟨[], by rw [Eff.bind_of_ok hd]; rfl, .nothing (by rw [e1]; exact fd) t1⟩
    | super =>
      cases k2
      exact ⟨[], by rw [Eff.bind_of_ok hd]; rfl, .nothing (by rw [e1]; exact fd) t1⟩
    | transition t =>
      obtain ⟨L2, v, e2, n2, hv, hl⟩ := transition_up hk mode k2
      refine ⟨[⟨g'.trace.length, v⟩], by rw [Eff.bind_of_ok hd]; exact hv [], ?_⟩
      obtain ⟨pre, n, post, rfl, hpre, hpost⟩ := targets_split fd
      have ht : g'.trace = pre ++ .returned n (.transition t) :: (post ++ L2) := by rw [e2, e1]; simp
      have hq : ∀ ob ∈ post, ob.BeforeTarget := by
        obtain ⟨L1', e1', q1, -⟩ := handle_beforeTarget mode ev _ _ _ _ _ k1
        rw [hg, List.nil_append, e1] at e1'
        intro ob hob
        exact q1 ob (by rw [← e1']; simp [hob])
      rcases hl with ⟨ho, rfl, hs, hnot⟩ | ⟨hs, hv', hok, hfail⟩
      · refine .target ht hpre (by rw [targets_append, hpost, n2]; rfl) (not_reached fun ob hob => ?_)
          (by rintro rfl; cases ho) (hs.trans t1)
        rcases List.mem_append.1 hob with hob | hob
        · exact hq ob hob
        · exact hnot ob hob
      · refine .source ht hpre (by rw [targets_append, hpost, n2]; rfl) ?_ hs (hv'.trans t1) ?_
        · cases hb : o.isOk with
          | true =>
            obtain ⟨L0, rfl⟩ := hok hb
            exact .inr ⟨v, s', by simp⟩
          | false =>
            rcases hfail hb with ⟨⟨ob, hob, hent⟩, -⟩ | ⟨L0, rfl⟩
            · cases ob with
              | entry n => exact .inl ⟨n, by simp [hob]⟩
              | _ => exact hent.elim
            · exact .inr ⟨v, s', by simp⟩
        · intro hc
          have key : ∃ L0, L2 = L0 ++ [.afterTransition v s'] := by
            cases hb : o.isOk with
            | true => exact hok hb
            | false =>
              rcases hfail hb with ⟨-, hno⟩ | h
              · exfalso
                rcases hc with rfl | ⟨a, b, hab⟩
                · cases hb
                · rcases List.mem_append.1 hab with hab | hab
                  · exact (hq _ hab).2 trivial
                  · exact hno _ hab trivial
              · exact h
          obtain ⟨L0, rfl⟩ := key
          simp
  · obtain ⟨L1, e1, p1⟩ := ownedHandle_up mode ev _ _ _ _ _ k1
    have t1 := handle_tagged hk mode ev _ _ _ _ _ k1
    obtain ⟨d, hd, fd⟩ := p1 []
    rw [List.nil_append] at hd
    have fd' : d = (targets L1).map (Drop.mk g'.trace.length) ∧ (targets L1).length ≤ 1 := by
      cases o' with
      | ok r => cases ho
      | panic => exact fd
      | stopped => exact fd
    obtain ⟨rfl, hlen⟩ := fd'
    refine ⟨_, Eff.bind_of_fail hd ho, ?_⟩
    rw [hg, List.nil_append] at e1
    cases ht : targets L1 with
    | nil => exact .nothing (by rw [e1]; exact ht) t1
    | cons t l =>
      rw [ht] at hlen
      obtain rfl : l = [] := by cases l with
        | nil => rfl
        | cons a b => simp at hlen
      obtain ⟨pre, n, post, rfl, hpre, hpost⟩ := targets_split ht
      refine .target e1 hpre hpost (not_reached fun ob hob => ?_) (fun h => ?_) t1
      · obtain ⟨L1', e1', q1, -⟩ := handle_beforeTarget mode ev _ _ _ _ _ k1
        rw [hg, List.nil_append, e1] at e1'
        exact q1 ob (by rw [← e1']; simp [hob])
      · have := Out.isOk_cast (β := Unit) o'
        rw [h] at this
        cases this

end


/-! ## The API -/

section
variable {T : Type} {tag : S.St → T}

theorem inner_handleOwned_call {mode : Mode} {i : Inner S} {ev : S.Ev} {ctx : S.Ctx} {sched : List S.In}
    {c : OwnedCall S (Inner S)} (h : i.handleOwned mode m ev ctx sched = some c) :
    i.handle mode m ev ctx sched = some c.call := by
  have h' : (match mode.ownedHandleEvent m ev (i.state, []) ⟨i.shared, ctx, sched, []⟩ with
    | none => none
    | some (o, q, g) => some (⟨⟨o, ⟨g.sh, q.1⟩, g.ctx, g.sched, g.trace⟩, q.2⟩ : OwnedCall S (Inner S))) = some c := by
    cases mode <;> exact h
  cases e : mode.ownedHandleEvent m ev (i.state, []) ⟨i.shared, ctx, sched, []⟩ with
  | none => rw [e] at h'; cases h'
  | some r =>
    obtain ⟨o, q, g⟩ := r
    rw [e] at h'
    cases h'
    have := handleEvent_down mode ev _ _ _ _ _ e
    cases mode <;> (
      unfold Inner.handle Inner.run
      simp only [Mode.plainHandleEvent] at this
      simp only [this])

theorem inner_handle_owned (hk : m.KeepsTag tag) {mode : Mode} {i : Inner S} {ev : S.Ev} {ctx : S.Ctx} {sched : List S.In}
    {c : Call S (Inner S)} (h : i.handle mode m ev ctx sched = some c) :
    ∃ d, i.handleOwned mode m ev ctx sched = some ⟨c, d⟩ ∧
      Dropping tag i.state c.self.state c.trace c.out d := by
  have h' : i.run (mode.plainHandleEvent m ev) ctx sched = some c := by cases mode <;> exact h
  unfold Inner.run at h'
  cases e : mode.plainHandleEvent m ev i.state ⟨i.shared, ctx, sched, []⟩ with
  | none => rw [e] at h'; cases h'
  | some r =>
    obtain ⟨o, s', g⟩ := r
    rw [e] at h'
    cases h'
    obtain ⟨d, hd, hD⟩ := handleEvent_up hk mode ev e rfl
    refine ⟨d, ?_, hD⟩
    cases mode <;> (
      unfold Inner.handleOwned
      simp only [Mode.ownedHandleEvent] at hd
      simp only [hd])

theorem Fut.all_of {In W : Type} {P : W → Prop} (hP : ∀ w, P w) (f : Fut In W α) : f.All P := by
  induction f with
  | done w a => exact .done (hP w)
  | panic w => exact .panic (hP w)
  | pending w k ih => exact .pending (hP w) ih

theorem noTag : m.KeepsTag fun _ : S.St => () where
  handler s sh ev c := Fut.all_of (fun _ => rfl) _
  entry s sh c := Fut.all_of (fun _ => rfl) _
  exit s sh c := Fut.all_of (fun _ => rfl) _
  superstate _ _ _ _ _ := rfl

theorem inner_handleOwned_dropping (hk : m.KeepsTag tag) {mode : Mode} {i : Inner S} {ev : S.Ev} {ctx : S.Ctx}
    {sched : List S.In} {c : OwnedCall S (Inner S)} (h : i.handleOwned mode m ev ctx sched = some c) :
    Dropping tag i.state c.call.self.state c.call.trace c.call.out c.drops := by
  obtain ⟨d, hd, hD⟩ := inner_handle_owned hk (inner_handleOwned_call h)
  obtain ⟨c, d'⟩ := c
  rw [h] at hd
  cases hd
  exact hD

theorem inner_handleOwned_map {mode : Mode} {i : Inner S} {ev : S.Ev} {ctx : S.Ctx} {sched : List S.In} :
    (i.handleOwned mode m ev ctx sched).map (·.call) = i.handle mode m ev ctx sched := by
  cases h : i.handle mode m ev ctx sched with
  | some c =>
    obtain ⟨d, hd, -⟩ := inner_handle_owned noTag h
    rw [hd]; rfl
  | none =>
    cases h' : i.handleOwned mode m ev ctx sched with
    | none => rfl
    | some c => rw [inner_handleOwned_call h'] at h; cases h

/-- Initialization: entry actions only. -/
theorem inner_init_quiet (hk : m.KeepsTag tag) {mode : Mode} {i : Inner S} {ctx : S.Ctx} {sched : List S.In}
    {c : Call S (Inner S)} (h : i.init mode m ctx sched = some c) :
    targets c.trace = [] ∧ tag c.self.state = tag i.state := by
  have h' : i.run (do
      let s ← Eff.self
      let n ← Eff.lift ((depth m s).map .ok)
      mode.enter m n) ctx sched = some c := by cases mode <;> exact h
  unfold Inner.run at h'
  split at h'
  · cases h'
  · rename_i o st g hx
    cases h'
    have hx' : (Eff.lift ((depth m i.state).map .ok) >>= fun n => mode.enter m n) i.state ⟨i.shared, ctx, sched, []⟩ =
      some (o, st, g) := hx
    rcases Eff.inv_bind2 hx' with ⟨n, s1, g1, k1, k2⟩ | ⟨o', k1, ho, rfl⟩
    · obtain ⟨-, rfl, rfl⟩ := lift_inv k1
      obtain ⟨L, e, p, -⟩ := mode_enter_adds mode n _ _ _ _ _ k2
      refine ⟨?_, mode_enter_tagged hk mode n _ _ _ _ _ k2⟩
      show targets g.trace = []
      rw [e]
      refine targets_eq_nil fun ob hob => ?_
      have := p ob hob
      cases ob with
      | entry n => rfl
      | _ => exact this.elim
    · obtain ⟨ep, -, -⟩ := lift_inv k1
      exfalso
      cases hd : depth m i.state with
      | none => rw [hd] at ep; cases ep
      | some n => rw [hd] at ep; cases ep; cases ho

/-- Observations before a call that finds `s0` do not matter, if they leave `s`. -/
theorem Dropping.shift {s0 s now : S.St} {trace pre0 : List (Obs S)} {out : Out Unit} {d : List (Drop S)}
    (h : Dropping tag s now trace out d) (hs : tag s = tag s0) (hp : targets pre0 = []) :
    Dropping tag s0 now (pre0 ++ trace) out (d.map fun x => ⟨pre0.length + x.time, x.value⟩) := by
  cases h with
  | nothing h1 h2 => exact .nothing (by rw [targets_append, hp, h1]; rfl) (h2.trans hs)
  | target h1 h2 h3 h4 h5 h6 =>
    rename_i pre n t post
    have := Dropping.target (tag := tag) (before := s0) (now := now) (trace := pre0 ++ trace) (out := out)
      (pre := pre0 ++ pre) (n := n) (t := t) (post := post)
      (by rw [h1]; simp) (by rw [targets_append, hp, h2]; rfl) h3 h4 h5 (h6.trans hs)
    simpa using this
  | source h1 h2 h3 h4 h5 h6 h7 =>
    rename_i pre n t post v
    have := Dropping.source (tag := tag) (before := s0) (now := now) (trace := pre0 ++ trace) (out := out)
      (pre := pre0 ++ pre) (n := n) (t := t) (post := post) (v := v)
      (by rw [h1]; simp) (by rw [targets_append, hp, h2]; rfl) h3 h4 h5 (h6.trans hs) h7
    simpa using this

theorem execOwned_map {mode : Mode} {sm : StateMachine S} (cmd : Command S) :
    (cmd.execOwned mode m sm).map (·.call) = cmd.exec mode m sm := by
  cases cmd with
  | init ctx sched =>
    simp [Command.execOwned, Command.exec, Function.comp_def]
  | handle ev ctx sched =>
    simp only [Command.execOwned, Command.exec, StateMachine.handleOwned, StateMachine.handleWithContext]
    split
    · cases hi : sm.inner.init mode m ctx sched with
      | none => rfl
      | some c =>
        simp only [Option.bind_eq_bind, Option.bind_some]
        cases ho : c.out with
        | ok u =>
          simp only
          rw [← inner_handleOwned_map]
          cases c.self.handleOwned mode m ev c.ctx c.sched <;> rfl
        | panic => rfl
        | stopped => rfl
    · rw [← inner_handleOwned_map]
      cases sm.inner.handleOwned mode m ev ctx sched <;> rfl

theorem execOwned_dropping (hk : m.KeepsTag tag) {mode : Mode} {sm : StateMachine S} {cmd : Command S}
    {c : OwnedCall S (StateMachine S)} (h : cmd.execOwned mode m sm = some c) :
    Dropping tag sm.state c.call.self.state c.call.trace c.call.out c.drops := by
  cases cmd with
  | init ctx sched =>
    simp only [Command.execOwned, StateMachine.initWithContext] at h
    split at h
    · cases hi : sm.inner.init mode m ctx sched with
      | none => rw [hi] at h; cases h
      | some c0 =>
        obtain ⟨h1, h2⟩ := inner_init_quiet hk hi
        rw [hi] at h
        simp only [Option.bind_eq_bind, Option.bind_some] at h
        cases ho : c0.out with
        | ok u => rw [ho] at h; cases h; exact .nothing h1 h2
        | panic => rw [ho] at h; cases h; exact .nothing h1 h2
        | stopped => rw [ho] at h; cases h; exact .nothing h1 h2
    · cases h; exact .nothing rfl rfl
  | handle ev ctx sched =>
    simp only [Command.execOwned, StateMachine.handleOwned] at h
    split at h
    · cases hi : sm.inner.init mode m ctx sched with
      | none => rw [hi] at h; cases h
      | some c0 =>
        obtain ⟨h1, h2⟩ := inner_init_quiet hk hi
        rw [hi] at h
        simp only [Option.bind_eq_bind, Option.bind_some] at h
        cases ho : c0.out with
        | ok u =>
          rw [ho] at h
          simp only at h
          cases hh : c0.self.handleOwned mode m ev c0.ctx c0.sched with
          | none => rw [hh] at h; cases h
          | some d =>
            rw [hh] at h
            cases h
            exact (inner_handleOwned_dropping hk hh).shift h2 h1
        | panic => rw [ho] at h; cases h; exact .nothing h1 h2
        | stopped => rw [ho] at h; cases h; exact .nothing h1 h2
    · cases hh : sm.inner.handleOwned mode m ev ctx sched with
      | none => rw [hh] at h; cases h
      | some d =>
        rw [hh] at h
        cases h
        exact inner_handleOwned_dropping hk hh

theorem Dropping.balance {before now : S.St} {trace : List (Obs S)} {out : Out Unit} {d : List (Drop S)}
    (h : Dropping tag before now trace out d) :
    (tag now :: d.map fun x => tag x.value).Perm (tag before :: (targets trace).map tag) := by
  cases h with
  | nothing h1 h2 => simp [h1, h2]
  | target h1 h2 h3 h4 h5 h6 =>
    rename_i pre n t post
    have : targets trace = [t] := by
      rw [h1, targets_append, show (Obs.returned n (Response.transition t)) :: post =
        [.returned n (.transition t)] ++ post from rfl, targets_append, h2, h3]; rfl
    rw [this, h6]; exact .refl _
  | source h1 h2 h3 h4 h5 h6 h7 =>
    rename_i pre n t post v
    have : targets trace = [t] := by
      rw [h1, targets_append, show (Obs.returned n (Response.transition t)) :: post =
        [.returned n (.transition t)] ++ post from rfl, targets_append, h2, h3]; rfl
    rw [this, h5]
    simp only [List.map_cons, List.map_nil, h6]
    exact .swap _ _ _

theorem ownedHistory_balance (hk : m.KeepsTag tag) {mode : Mode} {sm sm' : StateMachine S}
    {l : List (OwnedCall S (StateMachine S))} (h : OwnedHistory mode m sm l sm') :
    (tag sm'.state :: l.flatMap fun c => c.drops.map fun x => tag x.value).Perm
      (tag sm.state :: l.flatMap fun c => (targets c.call.trace).map tag) := by
  induction h with
  | nil => exact .refl _
  | @cons sm cmd c l sm' h1 _ ih =>
    have hb := (execOwned_dropping hk h1).balance
    simp only [List.flatMap_cons]
    have e1 : (tag sm'.state :: ((c.drops.map fun x => tag x.value) ++
        l.flatMap fun c => c.drops.map fun x => tag x.value)).Perm
        ((c.drops.map fun x => tag x.value) ++ (tag sm'.state :: l.flatMap fun c => c.drops.map fun x => tag x.value)) :=
      (List.perm_middle).symm
    refine e1.trans ((ih.append_left _).trans ?_)
    refine List.perm_middle.trans ?_
    have := hb.append_right (l.flatMap fun c => (targets c.call.trace).map tag)
    simpa using this

theorem initialized_handleOwned_map {mode : Mode} {sm : InitializedStateMachine S} {ev : S.Ev} {ctx : S.Ctx}
    {sched : List S.In} :
    (sm.handleOwned mode m ev ctx sched).map (·.call) = sm.handleWithContext mode m ev ctx sched := by
  simp only [InitializedStateMachine.handleOwned, InitializedStateMachine.handleWithContext]
  rw [← inner_handleOwned_map]
  cases sm.inner.handleOwned mode m ev ctx sched <;> rfl

theorem initialized_handleOwned_dropping (hk : m.KeepsTag tag) {mode : Mode} {sm : InitializedStateMachine S} {ev : S.Ev}
    {ctx : S.Ctx} {sched : List S.In} {c : OwnedCall S (InitializedStateMachine S)}
    (h : sm.handleOwned mode m ev ctx sched = some c) :
    Dropping tag sm.state c.call.self.state c.call.trace c.call.out c.drops := by
  simp only [InitializedStateMachine.handleOwned] at h
  cases hh : sm.inner.handleOwned mode m ev ctx sched with
  | none => rw [hh] at h; cases h
  | some d =>
    rw [hh] at h
    cases h
    exact inner_handleOwned_dropping hk hh

theorem uninitialized_initOwned_map {mode : Mode} {sm : UninitializedStateMachine S} {ctx : S.Ctx} {sched : List S.In} :
    (sm.initOwned mode m ctx sched).map (·.call) = sm.initWithContext mode m ctx sched := by
  simp only [UninitializedStateMachine.initOwned, UninitializedStateMachine.initWithContext]
  cases sm.inner.init mode m ctx sched with
  | none => rfl
  | some c =>
    simp only [Option.bind_eq_bind, Option.bind_some]
    cases c.out <;> rfl

theorem uninitialized_initOwned_drops (hk : m.KeepsTag tag) {mode : Mode} {sm : UninitializedStateMachine S} {ctx : S.Ctx}
    {sched : List S.In} {c : OwnedCall S (Option (InitializedStateMachine S))}
    (h : sm.initOwned mode m ctx sched = some c) :
    (∃ i, c.call.self = some i ∧ c.drops = [] ∧ tag i.state = tag sm.inner.state) ∨
    (c.call.self = none ∧ ∃ v, c.drops = [⟨c.call.trace.length, v⟩] ∧ tag v = tag sm.inner.state) := by
  simp only [UninitializedStateMachine.initOwned] at h
  cases hi : sm.inner.init mode m ctx sched with
  | none => rw [hi] at h; cases h
  | some c0 =>
    obtain ⟨-, h2⟩ := inner_init_quiet hk hi
    rw [hi] at h
    simp only [Option.bind_eq_bind, Option.bind_some] at h
    cases ho : c0.out with
    | ok u => rw [ho] at h; cases h; exact .inl ⟨_, rfl, rfl, h2⟩
    | panic => rw [ho] at h; cases h; exact .inr ⟨rfl, _, rfl, h2⟩
    | stopped => rw [ho] at h; cases h; exact .inr ⟨rfl, _, rfl, h2⟩

end

end Statig
