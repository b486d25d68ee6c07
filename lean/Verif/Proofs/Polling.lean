import Verif.Spec.Polling
import Verif.Proofs.StateMachine
import Verif.Proofs.Modes
/-!
# Polling a call further, and calls that are polled long enough

`IncrTo x y`: what `y` does with a longer schedule than `x`.  `Live P x`: from a `self` with the property `P`,
`x` ends if it is polled often enough.
-/
namespace Statig
variable {S : Sig} {σ τ α β : Type}

theorem firstInputs_add {In : Type} (f : Nat → In) (n k : Nat) :
    firstInputs f (n + k) = firstInputs f n ++ firstInputs (fun i => f (n + i)) k := by
  unfold firstInputs
  rw [List.range_add, List.map_append, List.map_map]
  rfl

/-- The same, with more inputs to come. -/
def Glob.more (g : Glob S) (t : List S.In) : Glob S := { g with sched := g.sched ++ t }

/-- The same, with other inputs to come. -/
def Glob.withSched (g : Glob S) (t : List S.In) : Glob S := { g with sched := t }

/-- The log only grows. -/
def Ext (x : Eff S σ α) : Prop :=
  ∀ s g o s' g', x s g = some (o, s', g') → g.trace <+: g'.trace

/-- See the module comment. -/
def IncrTo (x y : Eff S σ α) : Prop :=
  ∀ s g t o s' g', x s g = some (o, s', g') →
    (o ≠ .stopped → y s (g.more t) = some (o, s', g'.more t)) ∧
    (o = .stopped → g'.sched = [] ∧
      ∀ o2 s2 g2, y s (g.more t) = some (o2, s2, g2) → g'.trace <+: g2.trace)

/-- Both. -/
def Incr (x : Eff S σ α) : Prop := Ext x ∧ IncrTo x x

theorem Fut.run_more {In W : Type} (f : Fut In W α) (l t : List In) :
    ((f.run l).1 ≠ .stopped → f.run (l ++ t) = ((f.run l).1, (f.run l).2.1, (f.run l).2.2 ++ t)) ∧
    ((f.run l).1 = .stopped → (f.run l).2.2 = []) := by
  induction f generalizing l with
  | done w a => exact ⟨fun _ => rfl, fun h => by cases h⟩
  | panic w => exact ⟨fun _ => rfl, fun h => by cases h⟩
  | pending w k ih =>
    cases l with
    | nil => exact ⟨fun h => absurd rfl h, fun _ => rfl⟩
    | cons i l => exact ih i l

namespace Ext

theorem pure (a : α) : Ext (Pure.pure a : Eff S σ α) := by
  intro s g o s' g' h; cases h; exact List.prefix_rfl

theorem bind {x : Eff S σ α} {f : α → Eff S σ β} (hx : Ext x) (hf : ∀ a, Ext (f a)) : Ext (x >>= f) := by
  intro s g o s' g' h
  simp only [Eff.bind_def, Eff.bind] at h
  cases hr : x s g with
  | none => simp [hr] at h
  | some r =>
    obtain ⟨o1, s1, g1⟩ := r
    rw [hr] at h
    have := hx s g _ s1 g1 hr
    cases o1 with
    | ok a => exact this.trans (hf a s1 g1 o s' g' h)
    | panic => cases h; exact this
    | stopped => cases h; exact this

theorem borrow {sup : σ → Option (τ × (τ → σ))} {x : Eff S τ α} (hx : Ext x) : Ext (Eff.borrow sup x) := by
  intro s g o s' g' h
  unfold Eff.borrow at h
  cases hs : sup s with
  | none => rw [hs] at h; cases h; exact List.prefix_rfl
  | some p =>
    obtain ⟨v, back⟩ := p
    rw [hs] at h
    simp only at h
    cases hr : x v g with
    | none => simp [hr] at h
    | some r =>
      obtain ⟨o1, v1, g1⟩ := r
      rw [hr] at h
      cases h
      exact hx v g _ v1 _ hr

theorem admissible : Lean.Order.admissible (fun x : Eff S σ α => Ext x) := by
  open Lean.Order in
  apply admissible_pi; intro s
  apply admissible_pi; intro g
  let P : Option (Out α × σ × Glob S) → Prop := fun r => ∀ (o : Out α) (t : σ) (h : Glob S),
      r = some (o, t, h) → g.trace <+: h.trace
  have hP : Lean.Order.admissible P := by
    apply admissible_flatOrder (α := Option (Out α × σ × Glob S)) (b := none)
    intro o t h hn
    cases hn
  exact admissible_apply (β := fun _ : σ => Glob S → Option (Out α × σ × Glob S)) (fun _ f => P (f g)) s
    (admissible_apply (β := fun _ : Glob S => Option (Out α × σ × Glob S)) (fun _ r => P r) g hP)

end Ext

namespace IncrTo

theorem pure (a : α) : IncrTo (Pure.pure a : Eff S σ α) (Pure.pure a) := by
  intro s g t o s' g' h
  cases h
  exact ⟨fun _ => rfl, fun h => by cases h⟩

theorem bind {x y : Eff S σ α} {f h : α → Eff S σ β} (hx : IncrTo x y) (hf : ∀ a, IncrTo (f a) (h a))
    (hh : ∀ a, Ext (h a)) : IncrTo (x >>= f) (y >>= h) := by
  intro s g t o s' g' hr
  simp only [Eff.bind_def, Eff.bind] at hr ⊢
  cases hxs : x s g with
  | none => simp [hxs] at hr
  | some r =>
    obtain ⟨o1, s1, g1⟩ := r
    rw [hxs] at hr
    obtain ⟨k1, k2⟩ := hx s g t o1 s1 g1 hxs
    cases o1 with
    | ok a =>
      rw [k1 (by simp)]
      exact hf a s1 g1 t o s' g' hr
    | panic =>
      cases hr
      rw [k1 (by simp)]
      exact ⟨fun _ => rfl, fun h => by cases h⟩
    | stopped =>
      cases hr
      obtain ⟨k2, k3⟩ := k2 rfl
      refine ⟨fun h => absurd rfl h, fun _ => ⟨k2, ?_⟩⟩
      intro o2 s2 g2 hy
      cases hys : y s (g.more t) with
      | none => simp [hys] at hy
      | some r2 =>
        obtain ⟨o3, s3, g3⟩ := r2
        have k4 := k3 o3 s3 g3 hys
        rw [hys] at hy
        cases o3 with
        | ok a => exact k4.trans (hh a s3 g3 o2 s2 g2 hy)
        | panic => cases hy; exact k4
        | stopped => cases hy; exact k4

theorem borrow {sup : σ → Option (τ × (τ → σ))} {x y : Eff S τ α} (hx : IncrTo x y) :
    IncrTo (Eff.borrow sup x) (Eff.borrow sup y) := by
  intro s g t o s' g' h
  unfold Eff.borrow at h ⊢
  cases hs : sup s with
  | none =>
    rw [hs] at h; cases h
    exact ⟨fun _ => rfl, fun h => by cases h⟩
  | some p =>
    obtain ⟨v, back⟩ := p
    rw [hs] at h
    simp only at h ⊢
    cases hr : x v g with
    | none => simp [hr] at h
    | some r =>
      obtain ⟨o1, v1, g1⟩ := r
      rw [hr] at h
      cases h
      obtain ⟨k1, k2⟩ := hx v g t o1 v1 _ hr
      refine ⟨fun hn => ?_, fun hn => ?_⟩
      · rw [k1 (by rintro rfl; exact hn rfl)]
      · have hn : o1 = .stopped := by cases o1 <;> simp_all [Out.map]
        obtain ⟨k3, k4⟩ := k2 hn
        refine ⟨k3, fun o2 s2 g2 hy => ?_⟩
        cases hyv : y v (g.more t) with
        | none => simp [hyv] at hy
        | some r2 =>
          obtain ⟨o3, v3, g3⟩ := r2
          rw [hyv] at hy
          cases hy
          exact k4 _ _ _ hyv

theorem admissible (y : Eff S σ α) : Lean.Order.admissible (fun x : Eff S σ α => IncrTo x y) := by
  open Lean.Order in
  apply admissible_pi; intro s
  apply admissible_pi; intro g
  apply admissible_pi; intro t
  let P : Option (Out α × σ × Glob S) → Prop := fun r => ∀ (o : Out α) (s' : σ) (g' : Glob S),
      r = some (o, s', g') → (o ≠ .stopped → y s (g.more t) = some (o, s', g'.more t)) ∧
    (o = .stopped → g'.sched = [] ∧
      ∀ o2 s2 g2, y s (g.more t) = some (o2, s2, g2) → g'.trace <+: g2.trace)
  have hP : Lean.Order.admissible P := by
    apply admissible_flatOrder (α := Option (Out α × σ × Glob S)) (b := none)
    intro o t h hn
    cases hn
  exact admissible_apply (β := fun _ : σ => Glob S → Option (Out α × σ × Glob S)) (fun _ f => P (f g)) s
    (admissible_apply (β := fun _ : Glob S => Option (Out α × σ × Glob S)) (fun _ r => P r) g hP)

end IncrTo

namespace Incr

theorem pure (a : α) : Incr (Pure.pure a : Eff S σ α) := ⟨Ext.pure a, IncrTo.pure a⟩

theorem bind {x : Eff S σ α} {f : α → Eff S σ β} (hx : Incr x) (hf : ∀ a, Incr (f a)) : Incr (x >>= f) :=
  ⟨hx.1.bind fun a => (hf a).1, hx.2.bind (fun a => (hf a).2) fun a => (hf a).1⟩

theorem borrow {sup : σ → Option (τ × (τ → σ))} {x : Eff S τ α} (hx : Incr x) : Incr (Eff.borrow sup x) :=
  ⟨hx.1.borrow, hx.2.borrow⟩

theorem self : Incr (Eff.self : Eff S σ σ) := by
  refine ⟨fun s g o s' g' h => ?_, fun s g t o s' g' h => ?_⟩
  · cases h; exact List.prefix_rfl
  · cases h; exact ⟨fun _ => rfl, fun h => by cases h⟩

theorem swap (n : σ) : Incr (Eff.swap n : Eff S σ σ) := by
  refine ⟨fun s g o s' g' h => ?_, fun s g t o s' g' h => ?_⟩
  · cases h; exact List.prefix_rfl
  · cases h; exact ⟨fun _ => rfl, fun h => by cases h⟩

theorem lift {x : Option (Out α)} (hx : x ≠ some .stopped) : Incr (Eff.lift x : Eff S σ α) := by
  refine ⟨fun s g o s' g' h => ?_, fun s g t o s' g' h => ?_⟩
  · unfold Eff.lift at h
    cases x with
    | none => cases h
    | some o => cases h; exact List.prefix_rfl
  · unfold Eff.lift at h ⊢
    cases x with
    | none => cases h
    | some o =>
      cases h
      exact ⟨fun _ => rfl, fun h => absurd (congrArg some h) hx⟩

theorem log (o : σ → Obs S) : Incr (Eff.log o) := by
  refine ⟨fun s g o s' g' h => ?_, fun s g t o s' g' h => ?_⟩
  · cases h; exact List.prefix_append _ _
  · cases h; exact ⟨fun _ => rfl, fun h => by cases h⟩

theorem callback (o : σ → Obs S) (f : σ → S.M → S.Ctx → Fut S.In (σ × S.M × S.Ctx) α) :
    Incr (Eff.callback o f) := by
  refine ⟨fun s g o' s' g' h => ?_, fun s g t o' s' g' h => ?_⟩
  · unfold Eff.callback at h
    cases h
    exact List.prefix_append _ _
  · unfold Eff.callback at h ⊢
    obtain ⟨k1, k2⟩ := Fut.run_more (f s g.sh g.ctx) g.sched t
    cases h
    refine ⟨fun hn => ?_, fun hn => ⟨k2 hn, ?_⟩⟩
    · show some _ = _
      rw [show (f s (g.more t).sh (g.more t).ctx).run (g.more t).sched =
        (f s g.sh g.ctx).run (g.sched ++ t) from rfl, k1 hn]
      rfl
    · intro o2 s2 g2 h
      cases h
      exact List.prefix_rfl

theorem hook (o : σ → Obs S) (f : σ → S.M → Fut S.In S.M Unit) : Incr (Eff.hook o f) := by
  refine ⟨fun s g o' s' g' h => ?_, fun s g t o' s' g' h => ?_⟩
  · unfold Eff.hook at h
    cases h
    exact List.prefix_append _ _
  · unfold Eff.hook at h ⊢
    obtain ⟨k1, k2⟩ := Fut.run_more (f s g.sh) g.sched t
    cases h
    refine ⟨fun hn => ?_, fun hn => ⟨k2 hn, ?_⟩⟩
    · show some _ = _
      rw [show (f s (g.more t).sh).run (g.more t).sched = (f s g.sh).run (g.sched ++ t) from rfl, k1 hn]
      rfl
    · intro o2 s2 g2 h
      cases h
      exact List.prefix_rfl

end Incr

/-! ## All library functions -/

variable (m : Machine S)

theorem callHandler_incr (ev : S.Ev) : Incr (callHandler m ev) :=
  (Incr.callback _ _).bind fun _ => (Incr.log _).bind fun _ => Incr.pure _

theorem callSupHandler_incr (ev : S.Ev) : Incr (callSupHandler m ev) :=
  (Incr.callback _ _).bind fun _ => (Incr.log _).bind fun _ => Incr.pure _

theorem blocking_supHandle_ext (ev : S.Ev) : Ext (Blocking.supHandle m ev) := by
  refine Blocking.supHandle.fixpoint_induct m ev (fun x => Ext x) Ext.admissible ?_
  intro f ih
  refine (callSupHandler_incr m ev).1.bind fun r => ?_
  cases r with
  | handled => exact Ext.pure _
  | transition t => exact Ext.pure _
  | super =>
    refine Ext.bind (Ext.borrow ((Incr.hook _ _).1.bind fun _ => ih.bind fun _ =>
      (Incr.hook _ _).1.bind fun _ => Ext.pure _)) fun r => ?_
    cases r <;> exact Ext.pure _

theorem blocking_supHandle_incr (ev : S.Ev) : Incr (Blocking.supHandle m ev) := by
  refine ⟨blocking_supHandle_ext m ev, ?_⟩
  refine Blocking.supHandle.fixpoint_induct m ev (fun x => IncrTo x (Blocking.supHandle m ev))
    (IncrTo.admissible _) ?_
  intro f ih
  rw [Blocking.supHandle]
  have hpost : ∀ r : Option (Response S.St), Incr (match r with
      | some response => (Pure.pure response : Eff S S.Sup (Response S.St))
      | none => Pure.pure .super) := fun r => by cases r <;> exact Incr.pure _
  have hin : IncrTo (do
      hookSupBeforeDispatch m ev
      let response ← f
      hookSupAfterDispatch m ev
      Pure.pure response) (do
      hookSupBeforeDispatch m ev
      let response ← Blocking.supHandle m ev
      hookSupAfterDispatch m ev
      Pure.pure response) :=
    IncrTo.bind (Incr.hook _ _).2 (fun _ => IncrTo.bind ih
        (fun _ => ((Incr.hook _ _).bind fun _ => Incr.pure _).2)
        (fun _ => ((Incr.hook _ _).bind fun _ => Incr.pure _).1))
      (fun _ => (blocking_supHandle_ext m ev).bind fun _ => (Incr.hook _ _).1.bind fun _ => Ext.pure _)
  refine IncrTo.bind (callSupHandler_incr m ev).2 (fun r => ?_) (fun r => ?_)
  · cases r with
    | handled => exact IncrTo.pure _
    | transition t => exact IncrTo.pure _
    | super => exact IncrTo.bind hin.borrow (fun r => (hpost r).2) fun r => (hpost r).1
  · cases r with
    | handled => exact Ext.pure _
    | transition t => exact Ext.pure _
    | super =>
      refine Ext.bind (Ext.borrow ((Incr.hook _ _).1.bind fun _ => (blocking_supHandle_ext m ev).bind fun _ =>
        (Incr.hook _ _).1.bind fun _ => Ext.pure _)) fun r => (hpost r).1

theorem blocking_handle_incr (ev : S.Ev) : Incr (Blocking.handle m ev) := by
  refine (Incr.hook _ _).bind fun _ => (callHandler_incr m ev).bind fun r => (Incr.hook _ _).bind fun _ => ?_
  cases r with
  | handled => exact Incr.pure _
  | transition t => exact Incr.pure _
  | super =>
    refine Incr.bind (Incr.borrow ((Incr.hook _ _).bind fun _ => (blocking_supHandle_incr m ev).bind fun _ =>
      (Incr.hook _ _).bind fun _ => Incr.pure _)) fun r => ?_
    cases r <;> exact Incr.pure _

theorem awaitable_handleLoop_ext (ev : S.Ev) : Ext (Awaitable.handleLoop m ev) := by
  refine Awaitable.handleLoop.fixpoint_induct m ev (fun x => Ext x) Ext.admissible ?_
  intro f ih
  refine (Incr.hook _ _).1.bind fun _ => (callSupHandler_incr m ev).1.bind fun r =>
    (Incr.hook _ _).1.bind fun _ => ?_
  cases r with
  | handled => exact Ext.pure _
  | transition t => exact Ext.pure _
  | super =>
    refine Ext.bind ih.borrow fun r => ?_
    cases r <;> exact Ext.pure _

theorem awaitable_handleLoop_incr (ev : S.Ev) : Incr (Awaitable.handleLoop m ev) := by
  refine ⟨awaitable_handleLoop_ext m ev, ?_⟩
  refine Awaitable.handleLoop.fixpoint_induct m ev (fun x => IncrTo x (Awaitable.handleLoop m ev))
    (IncrTo.admissible _) ?_
  intro f ih
  rw [Awaitable.handleLoop]
  have hpost : ∀ r : Option (Response S.St), Incr (match r with
      | some response => (Pure.pure response : Eff S S.Sup (Response S.St))
      | none => Pure.pure .handled) := fun r => by cases r <;> exact Incr.pure _
  have hext : ∀ r : Response S.St, Ext (match r with
      | .handled => (Pure.pure .handled : Eff S S.Sup (Response S.St))
      | .super => (do
        let r ← Eff.borrow m.supSuperstate (Awaitable.handleLoop m ev)
        match r with
        | some response => Pure.pure response
        | none => Pure.pure .handled)
      | .transition state => Pure.pure (.transition state)) := by
    intro r
    cases r with
    | handled => exact Ext.pure _
    | transition t => exact Ext.pure _
    | super => exact (awaitable_handleLoop_ext m ev).borrow.bind fun r => (hpost r).1
  refine IncrTo.bind (Incr.hook _ _).2 (fun _ => IncrTo.bind (callSupHandler_incr m ev).2 (fun r =>
    IncrTo.bind (Incr.hook _ _).2 (fun _ => ?_) (fun _ => hext r))
    (fun r => (Incr.hook _ _).1.bind fun _ => hext r))
    (fun _ => (callSupHandler_incr m ev).1.bind fun r => (Incr.hook _ _).1.bind fun _ => hext r)
  cases r with
  | handled => exact IncrTo.pure _
  | transition t => exact IncrTo.pure _
  | super => exact IncrTo.bind ih.borrow (fun r => (hpost r).2) fun r => (hpost r).1

theorem awaitable_handle_incr (ev : S.Ev) : Incr (Awaitable.handle m ev) := by
  refine (Incr.hook _ _).bind fun _ => (callHandler_incr m ev).bind fun r => (Incr.hook _ _).bind fun _ => ?_
  cases r with
  | handled => exact Incr.pure _
  | transition t => exact Incr.pure _
  | super =>
    refine Incr.bind (awaitable_handleLoop_incr m ev).borrow fun r => ?_
    cases r <;> exact Incr.pure _

theorem blocking_supEnter_incr : ∀ k, Incr (Blocking.supEnter m k)
  | 0 => Incr.pure _
  | 1 => Incr.callback _ _
  | k + 2 => by
    unfold Blocking.supEnter
    exact (blocking_supEnter_incr (k + 1)).borrow.bind fun _ => Incr.callback _ _

theorem blocking_supExit_incr : ∀ k, Incr (Blocking.supExit m k)
  | 0 => Incr.pure _
  | 1 => Incr.callback _ _
  | k + 2 => by
    unfold Blocking.supExit
    exact (Incr.callback _ _).bind fun _ => (blocking_supExit_incr (k + 1)).borrow.bind fun _ => Incr.pure _

theorem awaitable_climbEntry_incr : ∀ k, Incr (Awaitable.climbEntry m k)
  | 0 => Incr.callback _ _
  | k + 1 => by
    unfold Awaitable.climbEntry
    refine (awaitable_climbEntry_incr k).borrow.bind fun r => ?_
    cases r with
    | none => exact Incr.callback _ _
    | some _ => exact Incr.pure _

theorem awaitable_enter_incr : ∀ k, Incr (Awaitable.enter m k)
  | 0 => Incr.pure _
  | 1 => Incr.callback _ _
  | k + 2 => by
    unfold Awaitable.enter
    exact (awaitable_climbEntry_incr m k).borrow.bind fun _ => awaitable_enter_incr (k + 1)

theorem awaitable_exitLoop_incr : ∀ k, Incr (Awaitable.exitLoop m k)
  | 0 => Incr.pure _
  | 1 => Incr.pure _
  | k + 2 => by
    unfold Awaitable.exitLoop
    exact (Incr.callback _ _).bind fun _ => (awaitable_exitLoop_incr (k + 1)).borrow.bind fun _ => Incr.pure _

variable (mode : Mode)

theorem mode_handle_incr (ev : S.Ev) : Incr (mode.handle m ev) := by
  cases mode
  · exact blocking_handle_incr m ev
  · exact awaitable_handle_incr m ev

theorem mode_enter_incr (k : Nat) : Incr (mode.enter m k) := by
  cases mode
  · show Incr (Blocking.enter m k)
    match k with
    | 0 => exact Incr.pure _
    | 1 => exact Incr.callback _ _
    | k + 2 => exact (blocking_supEnter_incr m (k + 1)).borrow.bind fun _ => Incr.callback _ _
  · exact awaitable_enter_incr m k

theorem mode_exit_incr (k : Nat) : Incr (mode.exit m k) := by
  cases mode
  · show Incr (Blocking.exit m k)
    match k with
    | 0 => exact Incr.pure _
    | 1 => exact Incr.callback _ _
    | k + 2 =>
      exact (Incr.callback _ _).bind fun _ => (blocking_supExit_incr m (k + 1)).borrow.bind fun _ => Incr.pure _
  · show Incr (Awaitable.exit m k)
    unfold Awaitable.exit
    have hl : Incr (do let _ ← Eff.borrow m.superstate (Awaitable.exitLoop m k); Pure.pure ()) :=
      (awaitable_exitLoop_incr m k).borrow.bind fun _ => Incr.pure _
    by_cases hk : k ≥ 1
    · simp only [hk, ↓reduceIte]
      exact (Incr.callback _ _).bind fun _ => hl
    · simp only [hk, ↓reduceIte]
      exact hl

theorem transitionPath_ne_stopped (s t : S.St) : transitionPath m s t ≠ some .stopped := by
  intro h
  unfold transitionPath at h
  split at h
  · cases h
  · cases h1 : depth m s with
    | none => simp [h1] at h
    | some ds =>
      cases h2 : depth m t with
      | none => simp [h1, h2] at h
      | some dt =>
        simp only [h1, h2, Option.bind_eq_bind, Option.bind_some] at h
        split at h
        · rename_i a _ b _ _ _
          cases h3 : supCommonAncestorDepth m a b with
          | none => simp [h3] at h
          | some c =>
            simp only [h3, Option.bind_some] at h
            split at h <;> cases h
        · cases h

theorem mode_before_incr (s t : S.St) : Incr (mode.before m s t) := by
  cases mode
  · exact Incr.hook (fun _ => .beforeTransition t s) (fun _ sh => m.beforeTransition sh t s)
  · exact Incr.hook (fun _ => .beforeTransition s t) (fun _ sh => m.beforeTransition sh s t)

theorem mode_leave_incr (t : S.St) : Incr (mode.leave m t) :=
  Incr.self.bind fun s => (mode_before_incr m mode s t).bind fun _ =>
    (Incr.lift (transitionPath_ne_stopped m s t)).bind fun _ => (mode_exit_incr m mode _).bind fun _ => Incr.pure _

theorem mode_arrive_incr (old : S.St) (k : Nat) : Incr (mode.arrive m old k) :=
  (mode_enter_incr m mode k).bind fun _ => Incr.self.bind fun _ => Incr.hook _ _

theorem mode_transition_incr (t : S.St) : Incr (mode.transition m t) :=
  (mode_leave_incr m mode t).bind fun _ => (Incr.swap t).bind fun _ => mode_arrive_incr m mode _ _

theorem mode_handleEvent_incr (ev : S.Ev) : Incr (mode.handleEvent m ev) := by
  refine (mode_handle_incr m mode ev).bind fun r => ?_
  cases r with
  | handled => exact Incr.pure _
  | super => exact Incr.pure _
  | transition t => exact mode_transition_incr m mode t

theorem mode_init_incr : Incr (mode.init m) := by
  refine Incr.self.bind fun s => (Incr.lift ?_).bind fun _ => mode_enter_incr m mode _
  cases depth m s <;> simp

/-! ## Calls -/

variable {m mode}

theorem run_incr {x : Eff S S.St Unit} (hx : Incr x) (i : Inner S) (ctx : S.Ctx) :
    Incremental (fun l => i.run x ctx l) := by
  intro l t c h
  simp only [Inner.run] at h ⊢
  cases hr : x i.state ⟨i.shared, ctx, l, []⟩ with
  | none => simp [hr] at h
  | some r =>
    obtain ⟨o, s, g⟩ := r
    rw [hr] at h; cases h
    obtain ⟨k1, k2⟩ := hx.2 _ _ t _ _ _ hr
    refine ⟨fun hn => ?_, fun hn => ⟨(k2 hn).1, ?_⟩⟩
    · rw [show (⟨i.shared, ctx, l ++ t, []⟩ : Glob S) = Glob.more ⟨i.shared, ctx, l, []⟩ t from rfl, k1 hn]
      rfl
    · intro d hd
      cases hr' : x i.state ⟨i.shared, ctx, l ++ t, []⟩ with
      | none => simp [hr'] at hd
      | some r' =>
        obtain ⟨o', s', g'⟩ := r'
        rw [hr'] at hd; cases hd
        exact (k2 hn).2 o' s' g' hr'

theorem inner_init_incr (i : Inner S) (ctx : S.Ctx) : Incremental (fun l => i.init mode m ctx l) := by
  simp only [Inner.init_eq]
  exact run_incr (mode_init_incr m mode) i ctx

theorem inner_handle_incr (i : Inner S) (ev : S.Ev) (ctx : S.Ctx) :
    Incremental (fun l => i.handle mode m ev ctx l) := by
  simp only [Inner.handle_eq]
  exact run_incr (mode_handleEvent_incr m mode ev) i ctx

theorem initialized_handle_incr (sm : InitializedStateMachine S) (ev : S.Ev) (ctx : S.Ctx) :
    Incremental (fun l => sm.handleWithContext mode m ev ctx l) := by
  intro l t c h
  simp only [InitializedStateMachine.handleWithContext] at h ⊢
  cases hr : sm.inner.handle mode m ev ctx l with
  | none => simp [hr] at h
  | some d0 =>
    rw [hr] at h; cases h
    obtain ⟨k1, k2⟩ := inner_handle_incr sm.inner ev ctx l t d0 hr
    refine ⟨fun hn => ?_, fun hn => ⟨(k2 hn).1, ?_⟩⟩
    · have k1 := k1 hn
      simp only at k1
      rw [k1]; rfl
    · intro d hd
      cases hr' : sm.inner.handle mode m ev ctx (l ++ t) with
      | none => simp [hr'] at hd
      | some d1 =>
        rw [hr'] at hd; cases hd
        exact (k2 hn).2 d1 hr'

theorem sm_init_incr (sm : StateMachine S) (ctx : S.Ctx) :
    Incremental (fun l => sm.initWithContext mode m ctx l) := by
  intro l t c h
  simp only at h ⊢
  cases hi : sm.initialized with
  | true =>
    rw [sm_init_initialized hi] at h ⊢
    cases h
    exact ⟨fun _ => rfl, fun h => by cases h⟩
  | false =>
    obtain ⟨c0, h1, rfl⟩ := (sm_init_uninitialized hi ctx l).1 h
    obtain ⟨k1, k2⟩ := inner_init_incr sm.inner ctx l t c0 h1
    refine ⟨fun hn => ?_, fun hn => ⟨(k2 hn).1, ?_⟩⟩
    · exact (sm_init_uninitialized hi ctx (l ++ t)).2 ⟨_, k1 hn, rfl⟩
    · intro d hd
      obtain ⟨c1, h2, rfl⟩ := (sm_init_uninitialized hi ctx (l ++ t)).1 hd
      exact (k2 hn).2 c1 h2

theorem uninit_init_incr (sm : UninitializedStateMachine S) (ctx : S.Ctx) :
    Incremental (fun l => sm.initWithContext mode m ctx l) := by
  intro l t c h
  simp only at h ⊢
  obtain ⟨c0, h1, rfl⟩ := (uninit_init ctx l).1 h
  obtain ⟨k1, k2⟩ := inner_init_incr sm.inner ctx l t c0 h1
  refine ⟨fun hn => ?_, fun hn => ⟨(k2 hn).1, ?_⟩⟩
  · exact (uninit_init ctx (l ++ t)).2 ⟨_, k1 hn, rfl⟩
  · intro d hd
    obtain ⟨c1, h2, rfl⟩ := (uninit_init ctx (l ++ t)).1 hd
    exact (k2 hn).2 c1 h2

theorem sm_handle_incr (sm : StateMachine S) (ev : S.Ev) (ctx : S.Ctx) :
    Incremental (fun l => sm.handleWithContext mode m ev ctx l) := by
  intro l t c h
  simp only at h ⊢
  cases hi : sm.initialized with
  | true =>
    obtain ⟨c0, h1, rfl⟩ := (sm_handle_initialized hi ev ctx l).1 h
    obtain ⟨k1, k2⟩ := initialized_handle_incr _ ev ctx l t c0 h1
    refine ⟨fun hn => ?_, fun hn => ⟨(k2 hn).1, ?_⟩⟩
    · exact (sm_handle_initialized hi ev ctx (l ++ t)).2 ⟨_, k1 hn, rfl⟩
    · intro d hd
      obtain ⟨c1, h2, rfl⟩ := (sm_handle_initialized hi ev ctx (l ++ t)).1 hd
      exact (k2 hn).2 c1 h2
  | false =>
    obtain ⟨c0, h1, h2⟩ := (sm_handle_uninitialized hi ev ctx l).1 h
    obtain ⟨k1, k2⟩ := inner_init_incr sm.inner ctx l t c0 h1
    rcases h2 with ⟨h2, rfl⟩ | ⟨h2, d0, h3, rfl⟩
    · refine ⟨fun hn => ?_, fun hn => ⟨(k2 hn).1, ?_⟩⟩
      · exact (sm_handle_uninitialized hi ev ctx (l ++ t)).2 ⟨_, k1 hn, .inl ⟨h2, rfl⟩⟩
      · intro d hd
        obtain ⟨c1, h4, h5⟩ := (sm_handle_uninitialized hi ev ctx (l ++ t)).1 hd
        have := (k2 hn).2 c1 h4
        rcases h5 with ⟨-, rfl⟩ | ⟨-, d1, -, rfl⟩
        · exact this
        · exact this.trans (List.prefix_append _ _)
    · have k1 := k1 (by rw [h2]; simp)
      obtain ⟨j1, j2⟩ := initialized_handle_incr _ ev c0.ctx c0.sched t d0 h3
      refine ⟨fun hn => ?_, fun hn => ⟨(j2 hn).1, ?_⟩⟩
      · exact (sm_handle_uninitialized hi ev ctx (l ++ t)).2 ⟨_, k1, .inr ⟨h2, _, j1 hn, rfl⟩⟩
      · intro d hd
        obtain ⟨c1, h4, h5⟩ := (sm_handle_uninitialized hi ev ctx (l ++ t)).1 hd
        simp only at k1
        rw [k1] at h4; cases h4
        rcases h5 with ⟨h5, -⟩ | ⟨-, d1, h6, rfl⟩
        · exact absurd h2 h5
        · exact (List.prefix_append_right_inj _).2 ((j2 hn).2 d1 h6)

/-! ## Liveness -/

/-- See the module comment. -/
def Live (P : σ → Prop) (x : Eff S σ α) : Prop :=
  ∀ s, P s → ∀ (g : Glob S) (f : Nat → S.In), ∃ n o s' g',
    x s (g.withSched (firstInputs f n)) = some (o, s', g') ∧ o ≠ .stopped ∧ g'.sched = [] ∧ P s'

theorem Fut.run_live {In W : Type} (fut : Fut In W α) (f : Nat → In) :
    ∃ n, (fut.run (firstInputs f n)).1 ≠ .stopped ∧ (fut.run (firstInputs f n)).2.2 = [] := by
  induction fut generalizing f with
  | done w a => exact ⟨0, by simp [Fut.run], rfl⟩
  | panic w => exact ⟨0, by simp [Fut.run], rfl⟩
  | pending w k ih =>
    obtain ⟨n, h⟩ := ih (f 0) (fun i => f (i + 1))
    refine ⟨n + 1, ?_⟩
    have : firstInputs f (n + 1) = f 0 :: firstInputs (fun i => f (i + 1)) n := by
      rw [Nat.add_comm, firstInputs_add]
      simp [firstInputs, Nat.add_comm]
    rw [this]
    exact h

namespace Live
variable {P : σ → Prop}

theorem pure (a : α) : Live P (Pure.pure a : Eff S σ α) :=
  fun s hs g f => ⟨0, .ok a, s, _, rfl, by simp, rfl, hs⟩

theorem bind {x : Eff S σ α} {h : α → Eff S σ β} (hi : Incr x) (hx : Live P x) (hh : ∀ a, Live P (h a)) :
    Live P (x >>= h) := by
  intro s hs g f
  obtain ⟨n, o, s1, g1, h1, h2, h3, h4⟩ := hx s hs g f
  cases o with
  | ok a =>
    obtain ⟨k, o2, s2, g2, j1, j2, j3, j4⟩ := hh a s1 h4 g1 (fun i => f (n + i))
    refine ⟨n + k, o2, s2, g2, ?_, j2, j3, j4⟩
    have := (hi.2 _ _ (firstInputs (fun i => f (n + i)) k) _ _ _ h1).1 h2
    simp only [Eff.bind_def, Eff.bind]
    rw [firstInputs_add]
    rw [show g.withSched (firstInputs f n ++ firstInputs (fun i => f (n + i)) k) =
      (g.withSched (firstInputs f n)).more (firstInputs (fun i => f (n + i)) k) from rfl, this]
    simp only
    rw [← j1]
    congr 1
    simp [Glob.more, Glob.withSched, h3]
  | panic =>
    refine ⟨n, .panic, s1, g1, ?_, by simp, h3, h4⟩
    simp only [Eff.bind_def, Eff.bind, h1]
  | stopped => exact absurd rfl h2

theorem self : Live P (Eff.self : Eff S σ σ) :=
  fun s hs g f => ⟨0, .ok s, s, _, rfl, by simp, rfl, hs⟩

theorem log (o : σ → Obs S) : Live P (Eff.log o) :=
  fun s hs g f => ⟨0, .ok (), s, _, rfl, by simp, rfl, hs⟩

theorem callback {o : σ → Obs S} {f : σ → S.M → S.Ctx → Fut S.In (σ × S.M × S.Ctx) α}
    (h : ∀ s sh c, P s → (f s sh c).All (fun w => P w.1)) : Live P (Eff.callback o f) := by
  intro s hs g str
  obtain ⟨n, h1, h2⟩ := Fut.run_live (f s g.sh g.ctx) str
  exact ⟨n, _, _, _, rfl, h1, h2, Fut.run_all (h s g.sh g.ctx hs) _⟩

theorem hook {o : σ → Obs S} {f : σ → S.M → Fut S.In S.M Unit} : Live P (Eff.hook o f) := by
  intro s hs g str
  obtain ⟨n, h1, h2⟩ := Fut.run_live (f s g.sh) str
  exact ⟨n, _, _, _, rfl, h1, h2, hs⟩

theorem borrow {P' : τ → Prop} {sup : σ → Option (τ × (τ → σ))} {x : Eff S τ α}
    (hs : ∀ s v back, P s → sup s = some (v, back) → P' v ∧ ∀ w, P' w → P (back w)) (h : Live P' x) :
    Live P (Eff.borrow sup x) := by
  intro s hp g f
  unfold Eff.borrow
  cases hs' : sup s with
  | none => exact ⟨0, .ok none, s, _, rfl, by simp, rfl, hp⟩
  | some p =>
    obtain ⟨v, back⟩ := p
    obtain ⟨k1, k2⟩ := hs s v back hp hs'
    obtain ⟨n, o, s1, g1, h1, h2, h3, h4⟩ := h v k1 g f
    refine ⟨n, o.map some, back s1, g1, ?_, ?_, h3, k2 _ h4⟩
    · simp only [h1]
    · cases o <;> simp_all [Out.map]

theorem borrow_none {sup : σ → Option (τ × (τ → σ))} {x : Eff S τ α}
    (hs : ∀ s, P s → sup s = none) : Live P (Eff.borrow sup x) := by
  intro s hp g f
  unfold Eff.borrow
  rw [hs s hp]
  exact ⟨0, .ok none, s, _, rfl, by simp, rfl, hp⟩

end Live

section
variable {F : Forest S.D S.E} (hF : Follows m F)
include hF

theorem live_supBorrow {x : Eff S S.Sup α} {e : S.E}
    (h : ∀ e', F.supParent e = some e' → Live (fun v => m.supDiscr v = e') x) :
    Live (fun v => m.supDiscr v = e) (Eff.borrow m.supSuperstate x) := by
  cases he : F.supParent e with
  | none => exact Live.borrow_none fun s hs => supNone hF he hs
  | some e' => exact Live.borrow (sup_keeps hF he) (h e' he)

theorem live_leafBorrow {x : Eff S S.Sup α} {d : S.D}
    (h : ∀ e', F.leafParent d = some e' → Live (fun v => m.supDiscr v = e') x) :
    Live (fun s => m.discr s = d) (Eff.borrow m.superstate x) := by
  cases hd : F.leafParent d with
  | none => exact Live.borrow_none fun s hs => leafNone hF hd hs
  | some e' => exact Live.borrow (leaf_keeps hF hd) (h e' hd)

theorem callSupEntry_live (e : S.E) : Live (fun v => m.supDiscr v = e) (callSupEntry m) :=
  Live.callback fun s sh c hs => by have := hF.supEntry s sh c; rw [hs] at this; exact this

theorem callSupExit_live (e : S.E) : Live (fun v => m.supDiscr v = e) (callSupExit m) :=
  Live.callback fun s sh c hs => by have := hF.supExit s sh c; rw [hs] at this; exact this

theorem callEntry_live (e : S.D) : Live (fun v => m.discr v = e) (callEntry m) :=
  Live.callback fun s sh c hs => by have := hF.entry s sh c; rw [hs] at this; exact this

theorem callExit_live (e : S.D) : Live (fun v => m.discr v = e) (callExit m) :=
  Live.callback fun s sh c hs => by have := hF.exit s sh c; rw [hs] at this; exact this

theorem callSupHandler_live (ev : S.Ev) (e : S.E) : Live (fun v => m.supDiscr v = e) (callSupHandler m ev) := by
  refine Live.bind (Incr.callback _ _) (Live.callback fun s sh c hs => ?_) fun _ =>
    Live.bind (Incr.log _) (Live.log _) fun _ => Live.pure _
  have := hF.supHandler s sh ev c; rw [hs] at this; exact this

theorem callHandler_live (ev : S.Ev) (e : S.D) : Live (fun v => m.discr v = e) (callHandler m ev) := by
  refine Live.bind (Incr.callback _ _) (Live.callback fun s sh c hs => ?_) fun _ =>
    Live.bind (Incr.log _) (Live.log _) fun _ => Live.pure _
  have := hF.handler s sh ev c; rw [hs] at this; exact this

omit hF in
theorem forest_induct {F : Forest S.D S.E} {Q : S.E → Prop} (h : ∀ e, (∀ e', F.supParent e = some e' → Q e') → Q e) : ∀ e, Q e := by
  have : ∀ (l : List S.E) e, F.supAnc e = l → Q e := by
    intro l
    induction l with
    | nil =>
      intro e he
      refine h e fun e' he' => ?_
      rw [F.supAnc_eq, he'] at he; cases he
    | cons p l ih =>
      intro e he
      refine h e fun e' he' => ?_
      rw [F.supAnc_eq, he'] at he
      cases he
      exact ih p rfl
  exact fun e => this _ e rfl

theorem blocking_supHandle_live (ev : S.Ev) :
    ∀ e, Live (fun v => m.supDiscr v = e) (Blocking.supHandle m ev) := by
  refine forest_induct (F := F) fun e ih => ?_
  rw [Blocking.supHandle]
  refine Live.bind (callSupHandler_incr m ev) (callSupHandler_live hF ev e) fun r => ?_
  cases r with
  | handled => exact Live.pure _
  | transition t => exact Live.pure _
  | super =>
    refine Live.bind (Incr.borrow ((Incr.hook _ _).bind fun _ => (blocking_supHandle_incr m ev).bind fun _ =>
        (Incr.hook _ _).bind fun _ => Incr.pure _))
      (live_supBorrow hF fun e' he' => Live.bind (Incr.hook _ _) Live.hook fun _ =>
        Live.bind (blocking_supHandle_incr m ev) (ih e' he') fun _ =>
          Live.bind (Incr.hook _ _) Live.hook fun _ => Live.pure _) fun r => ?_
    cases r <;> exact Live.pure _

theorem awaitable_handleLoop_live (ev : S.Ev) :
    ∀ e, Live (fun v => m.supDiscr v = e) (Awaitable.handleLoop m ev) := by
  refine forest_induct (F := F) fun e ih => ?_
  rw [Awaitable.handleLoop]
  refine Live.bind (Incr.hook _ _) Live.hook fun _ => ?_
  refine Live.bind (callSupHandler_incr m ev) (callSupHandler_live hF ev e) fun r => ?_
  refine Live.bind (Incr.hook _ _) Live.hook fun _ => ?_
  cases r with
  | handled => exact Live.pure _
  | transition t => exact Live.pure _
  | super =>
    refine Live.bind (awaitable_handleLoop_incr m ev).borrow (live_supBorrow hF ih) fun r => ?_
    cases r <;> exact Live.pure _

theorem mode_handle_live (ev : S.Ev) (d : S.D) : Live (fun s => m.discr s = d) (mode.handle m ev) := by
  cases mode
  · refine Live.bind (Incr.hook _ _) Live.hook fun _ => ?_
    refine Live.bind (callHandler_incr m ev) (callHandler_live hF ev d) fun r => ?_
    refine Live.bind (Incr.hook _ _) Live.hook fun _ => ?_
    cases r with
    | handled => exact Live.pure _
    | transition t => exact Live.pure _
    | super =>
      refine Live.bind (Incr.borrow ((Incr.hook _ _).bind fun _ => (blocking_supHandle_incr m ev).bind fun _ =>
          (Incr.hook _ _).bind fun _ => Incr.pure _))
        (live_leafBorrow hF fun e' he' => Live.bind (Incr.hook _ _) Live.hook fun _ =>
          Live.bind (blocking_supHandle_incr m ev) (blocking_supHandle_live hF ev e') fun _ =>
            Live.bind (Incr.hook _ _) Live.hook fun _ => Live.pure _) fun r => ?_
      cases r <;> exact Live.pure _
  · refine Live.bind (Incr.hook _ _) Live.hook fun _ => ?_
    refine Live.bind (callHandler_incr m ev) (callHandler_live hF ev d) fun r => ?_
    refine Live.bind (Incr.hook _ _) Live.hook fun _ => ?_
    cases r with
    | handled => exact Live.pure _
    | transition t => exact Live.pure _
    | super =>
      refine Live.bind (awaitable_handleLoop_incr m ev).borrow
        (live_leafBorrow hF fun e' _ => awaitable_handleLoop_live hF ev e') fun r => ?_
      cases r <;> exact Live.pure _

theorem blocking_supEnter_live : ∀ k e, Live (fun v => m.supDiscr v = e) (Blocking.supEnter m k)
  | 0, _ => Live.pure _
  | 1, e => callSupEntry_live hF e
  | k + 2, e => by
    unfold Blocking.supEnter
    exact Live.bind (blocking_supEnter_incr m (k + 1)).borrow
      (live_supBorrow hF fun e' _ => blocking_supEnter_live (k + 1) e') fun _ => callSupEntry_live hF e

theorem blocking_supExit_live : ∀ k e, Live (fun v => m.supDiscr v = e) (Blocking.supExit m k)
  | 0, _ => Live.pure _
  | 1, e => callSupExit_live hF e
  | k + 2, e => by
    unfold Blocking.supExit
    exact Live.bind (Incr.callback _ _) (callSupExit_live hF e) fun _ =>
      Live.bind (blocking_supExit_incr m (k + 1)).borrow
        (live_supBorrow hF fun e' _ => blocking_supExit_live (k + 1) e') fun _ => Live.pure _

theorem awaitable_climbEntry_live : ∀ k e, Live (fun v => m.supDiscr v = e) (Awaitable.climbEntry m k)
  | 0, e => callSupEntry_live hF e
  | k + 1, e => by
    unfold Awaitable.climbEntry
    refine Live.bind (awaitable_climbEntry_incr m k).borrow
      (live_supBorrow hF fun e' _ => awaitable_climbEntry_live k e') fun r => ?_
    cases r with
    | none => exact callSupEntry_live hF e
    | some _ => exact Live.pure _

theorem awaitable_enter_live (d : S.D) : ∀ k, Live (fun s => m.discr s = d) (Awaitable.enter m k)
  | 0 => Live.pure _
  | 1 => callEntry_live hF d
  | k + 2 => by
    unfold Awaitable.enter
    exact Live.bind (awaitable_climbEntry_incr m k).borrow
      (live_leafBorrow hF fun e' _ => awaitable_climbEntry_live hF k e') fun _ => awaitable_enter_live d (k + 1)

theorem mode_enter_live (k : Nat) (d : S.D) : Live (fun s => m.discr s = d) (mode.enter m k) := by
  cases mode
  · show Live _ (Blocking.enter m k)
    match k with
    | 0 => exact Live.pure _
    | 1 => exact callEntry_live hF d
    | k + 2 =>
      exact Live.bind (blocking_supEnter_incr m (k + 1)).borrow
        (live_leafBorrow hF fun e' _ => blocking_supEnter_live hF (k + 1) e') fun _ => callEntry_live hF d
  · exact awaitable_enter_live hF d k

theorem mode_exit_live (k : Nat) (d : S.D) : Live (fun s => m.discr s = d) (mode.exit m k) := by
  have hb : Live (fun s => m.discr s = d) (Mode.blocking.exit m k) := by
    show Live _ (Blocking.exit m k)
    match k with
    | 0 => exact Live.pure _
    | 1 => exact callExit_live hF d
    | k + 2 =>
      exact Live.bind (Incr.callback _ _) (callExit_live hF d) fun _ =>
        Live.bind (blocking_supExit_incr m (k + 1)).borrow
          (live_leafBorrow hF fun e' _ => blocking_supExit_live hF (k + 1) e') fun _ => Live.pure _
  cases mode
  · exact hb
  · show Live _ (Awaitable.exit m k)
    rw [exit_eq]
    exact hb

theorem mode_leave_live (t : S.St) (d : S.D) : Live (fun s => m.discr s = d) (mode.leave m t) := by
  refine Live.bind Incr.self Live.self fun s => ?_
  refine Live.bind (mode_before_incr m mode s t) ?_ fun _ => ?_
  · cases mode
    · exact Live.hook (o := fun _ => .beforeTransition t s) (f := fun _ sh => m.beforeTransition sh t s)
    · exact Live.hook (o := fun _ => .beforeTransition s t) (f := fun _ sh => m.beforeTransition sh s t)
  · obtain ⟨x, n, hp, -⟩ := transitionPath_spec hF s t
    rw [hp]
    exact Live.bind (Incr.lift (by simp)) (Live.pure (x, n)) fun p =>
      Live.bind (mode_exit_incr m mode _) (mode_exit_live hF _ d) fun _ => Live.pure _

omit hF in
theorem Live.weaken {x : Eff S S.St α} (h : ∀ d, Live (fun s => m.discr s = d) x) : Live (fun _ => True) x := by
  intro s _ g f
  obtain ⟨n, o, s', g', h1, h2, h3, h4⟩ := h _ s rfl g f
  exact ⟨n, o, s', g', h1, h2, h3, trivial⟩

theorem mode_arrive_live (old : S.St) (k : Nat) : Live (fun _ => True) (mode.arrive m old k) := by
  refine Live.bind (mode_enter_incr m mode k) (Live.weaken fun d => mode_enter_live hF k d) fun _ => ?_
  exact Live.bind Incr.self Live.self fun _ => Live.hook

theorem mode_transition_live (t : S.St) : Live (fun _ => True) (mode.transition m t) := by
  refine Live.bind (mode_leave_incr m mode t) (Live.weaken fun d => mode_leave_live hF t d) fun n => ?_
  refine Live.bind (Incr.swap t) ?_ fun old => mode_arrive_live hF old n
  exact fun s _ g f => ⟨0, .ok s, t, _, rfl, by simp, rfl, trivial⟩

theorem mode_handleEvent_live (ev : S.Ev) : Live (fun _ => True) (mode.handleEvent m ev) := by
  refine Live.bind (mode_handle_incr m mode ev) (Live.weaken fun d => mode_handle_live hF ev d) fun r => ?_
  cases r with
  | handled => exact Live.pure _
  | super => exact Live.pure _
  | transition t => exact mode_transition_live hF t

theorem mode_init_live : Live (fun _ => True) (mode.init m) := by
  refine Live.bind Incr.self Live.self fun s => ?_
  have : (depth m s).map Out.ok = some (Out.ok ((F.leafAnc (m.discr s)).length + 1)) := by
    rw [depth_eq hF]; rfl
  rw [this]
  exact Live.bind (Incr.lift (by simp)) (Live.pure _) fun _ => Live.weaken fun d => mode_enter_live hF _ d

omit hF in
theorem run_live {x : Eff S S.St Unit} (hx : Live (fun _ => True) x) (i : Inner S) (ctx : S.Ctx) :
    EndsWhenPolled (fun l => i.run x ctx l) := by
  intro f
  obtain ⟨n, o, s', g', h1, h2, h3, -⟩ := hx i.state trivial ⟨i.shared, ctx, [], []⟩ f
  refine ⟨n, ?_⟩
  simp only [Inner.run]
  have h1 : x i.state ⟨i.shared, ctx, firstInputs f n, []⟩ = some (o, s', g') := h1
  rw [h1]
  exact ⟨_, rfl, h2, h3⟩

theorem inner_init_live (i : Inner S) (ctx : S.Ctx) : EndsWhenPolled (fun l => i.init mode m ctx l) := by
  simp only [Inner.init_eq]
  exact run_live (mode_init_live hF) i ctx

theorem inner_handle_live (i : Inner S) (ev : S.Ev) (ctx : S.Ctx) :
    EndsWhenPolled (fun l => i.handle mode m ev ctx l) := by
  simp only [Inner.handle_eq]
  exact run_live (mode_handleEvent_live hF ev) i ctx

theorem initialized_handle_live (sm : InitializedStateMachine S) (ev : S.Ev) (ctx : S.Ctx) :
    EndsWhenPolled (fun l => sm.handleWithContext mode m ev ctx l) := by
  intro f
  obtain ⟨n, c, h1, h2, h3⟩ := inner_handle_live (mode := mode) hF sm.inner ev ctx f
  refine ⟨n, { c with self := ⟨c.self⟩ }, ?_, h2, h3⟩
  simp only [InitializedStateMachine.handleWithContext]
  simp only at h1
  rw [h1]; rfl

theorem sm_init_live (sm : StateMachine S) (ctx : S.Ctx) :
    EndsWhenPolled (fun l => sm.initWithContext mode m ctx l) := by
  intro f
  cases hi : sm.initialized with
  | true => exact ⟨0, _, sm_init_initialized hi ctx _, by simp, rfl⟩
  | false =>
    obtain ⟨n, c, h1, h2, h3⟩ := inner_init_live (mode := mode) hF sm.inner ctx f
    exact ⟨n, _, (sm_init_uninitialized hi ctx _).2 ⟨c, h1, rfl⟩, h2, h3⟩

theorem uninit_init_live (sm : UninitializedStateMachine S) (ctx : S.Ctx) :
    EndsWhenPolled (fun l => sm.initWithContext mode m ctx l) := by
  intro f
  obtain ⟨n, c, h1, h2, h3⟩ := inner_init_live (mode := mode) hF sm.inner ctx f
  exact ⟨n, _, (uninit_init ctx _).2 ⟨c, h1, rfl⟩, h2, h3⟩

theorem sm_handle_live (sm : StateMachine S) (ev : S.Ev) (ctx : S.Ctx) :
    EndsWhenPolled (fun l => sm.handleWithContext mode m ev ctx l) := by
  intro f
  cases hi : sm.initialized with
  | true =>
    obtain ⟨n, c, h1, h2, h3⟩ := initialized_handle_live (mode := mode) hF ⟨sm.inner⟩ ev ctx f
    exact ⟨n, _, (sm_handle_initialized hi ev ctx _).2 ⟨c, h1, rfl⟩, h2, h3⟩
  | false =>
    obtain ⟨n, c, h1, h2, h3⟩ := inner_init_live (mode := mode) hF sm.inner ctx f
    by_cases ho : c.out = .ok ()
    · obtain ⟨k, d, j1, j2, j3⟩ := initialized_handle_live (mode := mode) hF ⟨c.self⟩ ev c.ctx (fun i => f (n + i))
      have := (inner_init_incr sm.inner ctx _ (firstInputs (fun i => f (n + i)) k) c h1).1 h2
      refine ⟨n + k, _, (sm_handle_uninitialized hi ev ctx _).2
        ⟨{ c with sched := firstInputs (fun i => f (n + i)) k }, ?_, .inr ⟨ho, d, ?_, rfl⟩⟩, j2, j3⟩
      · rw [firstInputs_add]
        simp only at this
        rw [this, h3]; rfl
      · exact j1
    · exact ⟨n, _, (sm_handle_uninitialized hi ev ctx _).2 ⟨c, h1, .inl ⟨ho, rfl⟩⟩, h2, h3⟩

end
end Statig
