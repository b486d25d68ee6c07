import Verif.Spec.Modes
import Verif.Spec.Simulation
import Verif.Proofs.StateMachine
/-!
# Blocking and awaitable programs compared
-/
namespace Statig
variable {S : Sig} {m : Machine S} {F : Forest S.D S.E} {σ τ α β γ : Type}

namespace Eff

theorem bind_def (x : Eff S σ α) (f : α → Eff S σ β) (s : σ) (g : Glob S) :
    (x >>= f) s g = Eff.bind x f s g := rfl

theorem pure_def (a : α) (s : σ) (g : Glob S) : (Pure.pure a : Eff S σ α) s g = some (.ok a, s, g) := rfl

theorem bind_assoc' (x : Eff S σ α) (f : α → Eff S σ β) (h : β → Eff S σ γ) :
    (x >>= f) >>= h = x >>= fun a => f a >>= h := by
  funext s g
  simp only [bind_def, Eff.bind]
  cases x s g with
  | none => rfl
  | some r => obtain ⟨o, s', g'⟩ := r; cases o <;> rfl

theorem pure_bind' (a : α) (f : α → Eff S σ β) : (Pure.pure a : Eff S σ α) >>= f = f a := rfl

theorem bind_pure' (x : Eff S σ Unit) : (x >>= fun _ => (Pure.pure () : Eff S σ Unit)) = x := by
  funext s g
  simp only [bind_def, Eff.bind]
  cases x s g with
  | none => rfl
  | some r => obtain ⟨o, s', g'⟩ := r; cases o <;> rfl

/-- A borrow that is not used does nothing. -/
theorem borrow_pure {sup : σ → Option (τ × (τ → σ))} (hb : ∀ s v back, sup s = some (v, back) → back v = s) :
    (borrow sup (Pure.pure () : Eff S τ Unit) >>= fun _ => (Pure.pure () : Eff S σ Unit)) = Pure.pure () := by
  funext s g
  simp only [bind_def, Eff.bind, borrow]
  cases hs : sup s with
  | none => rfl
  | some p => obtain ⟨v, back⟩ := p; simp [pure_def, Out.map, hb s v back hs]

/-- A program keeps a property of `self`, however it ends. -/
def Keeps (P : σ → Prop) (x : Eff S σ α) : Prop :=
  ∀ s g o s' g', P s → x s g = some (o, s', g') → P s'

/-- Two programs do the same on a `self` with the property `P`. -/
def EqOn (P : σ → Prop) (x y : Eff S σ α) : Prop := ∀ s g, P s → x s g = y s g

theorem EqOn.bind {P : σ → Prop} {x y : Eff S σ α} {f h : α → Eff S σ β} (hx : EqOn P x y) (hk : Keeps P x)
    (hf : ∀ a, EqOn P (f a) (h a)) : EqOn P (x >>= f) (y >>= h) := by
  intro s g hs
  simp only [bind_def, Eff.bind]
  rw [← hx s g hs]
  cases hr : x s g with
  | none => rfl
  | some r =>
    obtain ⟨o, s', g'⟩ := r
    cases o with
    | ok a => exact hf a s' g' (hk s g _ s' g' hs hr)
    | panic => rfl
    | stopped => rfl

theorem EqOn.trans {P : σ → Prop} {x y z : Eff S σ α} (h1 : EqOn P x y) (h2 : EqOn P y z) : EqOn P x z :=
  fun s g hs => (h1 s g hs).trans (h2 s g hs)

theorem EqOn.refl {P : σ → Prop} (x : Eff S σ α) : EqOn P x x := fun _ _ _ => rfl

theorem EqOn.borrow {P : σ → Prop} {P' : τ → Prop} {sup : σ → Option (τ × (τ → σ))} {x y : Eff S τ α}
    (hs : ∀ s v back, P s → sup s = some (v, back) → P' v) (h : EqOn P' x y) :
    EqOn P (borrow sup x) (borrow sup y) := by
  intro s g hp
  unfold Eff.borrow
  cases hs' : sup s with
  | none => rfl
  | some p =>
    obtain ⟨v, back⟩ := p
    simp only
    rw [h v g (hs s v back hp hs')]

theorem Keeps.bind {P : σ → Prop} {x : Eff S σ α} {f : α → Eff S σ β} (hx : Keeps P x)
    (hf : ∀ a, Keeps P (f a)) : Keeps P (x >>= f) := by
  intro s g o s' g' hs h
  simp only [bind_def, Eff.bind] at h
  cases hr : x s g with
  | none => simp [hr] at h
  | some r =>
    obtain ⟨o1, s1, g1⟩ := r
    rw [hr] at h
    have := hx s g _ s1 g1 hs hr
    cases o1 with
    | ok a => exact hf a s1 g1 o s' g' this h
    | panic => cases h; exact this
    | stopped => cases h; exact this

theorem Keeps.pure {P : σ → Prop} (a : α) : Keeps P (Pure.pure a : Eff S σ α) := by
  intro s g o s' g' hs h; cases h; exact hs

theorem Keeps.borrow {P : σ → Prop} {P' : τ → Prop} {sup : σ → Option (τ × (τ → σ))} {x : Eff S τ α}
    (hs : ∀ s v back, P s → sup s = some (v, back) → P' v ∧ ∀ w, P' w → P (back w)) (h : Keeps P' x) :
    Keeps P (borrow sup x) := by
  intro s g o s' g' hp h'
  unfold Eff.borrow at h'
  cases hs' : sup s with
  | none => rw [hs'] at h'; cases h'; exact hp
  | some p =>
    obtain ⟨v, back⟩ := p
    rw [hs'] at h'
    simp only at h'
    cases hr : x v g with
    | none => simp [hr] at h'
    | some r =>
      obtain ⟨o1, v1, g1⟩ := r
      rw [hr] at h'
      cases h'
      obtain ⟨k1, k2⟩ := hs s v back hp hs'
      exact k2 _ (h v g _ v1 _ k1 hr)

theorem Keeps.callback {P : σ → Prop} {o : σ → Obs S} {f : σ → S.M → S.Ctx → Fut S.In (σ × S.M × S.Ctx) α}
    (h : ∀ s sh c, P s → (f s sh c).All (fun w => P w.1)) : Keeps P (Eff.callback o f) := by
  intro s g o' s' g' hs hx
  have := Fut.run_all (h s g.sh g.ctx hs) g.sched
  unfold Eff.callback at hx
  cases hx
  exact this

/-- Borrowing twice is borrowing once, if the view is a view of `self`. -/
theorem borrow_fuse {P : σ → Prop} {P' : τ → Prop} {sup : σ → Option (τ × (τ → σ))}
    (hs : ∀ s v back, P s → sup s = some (v, back) → P' v ∧
      ∀ w, P' w → ∃ back', sup (back w) = some (w, back') ∧ ∀ w', P' w' → back' w' = back w')
    {x y : Eff S τ Unit} (hx : Keeps P' x) (hy : Keeps P' y) :
    EqOn P (borrow sup x >>= fun _ => (borrow sup y >>= fun _ => (Pure.pure () : Eff S σ Unit)))
      (borrow sup (x >>= fun _ => y) >>= fun _ => Pure.pure ()) := by
  intro s g hp
  simp only [bind_def, Eff.bind, borrow]
  cases hs' : sup s with
  | none => simp [hs', pure_def]
  | some p =>
    obtain ⟨v, back⟩ := p
    simp only
    obtain ⟨k1, k2⟩ := hs s v back hp hs'
    cases hr : x v g with
    | none => rfl
    | some r =>
      obtain ⟨o1, v1, g1⟩ := r
      have k3 := hx v g _ v1 g1 k1 hr
      cases o1 with
      | ok a =>
        obtain ⟨back', k4, k5⟩ := k2 v1 k3
        simp only [Out.map, k4]
        cases hr' : y v1 g1 with
        | none => rfl
        | some r' =>
          obtain ⟨o2, v2, g2⟩ := r'
          have k6 := hy v1 g1 _ v2 g2 k3 hr'
          cases o2 <;> simp [k5 v2 k6]
      | panic => rfl
      | stopped => rfl

end Eff

open Eff

/-! ## Exit: the two programs are the same. -/

theorem supExit_eq (m : Machine S) : ∀ n, Awaitable.exitLoop m (n + 1) = Blocking.supExit m n
  | 0 => rfl
  | 1 => by
    show (callSupExit m >>= fun _ => borrow m.supSuperstate (Pure.pure ()) >>= fun _ => Pure.pure ()) = callSupExit m
    rw [borrow_pure m.supSuperstate_back, bind_pure']
  | n + 2 => by
    show (callSupExit m >>= fun _ => borrow m.supSuperstate (Awaitable.exitLoop m (n + 1 + 1)) >>= fun _ => Pure.pure ()) =
      (callSupExit m >>= fun _ => borrow m.supSuperstate (Blocking.supExit m (n + 1)) >>= fun _ => Pure.pure ())
    rw [supExit_eq m (n + 1)]

theorem exit_eq (m : Machine S) : ∀ n, Awaitable.exit m n = Blocking.exit m n
  | 0 => by
    show ((Pure.pure () : Eff S S.St Unit) >>= fun _ => borrow m.superstate (Pure.pure ()) >>= fun _ => Pure.pure ()) = Pure.pure ()
    rw [borrow_pure m.superstate_back, bind_pure']
  | 1 => by
    show (callExit m >>= fun _ => borrow m.superstate (Pure.pure ()) >>= fun _ => Pure.pure ()) = callExit m
    rw [borrow_pure m.superstate_back, bind_pure']
  | n + 2 => by
    show (callExit m >>= fun _ => borrow m.superstate (Awaitable.exitLoop m (n + 1 + 1)) >>= fun _ => Pure.pure ()) =
      (callExit m >>= fun _ => borrow m.superstate (Blocking.supExit m (n + 1)) >>= fun _ => Pure.pure ())
    rw [supExit_eq m (n + 1)]

/-! ## Entry -/

/-- Enter the `n` innermost levels starting at a superstate, the way the awaitable mode does it. -/
def climbAll (m : Machine S) : Nat → Eff S S.Sup Unit
  | 0 => Pure.pure ()
  | n + 1 => Awaitable.climbEntry m n >>= fun _ => climbAll m n

section
variable (hF : Follows m F)
include hF

theorem sup_ok {e : S.E} : ∀ u v back, m.supDiscr u = e → m.supSuperstate u = some (v, back) →
    (∃ e', F.supParent e = some e' ∧ m.supDiscr v = e') := by
  intro u v back hu h
  have := hF.sup u
  rw [h, hu] at this
  exact ⟨_, this.symm, rfl⟩

theorem callSupEntry_keeps (e : S.E) : Keeps (fun v => m.supDiscr v = e) (callSupEntry m) :=
  Keeps.callback fun s sh c hs => by have := hF.supEntry s sh c; rw [hs] at this; exact this

theorem sup_keeps {e e' : S.E} (he : F.supParent e = some e') : ∀ u v back, m.supDiscr u = e →
    m.supSuperstate u = some (v, back) → m.supDiscr v = e' ∧ ∀ w, m.supDiscr w = e' → m.supDiscr (back w) = e := by
  intro u v back hu h
  obtain ⟨e'', h1, h2⟩ := sup_ok hF u v back hu h
  rw [he] at h1; cases h1
  exact ⟨h2, fun w hw => (hF.sup_back u v back w h (hw.trans h2.symm)).trans hu⟩

theorem supNone {e : S.E} (he : F.supParent e = none) {v : S.Sup} (hv : m.supDiscr v = e) :
    m.supSuperstate v = none := by
  have := hF.sup v
  rw [hv, he] at this
  cases h : m.supSuperstate v with
  | none => rfl
  | some p => rw [h] at this; cases this

theorem climbEntry_keeps : ∀ n e, Keeps (fun v => m.supDiscr v = e) (Awaitable.climbEntry m n)
  | 0, e => callSupEntry_keeps hF e
  | n + 1, e => by
    cases he : F.supParent e with
    | none =>
      intro s g o s' g' hs h
      have h : (borrow m.supSuperstate (Awaitable.climbEntry m n) >>= fun r => match r with
        | some () => Pure.pure () | none => callSupEntry m) s g = some (o, s', g') := h
      simp only [bind_def, Eff.bind, Eff.borrow, supNone hF he hs] at h
      exact callSupEntry_keeps hF e s g o s' g' hs h
    | some e' =>
      refine Keeps.bind (Keeps.borrow (sup_keeps hF he) (climbEntry_keeps n e')) fun a => ?_
      cases a with
      | none => exact callSupEntry_keeps hF e
      | some _ => exact Keeps.pure ()

theorem climbAll_keeps (e : S.E) : ∀ n, Keeps (fun v => m.supDiscr v = e) (climbAll m n)
  | 0 => Keeps.pure ()
  | n + 1 => Keeps.bind (climbEntry_keeps hF n e) fun _ => climbAll_keeps e n

variable (hL : Lawful m)
include hL

omit hL in
theorem climbEntry_succ {e e' : S.E} (he : F.supParent e = some e') (n : Nat) :
    EqOn (fun v => m.supDiscr v = e) (Awaitable.climbEntry m (n + 1))
      (borrow m.supSuperstate (Awaitable.climbEntry m n) >>= fun _ => Pure.pure ()) := by
  intro s g hs
  show (borrow m.supSuperstate (Awaitable.climbEntry m n) >>= fun r => match r with
        | some () => Pure.pure () | none => callSupEntry m) s g = _
  have hsup : ∃ p, m.supSuperstate s = some p := by
    have := hF.sup s
    rw [hs, he] at this
    cases h : m.supSuperstate s with
    | none => rw [h] at this; cases this
    | some p => exact ⟨p, rfl⟩
  obtain ⟨⟨v, back⟩, hv⟩ := hsup
  simp only [bind_def, Eff.bind, Eff.borrow, hv]
  cases Awaitable.climbEntry m n v g with
  | none => rfl
  | some r => obtain ⟨o, s', g'⟩ := r; cases o <;> rfl

theorem sup_lawful {e e' : S.E} (he : F.supParent e = some e') : ∀ u v back, m.supDiscr u = e →
    m.supSuperstate u = some (v, back) → m.supDiscr v = e' ∧
      ∀ w, m.supDiscr w = e' → ∃ back', m.supSuperstate (back w) = some (w, back') ∧
        ∀ w', m.supDiscr w' = e' → back' w' = back w' := by
  intro u v back hu h
  obtain ⟨h1, -⟩ := sup_keeps hF he u v back hu h
  refine ⟨h1, fun w hw => ?_⟩
  obtain ⟨back', h2, h3⟩ := hL.sup u v back w h (hw.trans h1.symm)
  exact ⟨back', h2, fun w' hw' => h3 w' (hw'.trans h1.symm)⟩

theorem leaf_lawful {d : S.D} {e' : S.E} (he : F.leafParent d = some e') : ∀ u v back, m.discr u = d →
    m.superstate u = some (v, back) → m.supDiscr v = e' ∧
      ∀ w, m.supDiscr w = e' → ∃ back', m.superstate (back w) = some (w, back') ∧
        ∀ w', m.supDiscr w' = e' → back' w' = back w' := by
  intro u v back hu h
  have h1 : m.supDiscr v = e' := by
    have := hF.leaf u
    rw [h, hu, he] at this
    exact Option.some.inj this
  refine ⟨h1, fun w hw => ?_⟩
  obtain ⟨back', h2, h3⟩ := hL.leaf u v back w h (hw.trans h1.symm)
  exact ⟨back', h2, fun w' hw' => h3 w' (hw'.trans h1.symm)⟩

/-- Entering from a superstate: first everything above it, then the superstate. -/
theorem climbAll_succ {e : S.E} : ∀ n, n ≤ (F.supAnc e).length →
    EqOn (fun v => m.supDiscr v = e) (climbAll m (n + 1))
      (borrow m.supSuperstate (climbAll m n) >>= fun _ => callSupEntry m)
  | 0, _ => by
    intro s g hs
    show (callSupEntry m >>= fun _ => Pure.pure ()) s g = _
    rw [bind_pure']
    have := congrArg (fun x => (x >>= fun _ => callSupEntry m) s g) (borrow_pure (S := S) m.supSuperstate_back)
    simp only [bind_assoc', pure_bind'] at this
    exact this.symm
  | n + 1, hn => by
    obtain ⟨e', he⟩ : ∃ e', F.supParent e = some e' := by
      cases he : F.supParent e with
      | none => rw [F.supAnc_eq, he] at hn; simp at hn
      | some e' => exact ⟨e', rfl⟩
    have ih := climbAll_succ (e := e) n (by omega)
    have h1 : EqOn (fun v => m.supDiscr v = e) (climbAll m (n + 1 + 1))
        ((borrow m.supSuperstate (Awaitable.climbEntry m n) >>= fun _ => Pure.pure ()) >>= fun _ =>
          (borrow m.supSuperstate (climbAll m n) >>= fun _ => callSupEntry m)) :=
      EqOn.bind (climbEntry_succ hF he n) (climbEntry_keeps hF (n + 1) e) fun _ => ih
    have h2 : EqOn (fun v => m.supDiscr v = e)
        ((borrow m.supSuperstate (Awaitable.climbEntry m n) >>= fun _ =>
          (borrow m.supSuperstate (climbAll m n) >>= fun _ => Pure.pure ())) >>= fun _ => callSupEntry m)
        ((borrow m.supSuperstate (Awaitable.climbEntry m n >>= fun _ => climbAll m n) >>= fun _ => Pure.pure ())
          >>= fun _ => callSupEntry m) :=
      EqOn.bind (borrow_fuse (sup_lawful hF hL he) (climbEntry_keeps hF n e') (climbAll_keeps hF e' n))
        (Keeps.bind (Keeps.borrow (sup_keeps hF he) (climbEntry_keeps hF n e')) fun _ =>
          Keeps.bind (Keeps.borrow (sup_keeps hF he) (climbAll_keeps hF e' n)) fun _ => Keeps.pure ())
        fun _ => EqOn.refl _
    simp only [bind_assoc', pure_bind'] at h1 h2
    exact h1.trans h2

theorem supEnter_eq : ∀ n e, n ≤ (F.supAnc e).length + 1 →
    EqOn (fun v => m.supDiscr v = e) (climbAll m n) (Blocking.supEnter m n)
  | 0, e, _ => EqOn.refl _
  | 1, e, _ => by
    intro s g hs
    show (callSupEntry m >>= fun _ => Pure.pure ()) s g = _
    rw [bind_pure']; rfl
  | n + 2, e, hn => by
    refine (climbAll_succ hF hL (n + 1) (by omega)).trans ?_
    obtain ⟨e', he⟩ : ∃ e', F.supParent e = some e' := by
      cases he : F.supParent e with
      | none => rw [F.supAnc_eq, he] at hn; simp at hn
      | some e' => exact ⟨e', rfl⟩
    have hlen : (F.supAnc e).length = (F.supAnc e').length + 1 := by rw [F.supAnc_eq e, he]; rfl
    refine EqOn.bind (EqOn.borrow (P' := fun v => m.supDiscr v = e')
        (fun s v back h1 h2 => (sup_keeps hF he s v back h1 h2).1) (supEnter_eq (n + 1) e' (by omega)))
      (Keeps.borrow (sup_keeps hF he) (climbAll_keeps hF e' _)) fun _ => EqOn.refl _

omit hL in
theorem leaf_keeps {d : S.D} {e' : S.E} (he : F.leafParent d = some e') : ∀ u v back, m.discr u = d →
    m.superstate u = some (v, back) → m.supDiscr v = e' ∧ ∀ w, m.supDiscr w = e' → m.discr (back w) = d := by
  intro u v back hu h
  have h1 : m.supDiscr v = e' := by
    have := hF.leaf u
    rw [h, hu, he] at this
    exact Option.some.inj this
  exact ⟨h1, fun w hw => (hF.leaf_back u v back w h (hw.trans h1.symm)).trans hu⟩

theorem enter_succ {d : S.D} : ∀ n, n ≤ (F.leafAnc d).length →
    EqOn (fun s => m.discr s = d) (Awaitable.enter m (n + 1))
      (borrow m.superstate (climbAll m n) >>= fun _ => callEntry m)
  | 0, _ => by
    intro s g hs
    show (callEntry m) s g = _
    have := congrArg (fun x => (x >>= fun _ => callEntry m) s g) (borrow_pure (S := S) m.superstate_back)
    simp only [bind_assoc', pure_bind'] at this
    exact this.symm
  | n + 1, hn => by
    obtain ⟨e', he⟩ : ∃ e', F.leafParent d = some e' := by
      cases he : F.leafParent d with
      | none => rw [F.leafAnc_eq, he] at hn; simp at hn
      | some e' => exact ⟨e', rfl⟩
    have ih := enter_succ (d := d) n (by omega)
    have h1 : EqOn (fun v => m.discr v = d) (Awaitable.enter m (n + 1 + 1))
        (borrow m.superstate (Awaitable.climbEntry m n) >>= fun _ =>
          (borrow m.superstate (climbAll m n) >>= fun _ => callEntry m)) :=
      EqOn.bind (EqOn.refl _) (Keeps.borrow (leaf_keeps hF he) (climbEntry_keeps hF n e')) fun _ => ih
    have h2 : EqOn (fun v => m.discr v = d)
        ((borrow m.superstate (Awaitable.climbEntry m n) >>= fun _ =>
          (borrow m.superstate (climbAll m n) >>= fun _ => Pure.pure ())) >>= fun _ => callEntry m)
        ((borrow m.superstate (Awaitable.climbEntry m n >>= fun _ => climbAll m n) >>= fun _ => Pure.pure ())
          >>= fun _ => callEntry m) :=
      EqOn.bind (borrow_fuse (leaf_lawful hF hL he) (climbEntry_keeps hF n e') (climbAll_keeps hF e' n))
        (Keeps.bind (Keeps.borrow (leaf_keeps hF he) (climbEntry_keeps hF n e')) fun _ =>
          Keeps.bind (Keeps.borrow (leaf_keeps hF he) (climbAll_keeps hF e' n)) fun _ => Keeps.pure ())
        fun _ => EqOn.refl _
    simp only [bind_assoc', pure_bind'] at h2
    exact h1.trans h2

/-- Entering no more levels than there are is the same in the two modes. -/
theorem enter_eq {d : S.D} : ∀ n, n ≤ (F.leafAnc d).length + 1 →
    EqOn (fun s => m.discr s = d) (Awaitable.enter m n) (Blocking.enter m n)
  | 0, _ => EqOn.refl _
  | 1, _ => EqOn.refl _
  | n + 2, hn => by
    refine (enter_succ hF hL (n + 1) (by omega)).trans ?_
    obtain ⟨e', he⟩ : ∃ e', F.leafParent d = some e' := by
      cases he : F.leafParent d with
      | none => rw [F.leafAnc_eq, he] at hn; simp at hn
      | some e' => exact ⟨e', rfl⟩
    have hlen : (F.leafAnc d).length = (F.supAnc e').length + 1 := by rw [F.leafAnc_eq d, he]; rfl
    refine EqOn.bind (EqOn.borrow (P' := fun v => m.supDiscr v = e')
        (fun s v back h1 h2 => (leaf_keeps hF he s v back h1 h2).1) (supEnter_eq hF hL (n + 1) e' (by omega)))
      (Keeps.borrow (leaf_keeps hF he) (climbAll_keeps hF e' _)) fun _ => EqOn.refl _

theorem init_eq : Awaitable.init m = Blocking.init m := by
  funext s g
  show (Eff.self >>= fun s => Eff.lift ((depth m s).map .ok) >>= fun n => Awaitable.enter m n) s g =
    (Eff.self >>= fun s => Eff.lift ((depth m s).map .ok) >>= fun n => Blocking.enter m n) s g
  simp only [bind_def, Eff.bind, Eff.self, Eff.lift, depth_eq hF, Option.map_some]
  exact enter_eq hF hL _ (Nat.le_refl _) s g rfl

end

/-! ## Dispatch -/

/-- The same to everything but hooks. -/
structure Like (g g' : Glob S) : Prop where
  sh : g.sh = g'.sh
  ctx : g.ctx = g'.ctx
  sched : g.sched = g'.sched
  trace : callbacksOf g.trace = callbacksOf g'.trace

theorem Like.refl (g : Glob S) : Like g g := ⟨rfl, rfl, rfl, rfl⟩

/-- Two programs do the same, hooks apart, on a `self` with the property `P`. -/
def Same (P : σ → Prop) (A : α → β → Prop) (x : Eff S σ α) (y : Eff S σ β) : Prop :=
  ∀ v g g', P v → Like g g' →
    OptRel (fun p q => OutRel A p.1 q.1 ∧ p.2.1 = q.2.1 ∧ P p.2.1 ∧ Like p.2.2 q.2.2) (x v g) (y v g')

namespace Same
variable {α' β' : Type} {P : σ → Prop} {A : α → β → Prop} {B : α' → β' → Prop}

theorem pure {a b} (h : A a b) : Same P A (Pure.pure a : Eff S σ α) (Pure.pure b : Eff S σ β) :=
  fun _ _ _ hv hg => .some ⟨.ok h, rfl, hv, hg⟩

theorem bind {x : Eff S σ α} {y : Eff S σ β} {f : α → Eff S σ α'} {h : β → Eff S σ β'} (hx : Same P A x y)
    (hf : ∀ a b, A a b → Same P B (f a) (h b)) : Same P B (x >>= f) (y >>= h) := by
  intro v g g' hv hg
  simp only [bind_def, Eff.bind]
  have := hx v g g' hv hg
  generalize x v g = a at this ⊢
  generalize y v g' = b at this ⊢
  cases this with
  | none => exact .none
  | @some p q hpq =>
    obtain ⟨o, v1, g1⟩ := p
    obtain ⟨o', v2, g2⟩ := q
    obtain ⟨h1, h2, h3, h4⟩ := hpq
    simp only at h1 h2 h3 h4
    subst h2
    cases h1 with
    | ok hab => exact hf _ _ hab v1 g1 g2 h3 h4
    | panic => exact .some ⟨.panic, rfl, h3, h4⟩
    | stopped => exact .some ⟨.stopped, rfl, h3, h4⟩

theorem borrow {P' : τ → Prop} {sup : σ → Option (τ × (τ → σ))} {x : Eff S τ α} {y : Eff S τ β}
    (hs : ∀ s v back, P s → sup s = some (v, back) → P' v ∧ ∀ w, P' w → P (back w)) (h : Same P' A x y) :
    Same P (OptRel A) (Eff.borrow sup x) (Eff.borrow sup y) := by
  intro s g g' hv hg
  unfold Eff.borrow
  cases hs' : sup s with
  | none => exact .some ⟨.ok .none, rfl, hv, hg⟩
  | some p =>
    obtain ⟨v, back⟩ := p
    simp only
    obtain ⟨k1, k2⟩ := hs s v back hv hs'
    have := h v g g' k1 hg
    generalize x v g = a at this ⊢
    generalize y v g' = b at this ⊢
    cases this with
    | none => exact .none
    | @some p q hpq =>
      obtain ⟨o, v1, g1⟩ := p
      obtain ⟨o', v2, g2⟩ := q
      obtain ⟨h1, h2, h3, h4⟩ := hpq
      simp only at h1 h2 h3 h4
      subst h2
      refine .some ⟨?_, rfl, k2 _ h3, h4⟩
      cases h1 with
      | ok hab => exact .ok (.some hab)
      | panic => exact .panic
      | stopped => exact .stopped

theorem callback {o : σ → Obs S} {f : σ → S.M → S.Ctx → Fut S.In (σ × S.M × S.Ctx) α}
    (h : ∀ s sh c, P s → (f s sh c).All (fun w => P w.1)) : Same P Eq (Eff.callback o f) (Eff.callback o f) := by
  intro s g g' hs hg
  obtain ⟨sh, c, l, t⟩ := g
  obtain ⟨sh', c', l', t'⟩ := g'
  obtain ⟨h1, h2, h3, h4⟩ := hg
  simp only at h1 h2 h3 h4
  subst h1; subst h2; subst h3
  have := Fut.run_all (h s sh c hs) l
  refine .some ⟨?_, rfl, this, rfl, rfl, rfl, ?_⟩
  · generalize ((f s sh c).run l).1 = r
    cases r with
    | ok a => exact .ok rfl
    | panic => exact .panic
    | stopped => exact .stopped
  · simp only [callbacksOf, List.filter_append] at h4 ⊢
    rw [h4]

theorem log {o : σ → Obs S} : Same P Eq (Eff.log o) (Eff.log o) := by
  intro s g g' hs hg
  refine .some ⟨.ok rfl, rfl, hs, hg.sh, hg.ctx, hg.sched, ?_⟩
  have := hg.trace
  simp only [callbacksOf, List.filter_append] at this ⊢
  rw [this]

/-- A hook that does nothing can be left out on the left. -/
theorem hookL {o : σ → Obs S} {f : σ → S.M → Fut S.In S.M Unit} (ho : ∀ s, (o s).isCallback = false)
    (hf : ∀ s sh, f s sh = .done sh ()) {x : Eff S σ α} {y : Eff S σ β} (h : Same P A x y) :
    Same P A (Eff.hook o f >>= fun _ => x) y := by
  intro s g g' hs hg
  simp only [bind_def, Eff.bind, Eff.hook, hf, Fut.run]
  refine h _ _ _ hs ⟨hg.sh, hg.ctx, hg.sched, ?_⟩
  rw [← hg.trace]
  simp [callbacksOf, ho]

/-- A hook that does nothing can be left out on the right. -/
theorem hookR {o : σ → Obs S} {f : σ → S.M → Fut S.In S.M Unit} (ho : ∀ s, (o s).isCallback = false)
    (hf : ∀ s sh, f s sh = .done sh ()) {x : Eff S σ α} {y : Eff S σ β} (h : Same P A x y) :
    Same P A x (Eff.hook o f >>= fun _ => y) := by
  intro s g g' hs hg
  simp only [bind_def, Eff.bind, Eff.hook, hf, Fut.run]
  refine h _ _ _ hs ⟨hg.sh, hg.ctx, hg.sched, ?_⟩
  rw [hg.trace]
  simp [callbacksOf, ho]

theorem mono {A' : α → β → Prop} {x : Eff S σ α} {y : Eff S σ β} (h : Same P A x y)
    (ha : ∀ a b, A a b → A' a b) : Same P A' x y := by
  intro s g g' hs hg
  have := h s g g' hs hg
  generalize x s g = a at this ⊢
  generalize y s g' = b at this ⊢
  cases this with
  | none => exact .none
  | @some p q hpq =>
    obtain ⟨o, v1, g1⟩ := p
    obtain ⟨o', v2, g2⟩ := q
    obtain ⟨h1, h2⟩ := hpq
    refine .some ⟨?_, h2⟩
    simp only at h1 ⊢
    cases h1 with
    | ok hab => exact .ok (ha _ _ hab)
    | panic => exact .panic
    | stopped => exact .stopped

/-- Programs that do exactly the same. -/
theorem of_eqOn {x y : Eff S σ α} (h : EqOn P y x) (hx : Same P Eq x x) : Same P Eq x y := by
  intro s g g' hs hg
  rw [h s g' hs]
  exact hx s g g' hs hg

end Same

/-- The results of dispatching in the two modes: equal, except that an event deferred by everyone counts as
`super` in one and `handled` in the other. -/
def RespLike (r r' : Response S.St) : Prop := r = r' ∨ (r = .super ∧ r' = .handled)

section
variable (hF : Follows m F) (hH : m.NoHooks)
include hF

theorem callSupHandler_same (ev : S.Ev) (e : S.E) :
    Same (fun v => m.supDiscr v = e) Eq (callSupHandler m ev) (callSupHandler m ev) := by
  refine Same.bind (Same.callback fun s sh c hs => ?_) fun a b hab => ?_
  · have := hF.supHandler s sh ev c; rw [hs] at this; exact this
  · subst hab
    exact Same.bind Same.log fun _ _ _ => Same.pure rfl

theorem callHandler_same (ev : S.Ev) (d : S.D) :
    Same (fun v => m.discr v = d) Eq (callHandler m ev) (callHandler m ev) := by
  refine Same.bind (Same.callback fun s sh c hs => ?_) fun a b hab => ?_
  · have := hF.handler s sh ev c; rw [hs] at this; exact this
  · subst hab
    exact Same.bind Same.log fun _ _ _ => Same.pure rfl

include hH

theorem supHandle_same (ev : S.Ev) : ∀ (l : List S.E) (e : S.E), F.supAnc e = l →
    Same (fun v => m.supDiscr v = e) RespLike (Blocking.supHandle m ev) (Awaitable.handleLoop m ev) := by
  intro l
  induction l with
  | nil =>
    intro e he
    have hp : F.supParent e = none := by
      rw [F.supAnc_eq] at he
      cases h : F.supParent e with
      | none => rfl
      | some p => rw [h] at he; cases he
    rw [Blocking.supHandle, Awaitable.handleLoop]
    refine Same.hookR (fun _ => rfl) (fun _ _ => hH.beforeDispatch _ _ _) ?_
    refine Same.bind (callSupHandler_same hF ev e) fun r r' hr => ?_
    subst hr
    refine Same.hookR (fun _ => rfl) (fun _ _ => hH.afterDispatch _ _ _) ?_
    cases r with
    | handled => exact Same.pure (.inl rfl)
    | transition t => exact Same.pure (.inl rfl)
    | super =>
      intro v g g' hv hg
      simp only [bind_def, Eff.bind, Eff.borrow, supNone hF hp hv, pure_def]
      exact .some ⟨.ok (.inr ⟨rfl, rfl⟩), rfl, hv, hg⟩
  | cons p l ih =>
    intro e he
    have hp : F.supParent e = some p ∧ F.supAnc p = l := by
      rw [F.supAnc_eq] at he
      cases h : F.supParent e with
      | none => rw [h] at he; cases he
      | some p => rw [h] at he; cases he; exact ⟨rfl, rfl⟩
    rw [Blocking.supHandle, Awaitable.handleLoop]
    refine Same.hookR (fun _ => rfl) (fun _ _ => hH.beforeDispatch _ _ _) ?_
    refine Same.bind (callSupHandler_same hF ev e) fun r r' hr => ?_
    subst hr
    refine Same.hookR (fun _ => rfl) (fun _ _ => hH.afterDispatch _ _ _) ?_
    cases r with
    | handled => exact Same.pure (.inl rfl)
    | transition t => exact Same.pure (.inl rfl)
    | super =>
      refine Same.bind (Same.borrow (sup_keeps hF hp.1) (A := RespLike) ?_) ?_
      · refine Same.hookL (fun _ => rfl) (fun _ _ => hH.beforeDispatch _ _ _) ?_
        have : Same (fun v => m.supDiscr v = p) RespLike
            (Blocking.supHandle m ev >>= fun r => hookSupAfterDispatch m ev >>= fun _ => Pure.pure r)
            (Awaitable.handleLoop m ev >>= fun r => Pure.pure r) :=
          Same.bind (ih p hp.2) fun a b hab =>
            Same.hookL (fun _ => rfl) (fun _ _ => hH.afterDispatch _ _ _) (Same.pure hab)
        have e2 : (Awaitable.handleLoop m ev >>= fun r => (Pure.pure r : Eff S S.Sup (Response S.St))) =
            Awaitable.handleLoop m ev := by
          funext s g
          simp only [bind_def, Eff.bind]
          cases Awaitable.handleLoop m ev s g with
          | none => rfl
          | some r => obtain ⟨o, s', g'⟩ := r; cases o <;> rfl
        rw [e2] at this
        exact this
      · intro a b hab
        cases hab with
        | none => exact Same.pure (.inr ⟨rfl, rfl⟩)
        | some h => exact Same.pure h

theorem handle_same (ev : S.Ev) (d : S.D) :
    Same (fun s => m.discr s = d) RespLike (Blocking.handle m ev) (Awaitable.handle m ev) := by
  refine Same.hookL (fun _ => rfl) (fun _ _ => hH.beforeDispatch _ _ _) ?_
  refine Same.hookR (fun _ => rfl) (fun _ _ => hH.beforeDispatch _ _ _) ?_
  refine Same.bind (callHandler_same hF ev d) fun r r' hr => ?_
  subst hr
  refine Same.hookL (fun _ => rfl) (fun _ _ => hH.afterDispatch _ _ _) ?_
  refine Same.hookR (fun _ => rfl) (fun _ _ => hH.afterDispatch _ _ _) ?_
  cases r with
  | handled => exact Same.pure (.inl rfl)
  | transition t => exact Same.pure (.inl rfl)
  | super =>
    cases hp : F.leafParent d with
    | none =>
      intro s g g' hs hg
      have hn : m.superstate s = none := by
        have := hF.leaf s
        rw [hs, hp] at this
        cases h : m.superstate s with
        | none => rfl
        | some p => rw [h] at this; cases this
      simp only [bind_def, Eff.bind, Eff.borrow, hn, pure_def]
      exact .some ⟨.ok (.inl rfl), rfl, hs, hg⟩
    | some p =>
      refine Same.bind (Same.borrow (leaf_keeps hF hp) (A := RespLike) ?_) ?_
      · refine Same.hookL (fun _ => rfl) (fun _ _ => hH.beforeDispatch _ _ _) ?_
        have : Same (fun v => m.supDiscr v = p) RespLike
            (Blocking.supHandle m ev >>= fun r => hookSupAfterDispatch m ev >>= fun _ => Pure.pure r)
            (Awaitable.handleLoop m ev >>= fun r => Pure.pure r) :=
          Same.bind (supHandle_same hF hH ev _ p rfl) fun a b hab =>
            Same.hookL (fun _ => rfl) (fun _ _ => hH.afterDispatch _ _ _) (Same.pure hab)
        have e2 : (Awaitable.handleLoop m ev >>= fun r => (Pure.pure r : Eff S S.Sup (Response S.St))) =
            Awaitable.handleLoop m ev := by
          funext s g
          simp only [bind_def, Eff.bind]
          cases Awaitable.handleLoop m ev s g with
          | none => rfl
          | some r => obtain ⟨o, s', g'⟩ := r; cases o <;> rfl
        rw [e2] at this
        exact this
      · intro a b hab
        cases hab with
        | none => exact Same.pure (.inl rfl)
        | some h => exact Same.pure h

omit hF hH

/-- A program that does not look at the log. -/
theorem Same.whole {x : Eff S S.St Unit} {d : S.D} (h : Same (fun s => m.discr s = d) Eq x x) {s g g'}
    (hs : m.discr s = d) (hg : Like g g') : OptRel (fun p q => p.1 = q.1 ∧ p.2.1 = q.2.1 ∧ Like p.2.2 q.2.2)
      (x s g) (x s g') := by
  have := h s g g' hs hg
  generalize x s g = a at this ⊢
  generalize x s g' = b at this ⊢
  cases this with
  | none => exact .none
  | @some p q hpq =>
    obtain ⟨o, v1, g1⟩ := p
    obtain ⟨o', v2, g2⟩ := q
    obtain ⟨h1, h2, h3, h4⟩ := hpq
    refine .some ⟨?_, h2, h4⟩
    simp only at h1 ⊢
    cases h1 with
    | ok h => rw [h]
    | panic => rfl
    | stopped => rfl

include hF

theorem supEnter_same : ∀ n e, Same (fun v => m.supDiscr v = e) Eq (Blocking.supEnter m n) (Blocking.supEnter m n)
  | 0, _ => Same.pure rfl
  | 1, e => Same.callback fun s sh c hs => by have := hF.supEntry s sh c; rw [hs] at this; exact this
  | n + 2, e => by
    have hc : Same (fun v => m.supDiscr v = e) Eq (callSupEntry m) (callSupEntry m) :=
      Same.callback fun s sh c hs => by have := hF.supEntry s sh c; rw [hs] at this; exact this
    cases hp : F.supParent e with
    | none =>
      intro v g g' hv hg
      unfold Blocking.supEnter
      simp only [bind_def, Eff.bind, Eff.borrow, supNone hF hp hv]
      exact hc v g g' hv hg
    | some p =>
      exact Same.bind (Same.borrow (sup_keeps hF hp) (supEnter_same (n + 1) p)) fun _ _ _ => hc

theorem supExit_same : ∀ n e, Same (fun v => m.supDiscr v = e) Eq (Blocking.supExit m n) (Blocking.supExit m n)
  | 0, _ => Same.pure rfl
  | 1, e => Same.callback fun s sh c hs => by have := hF.supExit s sh c; rw [hs] at this; exact this
  | n + 2, e => by
    have hc : Same (fun v => m.supDiscr v = e) Eq (callSupExit m) (callSupExit m) :=
      Same.callback fun s sh c hs => by have := hF.supExit s sh c; rw [hs] at this; exact this
    refine Same.bind hc fun _ _ _ => ?_
    cases hp : F.supParent e with
    | none =>
      intro v g g' hv hg
      simp only [bind_def, Eff.bind, Eff.borrow, supNone hF hp hv, pure_def]
      exact .some ⟨.ok rfl, rfl, hv, hg⟩
    | some p =>
      exact Same.bind (Same.borrow (sup_keeps hF hp) (supExit_same (n + 1) p)) fun _ _ _ => Same.pure rfl

theorem leafNone {d : S.D} (hd : F.leafParent d = none) {s : S.St} (hs : m.discr s = d) :
    m.superstate s = none := by
  have := hF.leaf s
  rw [hs, hd] at this
  cases h : m.superstate s with
  | none => rfl
  | some p => rw [h] at this; cases this

theorem enter_same : ∀ n d, Same (fun v => m.discr v = d) Eq (Blocking.enter m n) (Blocking.enter m n)
  | 0, _ => Same.pure rfl
  | 1, e => Same.callback fun s sh c hs => by have := hF.entry s sh c; rw [hs] at this; exact this
  | n + 2, e => by
    have hc : Same (fun v => m.discr v = e) Eq (callEntry m) (callEntry m) :=
      Same.callback fun s sh c hs => by have := hF.entry s sh c; rw [hs] at this; exact this
    cases hp : F.leafParent e with
    | none =>
      intro v g g' hv hg
      unfold Blocking.enter
      simp only [bind_def, Eff.bind, Eff.borrow, leafNone hF hp hv]
      exact hc v g g' hv hg
    | some p =>
      exact Same.bind (Same.borrow (leaf_keeps hF hp) (supEnter_same hF (n + 1) p)) fun _ _ _ => hc

theorem exit_same : ∀ n d, Same (fun v => m.discr v = d) Eq (Blocking.exit m n) (Blocking.exit m n)
  | 0, _ => Same.pure rfl
  | 1, e => Same.callback fun s sh c hs => by have := hF.exit s sh c; rw [hs] at this; exact this
  | n + 2, e => by
    have hc : Same (fun v => m.discr v = e) Eq (callExit m) (callExit m) :=
      Same.callback fun s sh c hs => by have := hF.exit s sh c; rw [hs] at this; exact this
    refine Same.bind hc fun _ _ _ => ?_
    cases hp : F.leafParent e with
    | none =>
      intro v g g' hv hg
      simp only [bind_def, Eff.bind, Eff.borrow, leafNone hF hp hv, pure_def]
      exact .some ⟨.ok rfl, rfl, hv, hg⟩
    | some p =>
      exact Same.bind (Same.borrow (leaf_keeps hF hp) (supExit_same hF (n + 1) p)) fun _ _ _ => Same.pure rfl

variable (hL : Lawful m)
include hL hH

theorem transition_same (t s : S.St) {g g' : Glob S} (hg : Like g g') :
    OptRel (fun p q => p.1 = q.1 ∧ p.2.1 = q.2.1 ∧ Like p.2.2 q.2.2)
      (Blocking.transition m t s g) (Awaitable.transition m t s g') := by
  obtain ⟨a, b, hp, hb⟩ : ∃ a b, transitionPath m s t = some (.ok (a, b)) ∧ b ≤ (F.leafAnc (m.discr t)).length + 1 := by
    by_cases h : m.discr s = m.discr t
    · exact ⟨1, 1, transitionPath_of_eq s t h, by omega⟩
    · exact ⟨_, _, transitionPath_of_ne hF s t h, Nat.sub_le _ _⟩
  unfold Blocking.transition Awaitable.transition
  simp only [bind_def, Eff.bind, Eff.self, hookBeforeTransition, hookAfterTransition, Eff.hook,
    hH.beforeTransition, hH.afterTransition, Fut.run, Eff.lift, hp, exit_eq, Eff.swap]
  have hg1 : Like { g with trace := g.trace ++ [.beforeTransition t s] }
      { g' with trace := g'.trace ++ [.beforeTransition s t] } :=
    ⟨hg.sh, hg.ctx, hg.sched, by simpa [callbacksOf, Obs.isCallback] using hg.trace⟩
  have hx := (exit_same hF a (m.discr s)).whole rfl hg1
  generalize Blocking.exit m a s { g with trace := g.trace ++ [.beforeTransition t s] } = x at hx
  generalize Blocking.exit m a s { g' with trace := g'.trace ++ [.beforeTransition s t] } = y at hx
  cases hx with
  | none => exact .none
  | @some p q hpq =>
    obtain ⟨o, s1, g1⟩ := p
    obtain ⟨o', s2, g2⟩ := q
    obtain ⟨h1, h2, h3⟩ := hpq
    simp only at h1 h2 h3
    subst h1; subst h2
    cases o with
    | panic => exact .some ⟨rfl, rfl, h3⟩
    | stopped => exact .some ⟨rfl, rfl, h3⟩
    | ok _ =>
      simp only
      rw [enter_eq hF hL b hb t g2 rfl]
      have hx := (enter_same hF b (m.discr t)).whole rfl h3
      generalize Blocking.enter m b t g1 = x at hx
      generalize Blocking.enter m b t g2 = y at hx
      cases hx with
      | none => exact .none
      | @some p q hpq =>
        obtain ⟨o, s3, g3⟩ := p
        obtain ⟨o', s4, g4⟩ := q
        obtain ⟨h1, h2, h3⟩ := hpq
        simp only at h1 h2 h3
        subst h1; subst h2
        cases o with
        | panic => exact .some ⟨rfl, rfl, h3⟩
        | stopped => exact .some ⟨rfl, rfl, h3⟩
        | ok _ =>
          exact .some ⟨rfl, rfl, h3.sh, h3.ctx, h3.sched, by
            simpa [callbacksOf, Obs.isCallback] using h3.trace⟩

theorem handleEvent_same (ev : S.Ev) (s : S.St) {g g' : Glob S} (hg : Like g g') :
    OptRel (fun p q => p.1 = q.1 ∧ p.2.1 = q.2.1 ∧ Like p.2.2 q.2.2)
      (Blocking.handleEvent m ev s g) (Awaitable.handleEvent m ev s g') := by
  unfold Blocking.handleEvent Awaitable.handleEvent
  simp only [bind_def, Eff.bind]
  have := handle_same hF hH ev (m.discr s) s g g' rfl hg
  generalize Blocking.handle m ev s g = x at this
  generalize Awaitable.handle m ev s g' = y at this
  cases this with
  | none => exact .none
  | @some p q hpq =>
    obtain ⟨o, s1, g1⟩ := p
    obtain ⟨o', s2, g2⟩ := q
    obtain ⟨h1, h2, -, h3⟩ := hpq
    simp only at h1 h2 h3
    subst h2
    cases h1 with
    | panic => exact .some ⟨rfl, rfl, h3⟩
    | stopped => exact .some ⟨rfl, rfl, h3⟩
    | ok hr =>
      rcases hr with rfl | ⟨rfl, rfl⟩
      · rename_i r
        cases r with
        | handled => exact .some ⟨rfl, rfl, h3⟩
        | super => exact .some ⟨rfl, rfl, h3⟩
        | transition t => exact transition_same hF hH hL t s1 h3
      · exact .some ⟨rfl, rfl, h3⟩

end
end Statig
