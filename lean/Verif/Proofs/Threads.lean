import Verif.Spec.Threads
import Verif.Proofs.StateMachine
/-!
# Every call threads one world through its callbacks

`Thr mode m ev foc tag x v p Q`: run on the part `v` of a state on which `foc` focuses, in phase `p` (pending
target and state left), the program `x` threads the world, keeps `tag v`, and ends in `Q` if it completes.
-/
namespace Statig
variable {S : Sig} {mode : Mode} {m : Machine S} {ev : Option S.Ev} {F : Forest S.D S.E}
  {σ τ α β κ κ' : Type}

theorem Threads.append {w T w1 T' o w2} (h : Threads mode m ev w T (.ok ()) w1)
    (h' : Threads mode m ev w1 T' o w2) : Threads mode m ev w (T ++ T') o w2 := by
  generalize ho : Out.ok () = o' at h
  induction h with
  | nil => exact h'
  | call h1 _ ih => rw [List.append_assoc]; exact .call h1 (ih h' ho)
  | cut _ h1 => exact absurd ho.symm h1
  | swap h1 _ ih => exact .swap h1 (ih h' ho)

abbrev Phase (S : Sig) := Option S.St × Option S.St

/-- The world of a program running inside a call. -/
def mkWorld (s : S.St) (g : Glob S) (p : Phase S) : World S := ⟨s, g.sh, g.ctx, g.sched, p.1, p.2⟩

/-- `foc` is a lawful way of looking at part of the state. -/
def Focus (foc : S.St → Option (σ × (σ → S.St))) (tag : σ → κ) : Prop :=
  ∀ s v put w, foc s = some (v, put) → tag w = tag v →
    ∃ put', foc (put w) = some (w, put') ∧ ∀ w', tag w' = tag v → put' w' = put w'

/-- See the module comment. -/
def Thr (mode : Mode) (m : Machine S) (ev : Option S.Ev) (foc : S.St → Option (σ × (σ → S.St)))
    (tag : σ → κ) (x : Eff S σ α) (v : σ) (p : Phase S) (Q : α → σ → Phase S → Prop) : Prop :=
  ∀ s put g, foc s = some (v, put) → ∀ o v' g', x v g = some (o, v', g') →
    tag v' = tag v ∧ ∃ T p', g'.trace = g.trace ++ T ∧
      Threads mode m ev (mkWorld s g p) T o.void (mkWorld (put v') g' p') ∧ ∀ a, o = .ok a → Q a v' p'

namespace Thr
variable {foc : S.St → Option (σ × (σ → S.St))} {tag : σ → κ}

theorem mono {x : Eff S σ α} {v p Q Q'} (h : Thr mode m ev foc tag x v p Q)
    (hq : ∀ a v' p', Q a v' p' → Q' a v' p') : Thr mode m ev foc tag x v p Q' := by
  intro s put g hs o v' g' hx
  obtain ⟨h1, T, p', h2, h3, h4⟩ := h s put g hs o v' g' hx
  exact ⟨h1, T, p', h2, h3, fun a ha => hq _ _ _ (h4 a ha)⟩

theorem pure (hf : ∀ s v put, foc s = some (v, put) → put v = s) {a : α} {v p} :
    Thr mode m ev foc tag (Pure.pure a : Eff S σ α) v p (fun b v' p' => b = a ∧ v' = v ∧ p' = p) := by
  intro s put g hs o v' g' hx
  cases hx
  refine ⟨rfl, [], p, by simp, ?_, ?_⟩
  · rw [hf s v put hs]; exact .nil
  · intro b hb; cases hb; exact ⟨rfl, rfl, rfl⟩

theorem bind (hF : Focus foc tag) {x : Eff S σ α} {f : α → Eff S σ β} {v p Q Q'}
    (hx : Thr mode m ev foc tag x v p Q)
    (hf : ∀ a v' p', tag v' = tag v → Q a v' p' → Thr mode m ev foc tag (f a) v' p' Q') :
    Thr mode m ev foc tag (x >>= f) v p Q' := by
  intro s put g hs o v' g' hxf
  have hxf : Eff.bind x f v g = some (o, v', g') := hxf
  unfold Eff.bind at hxf
  cases hxv : x v g with
  | none => simp [hxv] at hxf
  | some r =>
    obtain ⟨o1, v1, g1⟩ := r
    obtain ⟨h1, T, p1, h2, h3, h4⟩ := hx s put g hs o1 v1 g1 hxv
    rw [hxv] at hxf
    cases o1 with
    | ok a =>
      obtain ⟨put', k1, k2⟩ := hF s v put v1 hs h1
      obtain ⟨j1, T', p2, j2, j3, j4⟩ := hf a v1 p1 h1 (h4 a rfl) (put v1) put' g1 k1 o v' g' hxf
      refine ⟨j1.trans h1, T ++ T', p2, by rw [j2, h2, List.append_assoc], ?_, j4⟩
      rw [k2 v' (j1.trans h1)] at j3
      exact h3.append j3
    | panic => cases hxf; exact ⟨h1, T, p1, h2, h3, fun a ha => by cases ha⟩
    | stopped => cases hxf; exact ⟨h1, T, p1, h2, h3, fun a ha => by cases ha⟩

/-- A program that runs one callback. -/
theorem one {x : Eff S σ α} {v p Q}
    (h : ∀ s put g, foc s = some (v, put) → ∀ o v' g', x v g = some (o, v', g') →
      tag v' = tag v ∧ ∃ T p', g'.trace = g.trace ++ T ∧
        Runs1 mode m ev (mkWorld s g p) T o.void (mkWorld (put v') g' p') ∧ ∀ a, o = .ok a → Q a v' p') :
    Thr mode m ev foc tag x v p Q := by
  intro s put g hs o v' g' hx
  obtain ⟨h1, T, p', h2, h3, h4⟩ := h s put g hs o v' g' hx
  refine ⟨h1, T, p', h2, ?_, h4⟩
  cases o with
  | ok a => have := Threads.call h3 .nil; rwa [List.append_nil] at this
  | panic => exact .cut h3 (by simp [Out.void, Out.map])
  | stopped => exact .cut h3 (by simp [Out.void, Out.map])

theorem borrow {sup : σ → Option (τ × (τ → σ))} {foc' : S.St → Option (τ × (τ → S.St))} {tag' : τ → κ'}
    (hpv : ∀ s v put, foc s = some (v, put) → put v = s)
    (hfoc : ∀ s v put, foc s = some (v, put) → ∀ w put', sup v = some (w, put') →
      foc' s = some (w, fun w' => put (put' w')))
    (htag : ∀ v w put' w', sup v = some (w, put') → tag' w' = tag' w → tag (put' w') = tag v)
    {body : Eff S τ α} {v p Q}
    (hb : ∀ w put', sup v = some (w, put') →
      Thr mode m ev foc' tag' body w p (fun a w' p' => Q (some a) (put' w') p'))
    (hn : sup v = none → Q none v p) :
    Thr mode m ev foc tag (Eff.borrow sup body) v p Q := by
  intro s put g hs o v' g' hx
  unfold Eff.borrow at hx
  cases hsup : sup v with
  | none =>
    rw [hsup] at hx; cases hx
    refine ⟨rfl, [], p, by simp, ?_, ?_⟩
    · rw [hpv s v put hs]; exact .nil
    · intro a ha; cases ha; exact hn hsup
  | some q =>
    obtain ⟨w, put'⟩ := q
    rw [hsup] at hx
    simp only at hx
    cases hbw : body w g with
    | none => simp [hbw] at hx
    | some r =>
      obtain ⟨o1, w1, g1⟩ := r
      obtain ⟨h1, T, p', h2, h3, h4⟩ := hb w put' hsup s _ g (hfoc s v put hs w put' hsup) o1 w1 g1 hbw
      rw [hbw] at hx; cases hx
      refine ⟨htag v w put' w1 hsup h1, T, p', h2, ?_, ?_⟩
      · cases o1 <;> exact h3
      · intro a ha
        cases o1 with
        | ok a1 => cases ha; exact h4 a1 rfl
        | panic => cases ha
        | stopped => cases ha

open Lean.Order in
theorem admissible {v p Q} : Lean.Order.admissible (fun x : Eff S σ α => Thr mode m ev foc tag x v p Q) := by
  unfold Thr
  apply admissible_pi; intro s
  apply admissible_pi; intro put
  apply admissible_pi; intro g
  apply admissible_pi; intro _
  let P : Option (Out α × σ × Glob S) → Prop := fun r => ∀ (o : Out α) (v' : σ) (g' : Glob S),
    r = some (o, v', g') → tag v' = tag v ∧ ∃ T p', g'.trace = g.trace ++ T ∧
      Threads mode m ev (mkWorld s g p) T o.void (mkWorld (put v') g' p') ∧ ∀ a, o = .ok a → Q a v' p'
  have hP : Lean.Order.admissible P := by
    apply admissible_flatOrder (α := Option (Out α × σ × Glob S)) (b := none)
    intro o t h hn
    cases hn
  exact admissible_apply (β := fun _ : σ => Glob S → Option (Out α × σ × Glob S)) (fun _ f => P (f g)) v
    (admissible_apply (β := fun _ : Glob S => Option (Out α × σ × Glob S)) (fun _ r => P r) g hP)

end Thr

/-! ## The focuses -/

/-- Focus on the state itself. -/
def whole (s : S.St) : Option (S.St × (S.St → S.St)) := some (s, fun s' => s')

theorem whole_focus (m : Machine S) : Focus (S := S) whole m.discr := by
  intro s v put w h _
  cases h
  exact ⟨_, rfl, fun _ _ => rfl⟩

theorem whole_self : ∀ (s v : S.St) put, whole s = some (v, put) → put v = s := by
  intro s v put h; cases h; rfl

theorem view_self (m : Machine S) (k : Nat) : ∀ s v put, m.view k s = some (v, put) → put v = s := by
  induction k with
  | zero => exact m.superstate_back
  | succ k ih =>
    intro s v put h
    unfold Machine.view at h
    cases hk : m.view k s with
    | none => simp [hk] at h
    | some q =>
      obtain ⟨u, pu⟩ := q
      rw [hk] at h
      simp only at h
      cases hu : m.supSuperstate u with
      | none => simp [hu] at h
      | some r =>
        obtain ⟨w, pw⟩ := r
        rw [hu] at h; cases h
        show pu (pw v) = s
        rw [m.supSuperstate_back _ _ _ hu, ih s u pu hk]

theorem view_focus (hF : Follows m F) (hL : Lawful m) (k : Nat) : Focus (m.view k) m.supDiscr := by
  induction k with
  | zero => intro s v put w h hw; exact hL.leaf s v put w h hw
  | succ k ih =>
    intro s v put w h hw
    unfold Machine.view at h
    cases hk : m.view k s with
    | none => simp [hk] at h
    | some q =>
      obtain ⟨u, pu⟩ := q
      rw [hk] at h
      simp only at h
      cases hu : m.supSuperstate u with
      | none => simp [hu] at h
      | some r =>
        obtain ⟨v0, pw⟩ := r
        rw [hu] at h; cases h
        have e : m.supDiscr (pw w) = m.supDiscr u := hF.sup_back u v pw w hu hw
        obtain ⟨pu', h1, h2⟩ := ih s u pu (pw w) hk e
        obtain ⟨pw', h3, h4⟩ := hL.sup u v pw w hu hw
        refine ⟨fun w' => pu' (pw' w'), ?_, ?_⟩
        · unfold Machine.view
          simp only [h1, h3]
        · intro w' hw'
          show pu' (pw' w') = pu (pw w')
          rw [h4 w' hw', h2 _ (hF.sup_back u v pw w' hu hw')]

theorem view_succ {k s v put w put'} (h : m.view k s = some (v, put))
    (h' : m.supSuperstate v = some (w, put')) :
    m.view (k + 1) s = some (w, fun w' => put (put' w')) := by
  rw [Machine.view]; simp only [h, h']

/-! ## Callbacks -/

section
variable (hF : Follows m F)
include hF

theorem callHandler_thr {e s lf} (he : ev = some e) :
    Thr mode m ev whole m.discr (callHandler m e) s (none, lf)
      (fun r _ p' => p' = (requested (.ok r), lf)) := by
  refine Thr.one ?_
  intro s0 put g hs o v' g' hx
  cases hs
  generalize hr : (m.handler s g.sh e g.ctx).run g.sched = r
  obtain ⟨o1, ⟨s1, x1, c1⟩, l1⟩ := r
  have htag : m.discr s1 = m.discr s := by
    have := Fut.run_all (hF.handler s g.sh e g.ctx) g.sched
    rw [hr] at this; exact this
  have hrun := Runs1.handler (mode := mode) (w := mkWorld s g (none, lf)) he rfl hr
  simp only [callHandler, Bind.bind, Eff.bind, Eff.callback, hr, Eff.log, Pure.pure, Eff.pure] at hx
  cases o1 with
  | ok r1 =>
    cases hx
    exact ⟨htag, _, (requested (.ok r1), lf), by simp [returnedObs, mkWorld], hrun, fun a ha => by cases ha; rfl⟩
  | panic =>
    cases hx
    exact ⟨htag, _, (none, lf), rfl, hrun, fun a ha => by cases ha⟩
  | stopped =>
    cases hx
    exact ⟨htag, _, (none, lf), rfl, hrun, fun a ha => by cases ha⟩

theorem callSupHandler_thr {e v lf k} (he : ev = some e) :
    Thr mode m ev (m.view k) m.supDiscr (callSupHandler m e) v (none, lf)
      (fun r _ p' => p' = (requested (.ok r), lf)) := by
  refine Thr.one ?_
  intro s0 put g hs o v' g' hx
  generalize hr : (m.supHandler v g.sh e g.ctx).run g.sched = r
  obtain ⟨o1, ⟨s1, x1, c1⟩, l1⟩ := r
  have htag : m.supDiscr s1 = m.supDiscr v := by
    have := Fut.run_all (hF.supHandler v g.sh e g.ctx) g.sched
    rw [hr] at this; exact this
  have hrun := Runs1.supHandler (mode := mode) (w := mkWorld s0 g (none, lf)) he rfl hs hr
  simp only [callSupHandler, Bind.bind, Eff.bind, Eff.callback, hr, Eff.log, Pure.pure, Eff.pure] at hx
  cases o1 with
  | ok r1 =>
    cases hx
    exact ⟨htag, _, (requested (.ok r1), lf), by simp [returnedObs], hrun, fun a ha => by cases ha; rfl⟩
  | panic =>
    cases hx
    exact ⟨htag, _, (none, lf), rfl, hrun, fun a ha => by cases ha⟩
  | stopped =>
    cases hx
    exact ⟨htag, _, (none, lf), rfl, hrun, fun a ha => by cases ha⟩

omit hF in
theorem void_unit (o : Out Unit) : o.void = o := by cases o <;> rfl

theorem callEntry_thr {s lf} :
    Thr mode m ev whole m.discr (callEntry m) s (none, lf) (fun _ _ p' => p' = (none, lf)) := by
  refine Thr.one ?_
  intro s0 put g hs o v' g' hx
  cases hs
  generalize hr : (m.entry s g.sh g.ctx).run g.sched = r
  obtain ⟨o1, ⟨s1, x1, c1⟩, l1⟩ := r
  have htag : m.discr s1 = m.discr s := by
    have := Fut.run_all (hF.entry s g.sh g.ctx) g.sched
    rw [hr] at this; exact this
  have hrun := Runs1.entry (mode := mode) (ev := ev) (w := mkWorld s g (none, lf)) rfl hr
  simp only [callEntry, Eff.callback, hr] at hx
  cases hx
  exact ⟨htag, _, (none, lf), rfl, by rw [void_unit]; exact hrun, fun _ _ => rfl⟩

theorem callSupEntry_thr {v lf k} :
    Thr mode m ev (m.view k) m.supDiscr (callSupEntry m) v (none, lf) (fun _ _ p' => p' = (none, lf)) := by
  refine Thr.one ?_
  intro s0 put g hs o v' g' hx
  generalize hr : (m.supEntry v g.sh g.ctx).run g.sched = r
  obtain ⟨o1, ⟨s1, x1, c1⟩, l1⟩ := r
  have htag : m.supDiscr s1 = m.supDiscr v := by
    have := Fut.run_all (hF.supEntry v g.sh g.ctx) g.sched
    rw [hr] at this; exact this
  have hrun := Runs1.supEntry (mode := mode) (ev := ev) (w := mkWorld s0 g (none, lf)) rfl hs hr
  simp only [callSupEntry, Eff.callback, hr] at hx
  cases hx
  exact ⟨htag, _, (none, lf), rfl, by rw [void_unit]; exact hrun, fun _ _ => rfl⟩

theorem callExit_thr {s t lf} :
    Thr mode m ev whole m.discr (callExit m) s (some t, lf) (fun _ _ p' => p' = (some t, lf)) := by
  refine Thr.one ?_
  intro s0 put g hs o v' g' hx
  cases hs
  generalize hr : (m.exit s g.sh g.ctx).run g.sched = r
  obtain ⟨o1, ⟨s1, x1, c1⟩, l1⟩ := r
  have htag : m.discr s1 = m.discr s := by
    have := Fut.run_all (hF.exit s g.sh g.ctx) g.sched
    rw [hr] at this; exact this
  have hrun := Runs1.exit (mode := mode) (ev := ev) (w := mkWorld s g (some t, lf)) (by simp [mkWorld]) hr
  simp only [callExit, Eff.callback, hr] at hx
  cases hx
  exact ⟨htag, _, (some t, lf), rfl, by rw [void_unit]; exact hrun, fun _ _ => rfl⟩

theorem callSupExit_thr {v t lf k} :
    Thr mode m ev (m.view k) m.supDiscr (callSupExit m) v (some t, lf) (fun _ _ p' => p' = (some t, lf)) := by
  refine Thr.one ?_
  intro s0 put g hs o v' g' hx
  generalize hr : (m.supExit v g.sh g.ctx).run g.sched = r
  obtain ⟨o1, ⟨s1, x1, c1⟩, l1⟩ := r
  have htag : m.supDiscr s1 = m.supDiscr v := by
    have := Fut.run_all (hF.supExit v g.sh g.ctx) g.sched
    rw [hr] at this; exact this
  have hrun := Runs1.supExit (mode := mode) (ev := ev) (w := mkWorld s0 g (some t, lf)) (by simp [mkWorld]) hs hr
  simp only [callSupExit, Eff.callback, hr] at hx
  cases hx
  exact ⟨htag, _, (some t, lf), rfl, by rw [void_unit]; exact hrun, fun _ _ => rfl⟩

end

/-- A hook changes neither `self` nor the phase. -/
theorem hook_thr {foc : S.St → Option (σ × (σ → S.St))} {tag : σ → κ}
    (hself : ∀ s v put, foc s = some (v, put) → put v = s)
    {ob : σ → Obs S} {f : σ → S.M → Fut S.In S.M Unit} {v : σ} {p : Phase S}
    (h : ∀ s put g o x l, foc s = some (v, put) → (f v g.sh).run g.sched = (o, x, l) →
      Runs1 mode m ev (mkWorld s g p) [ob v] o ⟨s, x, g.ctx, l, p.1, p.2⟩) :
    Thr mode m ev foc tag (Eff.hook ob f) v p (fun _ v' p' => v' = v ∧ p' = p) := by
  refine Thr.one ?_
  intro s0 put g hs o v' g' hx
  generalize hr : (f v g.sh).run g.sched = r
  obtain ⟨o1, x1, l1⟩ := r
  simp only [Eff.hook, hr] at hx
  cases hx
  refine ⟨rfl, _, p, rfl, ?_, fun _ _ => ⟨rfl, rfl⟩⟩
  rw [void_unit, hself s0 v put hs]
  exact h s0 put g o x1 l1 hs hr

theorem hookBeforeDispatch_thr {e s lf} (he : ev = some e) :
    Thr mode m ev whole m.discr (hookBeforeDispatch m e) s (none, lf) (fun _ v' p' => v' = s ∧ p' = (none, lf)) := by
  refine hook_thr whole_self ?_
  intro s0 put g o x l hs hr
  cases hs
  exact Runs1.beforeDispatch (w := mkWorld s g (none, lf)) he rfl hr

theorem hookAfterDispatch_thr {e s p} (he : ev = some e) :
    Thr mode m ev whole m.discr (hookAfterDispatch m e) s p (fun _ v' p' => v' = s ∧ p' = p) := by
  refine hook_thr whole_self ?_
  intro s0 put g o x l hs hr
  cases hs
  exact Runs1.afterDispatch (w := mkWorld s g p) he hr

theorem hookSupBeforeDispatch_thr {e v lf k} (he : ev = some e) :
    Thr mode m ev (m.view k) m.supDiscr (hookSupBeforeDispatch m e) v (none, lf)
      (fun _ v' p' => v' = v ∧ p' = (none, lf)) := by
  refine hook_thr (view_self m k) ?_
  intro s0 put g o x l hs hr
  exact Runs1.supBeforeDispatch (w := mkWorld s0 g (none, lf)) he rfl hs hr

theorem hookSupAfterDispatch_thr {e v p k} (he : ev = some e) :
    Thr mode m ev (m.view k) m.supDiscr (hookSupAfterDispatch m e) v p (fun _ v' p' => v' = v ∧ p' = p) := by
  refine hook_thr (view_self m k) ?_
  intro s0 put g o x l hs hr
  exact Runs1.supAfterDispatch (w := mkWorld s0 g p) he hs hr

theorem hookAfterTransition_thr {old s} :
    Thr mode m ev whole m.discr (hookAfterTransition m old s) s (none, some old)
      (fun _ v' p' => v' = s ∧ p' = (none, some old)) := by
  refine hook_thr whole_self ?_
  intro s0 put g o x l hs hr
  cases hs
  exact Runs1.afterTransition (w := mkWorld s g (none, some old)) rfl rfl hr

theorem blocking_hookBeforeTransition_thr {s t lf} :
    Thr .blocking m ev whole m.discr (hookBeforeTransition m t s) s (some t, lf)
      (fun _ v' p' => v' = s ∧ p' = (some t, lf)) := by
  refine hook_thr whole_self ?_
  intro s0 put g o x l hs hr
  cases hs
  exact Runs1.beforeTransition (mode := .blocking) (w := mkWorld s g (some t, lf)) rfl hr

theorem awaitable_hookBeforeTransition_thr {s t lf} :
    Thr .awaitable m ev whole m.discr (hookBeforeTransition m s t) s (some t, lf)
      (fun _ v' p' => v' = s ∧ p' = (some t, lf)) := by
  refine hook_thr whole_self ?_
  intro s0 put g o x l hs hr
  cases hs
  exact Runs1.beforeTransition (mode := .awaitable) (w := mkWorld s g (some t, lf)) rfl hr


/-! ## Dispatch -/

section
variable (hF : Follows m F) (hL : Lawful m)
include hF

/-- Borrowing the direct superstate of a superstate. -/
theorem borrowSup_thr {k : Nat} {body : Eff S S.Sup α} {v p Q}
    (hb : ∀ w put', m.supSuperstate v = some (w, put') →
      Thr mode m ev (m.view (k + 1)) m.supDiscr body w p (fun a w' p' => Q (some a) (put' w') p'))
    (hn : m.supSuperstate v = none → Q none v p) :
    Thr mode m ev (m.view k) m.supDiscr (Eff.borrow m.supSuperstate body) v p Q :=
  Thr.borrow (view_self m k) (fun _ _ _ h _ _ h' => view_succ h h')
    (fun v w put' w' h h' => hF.sup_back v w put' w' h h') hb hn

/-- Borrowing the superstate of a state. -/
theorem borrowLeaf_thr {body : Eff S S.Sup α} {v p Q}
    (hb : ∀ w put', m.superstate v = some (w, put') →
      Thr mode m ev (m.view 0) m.supDiscr body w p (fun a w' p' => Q (some a) (put' w') p'))
    (hn : m.superstate v = none → Q none v p) :
    Thr mode m ev whole m.discr (Eff.borrow m.superstate body) v p Q :=
  Thr.borrow whole_self (fun _ _ _ h _ _ h' => by cases h; exact h')
    (fun v w put' w' h h' => hF.leaf_back v w put' w' h h') hb hn

include hL

theorem blocking_supHandle_thr {e} (he : ev = some e) : ∀ (k : Nat) v lf,
    Thr mode m ev (m.view k) m.supDiscr (Blocking.supHandle m e) v (none, lf)
      (fun r _ p' => p' = (requested (.ok r), lf)) := by
  refine Blocking.supHandle.fixpoint_induct m e
    (fun x => ∀ (k : Nat) v lf, Thr mode m ev (m.view k) m.supDiscr x v (none, lf)
      (fun r _ p' => p' = (requested (.ok r), lf))) ?_ ?_
  · apply Lean.Order.admissible_pi; intro k
    apply Lean.Order.admissible_pi; intro v
    apply Lean.Order.admissible_pi; intro lf
    exact Thr.admissible
  · intro f ih k v lf
    refine Thr.bind (view_focus hF hL k) (callSupHandler_thr hF he) ?_
    rintro r v1 p1 - rfl
    cases r with
    | handled => exact (Thr.pure (view_self m k)).mono (by rintro _ _ _ ⟨rfl, -, rfl⟩; rfl)
    | transition t => exact (Thr.pure (view_self m k)).mono (by rintro _ _ _ ⟨rfl, -, rfl⟩; rfl)
    | super =>
      refine Thr.bind (Q := fun (r : Option (Response S.St)) _ p' =>
          p' = (r.bind fun r => requested (.ok r), lf)) (view_focus hF hL k)
        (borrowSup_thr hF (fun w put' hw => ?_) (fun _ => rfl)) ?_
      · refine Thr.bind (view_focus hF hL (k + 1)) (hookSupBeforeDispatch_thr he) ?_
        rintro - v2 p2 - ⟨rfl, rfl⟩
        refine Thr.bind (view_focus hF hL (k + 1)) (ih (k + 1) v2 lf) ?_
        rintro r v3 p3 - rfl
        refine Thr.bind (view_focus hF hL (k + 1)) (hookSupAfterDispatch_thr he) ?_
        rintro - v4 p4 - ⟨rfl, rfl⟩
        exact (Thr.pure (view_self m (k + 1))).mono (by rintro _ _ _ ⟨rfl, -, rfl⟩; rfl)
      · rintro r v2 p2 - rfl
        cases r with
        | none => exact (Thr.pure (view_self m k)).mono (by rintro _ _ _ ⟨rfl, -, rfl⟩; rfl)
        | some r => exact (Thr.pure (view_self m k)).mono (by rintro _ _ _ ⟨rfl, -, rfl⟩; rfl)

theorem blocking_handle_thr {e s lf} (he : ev = some e) :
    Thr mode m ev whole m.discr (Blocking.handle m e) s (none, lf)
      (fun r _ p' => p' = (requested (.ok r), lf)) := by
  unfold Blocking.handle
  have hf := whole_focus m
  refine Thr.bind hf (hookBeforeDispatch_thr he) ?_
  rintro - s1 p1 - ⟨rfl, rfl⟩
  refine Thr.bind hf (callHandler_thr hF he) ?_
  rintro r s2 p2 - rfl
  refine Thr.bind hf (hookAfterDispatch_thr he) ?_
  rintro - s3 p3 - ⟨rfl, rfl⟩
  cases r with
  | handled => exact (Thr.pure whole_self).mono (by rintro _ _ _ ⟨rfl, -, rfl⟩; rfl)
  | transition t => exact (Thr.pure whole_self).mono (by rintro _ _ _ ⟨rfl, -, rfl⟩; rfl)
  | super =>
    refine Thr.bind (Q := fun (r : Option (Response S.St)) _ p' =>
        p' = (r.bind fun r => requested (.ok r), lf)) hf
      (borrowLeaf_thr hF (fun w put' hw => ?_) (fun _ => rfl)) ?_
    · refine Thr.bind (view_focus hF hL 0) (hookSupBeforeDispatch_thr he) ?_
      rintro - v2 p2 - ⟨rfl, rfl⟩
      refine Thr.bind (view_focus hF hL 0) (blocking_supHandle_thr hF hL he 0 v2 lf) ?_
      rintro r v3 p3 - rfl
      refine Thr.bind (view_focus hF hL 0) (hookSupAfterDispatch_thr he) ?_
      rintro - v4 p4 - ⟨rfl, rfl⟩
      exact (Thr.pure (view_self m 0)).mono (by rintro _ _ _ ⟨rfl, -, rfl⟩; rfl)
    · rintro r v2 p2 - rfl
      cases r with
      | none => exact (Thr.pure whole_self).mono (by rintro _ _ _ ⟨rfl, -, rfl⟩; rfl)
      | some r => exact (Thr.pure whole_self).mono (by rintro _ _ _ ⟨rfl, -, rfl⟩; rfl)

theorem awaitable_handleLoop_thr {e} (he : ev = some e) : ∀ (k : Nat) v lf,
    Thr mode m ev (m.view k) m.supDiscr (Awaitable.handleLoop m e) v (none, lf)
      (fun r _ p' => p' = (requested (.ok r), lf)) := by
  refine Awaitable.handleLoop.fixpoint_induct m e
    (fun x => ∀ (k : Nat) v lf, Thr mode m ev (m.view k) m.supDiscr x v (none, lf)
      (fun r _ p' => p' = (requested (.ok r), lf))) ?_ ?_
  · apply Lean.Order.admissible_pi; intro k
    apply Lean.Order.admissible_pi; intro v
    apply Lean.Order.admissible_pi; intro lf
    exact Thr.admissible
  · intro f ih k v lf
    have hf := view_focus hF hL k
    refine Thr.bind hf (hookSupBeforeDispatch_thr he) ?_
    rintro - v0 p0 - ⟨rfl, rfl⟩
    refine Thr.bind hf (callSupHandler_thr hF he) ?_
    rintro r v1 p1 - rfl
    refine Thr.bind hf (hookSupAfterDispatch_thr he) ?_
    rintro - v2 p2 - ⟨rfl, rfl⟩
    cases r with
    | handled => exact (Thr.pure (view_self m k)).mono (by rintro _ _ _ ⟨rfl, -, rfl⟩; rfl)
    | transition t => exact (Thr.pure (view_self m k)).mono (by rintro _ _ _ ⟨rfl, -, rfl⟩; rfl)
    | super =>
      refine Thr.bind (Q := fun (r : Option (Response S.St)) _ p' =>
          p' = (r.bind fun r => requested (.ok r), lf)) hf
        (borrowSup_thr hF (fun w put' hw => (ih (k + 1) w lf).mono (by rintro _ _ _ rfl; rfl))
          (fun _ => rfl)) ?_
      rintro r v2 p2 - rfl
      cases r with
      | none => exact (Thr.pure (view_self m k)).mono (by rintro _ _ _ ⟨rfl, -, rfl⟩; rfl)
      | some r => exact (Thr.pure (view_self m k)).mono (by rintro _ _ _ ⟨rfl, -, rfl⟩; rfl)

theorem awaitable_handle_thr {e s lf} (he : ev = some e) :
    Thr mode m ev whole m.discr (Awaitable.handle m e) s (none, lf)
      (fun r _ p' => p' = (requested (.ok r), lf)) := by
  unfold Awaitable.handle
  have hf := whole_focus m
  refine Thr.bind hf (hookBeforeDispatch_thr he) ?_
  rintro - s1 p1 - ⟨rfl, rfl⟩
  refine Thr.bind hf (callHandler_thr hF he) ?_
  rintro r s2 p2 - rfl
  refine Thr.bind hf (hookAfterDispatch_thr he) ?_
  rintro - s3 p3 - ⟨rfl, rfl⟩
  cases r with
  | handled => exact (Thr.pure whole_self).mono (by rintro _ _ _ ⟨rfl, -, rfl⟩; rfl)
  | transition t => exact (Thr.pure whole_self).mono (by rintro _ _ _ ⟨rfl, -, rfl⟩; rfl)
  | super =>
    refine Thr.bind (Q := fun (r : Option (Response S.St)) _ p' =>
        p' = (r.bind fun r => requested (.ok r), lf)) hf
      (borrowLeaf_thr hF (fun w put' hw =>
        (awaitable_handleLoop_thr hF hL he 0 w lf).mono (by rintro _ _ _ rfl; rfl)) (fun _ => rfl)) ?_
    rintro r v2 p2 - rfl
    cases r with
    | none => exact (Thr.pure whole_self).mono (by rintro _ _ _ ⟨rfl, -, rfl⟩; rfl)
    | some r => exact (Thr.pure whole_self).mono (by rintro _ _ _ ⟨rfl, -, rfl⟩; rfl)

/-! ## Entering and leaving -/

theorem blocking_supEnter_thr : ∀ (n k : Nat) v lf,
    Thr mode m ev (m.view k) m.supDiscr (Blocking.supEnter m n) v (none, lf) (fun _ _ p' => p' = (none, lf))
  | 0, k, v, lf => (Thr.pure (view_self m k)).mono (by rintro _ _ _ ⟨-, -, rfl⟩; rfl)
  | 1, k, v, lf => callSupEntry_thr hF
  | n + 2, k, v, lf => by
    unfold Blocking.supEnter
    refine Thr.bind (Q := fun _ _ p' => p' = (none, lf)) (view_focus hF hL k)
      (borrowSup_thr hF (fun w put' hw => (blocking_supEnter_thr (n + 1) (k + 1) w lf).mono fun _ _ _ h => h)
        (fun _ => rfl)) ?_
    rintro - v1 p1 - rfl
    exact callSupEntry_thr hF

theorem blocking_enter_thr {n s lf} :
    Thr mode m ev whole m.discr (Blocking.enter m n) s (none, lf) (fun _ _ p' => p' = (none, lf)) := by
  match n with
  | 0 => exact (Thr.pure whole_self).mono (by rintro _ _ _ ⟨-, -, rfl⟩; rfl)
  | 1 => exact callEntry_thr hF
  | n + 2 =>
    unfold Blocking.enter
    refine Thr.bind (Q := fun _ _ p' => p' = (none, lf)) (whole_focus m)
      (borrowLeaf_thr hF (fun w put' hw => (blocking_supEnter_thr hF hL (n + 1) 0 w lf).mono fun _ _ _ h => h)
        (fun _ => rfl)) ?_
    rintro - v1 p1 - rfl
    exact callEntry_thr hF

theorem blocking_supExit_thr : ∀ (n k : Nat) v t lf,
    Thr mode m ev (m.view k) m.supDiscr (Blocking.supExit m n) v (some t, lf)
      (fun _ _ p' => p' = (some t, lf))
  | 0, k, v, t, lf => (Thr.pure (view_self m k)).mono (by rintro _ _ _ ⟨-, -, rfl⟩; rfl)
  | 1, k, v, t, lf => callSupExit_thr hF
  | n + 2, k, v, t, lf => by
    unfold Blocking.supExit
    refine Thr.bind (view_focus hF hL k) (callSupExit_thr hF) ?_
    rintro - v1 p1 - rfl
    refine Thr.bind (Q := fun _ _ p' => p' = (some t, lf)) (view_focus hF hL k)
      (borrowSup_thr hF (fun w put' hw => (blocking_supExit_thr (n + 1) (k + 1) w t lf).mono fun _ _ _ h => h)
        (fun _ => rfl)) ?_
    rintro - v1 p1 - rfl
    exact (Thr.pure (view_self m k)).mono (by rintro _ _ _ ⟨-, -, rfl⟩; rfl)

theorem blocking_exit_thr {n s t lf} :
    Thr mode m ev whole m.discr (Blocking.exit m n) s (some t, lf) (fun _ _ p' => p' = (some t, lf)) := by
  match n with
  | 0 => exact (Thr.pure whole_self).mono (by rintro _ _ _ ⟨-, -, rfl⟩; rfl)
  | 1 => exact callExit_thr hF
  | n + 2 =>
    unfold Blocking.exit
    refine Thr.bind (whole_focus m) (callExit_thr hF) ?_
    rintro - v1 p1 - rfl
    refine Thr.bind (Q := fun _ _ p' => p' = (some t, lf)) (whole_focus m)
      (borrowLeaf_thr hF (fun w put' hw => (blocking_supExit_thr hF hL (n + 1) 0 w t lf).mono fun _ _ _ h => h)
        (fun _ => rfl)) ?_
    rintro - v1 p1 - rfl
    exact (Thr.pure whole_self).mono (by rintro _ _ _ ⟨-, -, rfl⟩; rfl)

theorem awaitable_climbEntry_thr : ∀ (n k : Nat) v lf,
    Thr mode m ev (m.view k) m.supDiscr (Awaitable.climbEntry m n) v (none, lf)
      (fun _ _ p' => p' = (none, lf))
  | 0, k, v, lf => callSupEntry_thr hF
  | n + 1, k, v, lf => by
    unfold Awaitable.climbEntry
    refine Thr.bind (Q := fun _ _ p' => p' = (none, lf)) (view_focus hF hL k)
      (borrowSup_thr hF (fun w put' hw => (awaitable_climbEntry_thr n (k + 1) w lf).mono fun _ _ _ h => h)
        (fun _ => rfl)) ?_
    rintro r v1 p1 - rfl
    cases r with
    | none => exact callSupEntry_thr hF
    | some u => exact (Thr.pure (view_self m k)).mono (by rintro _ _ _ ⟨-, -, rfl⟩; rfl)

theorem awaitable_enter_thr : ∀ (n : Nat) s lf,
    Thr mode m ev whole m.discr (Awaitable.enter m n) s (none, lf) (fun _ _ p' => p' = (none, lf))
  | 0, s, lf => (Thr.pure whole_self).mono (by rintro _ _ _ ⟨-, -, rfl⟩; rfl)
  | 1, s, lf => callEntry_thr hF
  | n + 2, s, lf => by
    unfold Awaitable.enter
    refine Thr.bind (Q := fun _ _ p' => p' = (none, lf)) (whole_focus m)
      (borrowLeaf_thr hF (fun w put' hw => (awaitable_climbEntry_thr hF hL n 0 w lf).mono fun _ _ _ h => h)
        (fun _ => rfl)) ?_
    rintro r v1 p1 - rfl
    exact awaitable_enter_thr (n + 1) v1 lf

theorem awaitable_exitLoop_thr : ∀ (n k : Nat) v t lf,
    Thr mode m ev (m.view k) m.supDiscr (Awaitable.exitLoop m n) v (some t, lf)
      (fun _ _ p' => p' = (some t, lf))
  | 0, k, v, t, lf => (Thr.pure (view_self m k)).mono (by rintro _ _ _ ⟨-, -, rfl⟩; rfl)
  | 1, k, v, t, lf => (Thr.pure (view_self m k)).mono (by rintro _ _ _ ⟨-, -, rfl⟩; rfl)
  | n + 2, k, v, t, lf => by
    unfold Awaitable.exitLoop
    refine Thr.bind (view_focus hF hL k) (callSupExit_thr hF) ?_
    rintro - v1 p1 - rfl
    refine Thr.bind (Q := fun _ _ p' => p' = (some t, lf)) (view_focus hF hL k)
      (borrowSup_thr hF (fun w put' hw => (awaitable_exitLoop_thr (n + 1) (k + 1) w t lf).mono fun _ _ _ h => h)
        (fun _ => rfl)) ?_
    rintro - v1 p1 - rfl
    exact (Thr.pure (view_self m k)).mono (by rintro _ _ _ ⟨-, -, rfl⟩; rfl)

theorem awaitable_exit_thr {n s t lf} :
    Thr mode m ev whole m.discr (Awaitable.exit m n) s (some t, lf) (fun _ _ p' => p' = (some t, lf)) := by
  unfold Awaitable.exit
  have hl : ∀ s, Thr mode m ev whole m.discr
      (do let _ ← Eff.borrow m.superstate (Awaitable.exitLoop m n); pure ()) s (some t, lf)
      (fun _ _ p' => p' = (some t, lf)) := by
    intro s
    refine Thr.bind (Q := fun _ _ p' => p' = (some t, lf)) (whole_focus m)
      (borrowLeaf_thr hF (fun w put' hw => (awaitable_exitLoop_thr hF hL n 0 w t lf).mono fun _ _ _ h => h)
        (fun _ => rfl)) ?_
    rintro - v1 p1 - rfl
    exact (Thr.pure whole_self).mono (by rintro _ _ _ ⟨-, -, rfl⟩; rfl)
  by_cases hk : n ≥ 1
  · simp only [hk, ↓reduceIte]
    refine Thr.bind (whole_focus m) (callExit_thr hF) ?_
    rintro - v1 p1 - rfl
    exact hl v1
  · simp only [hk, ↓reduceIte]
    exact hl s

/-! ## `Inner` -/

omit hF hL in
theorem self_thr {s : S.St} {p} : Thr mode m ev whole m.discr Eff.self s p
    (fun a v' p' => a = s ∧ v' = s ∧ p' = p) := by
  intro s0 put g hs o v' g' hx
  cases hs; cases hx
  exact ⟨rfl, [], p, by simp, .nil, fun a ha => by cases ha; exact ⟨rfl, rfl, rfl⟩⟩

omit hF hL in
theorem lift_thr {x : Option (Out α)} (hx : x ≠ some .panic ∧ x ≠ some .stopped) {s : S.St} {p} :
    Thr mode m ev whole m.discr (Eff.lift x) s p (fun _ v' p' => v' = s ∧ p' = p) := by
  intro s0 put g hs o v' g' h
  cases hs
  unfold Eff.lift at h
  cases x with
  | none => cases h
  | some y =>
    cases h
    cases o with
    | ok a => exact ⟨rfl, [], p, by simp, .nil, fun a ha => ⟨rfl, rfl⟩⟩
    | panic => exact absurd rfl hx.1
    | stopped => exact absurd rfl hx.2

omit hL in
theorem transitionPath_no_cut (s t : S.St) :
    transitionPath m s t ≠ some .panic ∧ transitionPath m s t ≠ some .stopped := by
  by_cases h : m.discr s = m.discr t
  · rw [transitionPath_of_eq s t h]; simp
  · rw [transitionPath_of_ne hF s t h]; simp

omit hF hL in
theorem init_no_cut (s : S.St) :
    (depth m s).map Out.ok ≠ some .panic ∧ (depth m s).map Out.ok ≠ some .stopped := by
  cases depth m s <;> simp

theorem init_thr {s : S.St} :
    Thr mode m ev whole m.discr (match mode with | .blocking => Blocking.init m | .awaitable => Awaitable.init m)
      s (none, none) (fun _ _ p' => p' = (none, none)) := by
  have hf := whole_focus m
  cases mode with
  | blocking =>
    refine Thr.bind hf self_thr ?_
    rintro - s1 p1 - ⟨rfl, rfl, rfl⟩
    refine Thr.bind hf (lift_thr (init_no_cut _)) ?_
    rintro n s2 p2 - ⟨rfl, rfl⟩
    exact blocking_enter_thr hF hL
  | awaitable =>
    refine Thr.bind hf self_thr ?_
    rintro - s1 p1 - ⟨rfl, rfl, rfl⟩
    refine Thr.bind hf (lift_thr (init_no_cut _)) ?_
    rintro n s2 p2 - ⟨rfl, rfl⟩
    exact awaitable_enter_thr hF hL n _ _

omit hF hL in
/-- `Thr` for programs on the whole state that may replace it by a state of another variant. -/
def Thr0 (mode : Mode) (m : Machine S) (ev : Option S.Ev) (x : Eff S S.St α) (s : S.St) (p : Phase S)
    (Q : α → S.St → Phase S → Prop) : Prop :=
  ∀ g o s' g', x s g = some (o, s', g') →
    ∃ T p', g'.trace = g.trace ++ T ∧
      Threads mode m ev (mkWorld s g p) T o.void (mkWorld s' g' p') ∧ ∀ a, o = .ok a → Q a s' p'

omit hF hL in
theorem Thr.whole0 {x : Eff S S.St α} {s p Q} (h : Thr mode m ev whole m.discr x s p Q) :
    Thr0 mode m ev x s p Q := by
  intro g o s' g' hx
  obtain ⟨-, T, p', h2, h3, h4⟩ := h s _ g rfl o s' g' hx
  exact ⟨T, p', h2, h3, h4⟩

omit hF hL in
theorem Thr0.bind {x : Eff S S.St α} {f : α → Eff S S.St β} {s p Q Q'} (hx : Thr0 mode m ev x s p Q)
    (hf : ∀ a s' p', Q a s' p' → Thr0 mode m ev (f a) s' p' Q') : Thr0 mode m ev (x >>= f) s p Q' := by
  intro g o v' g' hxf
  have hxf : Eff.bind x f s g = some (o, v', g') := hxf
  unfold Eff.bind at hxf
  cases hxv : x s g with
  | none => simp [hxv] at hxf
  | some r =>
    obtain ⟨o1, v1, g1⟩ := r
    obtain ⟨T, p1, h2, h3, h4⟩ := hx g o1 v1 g1 hxv
    rw [hxv] at hxf
    cases o1 with
    | ok a =>
      obtain ⟨T', p2, j2, j3, j4⟩ := hf a v1 p1 (h4 a rfl) g1 o v' g' hxf
      exact ⟨T ++ T', p2, by rw [j2, h2, List.append_assoc], h3.append j3, j4⟩
    | panic => cases hxf; exact ⟨T, p1, h2, h3, fun a ha => by cases ha⟩
    | stopped => cases hxf; exact ⟨T, p1, h2, h3, fun a ha => by cases ha⟩

omit hF hL in
theorem swap_thr {s t : S.St} {lf} : Thr0 mode m ev (Eff.swap t) s (some t, lf)
    (fun a s' p' => a = s ∧ s' = t ∧ p' = (none, some s)) := by
  intro g o s' g' hx
  cases hx
  exact ⟨[], (none, some s), by simp, .swap (t := t) rfl .nil, fun a ha => by cases ha; exact ⟨rfl, rfl, rfl⟩⟩

theorem transition_thr {s t : S.St} :
    Thr0 mode m ev
      (match mode with | .blocking => Blocking.transition m t | .awaitable => Awaitable.transition m t)
      s (some t, none) (fun _ _ p' => p'.1 = none) := by
  have key : ∀ {x : Eff S S.St Unit} {ex en : Nat → Eff S S.St Unit} {s : S.St},
      Thr mode m ev whole m.discr x s (some t, none) (fun _ v' p' => v' = s ∧ p' = (some t, none)) →
      (∀ n s, Thr mode m ev whole m.discr (ex n) s (some t, none) (fun _ _ p' => p' = (some t, none))) →
      (∀ n s lf, Thr mode m ev whole m.discr (en n) s (none, lf) (fun _ _ p' => p' = (none, lf))) →
      Thr0 mode m ev (do
        x
        let (exitLevels, enterLevels) ← Eff.lift (transitionPath m s t)
        ex exitLevels
        let old ← Eff.swap t
        en enterLevels
        let new ← Eff.self
        hookAfterTransition m old new) s (some t, none) (fun _ _ p' => p'.1 = none) := by
    intro x ex en s hx hex hen
    refine Thr0.bind hx.whole0 ?_
    rintro - s1 p1 ⟨rfl, rfl⟩
    refine Thr0.bind (lift_thr (transitionPath_no_cut hF s1 t)).whole0 ?_
    rintro ⟨a, b⟩ s2 p2 ⟨rfl, rfl⟩
    refine Thr0.bind (hex a s2).whole0 ?_
    rintro - s3 p3 rfl
    refine Thr0.bind swap_thr ?_
    rintro old s4 p4 ⟨rfl, rfl, rfl⟩
    refine Thr0.bind (hen b s4 _).whole0 ?_
    rintro - s5 p5 rfl
    refine Thr0.bind self_thr.whole0 ?_
    rintro new s6 p6 ⟨rfl, rfl, rfl⟩
    exact (hookAfterTransition_thr.mono (by rintro _ _ _ ⟨-, rfl⟩; rfl)).whole0
  cases mode with
  | blocking =>
    unfold Blocking.transition
    refine Thr0.bind self_thr.whole0 ?_
    rintro a s1 p1 ⟨rfl, rfl, rfl⟩
    exact key blocking_hookBeforeTransition_thr (fun n s => blocking_exit_thr hF hL)
      (fun n s lf => blocking_enter_thr hF hL)
  | awaitable =>
    unfold Awaitable.transition
    refine Thr0.bind self_thr.whole0 ?_
    rintro a s1 p1 ⟨rfl, rfl, rfl⟩
    exact key awaitable_hookBeforeTransition_thr (fun n s => awaitable_exit_thr hF hL)
      (fun n s lf => awaitable_enter_thr hF hL n s lf)

theorem handleEvent_thr {e : S.Ev} {s : S.St} (he : ev = some e) :
    Thr0 mode m ev
      (match mode with | .blocking => Blocking.handleEvent m e | .awaitable => Awaitable.handleEvent m e)
      s (none, none) (fun _ _ p' => p'.1 = none) := by
  have hp : ∀ {s : S.St} {p : Phase S}, p.1 = none →
      Thr0 mode m ev (pure () : Eff S S.St Unit) s p (fun _ _ p' => p'.1 = none) := by
    intro s p hp
    exact ((Thr.pure whole_self).mono (by rintro _ _ _ ⟨-, -, rfl⟩; exact hp)).whole0
  cases mode with
  | blocking =>
    refine Thr0.bind (blocking_handle_thr hF hL he).whole0 ?_
    rintro r s1 p1 rfl
    cases r with
    | handled => exact hp rfl
    | super => exact hp rfl
    | transition t => exact transition_thr (mode := .blocking) hF hL
  | awaitable =>
    refine Thr0.bind (awaitable_handle_thr hF hL he).whole0 ?_
    rintro r s1 p1 rfl
    cases r with
    | handled => exact hp rfl
    | super => exact hp rfl
    | transition t => exact transition_thr (mode := .awaitable) hF hL

/-- A `handle` call on the contents of a machine. -/
theorem inner_handle_threads {i : Inner S} {e ctx sched c} (h : i.handle mode m e ctx sched = some c) :
    ∃ w', Threads mode m (some e) ⟨i.state, i.shared, ctx, sched, none, none⟩ c.trace c.out w' ∧
      w'.state = c.self.state ∧ w'.shared = c.self.shared ∧ w'.ctx = c.ctx ∧ w'.sched = c.sched ∧
      (c.out = .ok () → w'.pending = none) := by
  have key : ∀ {x : Eff S S.St Unit}, Thr0 mode m (some e) x i.state (none, none) (fun _ _ p' => p'.1 = none) →
      i.run x ctx sched = some c → ∃ w', Threads mode m (some e) ⟨i.state, i.shared, ctx, sched, none, none⟩ c.trace c.out w' ∧
      w'.state = c.self.state ∧ w'.shared = c.self.shared ∧ w'.ctx = c.ctx ∧ w'.sched = c.sched ∧
      (c.out = .ok () → w'.pending = none) := by
    intro x hx hr
    unfold Inner.run at hr
    cases hxi : x i.state ⟨i.shared, ctx, sched, []⟩ with
    | none => simp [hxi] at hr
    | some r =>
      obtain ⟨o, s', g'⟩ := r
      obtain ⟨T, p', h2, h3, h4⟩ := hx _ o s' g' hxi
      rw [hxi] at hr; cases hr
      refine ⟨mkWorld s' g' p', ?_, rfl, rfl, rfl, rfl, fun ho => h4 () ho⟩
      rw [void_unit] at h3
      simp only at h2 ⊢
      rw [h2]; exact h3
  cases mode with
  | blocking => exact key (handleEvent_thr (mode := .blocking) hF hL rfl) h
  | awaitable => exact key (handleEvent_thr (mode := .awaitable) hF hL rfl) h

/-- An `init` call on the contents of a machine. -/
theorem inner_init_threads {i : Inner S} {ctx sched c} (h : i.init mode m ctx sched = some c) :
    ∃ w', Threads mode m ev ⟨i.state, i.shared, ctx, sched, none, none⟩ c.trace c.out w' ∧
      w'.state = c.self.state ∧ w'.shared = c.self.shared ∧ w'.ctx = c.ctx ∧ w'.sched = c.sched ∧
      (c.out = .ok () → w'.pending = none ∧ w'.left = none) := by
  have key : ∀ {x : Eff S S.St Unit},
      Thr mode m ev whole m.discr x i.state (none, none) (fun _ _ p' => p' = (none, none)) →
      i.run x ctx sched = some c → ∃ w', Threads mode m ev ⟨i.state, i.shared, ctx, sched, none, none⟩ c.trace c.out w' ∧
      w'.state = c.self.state ∧ w'.shared = c.self.shared ∧ w'.ctx = c.ctx ∧ w'.sched = c.sched ∧
      (c.out = .ok () → w'.pending = none ∧ w'.left = none) := by
    intro x hx hr
    unfold Inner.run at hr
    cases hxi : x i.state ⟨i.shared, ctx, sched, []⟩ with
    | none => simp [hxi] at hr
    | some r =>
      obtain ⟨o, s', g'⟩ := r
      obtain ⟨T, p', h2, h3, h4⟩ := hx.whole0 _ o s' g' hxi
      rw [hxi] at hr; cases hr
      refine ⟨mkWorld s' g' p', ?_, rfl, rfl, rfl, rfl, fun ho => by
        have := h4 () ho; subst this; exact ⟨rfl, rfl⟩⟩
      rw [void_unit] at h3
      simp only at h2 ⊢
      rw [h2]; exact h3
  cases mode with
  | blocking => exact key (init_thr (mode := .blocking) hF hL) h
  | awaitable => exact key (init_thr (mode := .awaitable) hF hL) h

end

end Statig
