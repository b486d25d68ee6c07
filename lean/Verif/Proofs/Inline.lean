import Verif.Spec.Inline
import Verif.Spec.Simulation
import Verif.Proofs.Modes
/-!
# What state and superstates do together
-/
namespace Statig
open Eff
variable {S : Sig} {m n : Machine S} {F : Forest S.D S.E} {σ τ α β : Type}

/-! ## Running -/

theorem Fut.run_deferred {In W T : Type} (f : Fut In W (Response T)) (next : W → Fut In W (Response T)) (l : List In) :
    (f.deferred next).run l = match f.run l with
      | (.ok .super, w, l') => (next w).run l'
      | r => r := by
  induction f generalizing l with
  | done w r => cases r <;> rfl
  | panic w => rfl
  | pending w k ih =>
    cases l with
    | nil => rfl
    | cons i l => exact ih i l

theorem Fut.all_true {In W : Type} (f : Fut In W α) : f.All fun _ => True := by
  induction f with
  | done w a => exact .done trivial
  | panic w => exact .panic trivial
  | pending w k ih => exact .pending trivial ih

theorem Fut.run_within {In V W : Type} (put : V → W) (f : Fut In V α) (l : List In) :
    (f.within put).run l = ((f.run l).1, put (f.run l).2.1, (f.run l).2.2) := by
  induction f generalizing l with
  | done w r => rfl
  | panic w => rfl
  | pending w k ih =>
    cases l with
    | nil => rfl
    | cons i l => exact ih i l

/-! ## The log does not matter -/

/-- The same, up to observations of handlers and dispatch hooks. -/
structure Agree (g g' : Glob S) : Prop where
  sh : g'.sh = g.sh
  ctx : g'.ctx = g.ctx
  sched : g'.sched = g.sched
  trace : g'.trace.filter Obs.ofTransition = g.trace.filter Obs.ofTransition

/-- Results that agree. -/
def Agrees (A : α → β → Prop) : Option (Out α × σ × Glob S) → Option (Out β × σ × Glob S) → Prop :=
  OptRel fun p q => OutRel A p.1 q.1 ∧ q.2.1 = p.2.1 ∧ Agree p.2.2 q.2.2

/-- The two programs do the same. -/
def Alike (A : α → β → Prop) (s : σ) (x : Eff S σ α) (y : Eff S σ β) : Prop :=
  ∀ g g', Agree g g' → Agrees A (x s g) (y s g')

theorem OutRel.rfl' {o : Out α} : OutRel Eq o o := by
  cases o with
  | ok => exact .ok rfl
  | panic => exact .panic
  | stopped => exact .stopped

namespace Alike

theorem pure {a b} {A : α → β → Prop} {s : σ} (h : A a b) :
    Alike A s (Pure.pure a : Eff S σ α) (Pure.pure b) := fun _ _ hg => .some ⟨.ok h, rfl, hg⟩

theorem bind {α' β' : Type} {A : α → β → Prop} {B : α' → β' → Prop} {s : σ} {x : Eff S σ α} {y : Eff S σ β}
    {f : α → Eff S σ α'} {h : β → Eff S σ β'} (hx : Alike A s x y) (hf : ∀ a b s', A a b → Alike B s' (f a) (h b)) :
    Alike B s (x >>= f) (y >>= h) := by
  intro g g' hg
  simp only [bind_def, Eff.bind]
  have := hx g g' hg
  generalize x s g = a at this ⊢
  generalize y s g' = b at this ⊢
  cases this with
  | none => exact .none
  | @some p q hpq =>
    obtain ⟨o, v1, g1⟩ := p
    obtain ⟨o', v2, g2⟩ := q
    obtain ⟨h1, h2, h3⟩ := hpq
    simp only at h1 h2 h3
    subst h2
    cases h1 with
    | ok hab => exact hf _ _ v2 hab g1 g2 h3
    | panic => exact .some ⟨.panic, rfl, h3⟩
    | stopped => exact .some ⟨.stopped, rfl, h3⟩

theorem self {s : σ} : Alike Eq s (Eff.self : Eff S σ σ) Eff.self := fun _ _ hg => .some ⟨.ok rfl, rfl, hg⟩

theorem swap {s t : σ} : Alike Eq s (Eff.swap t : Eff S σ σ) (Eff.swap t) := fun _ _ hg => .some ⟨.ok rfl, rfl, hg⟩

theorem lift {s : σ} {x : Option (Out α)} : Alike Eq s (Eff.lift x : Eff S σ α) (Eff.lift x) := by
  intro g g' hg
  unfold Eff.lift
  cases x with
  | none => exact .none
  | some o => exact .some ⟨.rfl', rfl, hg⟩

theorem callback {s : σ} {o : σ → Obs S} {f : σ → S.M → S.Ctx → Fut S.In (σ × S.M × S.Ctx) α} :
    Alike Eq s (Eff.callback o f) (Eff.callback o f) := by
  intro g g' hg
  unfold Eff.callback
  rw [hg.sh, hg.ctx, hg.sched]
  exact .some ⟨.rfl', rfl, rfl, rfl, rfl, by simp only [List.filter_append, hg.trace]⟩

theorem hook {s : σ} {o : σ → Obs S} {f : σ → S.M → Fut S.In S.M Unit} :
    Alike Eq s (Eff.hook o f) (Eff.hook o f) := by
  intro g g' hg
  unfold Eff.hook
  rw [hg.sh, hg.sched]
  exact .some ⟨.rfl', rfl, rfl, hg.ctx, rfl, by simp only [List.filter_append, hg.trace]⟩

theorem borrow {s : σ} {sup : σ → Option (τ × (τ → σ))} {x : Eff S τ α} (hx : ∀ v, Alike Eq v x x) :
    Alike Eq s (Eff.borrow sup x) (Eff.borrow sup x) := by
  intro g g' hg
  unfold Eff.borrow
  cases sup s with
  | none => exact .some ⟨.ok rfl, rfl, hg⟩
  | some p =>
    obtain ⟨v, back⟩ := p
    have := hx v g g' hg
    simp only
    generalize x v g = a at this ⊢
    generalize x v g' = b at this ⊢
    cases this with
    | none => exact .none
    | @some p q hpq =>
      obtain ⟨o, v1, g1⟩ := p
      obtain ⟨o', v2, g2⟩ := q
      obtain ⟨h1, h2, h3⟩ := hpq
      simp only at h1 h2 h3
      subst h2
      refine .some ⟨?_, rfl, h3⟩
      cases h1 with
      | ok hab => exact .ok (by rw [hab])
      | panic => exact .panic
      | stopped => exact .stopped

theorem bindEq {γ : Type} {s : σ} {x : Eff S σ α} {f : α → Eff S σ γ} (hx : Alike Eq s x x)
    (hf : ∀ a s', Alike Eq s' (f a) (f a)) : Alike Eq s (x >>= f) (x >>= f) :=
  bind hx fun a b s' h => by subst h; exact hf a s'

end Alike

section
variable (m)

theorem alike_callEntry (s : S.St) : Alike Eq s (callEntry m) (callEntry m) := Alike.callback
theorem alike_callExit (s : S.St) : Alike Eq s (callExit m) (callExit m) := Alike.callback
theorem alike_callSupEntry (v : S.Sup) : Alike Eq v (callSupEntry m) (callSupEntry m) := Alike.callback
theorem alike_callSupExit (v : S.Sup) : Alike Eq v (callSupExit m) (callSupExit m) := Alike.callback

theorem alike_supEnter (k : Nat) (v : S.Sup) : Alike Eq v (Blocking.supEnter m k) (Blocking.supEnter m k) := by
  induction k generalizing v with
  | zero => exact Alike.pure rfl
  | succ k ih =>
    cases k with
    | zero => exact alike_callSupEntry m v
    | succ k => exact Alike.bindEq (Alike.borrow ih) fun _ s' => alike_callSupEntry m s'

theorem alike_supExit (k : Nat) (v : S.Sup) : Alike Eq v (Blocking.supExit m k) (Blocking.supExit m k) := by
  induction k generalizing v with
  | zero => exact Alike.pure rfl
  | succ k ih =>
    cases k with
    | zero => exact alike_callSupExit m v
    | succ k =>
      exact Alike.bindEq (alike_callSupExit m v) fun _ s' => Alike.bindEq (Alike.borrow ih) fun _ _ => Alike.pure rfl

theorem alike_climbEntry (k : Nat) (v : S.Sup) : Alike Eq v (Awaitable.climbEntry m k) (Awaitable.climbEntry m k) := by
  induction k generalizing v with
  | zero => exact alike_callSupEntry m v
  | succ k ih =>
    refine Alike.bindEq (Alike.borrow ih) fun r s' => ?_
    cases r with
    | none => exact alike_callSupEntry m s'
    | some u => exact Alike.pure rfl

theorem alike_exitLoop (k : Nat) (v : S.Sup) : Alike Eq v (Awaitable.exitLoop m k) (Awaitable.exitLoop m k) := by
  induction k generalizing v with
  | zero => exact Alike.pure rfl
  | succ k ih =>
    cases k with
    | zero => exact Alike.pure rfl
    | succ k =>
      exact Alike.bindEq (alike_callSupExit m v) fun _ s' => Alike.bindEq (Alike.borrow ih) fun _ _ => Alike.pure rfl

theorem alike_enter (mode : Mode) (k : Nat) (s : S.St) : Alike Eq s (mode.enter m k) (mode.enter m k) := by
  cases mode with
  | blocking =>
    rcases k with _ | _ | k
    · exact Alike.pure rfl
    · exact alike_callEntry m s
    · exact Alike.bindEq (Alike.borrow (alike_supEnter m _)) fun _ s' => alike_callEntry m s'
  | awaitable =>
    show Alike Eq s (Awaitable.enter m k) (Awaitable.enter m k)
    induction k generalizing s with
    | zero => exact Alike.pure rfl
    | succ k ih =>
      cases k with
      | zero => exact alike_callEntry m s
      | succ k => exact Alike.bindEq (Alike.borrow (alike_climbEntry m _)) fun _ s' => ih s'

theorem alike_exit (mode : Mode) (k : Nat) (s : S.St) : Alike Eq s (mode.exit m k) (mode.exit m k) := by
  cases mode with
  | blocking =>
    rcases k with _ | _ | k
    · exact Alike.pure rfl
    · exact alike_callExit m s
    · exact Alike.bindEq (alike_callExit m s) fun _ s' =>
        Alike.bindEq (Alike.borrow (alike_supExit m _)) fun _ _ => Alike.pure rfl
  | awaitable =>
    show Alike Eq s (Awaitable.exit m k) (Awaitable.exit m k)
    unfold Awaitable.exit
    have rest : ∀ s' : S.St, Alike Eq s' (do
        let _ ← Eff.borrow m.superstate (Awaitable.exitLoop m k)
        Pure.pure ()) (do
        let _ ← Eff.borrow m.superstate (Awaitable.exitLoop m k)
        Pure.pure ()) :=
      fun s' => Alike.bindEq (Alike.borrow (alike_exitLoop m _)) fun _ _ => Alike.pure rfl
    simp only
    split
    · exact Alike.bindEq (alike_callExit m s) fun _ s' => rest s'
    · exact rest s

theorem alike_init (mode : Mode) (s : S.St) : Alike Eq s (mode.init m) (mode.init m) :=
  Alike.bindEq Alike.self fun _ _ => Alike.bindEq Alike.lift fun _ _ => alike_enter m mode _ _

theorem alike_transition (mode : Mode) (t s : S.St) : Alike Eq s (mode.transition m t) (mode.transition m t) := by
  refine Alike.bindEq ?_ fun _ _ => Alike.bindEq Alike.swap fun _ _ => Alike.bindEq (alike_enter m mode _ _)
    fun _ _ => Alike.bindEq Alike.self fun _ _ => Alike.hook
  refine Alike.bindEq Alike.self fun _ _ => Alike.bindEq ?_ fun _ _ => Alike.bindEq Alike.lift fun _ _ =>
    Alike.bindEq (alike_exit m mode _ _) fun _ _ => Alike.pure rfl
  cases mode <;> exact Alike.hook (f := fun _ sh => m.beforeTransition sh _ _)

end

/-! ## Machines that differ in their handlers -/

namespace Machine.SameButHandlers
variable (h : m.SameButHandlers n)
include h

theorem callEntry : callEntry n = callEntry m := by unfold Statig.callEntry; rw [h.entry]
theorem callExit : callExit n = callExit m := by unfold Statig.callExit; rw [h.exit]
theorem callSupEntry : callSupEntry n = callSupEntry m := by unfold Statig.callSupEntry; rw [h.supEntry]
theorem callSupExit : callSupExit n = callSupExit m := by unfold Statig.callSupExit; rw [h.supExit]

theorem supEnter (k : Nat) : Blocking.supEnter n k = Blocking.supEnter m k := by
  induction k with
  | zero => rfl
  | succ k ih =>
    cases k with
    | zero => exact h.callSupEntry
    | succ k => simp only [Blocking.supEnter] at ih ⊢; rw [ih, h.supSuperstate, h.callSupEntry]

theorem supExit' (k : Nat) : Blocking.supExit n k = Blocking.supExit m k := by
  induction k with
  | zero => rfl
  | succ k ih =>
    cases k with
    | zero => exact h.callSupExit
    | succ k => simp only [Blocking.supExit] at ih ⊢; rw [ih, h.supSuperstate, h.callSupExit]

theorem climbEntry (k : Nat) : Awaitable.climbEntry n k = Awaitable.climbEntry m k := by
  induction k with
  | zero => exact h.callSupEntry
  | succ k ih => simp only [Awaitable.climbEntry]; rw [ih, h.supSuperstate, h.callSupEntry]

theorem exitLoop (k : Nat) : Awaitable.exitLoop n k = Awaitable.exitLoop m k := by
  induction k with
  | zero => rfl
  | succ k ih =>
    cases k with
    | zero => rfl
    | succ k => simp only [Awaitable.exitLoop] at ih ⊢; rw [ih, h.supSuperstate, h.callSupExit]

theorem modeEnter (mode : Mode) (k : Nat) : mode.enter n k = mode.enter m k := by
  cases mode with
  | blocking =>
    show Blocking.enter n k = Blocking.enter m k
    rcases k with _ | _ | k
    · rfl
    · exact h.callEntry
    · simp only [Blocking.enter]; rw [h.supEnter, h.superstate, h.callEntry]
  | awaitable =>
    show Awaitable.enter n k = Awaitable.enter m k
    induction k with
    | zero => rfl
    | succ k ih =>
      cases k with
      | zero => exact h.callEntry
      | succ k => simp only [Awaitable.enter] at ih ⊢; rw [ih, h.climbEntry, h.superstate]

theorem modeExit (mode : Mode) (k : Nat) : mode.exit n k = mode.exit m k := by
  cases mode with
  | blocking =>
    show Blocking.exit n k = Blocking.exit m k
    rcases k with _ | _ | k
    · rfl
    · exact h.callExit
    · simp only [Blocking.exit]; rw [h.supExit', h.superstate, h.callExit]
  | awaitable =>
    show Awaitable.exit n k = Awaitable.exit m k
    unfold Awaitable.exit
    rw [h.exitLoop, h.superstate, h.callExit]

theorem depth (hF : Follows m F) (hF' : Follows n F) : depth n = depth m := by
  funext s
  rw [depth_eq hF, depth_eq hF', h.discr]

theorem transitionPath (hF : Follows m F) (hF' : Follows n F) : transitionPath n = transitionPath m := by
  funext s t
  by_cases hd : m.discr s = m.discr t
  · rw [transitionPath_of_eq s t hd, transitionPath_of_eq s t (by rw [h.discr]; exact hd)]
  · rw [transitionPath_of_ne hF s t hd, transitionPath_of_ne hF' s t (by rw [h.discr]; exact hd), h.discr]

theorem modeInit (hF : Follows m F) (hF' : Follows n F) (mode : Mode) : mode.init n = mode.init m := by
  unfold Mode.init
  rw [h.depth hF hF']
  simp only [h.modeEnter]

theorem modeTransition (hF : Follows m F) (hF' : Follows n F) (mode : Mode) (t : S.St) :
    mode.transition n t = mode.transition m t := by
  unfold Mode.transition Mode.leave Mode.arrive
  rw [h.transitionPath hF hF']
  simp only [h.modeEnter, h.modeExit]
  have hb : Mode.before mode n = Mode.before mode m := by
    funext a b
    unfold Mode.before Statig.hookBeforeTransition
    rw [h.beforeTransition]
  have ha : hookAfterTransition n = hookAfterTransition m := by
    funext a b
    unfold Statig.hookAfterTransition
    rw [h.afterTransition]
  rw [hb, ha]

end Machine.SameButHandlers

/-! ## Dispatch -/

/-- The transition a handler or a dispatch asks for. -/
def wish : Response S.St → Option S.St
  | .transition t => some t
  | _ => none

/-- `x` does what `f` does, up to the log, in which there are only observations of handlers and dispatch hooks. -/
def Performs (s : σ) (x : Eff S σ α) (W : α → β → Prop) (f : σ → S.M → S.Ctx → Fut S.In (σ × S.M × S.Ctx) β) : Prop :=
  ∀ g, ∃ o T, OutRel W o ((f s g.sh g.ctx).run g.sched).1 ∧ T.filter Obs.ofTransition = [] ∧
    x s g = some (o, ((f s g.sh g.ctx).run g.sched).2.1.1, { sh := ((f s g.sh g.ctx).run g.sched).2.1.2.1
                                                             ctx := ((f s g.sh g.ctx).run g.sched).2.1.2.2
                                                             sched := ((f s g.sh g.ctx).run g.sched).2.2
                                                             trace := g.trace ++ T })

/-- Both ask for the same transition, or for none. -/
def SameWish' (r r' : Response S.St) : Prop := wish r = wish r'

/-- A program that returns without effect, up to the log. -/
def Idle (s : σ) (x : Eff S σ α) (a : α) : Prop :=
  ∀ g, ∃ T, T.filter Obs.ofTransition = [] ∧ x s g = some (.ok a, s, { g with trace := g.trace ++ T })

theorem idle_bind {s : σ} {x : Eff S σ α} {a : α} (hx : Idle s x a) {y : α → Eff S σ β} {γ : Type} {W : β → γ → Prop}
    {f} (hy : Performs s (y a) W f) : Performs s (x >>= y) W f := by
  intro g
  obtain ⟨T, hT, hx⟩ := hx g
  obtain ⟨o, U, h1, h2, h3⟩ := hy { g with trace := g.trace ++ T }
  refine ⟨o, T ++ U, h1, by simp [hT, h2], ?_⟩
  simp only [bind_def, Eff.bind, hx, h3, List.append_assoc]

theorem bind_idle {s : σ} {γ : Type} {W : α → γ → Prop} {x : Eff S σ α} {f} (hx : Performs s x W f)
    {y : α → Eff S σ β} {W' : β → γ → Prop} (hy : ∀ a c, W a c → ∃ b, W' b c ∧ ∀ s', Idle s' (y a) b) :
    Performs s (x >>= y) W' f := by
  intro g
  obtain ⟨o, T, h1, h2, h3⟩ := hx g
  simp only [bind_def, Eff.bind, h3]
  revert h1
  generalize (f s g.sh g.ctx).run g.sched = r
  obtain ⟨o', w, l⟩ := r
  intro h1
  cases h1 with
  | ok h =>
    obtain ⟨b, hb, hi⟩ := hy _ _ h
    obtain ⟨U, hU, hi⟩ := hi w.1 ⟨w.2.1, w.2.2, l, g.trace ++ T⟩
    refine ⟨.ok b, T ++ U, .ok hb, by simp [h2, hU], ?_⟩
    simp only [hi, List.append_assoc]
  | panic => exact ⟨.panic, T, .panic, h2, rfl⟩
  | stopped => exact ⟨.stopped, T, .stopped, h2, rfl⟩

theorem idle_pure {s : σ} {a : α} : Idle s (Pure.pure a : Eff S σ α) a := fun g => ⟨[], rfl, by simp [pure_def]⟩

theorem idle_of_eq {s : σ} {x : Eff S σ α} {a : α} (h : x = Pure.pure a) : Idle s x a := by rw [h]; exact idle_pure

theorem idle_hook {s : σ} {o : σ → Obs S} {f : σ → S.M → Fut S.In S.M Unit} (ho : (o s).ofTransition = false)
    (hf : ∀ sh, f s sh = .done sh ()) : Idle s (Eff.hook o f) () :=
  fun g => ⟨[o s], by simp [ho], by simp [Eff.hook, hf, Fut.run]⟩

/-- The own handler, and then something that is done in case of `Super`. -/
theorem performs_deferred {s : σ} {P : σ → Prop} {W : Response S.St → Response S.St → Prop}
    {x : Eff S σ (Response S.St)} {f : σ → S.M → S.Ctx → Fut S.In (σ × S.M × S.Ctx) (Response S.St)}
    (hx : Performs s x Eq f) (hP : ∀ sh c, (f s sh c).All fun w => P w.1)
    {y : Response S.St → Eff S σ (Response S.St)} {next : σ × S.M × S.Ctx → Fut S.In (σ × S.M × S.Ctx) (Response S.St)}
    (hh : ∀ r s', r ≠ .super → ∃ r', W r' r ∧ Idle s' (y r) r')
    (hy : ∀ s', P s' → Performs s' (y .super) W fun s sh c => next (s, sh, c)) :
    Performs s (x >>= y) W fun s sh c => (f s sh c).deferred next := by
  intro g
  obtain ⟨o, T, h1, h2, h3⟩ := hx g
  simp only [bind_def, Eff.bind, h3, Fut.run_deferred]
  have hp := Fut.run_all (hP g.sh g.ctx) g.sched
  revert h1 hp
  generalize (f s g.sh g.ctx).run g.sched = r
  obtain ⟨o', w, l⟩ := r
  intro h1 hp
  have other : ∀ r : Response S.St, r ≠ .super → ∃ o'' T', OutRel W o'' (.ok r) ∧ T'.filter Obs.ofTransition = [] ∧
      y r w.1 ⟨w.2.1, w.2.2, l, g.trace ++ T⟩ = some (o'', w.1, ⟨w.2.1, w.2.2, l, g.trace ++ T'⟩) := by
    intro r hr
    obtain ⟨r', hw, hi⟩ := hh r w.1 hr
    obtain ⟨U, hU, hi⟩ := hi ⟨w.2.1, w.2.2, l, g.trace ++ T⟩
    exact ⟨.ok r', T ++ U, .ok hw, by simp [h2, hU], by simp only [hi, List.append_assoc]⟩
  cases h1 with
  | panic => exact ⟨.panic, T, .panic, h2, rfl⟩
  | stopped => exact ⟨.stopped, T, .stopped, h2, rfl⟩
  | ok h =>
    subst h
    rename_i r
    cases r with
    | handled => exact other _ nofun
    | transition t => exact other _ nofun
    | super =>
      obtain ⟨o'', U, k1, k2, k3⟩ := hy w.1 hp ⟨w.2.1, w.2.2, l, g.trace ++ T⟩
      exact ⟨o'', T ++ U, k1, by simp [h2, k2], by simp only [k3, List.append_assoc]⟩

/-- Borrowing the superstate. -/
theorem performs_above {s : σ} {sup : σ → Option (S.Sup × (S.Sup → σ))} {B : Eff S S.Sup (Response S.St)}
    {whole : Handling S S.Sup} {ev : S.Ev} {e : Response S.St} (he : SameWish' e .super)
    (hB : ∀ v put, sup s = some (v, put) → Performs v B SameWish' fun v sh c => whole v sh ev c)
    {y : Option (Response S.St) → Eff S σ (Response S.St)} (hy : ∀ r, y (some r) = Pure.pure r)
    (hy' : y none = Pure.pure e) :
    Performs s (Eff.borrow sup B >>= y) SameWish' fun s sh c => Machine.leftTo sup whole ev (s, sh, c) := by
  intro g
  simp only [bind_def, Eff.bind, Eff.borrow, Machine.leftTo]
  cases hs : sup s with
  | none =>
    simp only [Fut.run, hy']
    exact ⟨.ok e, [], .ok he, rfl, by simp [pure_def]⟩
  | some p =>
    obtain ⟨v, put⟩ := p
    obtain ⟨o, T, h1, h2, h3⟩ := hB v put hs g
    simp only [h3, Fut.run_within]
    revert h1
    generalize (whole v g.sh ev g.ctx).run g.sched = r
    obtain ⟨o', w, l⟩ := r
    intro h1
    cases h1 with
    | panic => exact ⟨.panic, T, .panic, h2, rfl⟩
    | stopped => exact ⟨.stopped, T, .stopped, h2, rfl⟩
    | ok h => exact ⟨_, T, .ok h, h2, by simp only [Out.map, hy]; rfl⟩

theorem performs_callHandler (ev : S.Ev) (s : S.St) :
    Performs s (callHandler m ev) Eq fun s sh c => m.handler s sh ev c := by
  intro g
  simp only [callHandler, bind_def, Eff.bind, Eff.callback]
  generalize (m.handler s g.sh ev g.ctx).run g.sched = r
  obtain ⟨o, w, l⟩ := r
  cases o with
  | ok r =>
    exact ⟨.ok r, [.handler (.state s) ev, .returned (.state w.1) r], .ok rfl, rfl, by
      simp [Eff.log, pure_def]⟩
  | panic => exact ⟨.panic, [.handler (.state s) ev], .panic, rfl, rfl⟩
  | stopped => exact ⟨.stopped, [.handler (.state s) ev], .stopped, rfl, rfl⟩

theorem performs_callSupHandler (ev : S.Ev) (v : S.Sup) :
    Performs v (callSupHandler m ev) Eq fun v sh c => m.supHandler v sh ev c := by
  intro g
  simp only [callSupHandler, bind_def, Eff.bind, Eff.callback]
  generalize (m.supHandler v g.sh ev g.ctx).run g.sched = r
  obtain ⟨o, w, l⟩ := r
  cases o with
  | ok r =>
    exact ⟨.ok r, [.handler (.superstate v) ev, .returned (.superstate w.1) r], .ok rfl, rfl, by
      simp [Eff.log, pure_def]⟩
  | panic => exact ⟨.panic, [.handler (.superstate v) ev], .panic, rfl, rfl⟩
  | stopped => exact ⟨.stopped, [.handler (.superstate v) ev], .stopped, rfl, rfl⟩

section
variable (hN : m.NoDispatchHooks)
include hN

theorem idle_hookBefore (ev : S.Ev) (s : S.St) : Idle s (hookBeforeDispatch m ev) () :=
  idle_hook rfl fun sh => hN.before sh _ ev
theorem idle_hookAfter (ev : S.Ev) (s : S.St) : Idle s (hookAfterDispatch m ev) () :=
  idle_hook rfl fun sh => hN.after sh _ ev
theorem idle_hookSupBefore (ev : S.Ev) (v : S.Sup) : Idle v (hookSupBeforeDispatch m ev) () :=
  idle_hook rfl fun sh => hN.before sh _ ev
theorem idle_hookSupAfter (ev : S.Ev) (v : S.Sup) : Idle v (hookSupAfterDispatch m ev) () :=
  idle_hook rfl fun sh => hN.after sh _ ev

variable (hF : Follows m F) {whole : Handling S S.St} {supWhole : Handling S S.Sup}
  (hT : m.Together whole supWhole)
include hF hT

omit hN in
/-- One level: the own handler, then the superstate. -/
theorem performs_supLevel (ev : S.Ev) {B : Eff S S.Sup (Response S.St)} {e : Response S.St} (he : SameWish' e .super)
    {v : S.Sup} (hB : ∀ w, m.supDiscr w = m.supDiscr v → ∀ u put, m.supSuperstate w = some (u, put) →
      Performs u B SameWish' fun v sh c => supWhole v sh ev c)
    {x : Eff S S.Sup (Response S.St)} (hx : Performs v x Eq fun v sh c => m.supHandler v sh ev c)
    {y : Response S.St → Eff S S.Sup (Response S.St)} (hy : ∀ r, r ≠ .super → y r = Pure.pure r)
    {z : Option (Response S.St) → Eff S S.Sup (Response S.St)} (hs : y .super = Eff.borrow m.supSuperstate B >>= z)
    (hz : ∀ r, z (some r) = Pure.pure r) (hz' : z none = Pure.pure e) :
    Performs v (x >>= y) SameWish' fun v sh c => supWhole v sh ev c := by
  have : (fun v sh c => supWhole v sh ev c) = fun v sh c =>
      (m.supHandler v sh ev c).deferred (Machine.leftTo m.supSuperstate supWhole ev) := by
    funext v sh c
    exact hT.sup v sh ev c
  rw [this]
  refine performs_deferred (P := fun w => m.supDiscr w = m.supDiscr v) hx (fun sh c => hF.supHandler v sh ev c) ?_ ?_
  · intro r s' hr
    exact ⟨r, rfl, by rw [hy r hr]; exact idle_pure⟩
  · intro w hw
    rw [hs]
    exact performs_above he (hB w hw) hz hz'

omit hN hF hT in
theorem pure_match {r : Response S.St} {σ : Type} {x : Eff S σ (Response S.St)} : r ≠ .super →
    (match r with
      | .handled => Pure.pure .handled
      | .super => x
      | .transition t => Pure.pure (.transition t) : Eff S σ (Response S.St)) = Pure.pure r := by
  intro hr
  cases r with
  | super => exact absurd rfl hr
  | handled => rfl
  | transition t => rfl

omit hN hF hT in
/-- A hook that does nothing after a handler. -/
theorem performs_after {s : σ} {γ : Type} {W : α → γ → Prop} {x : Eff S σ α} {f} (hx : Performs s x W f)
    {y : Eff S σ Unit} (hy : ∀ s', Idle s' y ()) : Performs s (x >>= fun a => y >>= fun _ => Pure.pure a) W f := by
  refine bind_idle hx fun a c h => ⟨a, h, fun s' g => ?_⟩
  obtain ⟨T, h1, h2⟩ := hy s' g
  exact ⟨T, h1, by simp only [bind_def, Eff.bind, h2, pure_def]⟩

omit hN hF hT in
theorem after_assoc (x : Eff S σ α) (h : Eff S σ Unit) (y : α → Eff S σ β) :
    (x >>= fun a => h >>= fun _ => y a) = (x >>= fun a => h >>= fun _ => Pure.pure a) >>= y := by simp

theorem performs_supHandle (ev : S.Ev) (N : Nat) (v : S.Sup) (hv : (F.chain (m.supDiscr v)).length ≤ N) :
    Performs v (Blocking.supHandle m ev) SameWish' fun v sh c => supWhole v sh ev c := by
  induction N generalizing v with
  | zero => simp [Forest.chain] at hv
  | succ N ih =>
    rw [Blocking.supHandle]
    refine performs_supLevel hF hT ev (e := .super) rfl ?_ (performs_callSupHandler ev v) (fun r hr => pure_match hr)
      rfl (fun _ => rfl) rfl
    intro w hw u put hu
    rw [Forest.chain, List.length_cons, ← hw, hF.supAnc_some hu] at hv
    exact idle_bind (idle_hookSupBefore hN ev u) (performs_after (ih u (by omega)) (idle_hookSupAfter hN ev))

theorem performs_handleLoop (ev : S.Ev) (N : Nat) (v : S.Sup) (hv : (F.chain (m.supDiscr v)).length ≤ N) :
    Performs v (Awaitable.handleLoop m ev) SameWish' fun v sh c => supWhole v sh ev c := by
  induction N generalizing v with
  | zero => simp [Forest.chain] at hv
  | succ N ih =>
    rw [Awaitable.handleLoop]
    refine idle_bind (idle_hookSupBefore hN ev v) ?_
    rw [after_assoc]
    refine performs_supLevel hF hT ev (e := .handled) rfl ?_
      (performs_after (performs_callSupHandler ev v) (idle_hookSupAfter hN ev)) (fun r hr => pure_match hr)
      rfl (fun _ => rfl) rfl
    intro w hw u put hu
    rw [Forest.chain, List.length_cons, ← hw, hF.supAnc_some hu] at hv
    exact ih u (by omega)

/-- A dispatch does what the state and its superstates do together. -/
theorem performs_handle (mode : Mode) (ev : S.Ev) (s : S.St) :
    Performs s (mode.handle m ev) SameWish' fun s sh c => whole s sh ev c := by
  have hw : (fun s sh c => whole s sh ev c) = fun s sh c =>
      (m.handler s sh ev c).deferred (Machine.leftTo m.superstate supWhole ev) := by
    funext s sh c
    exact hT.state s sh ev c
  rw [hw]
  have h1 := performs_after (performs_callHandler (m := m) ev s) (idle_hookAfter hN ev)
  cases mode with
  | blocking =>
    show Performs s (Blocking.handle m ev) _ _
    unfold Blocking.handle
    refine idle_bind (idle_hookBefore hN ev s) ?_
    rw [after_assoc]
    refine performs_deferred (P := fun _ => True) h1 (fun sh c => Fut.all_true _) (fun r s' hr => ⟨r, rfl, ?_⟩) ?_
    · exact idle_of_eq (pure_match hr)
    · intro s' _
      refine performs_above (e := .super) rfl (fun v put hv => ?_) (fun _ => rfl) rfl
      exact idle_bind (idle_hookSupBefore hN ev v)
        (performs_after (performs_supHandle hN hF hT ev _ v (Nat.le_refl _)) (idle_hookSupAfter hN ev))
  | awaitable =>
    show Performs s (Awaitable.handle m ev) _ _
    unfold Awaitable.handle
    refine idle_bind (idle_hookBefore hN ev s) ?_
    rw [after_assoc]
    refine performs_deferred (P := fun _ => True) h1 (fun sh c => Fut.all_true _) (fun r s' hr => ⟨r, rfl, ?_⟩) ?_
    · exact idle_of_eq (pure_match hr)
    · intro s' _
      exact performs_above (e := .super) rfl (fun v put hv => performs_handleLoop hN hF hT ev _ v (Nat.le_refl _))
        (fun _ => rfl) rfl

end

/-- Two machines whose states do the same together with their superstates dispatch alike. -/
theorem alike_handle {F' : Forest S.D S.E} (hN : m.NoDispatchHooks) (hF : Follows m F) (hN' : n.NoDispatchHooks)
    (hF' : Follows n F') {whole : Handling S S.St} {supWhole supWhole' : Handling S S.Sup}
    (hT : m.Together whole supWhole) (hT' : n.Together whole supWhole') (mode : Mode) (ev : S.Ev) (s : S.St) :
    Alike SameWish' s (mode.handle m ev) (mode.handle n ev) := by
  intro g g' hg
  obtain ⟨o, T, h1, h2, h3⟩ := performs_handle hN hF hT mode ev s g
  obtain ⟨o', T', k1, k2, k3⟩ := performs_handle hN' hF' hT' mode ev s g'
  rw [hg.sh, hg.ctx, hg.sched] at k1 k3
  rw [h3, k3]
  refine .some ⟨?_, rfl, rfl, rfl, rfl, by simp [h2, k2, hg.trace]⟩
  clear h3 k3
  simp only
  revert h1 k1
  generalize ((whole s g.sh ev g.ctx).run g.sched).1 = r
  intro h1 k1
  cases h1 with
  | ok h => cases k1 with | ok k => exact .ok (Eq.trans h (Eq.symm k))
  | panic => cases k1; exact .panic
  | stopped => cases k1; exact .stopped

theorem alike_handleEvent (h : m.SameButHandlers n) (hN : m.NoDispatchHooks) (hF : Follows m F) (hF' : Follows n F)
    {whole : Handling S S.St} {supWhole supWhole' : Handling S S.Sup}
    (hT : m.Together whole supWhole) (hT' : n.Together whole supWhole') (mode : Mode) (ev : S.Ev) (s : S.St) :
    Alike Eq s (mode.handleEvent m ev) (mode.handleEvent n ev) := by
  have hN' : n.NoDispatchHooks := ⟨by rw [h.beforeDispatch]; exact hN.before, by rw [h.afterDispatch]; exact hN.after⟩
  refine Alike.bind (alike_handle hN hF hN' hF' hT hT' mode ev s) fun r r' s' hr => ?_
  cases r with
  | transition t =>
    cases r' with
    | transition t' =>
      cases hr
      simp only [h.modeTransition hF hF']
      exact alike_transition m mode t s'
    | handled => cases hr
    | super => cases hr
  | handled =>
    cases r' with
    | transition t' => cases hr
    | handled => exact Alike.pure rfl
    | super => exact Alike.pure rfl
  | super =>
    cases r' with
    | transition t' => cases hr
    | handled => exact Alike.pure rfl
    | super => exact Alike.pure rfl

/-! ## There is such a handler -/

theorem Fut.All.deferred {In W T : Type} {P : W → Prop} {f : Fut In W (Response T)} {next}
    (h : f.All P) (hn : ∀ w, P w → (next w).All P) : (f.deferred next).All P := by
  induction h with
  | @done w r h =>
    cases r with
    | super => exact hn w h
    | handled => exact .done h
    | transition t => exact .done h
  | panic h => exact .panic h
  | pending h _ ih => exact .pending h ih

theorem Fut.All.within {In V W : Type} {P : V → Prop} {Q : W → Prop} {put : V → W} {f : Fut In V α}
    (h : f.All P) (hp : ∀ v, P v → Q (put v)) : (f.within put).All Q := by
  induction h with
  | done h => exact .done (hp _ h)
  | panic h => exact .panic (hp _ h)
  | pending h _ ih => exact .pending (hp _ h) ih

theorem Fut.deferred_congr {In W T : Type} {P : W → Prop} {f : Fut In W (Response T)} {next next'}
    (h : f.All P) (hn : ∀ w, P w → next w = next' w) : f.deferred next = f.deferred next' := by
  induction h with
  | @done w r h =>
    cases r with
    | super => exact hn w h
    | handled => rfl
    | transition t => rfl
  | panic h => rfl
  | pending h _ ih => simp only [Fut.deferred, ih]

theorem Fut.deferred_super {In W T : Type} {f : Fut In W (Response T)} {next}
    (hn : ∀ w, next w = .done w .super) : f.deferred next = f := by
  induction f with
  | done w r =>
    cases r with
    | super => exact hn w
    | handled => rfl
    | transition t => rfl
  | panic h => rfl
  | pending w k ih => simp only [Fut.deferred, ih]

/-- What the first `k` levels do. -/
def upTo (m : Machine S) : Nat → Handling S S.Sup
  | 0 => fun v sh _ c => .done (v, sh, c) .super
  | k + 1 => fun v sh ev c => (m.supHandler v sh ev c).deferred (Machine.leftTo m.supSuperstate (upTo m k) ev)

theorem upTo_stable (hF : Follows m F) (ev : S.Ev) (k : Nat) : ∀ (k' : Nat) (v : S.Sup) sh c,
    (F.chain (m.supDiscr v)).length ≤ k → (F.chain (m.supDiscr v)).length ≤ k' →
    upTo m k v sh ev c = upTo m k' v sh ev c := by
  induction k with
  | zero => intro k' v sh c h; simp [Forest.chain] at h
  | succ k ih =>
    intro k' v sh c h h'
    cases k' with
    | zero => simp [Forest.chain] at h'
    | succ k' =>
      refine Fut.deferred_congr (hF.supHandler v sh ev c) fun w hw => ?_
      unfold Machine.leftTo
      cases hs : m.supSuperstate w.1 with
      | none => rfl
      | some p =>
        obtain ⟨u, put⟩ := p
        rw [Forest.chain, List.length_cons, ← hw, hF.supAnc_some hs] at h h'
        simp only
        rw [ih k' u _ _ (by omega) (by omega)]

/-- All levels. -/
def allLevels (m : Machine S) (F : Forest S.D S.E) : Handling S S.Sup := fun v =>
  upTo m (F.chain (m.supDiscr v)).length v

theorem together_exists (hF : Follows m F) :
    m.Together (fun s sh ev c => (m.handler s sh ev c).deferred (Machine.leftTo m.superstate (allLevels m F) ev))
      (allLevels m F) where
  state _ _ _ _ := rfl
  sup v sh ev c := by
    show upTo m ((F.supAnc (m.supDiscr v)).length + 1) v sh ev c = _
    refine Fut.deferred_congr (hF.supHandler v sh ev c) fun w hw => ?_
    unfold Machine.leftTo
    cases hs : m.supSuperstate w.1 with
    | none => rfl
    | some p =>
      obtain ⟨u, put⟩ := p
      simp only
      rw [← hw, hF.supAnc_some hs]
      rfl

theorem together_sup_unique (hF : Follows m F) {whole : Handling S S.St} {supWhole : Handling S S.Sup}
    (hT : m.Together whole supWhole) (ev : S.Ev) (k : Nat) : ∀ (v : S.Sup) sh c,
    (F.chain (m.supDiscr v)).length ≤ k → supWhole v sh ev c = upTo m k v sh ev c := by
  induction k with
  | zero => intro v sh c h; simp [Forest.chain] at h
  | succ k ih =>
    intro v sh c h
    rw [hT.sup]
    refine Fut.deferred_congr (hF.supHandler v sh ev c) fun w hw => ?_
    unfold Machine.leftTo
    cases hs : m.supSuperstate w.1 with
    | none => rfl
    | some p =>
      obtain ⟨u, put⟩ := p
      rw [Forest.chain, List.length_cons, ← hw, hF.supAnc_some hs] at h
      simp only
      rw [ih u _ _ (by omega)]

theorem together_unique (hF : Follows m F) {whole whole' : Handling S S.St} {supWhole supWhole' : Handling S S.Sup}
    (hT : m.Together whole supWhole) (hT' : m.Together whole' supWhole') : whole' = whole ∧ supWhole' = supWhole := by
  have hs : supWhole' = supWhole := by
    funext v sh ev c
    rw [together_sup_unique hF hT ev _ v sh c (Nat.le_refl _), together_sup_unique hF hT' ev _ v sh c (Nat.le_refl _)]
  refine ⟨?_, hs⟩
  funext s sh ev c
  rw [hT.state, hT'.state, hs]

/-- Handling an event by all levels does not change the variant of the superstate. -/
theorem upTo_all (hF : Follows m F) (ev : S.Ev) (k : Nat) (v : S.Sup) (sh : S.M) (c : S.Ctx) :
    (upTo m k v sh ev c).All fun w => m.supDiscr w.1 = m.supDiscr v := by
  induction k generalizing v sh c with
  | zero => exact .done rfl
  | succ k ih =>
    refine (hF.supHandler v sh ev c).deferred fun w hw => ?_
    unfold Machine.leftTo
    cases hs : m.supSuperstate w.1 with
    | none => exact .done hw
    | some p =>
      obtain ⟨u, put⟩ := p
      exact (ih u w.2.1 w.2.2).within fun x hx => (hF.sup_back _ _ _ _ hs hx).trans hw

theorem whole_all (hF : Follows m F) {whole : Handling S S.St} {supWhole : Handling S S.Sup}
    (hT : m.Together whole supWhole) (s : S.St) (sh : S.M) (ev : S.Ev) (c : S.Ctx) :
    (whole s sh ev c).All fun w => m.discr w.1 = m.discr s := by
  rw [hT.state]
  refine (hF.handler s sh ev c).deferred fun w hw => ?_
  unfold Machine.leftTo
  cases hs : m.superstate w.1 with
  | none => exact .done hw
  | some p =>
    obtain ⟨u, put⟩ := p
    have := upTo_all hF ev (F.chain (m.supDiscr u)).length u w.2.1 w.2.2
    rw [← together_sup_unique hF hT ev _ u _ _ (Nat.le_refl _)] at this
    exact this.within fun x hx => (hF.leaf_back _ _ _ _ hs hx).trans hw

/-- The machine in which the states do everything is such a machine. -/
theorem inlined_together {whole : Handling S S.St} :
    (m.inlined whole).Together whole fun v sh _ c => .done (v, sh, c) .super where
  state s sh ev c := by
    refine (Fut.deferred_super fun w => ?_).symm
    unfold Machine.leftTo
    cases hs : (m.inlined whole).superstate w.1 with
    | none => rfl
    | some p =>
      obtain ⟨u, put⟩ := p
      simp only [Fut.within]
      rw [m.superstate_back _ _ _ hs]
  sup v sh ev c := by
    show _ = Machine.leftTo _ _ ev (v, sh, c)
    unfold Machine.leftTo
    cases hs : (m.inlined whole).supSuperstate v with
    | none => rfl
    | some p =>
      obtain ⟨u, put⟩ := p
      simp only [Fut.within]
      rw [m.supSuperstate_back _ _ _ hs]

theorem inlined_follows (hF : Follows m F) {whole : Handling S S.St} {supWhole : Handling S S.Sup}
    (hT : m.Together whole supWhole) : Follows (m.inlined whole) F where
  leaf := hF.leaf
  sup := hF.sup
  leaf_back := hF.leaf_back
  sup_back := hF.sup_back
  handler := whole_all hF hT
  entry := hF.entry
  exit := hF.exit
  supHandler _ _ _ _ := .done rfl
  supEntry := hF.supEntry
  supExit := hF.supExit

end Statig
