import Verif.Spec.Contract
import Verif.Spec.Simulation
import Verif.Proofs.Modes
/-!
# Leaving out superstates without behaviour
-/
namespace Statig
open Eff

/-! ## The remaining forest -/

/-- A forest without some of its superstates. -/
def Forest.hide {D E : Type} (F : Forest D E) (hidden : E → Bool) : Forest D E where
  leafParent d := ((F.leafAnc d).filter fun e => !hidden e).head?
  supParent e := ((F.supAnc e).filter fun e => !hidden e).head?
  supAnc e := (F.supAnc e).filter fun e => !hidden e
  supAnc_eq e := by
    generalize hl : F.supAnc e = l
    have hasc : F.Asc l := by
      rw [← hl, F.supAnc_eq']
      split
      · exact .nil
      · exact F.asc_chain _
    clear hl
    induction hasc with
    | nil => rfl
    | @cons e _ ih =>
      rw [List.filter_cons]
      split
      · rfl
      · exact ih

namespace Forest
variable {D E : Type} (F : Forest D E) (hidden : E → Bool)

theorem filter_head_asc {l : List E} (h : F.Asc l) :
    l.filter (fun e => !hidden e) = match (l.filter fun e => !hidden e).head? with
      | none => []
      | some p => p :: (F.supAnc p).filter fun e => !hidden e := by
  induction h with
  | nil => rfl
  | @cons e _ ih =>
    rw [List.filter_cons]
    split
    · rfl
    · exact ih

theorem hide_leafAnc (d : D) : (F.hide hidden).leafAnc d = (F.leafAnc d).filter fun e => !hidden e := by
  rw [F.filter_head_asc hidden (F.asc_leafAnc d)]
  rfl

end Forest

variable {S : Sig} {m n : Machine S} {F : Forest S.D S.E} {hidden : S.E → Bool}

/-! ## Views -/

/-- The variants of the chain of superstates that starts with a view. -/
def chainOf (m : Machine S) (F : Forest S.D S.E) {σ : Type} : Option (S.Sup × (S.Sup → σ)) → List S.E
  | none => []
  | some (v, _) => m.supDiscr v :: F.supAnc (m.supDiscr v)

/-- A view of something in `s`: writing back the untouched view changes nothing, and writing back a value of the same
variant keeps `P`. -/
def ViewOf (m : Machine S) {σ : Type} (P : σ → Prop) (s : σ) (q : Option (S.Sup × (S.Sup → σ))) : Prop :=
  ∀ v put, q = some (v, put) → put v = s ∧ ∀ w, m.supDiscr w = m.supDiscr v → P (put w)

theorem ViewOf.step (hF : Follows m F) {σ : Type} {P : σ → Prop} {s : σ} {v put}
    (h : ViewOf m P s (some (v, put))) :
    ViewOf m P s ((m.supSuperstate v).map fun p => (p.1, fun w => put (p.2 w))) := by
  obtain ⟨h1, h2⟩ := h v put rfl
  intro v' put' he
  cases hs : m.supSuperstate v with
  | none => rw [hs] at he; cases he
  | some p =>
    rw [hs] at he
    obtain ⟨u, back⟩ := p
    simp only [Option.map_some, Option.some.injEq, Prod.mk.injEq] at he
    obtain ⟨rfl, rfl⟩ := he
    exact ⟨by show put (back u) = s; rw [m.supSuperstate_back v u back hs, h1],
      fun w hw => h2 _ (hF.sup_back v u back w hs hw)⟩

theorem chainOf_step (hF : Follows m F) {σ : Type} {v : S.Sup} {put : S.Sup → σ} :
    chainOf m F ((m.supSuperstate v).map fun p => (p.1, fun w => put (p.2 w))) = F.supAnc (m.supDiscr v) := by
  cases hs : m.supSuperstate v with
  | none => rw [hF.supAnc_none hs]; rfl
  | some p => obtain ⟨u, back⟩ := p; rw [hF.supAnc_some hs]; rfl

theorem chainOf_sup (hF : Follows m F) (v : S.Sup) : chainOf m F (m.supSuperstate v) = F.supAnc (m.supDiscr v) := by
  cases hs : m.supSuperstate v with
  | none => rw [hF.supAnc_none hs]; rfl
  | some p => obtain ⟨u, back⟩ := p; rw [hF.supAnc_some hs]; rfl

theorem chainOf_leaf (hF : Follows m F) (s : S.St) : chainOf m F (m.superstate s) = F.leafAnc (m.discr s) := by
  cases hs : m.superstate s with
  | none => rw [hF.leafAnc_none hs]; rfl
  | some p => obtain ⟨u, back⟩ := p; rw [hF.leafAnc_some hs]; rfl

theorem viewOf_sup (hF : Follows m F) (v : S.Sup) :
    ViewOf m (fun w => m.supDiscr w = m.supDiscr v) v (m.supSuperstate v) := fun u back h =>
  ⟨m.supSuperstate_back v u back h, fun w hw => hF.sup_back v u back w h hw⟩

theorem viewOf_leaf (hF : Follows m F) (s : S.St) :
    ViewOf m (fun w => m.discr w = m.discr s) s (m.superstate s) := fun u back h =>
  ⟨m.superstate_back s u back h, fun w hw => hF.leaf_back s u back w h hw⟩

namespace Machine.Skips

theorem viewOf (hF : Follows m F) {σ : Type} {P : σ → Prop} {s : σ} {q q'} (h : m.Skips hidden q q')
    (hv : ViewOf m P s q) : ViewOf m P s q' := by
  induction h with
  | none => exact hv
  | keep _ => exact hv
  | skip _ _ ih => exact ih (hv.step hF)

theorem chain (hF : Follows m F) {σ : Type} {q q' : Option (S.Sup × (S.Sup → σ))} (h : m.Skips hidden q q') :
    q'.map (fun p => m.supDiscr p.1) = ((chainOf m F q).filter fun e => !hidden e).head? := by
  induction h with
  | none => rfl
  | @keep v put hv => simp [chainOf, hv]
  | @skip v put q hv h ih =>
    rw [ih, chainOf_step hF]
    simp [chainOf, hv]

end Machine.Skips

theorem Machine.Without.follows (hF : Follows m F) (hW : m.Without hidden n) : Follows n (F.hide hidden) where
  leaf s := by
    have := (hW.superstate s).chain hF
    rw [chainOf_leaf hF] at this
    rw [hW.supDiscr, hW.discr]
    exact this
  sup v := by
    have := (hW.supSuperstate v).chain hF
    rw [chainOf_sup hF] at this
    rw [hW.supDiscr]
    exact this
  leaf_back s v back w h hw := by
    rw [hW.supDiscr] at hw
    rw [hW.discr]
    exact ((hW.superstate s).viewOf hF (viewOf_leaf hF s) v back h).2 w hw
  sup_back u v back w h hw := by
    rw [hW.supDiscr] at hw ⊢
    exact ((hW.supSuperstate u).viewOf hF (viewOf_sup hF u) v back h).2 w hw
  handler := by rw [hW.handler, hW.discr]; exact hF.handler
  entry := by rw [hW.entry, hW.discr]; exact hF.entry
  exit := by rw [hW.exit, hW.discr]; exact hF.exit
  supHandler := by rw [hW.supHandler, hW.supDiscr]; exact hF.supHandler
  supEntry := by rw [hW.supEntry, hW.supDiscr]; exact hF.supEntry
  supExit := by rw [hW.supExit, hW.supDiscr]; exact hF.supExit

/-! ## Simulation -/

/-- The same, up to what is observed of superstates that are left out. -/
structure Shown (m : Machine S) (hidden : S.E → Bool) (g g' : Glob S) : Prop where
  sh : g.sh = g'.sh
  ctx : g.ctx = g'.ctx
  sched : g.sched = g'.sched
  trace : g.trace.filter (m.showsObs hidden) = g'.trace

variable {σ τ α β α' β' : Type}

/-- Related results. -/
def ResultRel (m : Machine S) (hidden : S.E → Bool) (P : σ → Prop) (A : α → β → Prop) :
    Option (Out α × σ × Glob S) → Option (Out β × σ × Glob S) → Prop :=
  OptRel (fun p q => OutRel A p.1 q.1 ∧ p.2.1 = q.2.1 ∧ P p.2.1 ∧ Shown m hidden p.2.2 q.2.2)

/-- The first program, started in `s`, does the same as the second one, hidden observations apart. -/
def Hides (m : Machine S) (hidden : S.E → Bool) (P : σ → Prop) (A : α → β → Prop) (s : σ) (x : Eff S σ α)
    (y : Eff S σ β) : Prop := ∀ g g', Shown m hidden g g' → ResultRel m hidden P A (x s g) (y s g')

namespace Hides
variable {P : σ → Prop} {A : α → β → Prop} {B : α' → β' → Prop} {s : σ}

theorem pure {a b} (h : A a b) (hs : P s) :
    Hides m hidden P A s (Pure.pure a : Eff S σ α) (Pure.pure b : Eff S σ β) :=
  fun _ _ hg => .some ⟨.ok h, rfl, hs, hg⟩

theorem bind {x : Eff S σ α} {y : Eff S σ β} {f : α → Eff S σ α'} {h : β → Eff S σ β'}
    (hx : Hides m hidden P A s x y) (hf : ∀ a b s', P s' → A a b → Hides m hidden P B s' (f a) (h b)) :
    Hides m hidden P B s (x >>= f) (y >>= h) := by
  intro g g' hg
  simp only [bind_def, Eff.bind]
  have := hx g g' hg
  generalize x s g = a at this ⊢
  generalize y s g' = b at this ⊢
  cases this with
  | none => exact .none
  | @some p q hpq =>
    obtain ⟨o, v1, g1⟩ := p
    obtain ⟨o', v2, g2⟩ := q
    obtain ⟨h1, h2, h3, h4⟩ := hpq
    simp only at h1 h2 h3 h4
    subst h2
    cases h1 with
    | ok hab => exact hf _ _ v1 h3 hab g1 g2 h4
    | panic => exact .some ⟨.panic, rfl, h3, h4⟩
    | stopped => exact .some ⟨.stopped, rfl, h3, h4⟩

theorem mono {A' : α → β → Prop} {x : Eff S σ α} {y : Eff S σ β} (h : Hides m hidden P A s x y)
    (ha : ∀ a b, A a b → A' a b) : Hides m hidden P A' s x y := by
  intro g g' hg
  have := h g g' hg
  generalize x s g = a at this ⊢
  generalize y s g' = b at this ⊢
  cases this with
  | none => exact .none
  | @some p q hpq =>
    obtain ⟨o, v1, g1⟩ := p
    obtain ⟨o', v2, g2⟩ := q
    obtain ⟨h1, h2⟩ := hpq
    refine .some ⟨?_, h2⟩
    simp only at h1 ⊢
    cases h1 with
    | ok hab => exact .ok (ha _ _ hab)
    | panic => exact .panic
    | stopped => exact .stopped

theorem of_eq {x x' : Eff S σ α} {y y' : Eff S σ β} (h : Hides m hidden P A s x y) (hx : x' = x) (hy : y' = y) :
    Hides m hidden P A s x' y' := by
  subst hx; subst hy; exact h

/-- A callback of something that is kept. -/
theorem callback {o : σ → Obs S} {f : σ → S.M → S.Ctx → Fut S.In (σ × S.M × S.Ctx) α}
    (ho : m.showsObs hidden (o s) = true) (h : ∀ sh c, (f s sh c).All (fun w => P w.1)) :
    Hides m hidden P Eq s (Eff.callback o f) (Eff.callback o f) := by
  intro g g' hg
  obtain ⟨sh, c, l, t⟩ := g
  obtain ⟨sh', c', l', t'⟩ := g'
  obtain ⟨h1, h2, h3, h4⟩ := hg
  simp only at h1 h2 h3 h4
  subst h1; subst h2; subst h3
  have := Fut.run_all (h sh c) l
  refine .some ⟨?_, rfl, this, rfl, rfl, rfl, ?_⟩
  · generalize ((f s sh c).run l).1 = r
    cases r with
    | ok a => exact .ok rfl
    | panic => exact .panic
    | stopped => exact .stopped
  · simp only [List.filter_append, List.filter_cons, ho, h4]; rfl

theorem hook {o : σ → Obs S} {f : σ → S.M → Fut S.In S.M Unit} (ho : m.showsObs hidden (o s) = true) (hs : P s) :
    Hides m hidden P Eq s (Eff.hook o f) (Eff.hook o f) := by
  intro g g' hg
  obtain ⟨sh, c, l, t⟩ := g
  obtain ⟨sh', c', l', t'⟩ := g'
  obtain ⟨h1, h2, h3, h4⟩ := hg
  simp only at h1 h2 h3 h4
  subst h1; subst h2; subst h3
  refine .some ⟨?_, rfl, hs, rfl, rfl, rfl, ?_⟩
  · generalize ((f s sh).run l).1 = r
    cases r with
    | ok a => exact .ok rfl
    | panic => exact .panic
    | stopped => exact .stopped
  · simp only [List.filter_append, List.filter_cons, ho, h4]; rfl

theorem log {o : σ → Obs S} (ho : m.showsObs hidden (o s) = true) (hs : P s) :
    Hides m hidden P Eq s (Eff.log o) (Eff.log o) := by
  intro g g' hg
  refine .some ⟨.ok rfl, rfl, hs, hg.sh, hg.ctx, hg.sched, ?_⟩
  simp only [List.filter_append, List.filter_cons, ho, hg.trace]; rfl

/-- A hook that does nothing, for something that is left out. -/
theorem hookL {o : σ → Obs S} {f : σ → S.M → Fut S.In S.M Unit} (ho : m.showsObs hidden (o s) = false)
    (hf : ∀ sh, f s sh = .done sh ()) {x : Eff S σ α} {y : Eff S σ β} (h : Hides m hidden P A s x y) :
    Hides m hidden P A s (Eff.hook o f >>= fun _ => x) y := by
  intro g g' hg
  simp only [bind_def, Eff.bind, Eff.hook, hf, Fut.run]
  refine h _ _ ⟨hg.sh, hg.ctx, hg.sched, ?_⟩
  simp [hg.trace, ho]

/-- A callback that does nothing, of something that is left out. -/
theorem callbackL {o : σ → Obs S} {f : σ → S.M → S.Ctx → Fut S.In (σ × S.M × S.Ctx) α'} {a : α'}
    (ho : m.showsObs hidden (o s) = false) (hf : ∀ sh c, f s sh c = .done (s, sh, c) a) {x : α' → Eff S σ α}
    {y : Eff S σ β} (h : Hides m hidden P A s (x a) y) :
    Hides m hidden P A s (Eff.callback o f >>= x) y := by
  intro g g' hg
  simp only [bind_def, Eff.bind, Eff.callback, hf, Fut.run]
  refine h _ _ ⟨hg.sh, hg.ctx, hg.sched, ?_⟩
  simp [hg.trace, ho]

theorem logL {o : σ → Obs S} (ho : m.showsObs hidden (o s) = false) {x : Eff S σ α} {y : Eff S σ β}
    (h : Hides m hidden P A s x y) : Hides m hidden P A s (Eff.log o >>= fun _ => x) y := by
  intro g g' hg
  simp only [bind_def, Eff.bind, Eff.log]
  refine h _ _ ⟨hg.sh, hg.ctx, hg.sched, ?_⟩
  simp [hg.trace, ho]

/-- Borrowing on both sides. -/
theorem borrow_keep {P' : τ → Prop} {v : τ} {put : τ → σ} {x : Eff S τ α} {y : Eff S τ β}
    (hput : ∀ w, P' w → P (put w)) (h : Hides m hidden P' A v x y) :
    Hides m hidden P (fun a b => ∃ r r', a = some r ∧ b = some r' ∧ A r r') s
      (Eff.borrow (fun _ => some (v, put)) x) (Eff.borrow (fun _ => some (v, put)) y) := by
  intro g g' hg
  unfold Eff.borrow
  simp only
  have := h g g' hg
  generalize x v g = a at this ⊢
  generalize y v g' = b at this ⊢
  cases this with
  | none => exact .none
  | @some p q hpq =>
    obtain ⟨o, v1, g1⟩ := p
    obtain ⟨o', v2, g2⟩ := q
    obtain ⟨h1, h2, h3, h4⟩ := hpq
    simp only at h1 h2 h3 h4
    subst h2
    refine .some ⟨?_, rfl, hput _ h3, h4⟩
    cases h1 with
    | ok hab => exact .ok ⟨_, _, rfl, rfl, hab⟩
    | panic => exact .panic
    | stopped => exact .stopped

/-- Only what is given for the current `self` matters. -/
theorem borrow_at {sup sup' : σ → Option (τ × (τ → σ))} {x : Eff S τ α} {y : Eff S τ β} {A : Option α → Option β → Prop}
    (h : Hides m hidden P A s (Eff.borrow (fun _ => sup s) x) (Eff.borrow (fun _ => sup' s) y)) :
    Hides m hidden P A s (Eff.borrow sup x) (Eff.borrow sup' y) := h

end Hides

/-- The first program, started in the view `v` of `s`, does the same as the second one, started in `s`. -/
def Via (m : Machine S) (hidden : S.E → Bool) (put : τ → σ) (Q : τ → Prop) (A : α → β → Prop) (v : τ) (s : σ)
    (x : Eff S τ α) (y : Eff S σ β) : Prop :=
  ∀ g g', Shown m hidden g g' →
    OptRel (fun p q => OutRel A p.1 q.1 ∧ put p.2.1 = q.2.1 ∧ Q p.2.1 ∧ Shown m hidden p.2.2 q.2.2) (x v g) (y s g')

namespace Via
variable {put : τ → σ} {Q : τ → Prop} {A : α → β → Prop} {B : α' → β → Prop} {v : τ} {s : σ}

theorem hookL {o : τ → Obs S} {f : τ → S.M → Fut S.In S.M Unit} (ho : m.showsObs hidden (o v) = false)
    (hf : ∀ sh, f v sh = .done sh ()) {x : Eff S τ α} {y : Eff S σ β} (h : Via m hidden put Q A v s x y) :
    Via m hidden put Q A v s (Eff.hook o f >>= fun _ => x) y := by
  intro g g' hg
  simp only [bind_def, Eff.bind, Eff.hook, hf, Fut.run]
  refine h _ _ ⟨hg.sh, hg.ctx, hg.sched, ?_⟩
  simp [hg.trace, ho]

theorem callbackL {o : τ → Obs S} {f : τ → S.M → S.Ctx → Fut S.In (τ × S.M × S.Ctx) α'} {a : α'}
    (ho : m.showsObs hidden (o v) = false) (hf : ∀ sh c, f v sh c = .done (v, sh, c) a) {x : α' → Eff S τ α}
    {y : Eff S σ β} (h : Via m hidden put Q A v s (x a) y) :
    Via m hidden put Q A v s (Eff.callback o f >>= x) y := by
  intro g g' hg
  simp only [bind_def, Eff.bind, Eff.callback, hf, Fut.run]
  refine h _ _ ⟨hg.sh, hg.ctx, hg.sched, ?_⟩
  simp [hg.trace, ho]

theorem logL {o : τ → Obs S} (ho : m.showsObs hidden (o v) = false) {x : Eff S τ α} {y : Eff S σ β}
    (h : Via m hidden put Q A v s x y) : Via m hidden put Q A v s (Eff.log o >>= fun _ => x) y := by
  intro g g' hg
  simp only [bind_def, Eff.bind, Eff.log]
  refine h _ _ ⟨hg.sh, hg.ctx, hg.sched, ?_⟩
  simp [hg.trace, ho]

/-- Something that returns without effect, except for hidden observations. -/
def Quiet (m : Machine S) (hidden : S.E → Bool) (v : τ) (x : Eff S τ α) (a : α) : Prop :=
  ∀ g, ∃ T, x v g = some (.ok a, v, { g with trace := g.trace ++ T }) ∧ T.filter (m.showsObs hidden) = []

theorem andThen {x : Eff S τ α} {y : Eff S σ β} {f : α → Eff S τ α'} (hx : Via m hidden put Q A v s x y)
    (hf : ∀ a b v', Q v' → A a b → ∃ c, B c b ∧ Quiet m hidden v' (f a) c) :
    Via m hidden put Q B v s (x >>= f) y := by
  intro g g' hg
  simp only [bind_def, Eff.bind]
  have := hx g g' hg
  generalize x v g = a at this ⊢
  generalize y s g' = b at this ⊢
  cases this with
  | none => exact .none
  | @some p q hpq =>
    obtain ⟨o, v1, g1⟩ := p
    obtain ⟨o', v2, g2⟩ := q
    obtain ⟨h1, h2, h3, h4⟩ := hpq
    simp only at h1 h2 h3 h4
    cases h1 with
    | ok hab =>
      obtain ⟨c, hc, hq⟩ := hf _ _ v1 h3 hab
      obtain ⟨T, hT, hT'⟩ := hq g1
      simp only [hT]
      exact .some ⟨.ok hc, h2, h3, h4.sh, h4.ctx, h4.sched, by simp [hT', h4.trace]⟩
    | panic => exact .some ⟨.panic, h2, h3, h4⟩
    | stopped => exact .some ⟨.stopped, h2, h3, h4⟩

/-- A borrow on the left only. -/
theorem borrowed {P : σ → Prop} (hput : ∀ w, Q w → P (put w)) {x : Eff S τ α} {y : Eff S σ β}
    (h : Via m hidden put Q A v s x y) :
    Hides m hidden P (fun a b => ∃ r, a = some r ∧ A r b) s (Eff.borrow (fun _ => some (v, put)) x) y := by
  intro g g' hg
  unfold Eff.borrow
  simp only
  have := h g g' hg
  generalize x v g = a at this ⊢
  generalize y s g' = b at this ⊢
  cases this with
  | none => exact .none
  | @some p q hpq =>
    obtain ⟨o, v1, g1⟩ := p
    obtain ⟨o', v2, g2⟩ := q
    obtain ⟨h1, h2, h3, h4⟩ := hpq
    simp only at h1 h2 h3 h4
    subst h2
    refine .some ⟨?_, rfl, hput _ h3, h4⟩
    cases h1 with
    | ok hab => exact .ok ⟨_, rfl, hab⟩
    | panic => exact .panic
    | stopped => exact .stopped

end Via
open Via (Quiet)

/-- A view through a superstate that is left out. -/
theorem via_borrow (hF : Follows m F) {P : σ → Prop} {C : Option α → β → Prop} {v : S.Sup} {put : S.Sup → σ} {s : σ}
    {b : Eff S S.Sup α} {y : Eff S σ β} (hput : put v = s)
    (hk : ∀ e, Eff.Keeps (fun v => m.supDiscr v = e) b)
    (h : Hides m hidden P C s
      (Eff.borrow (fun _ => (m.supSuperstate v).map fun p => (p.1, fun w => put (p.2 w))) b) y) :
    Via m hidden put (fun w => m.supDiscr w = m.supDiscr v) C v s (Eff.borrow m.supSuperstate b) y := by
  intro g g' hg
  have := h g g' hg
  unfold Eff.borrow at this ⊢
  cases hs : m.supSuperstate v with
  | none =>
    rw [hs] at this
    simp only [Option.map_none] at this ⊢
    generalize y s g' = b at this ⊢
    cases this with
    | some hpq =>
      obtain ⟨h1, h2, h3, h4⟩ := hpq
      exact .some ⟨h1, by rw [← h2]; exact hput, rfl, h4⟩
  | some p =>
    obtain ⟨u, back⟩ := p
    rw [hs] at this
    simp only [Option.map_some] at this ⊢
    cases hb : b u g with
    | none =>
      rw [hb] at this
      simp only at this ⊢
      generalize y s g' = b at this ⊢
      cases this with
      | none => exact .none
    | some r =>
      obtain ⟨o, u', g1⟩ := r
      rw [hb] at this
      simp only at this ⊢
      generalize y s g' = b at this ⊢
      cases this with
      | some hpq =>
        obtain ⟨h1, h2, h3, h4⟩ := hpq
        exact .some ⟨h1, h2, hF.sup_back v u back u' hs (hk _ u g o u' g1 rfl hb), h4⟩

theorem keeps_of_does {x : Eff S S.Sup α} {A : S.Sup → List (Step S.D S.E S.Ev S.St) → α → Prop}
    (h : ∀ v, Does m m.supDiscr x v (A v)) (e : S.E) : Eff.Keeps (fun v => m.supDiscr v = e) x := by
  intro v g o v' g' hv hx
  obtain ⟨o', s', g1, T, h1, -, h2, -⟩ := h v g
  rw [h1] at hx
  cases hx
  exact h2.trans hv

/-! ## Dispatch -/

/-- The transition a handler or a dispatch asks for. -/
def wanted : Response S.St → Option S.St
  | .transition t => some t
  | _ => none

/-- Two ways of dispatching ask for the same transition, if any. -/
def SameWish (r r' : Response S.St) : Prop := wanted r = wanted r'

/-- The same for a dispatch that finds no superstate. -/
def SameWish? (r r' : Option (Response S.St)) : Prop := r.bind wanted = r'.bind wanted

section
variable (hF : Follows m F) (hW : m.Without hidden n)
include hF

theorem handle_on {B B' : Eff S S.Sup (Response S.St)} (hk : ∀ e, Eff.Keeps (fun v => m.supDiscr v = e) B)
    (hkeep : ∀ v, hidden (m.supDiscr v) = false →
      (∀ v1, m.supDiscr v1 = m.supDiscr v →
        Hides m hidden (fun w => m.supDiscr w = m.supDiscr v) SameWish? v1 (Eff.borrow m.supSuperstate B)
          (Eff.borrow n.supSuperstate B')) →
      Hides m hidden (fun w => m.supDiscr w = m.supDiscr v) SameWish v B B')
    (hskip : ∀ {σ : Type} (v : S.Sup) (put : S.Sup → σ) (s : σ) (y : Eff S σ (Option (Response S.St))),
      hidden (m.supDiscr v) = true →
      Via m hidden put (fun w => m.supDiscr w = m.supDiscr v) SameWish? v s (Eff.borrow m.supSuperstate B) y →
      Via m hidden put (fun w => m.supDiscr w = m.supDiscr v) (fun r o => wanted r = o.bind wanted) v s B y)
    (hsup : ∀ v, m.Skips hidden (m.supSuperstate v) (n.supSuperstate v)) :
    ∀ (N : Nat) {σ : Type} (q q' : Option (S.Sup × (S.Sup → σ))) (s : σ) (P : σ → Prop), m.Skips hidden q q' →
      (chainOf m F q).length ≤ N → ViewOf m P s q → P s →
      Hides m hidden P SameWish? s (Eff.borrow (fun _ => q) B) (Eff.borrow (fun _ => q') B') := by
  intro N
  induction N with
  | zero =>
    intro σ q q' s P h hN hv hs
    cases h with
    | none => exact fun g g' hg => .some ⟨.ok rfl, rfl, hs, hg⟩
    | keep => simp [chainOf] at hN
    | skip => simp [chainOf] at hN
  | succ N ih =>
    intro σ q q' s P h hN hv hs
    cases h with
    | none => exact fun g g' hg => .some ⟨.ok rfl, rfl, hs, hg⟩
    | @keep v put hvis =>
      obtain ⟨-, hput⟩ := hv v put rfl
      refine (Hides.borrow_keep hput (hkeep v hvis fun v1 hv1 => ?_)).mono ?_
      · refine ih _ _ v1 _ (hsup v1) ?_ ?_ hv1
        · rw [chainOf_sup hF, hv1]
          simp only [chainOf, List.length_cons] at hN; omega
        · have := viewOf_sup hF v1
          rw [hv1] at this; exact this
      · rintro a b ⟨r, r', rfl, rfl, h⟩
        exact h
    | @skip v put q' hhid h =>
      obtain ⟨hp, hput⟩ := hv v put rfl
      have h1 := ih _ _ s P h (by rw [chainOf_step hF]; simp only [chainOf, List.length_cons] at hN; omega)
        (hv.step hF) hs
      have h2 := via_borrow hF hp hk h1
      refine ((hskip v put s _ hhid h2).borrowed hput).mono ?_
      rintro a b ⟨r, rfl, h⟩
      exact h

end

/-! ## The callbacks of both machines -/

section
variable (hF : Follows m F) (hS : m.Silent hidden) (hW : m.Without hidden n)

namespace Machine.Without
include hW
theorem callHandler (ev : S.Ev) : callHandler n ev = callHandler m ev := by
  unfold Statig.callHandler; rw [hW.handler]
theorem callEntry : callEntry n = callEntry m := by unfold Statig.callEntry; rw [hW.entry]
theorem callExit : callExit n = callExit m := by unfold Statig.callExit; rw [hW.exit]
theorem callSupHandler (ev : S.Ev) : callSupHandler n ev = callSupHandler m ev := by
  unfold Statig.callSupHandler; rw [hW.supHandler]
theorem callSupEntry : callSupEntry n = callSupEntry m := by unfold Statig.callSupEntry; rw [hW.supEntry]
theorem callSupExit : callSupExit n = callSupExit m := by unfold Statig.callSupExit; rw [hW.supExit]
theorem hookBeforeDispatch (ev : S.Ev) : hookBeforeDispatch n ev = hookBeforeDispatch m ev := by
  unfold Statig.hookBeforeDispatch; rw [hW.beforeDispatch]
theorem hookAfterDispatch (ev : S.Ev) : hookAfterDispatch n ev = hookAfterDispatch m ev := by
  unfold Statig.hookAfterDispatch; rw [hW.afterDispatch]
theorem hookSupBeforeDispatch (ev : S.Ev) : hookSupBeforeDispatch n ev = hookSupBeforeDispatch m ev := by
  unfold Statig.hookSupBeforeDispatch; rw [hW.beforeDispatch]
theorem hookSupAfterDispatch (ev : S.Ev) : hookSupAfterDispatch n ev = hookSupAfterDispatch m ev := by
  unfold Statig.hookSupAfterDispatch; rw [hW.afterDispatch]
theorem hookBeforeTransition (a b : S.St) : hookBeforeTransition n a b = hookBeforeTransition m a b := by
  unfold Statig.hookBeforeTransition; rw [hW.beforeTransition]
theorem hookAfterTransition (a b : S.St) : hookAfterTransition n a b = hookAfterTransition m a b := by
  unfold Statig.hookAfterTransition; rw [hW.afterTransition]
end Machine.Without

theorem shows_sup {v : S.Sup} (hv : hidden (m.supDiscr v) = false) : m.shows hidden (.superstate v) = true := by
  simp [Machine.shows, hv]

theorem not_shows_sup {v : S.Sup} (hv : hidden (m.supDiscr v) = true) : m.shows hidden (.superstate v) = false := by
  simp [Machine.shows, hv]

include hF in
theorem hides_callSupHandler (ev : S.Ev) {e : S.E} {v : S.Sup} (he : m.supDiscr v = e) (hv : hidden e = false) :
    Hides m hidden (fun w => m.supDiscr w = e) Eq v (callSupHandler m ev) (callSupHandler m ev) := by
  subst he
  refine Hides.bind (A := Eq) (Hides.callback (shows_sup hv) fun sh c => hF.supHandler v sh ev c) ?_
  rintro r _ v1 hv1 rfl
  refine Hides.bind (A := Eq) (Hides.log (shows_sup (by rw [hv1]; exact hv)) hv1) ?_
  rintro _ _ v2 hv2 -
  exact Hides.pure rfl hv2

include hF in
theorem hides_callSupEntry {e : S.E} {v : S.Sup} (he : m.supDiscr v = e) (hv : hidden e = false) :
    Hides m hidden (fun w => m.supDiscr w = e) Eq v (callSupEntry m) (callSupEntry m) := by
  subst he
  exact Hides.callback (shows_sup hv) fun sh c => hF.supEntry v sh c

include hF in
theorem hides_callSupExit {e : S.E} {v : S.Sup} (he : m.supDiscr v = e) (hv : hidden e = false) :
    Hides m hidden (fun w => m.supDiscr w = e) Eq v (callSupExit m) (callSupExit m) := by
  subst he
  exact Hides.callback (shows_sup hv) fun sh c => hF.supExit v sh c

include hF in
theorem hides_callHandler (ev : S.Ev) {d : S.D} {s : S.St} (hd : m.discr s = d) :
    Hides m hidden (fun w => m.discr w = d) Eq s (callHandler m ev) (callHandler m ev) := by
  subst hd
  refine Hides.bind (A := Eq) (Hides.callback rfl fun sh c => hF.handler s sh ev c) ?_
  rintro r _ v1 hv1 rfl
  refine Hides.bind (A := Eq) (Hides.log rfl hv1) ?_
  rintro _ _ v2 hv2 -
  exact Hides.pure rfl hv2

include hF in
theorem hides_callEntry {d : S.D} {s : S.St} (hd : m.discr s = d) :
    Hides m hidden (fun w => m.discr w = d) Eq s (callEntry m) (callEntry m) := by
  subst hd
  exact Hides.callback rfl fun sh c => hF.entry s sh c

include hF in
theorem hides_callExit {d : S.D} {s : S.St} (hd : m.discr s = d) :
    Hides m hidden (fun w => m.discr w = d) Eq s (callExit m) (callExit m) := by
  subst hd
  exact Hides.callback rfl fun sh c => hF.exit s sh c

include hS in
theorem quiet_callSupEntry {v : S.Sup} (hv : hidden (m.supDiscr v) = true) :
    Quiet m hidden v (callSupEntry m) () := by
  intro g
  refine ⟨[.entry (.superstate v)], ?_, ?_⟩
  · simp only [callSupEntry, Eff.callback, hS.entry v _ _ hv, Fut.run]
  · simp [Machine.showsObs, not_shows_sup hv]

include hS in
theorem quiet_callSupExit {v : S.Sup} (hv : hidden (m.supDiscr v) = true) :
    Quiet m hidden v (callSupExit m) () := by
  intro g
  refine ⟨[.exit (.superstate v)], ?_, ?_⟩
  · simp only [callSupExit, Eff.callback, hS.exit v _ _ hv, Fut.run]
  · simp [Machine.showsObs, not_shows_sup hv]

include hS in
theorem quiet_callSupHandler (ev : S.Ev) {v : S.Sup} (hv : hidden (m.supDiscr v) = true) :
    Quiet m hidden v (callSupHandler m ev) .super := by
  intro g
  refine ⟨[.handler (.superstate v) ev, .returned (.superstate v) .super], ?_, ?_⟩
  · simp only [callSupHandler, bind_def, Eff.bind, Eff.callback, hS.handler v _ _ _ hv, Fut.run, Eff.log, pure_def,
      List.append_assoc, List.singleton_append]
  · simp [Machine.showsObs, not_shows_sup hv]

include hS in
theorem quiet_hookSupBeforeDispatch (ev : S.Ev) {v : S.Sup} (hv : hidden (m.supDiscr v) = true) :
    Quiet m hidden v (hookSupBeforeDispatch m ev) () := by
  intro g
  refine ⟨[.beforeDispatch (.superstate v) ev], ?_, ?_⟩
  · simp only [hookSupBeforeDispatch, Eff.hook, hS.beforeDispatch _ v _ hv, Fut.run]
  · simp [Machine.showsObs, not_shows_sup hv]

include hS in
theorem quiet_hookSupAfterDispatch (ev : S.Ev) {v : S.Sup} (hv : hidden (m.supDiscr v) = true) :
    Quiet m hidden v (hookSupAfterDispatch m ev) () := by
  intro g
  refine ⟨[.afterDispatch (.superstate v) ev], ?_, ?_⟩
  · simp only [hookSupAfterDispatch, Eff.hook, hS.afterDispatch _ v _ hv, Fut.run]
  · simp [Machine.showsObs, not_shows_sup hv]

theorem Via.Quiet.pure (v : τ) (a : α) : Quiet m hidden v (Pure.pure a : Eff S τ α) a :=
  fun g => ⟨[], by simp [pure_def], rfl⟩

theorem Via.Quiet.bind {v : τ} {x : Eff S τ α} {a : α} {f : α → Eff S τ β} {b : β} (hx : Quiet m hidden v x a)
    (hf : Quiet m hidden v (f a) b) : Quiet m hidden v (x >>= f) b := by
  intro g
  obtain ⟨T, h1, h2⟩ := hx g
  obtain ⟨U, k1, k2⟩ := hf { g with trace := g.trace ++ T }
  refine ⟨T ++ U, ?_, by simp [h2, k2]⟩
  simp [bind_def, Eff.bind, h1, k1]

/-- Something without effect before. -/
theorem Via.before {put : τ → σ} {Q : τ → Prop} {A : α → β → Prop} {v : τ} {s : σ} {x : Eff S τ α'} {a : α'}
    {f : α' → Eff S τ α} {y : Eff S σ β} (hx : Quiet m hidden v x a) (h : Via m hidden put Q A v s (f a) y) :
    Via m hidden put Q A v s (x >>= f) y := by
  intro g g' hg
  obtain ⟨T, h1, h2⟩ := hx g
  simp only [bind_def, Eff.bind, h1]
  exact h _ _ ⟨hg.sh, hg.ctx, hg.sched, by simp [h2, hg.trace]⟩

theorem Hides.before {P : σ → Prop} {A : α → β → Prop} {s : σ} {x : Eff S σ α'} {a : α'}
    {f : α' → Eff S σ α} {y : Eff S σ β} (hx : Quiet m hidden s x a) (h : Hides m hidden P A s (f a) y) :
    Hides m hidden P A s (x >>= f) y := by
  intro g g' hg
  obtain ⟨T, h1, h2⟩ := hx g
  simp only [bind_def, Eff.bind, h1]
  exact h _ _ ⟨hg.sh, hg.ctx, hg.sched, by simp [h2, hg.trace]⟩

/-! ## Dispatch in the two modes -/

/-- The dispatch to a superstate between its hooks, in blocking mode. -/
def announced (m : Machine S) (ev : S.Ev) : Eff S S.Sup (Response S.St) := do
  hookSupBeforeDispatch m ev
  let response ← Blocking.supHandle m ev
  hookSupAfterDispatch m ev
  pure response

/-- What follows the response of a handler. -/
def afterResponse {σ : Type} (sup : σ → Option (S.Sup × (S.Sup → σ))) (B : Eff S S.Sup (Response S.St))
    (none : Response S.St) : Response S.St → Eff S σ (Response S.St)
  | .handled => pure .handled
  | .super => do
    let r ← Eff.borrow sup B
    match r with
    | some response => pure response
    | Option.none => pure none
  | .transition state => pure (.transition state)

theorem supHandle_unfold (m : Machine S) (ev : S.Ev) : Blocking.supHandle m ev =
    callSupHandler m ev >>= afterResponse m.supSuperstate (announced m ev) .super := by
  rw [Blocking.supHandle]
  rfl

theorem handleLoop_unfold (m : Machine S) (ev : S.Ev) : Awaitable.handleLoop m ev =
    hookSupBeforeDispatch m ev >>= fun _ => callSupHandler m ev >>= fun r => hookSupAfterDispatch m ev >>= fun _ =>
      afterResponse m.supSuperstate (Awaitable.handleLoop m ev) .handled r := by
  conv => lhs; rw [Awaitable.handleLoop]
  rfl

theorem hides_afterResponse {P : σ → Prop} {s : σ} {sup sup'} {B B' : Eff S S.Sup (Response S.St)} {d d'}
    (hd : wanted d = none) (hd' : wanted d' = none) (hs : P s)
    (h : Hides m hidden P SameWish? s (Eff.borrow sup B) (Eff.borrow sup' B')) (r : Response S.St) :
    Hides m hidden P SameWish s (afterResponse sup B d r) (afterResponse sup' B' d' r) := by
  cases r with
  | handled => exact Hides.pure rfl hs
  | transition t => exact Hides.pure rfl hs
  | super =>
    refine h.bind ?_
    intro a b s1 hs1 hab
    refine (Hides.pure (A := SameWish) (a := a.getD d) (b := b.getD d') ?_ hs1).of_eq ?_ ?_
    · cases a <;> cases b <;> simp_all [SameWish, SameWish?]
    · cases a <;> rfl
    · cases b <;> rfl

/-- The response of something that is left out is passed on. -/
theorem via_afterResponse {put : S.Sup → σ} {Q : S.Sup → Prop} {v : S.Sup} {s : σ} {sup} {B : Eff S S.Sup (Response S.St)}
    {d : Response S.St} {y : Eff S σ (Option (Response S.St))} (hd : wanted d = none)
    (h : Via m hidden put Q SameWish? v s (Eff.borrow sup B) y) :
    Via m hidden put Q (fun r o => wanted r = o.bind wanted) v s (afterResponse sup B d .super) y := by
  refine Via.andThen h ?_
  intro a b v' _ hab
  cases a with
  | none => exact ⟨d, by rw [hd]; exact hab, Via.Quiet.pure v' d⟩
  | some r => exact ⟨r, hab, Via.Quiet.pure v' r⟩

include hF in
theorem announced_keeps (ev : S.Ev) (e : S.E) : Eff.Keeps (fun v => m.supDiscr v = e) (announced m ev) := by
  refine keeps_of_does (A := fun v L r => ∃ cl, (Climb (F.up (.sup (m.supDiscr v))) cl ∧ lastResponse cl = some r) ∧
    L = nestedLog ev cl) (fun v => ?_) e
  refine does_announced ev v (P := fun cl r => Climb (F.up (.sup (m.supDiscr v))) cl ∧ lastResponse cl = some r) ?_
    fun v' hv' => ?_
  · rintro cl r ⟨h, -⟩
    obtain ⟨n, r0, rest, p, h1, h2⟩ := h.head
    rw [up_sup] at h2
    cases h2
    exact ⟨r0, rest, h1⟩
  · rw [← hv']; exact does_supHandle hF ev v'

include hF in
theorem handleLoop_keeps (ev : S.Ev) (e : S.E) : Eff.Keeps (fun v => m.supDiscr v = e) (Awaitable.handleLoop m ev) :=
  keeps_of_does (does_handleLoop hF ev) e

include hF hS hW in
theorem announced_on (ev : S.Ev) {σ : Type} (q q' : Option (S.Sup × (S.Sup → σ))) (s : σ) (P : σ → Prop)
    (hq : m.Skips hidden q q') (hv : ViewOf m P s q) (hs : P s) :
    Hides m hidden P SameWish? s (Eff.borrow (fun _ => q) (announced m ev)) (Eff.borrow (fun _ => q') (announced n ev)) := by
  refine handle_on hF (announced_keeps hF ev) ?_ ?_ hW.supSuperstate _ q q' s P hq (Nat.le_refl _) hv hs
  · intro v hvis ih
    unfold announced
    rw [hW.hookSupBeforeDispatch, hW.hookSupAfterDispatch]
    refine Hides.bind (A := Eq) (Hides.hook (shows_sup hvis) rfl) ?_
    rintro _ _ v1 hv1 -
    refine Hides.bind (A := SameWish) (P := fun w => m.supDiscr w = m.supDiscr v) ?_ ?_
    · rw [supHandle_unfold m, supHandle_unfold n, hW.callSupHandler]
      refine Hides.bind (hides_callSupHandler hF ev hv1 hvis) ?_
      rintro r _ v2 hv2 rfl
      exact hides_afterResponse (P := fun w => m.supDiscr w = m.supDiscr v) rfl rfl hv2 (ih v2 hv2) r
    · intro r r' v2 hv2 hr
      refine Hides.bind (A := Eq) (Hides.hook (shows_sup (by rw [hv2]; exact hvis)) hv2) ?_
      rintro _ _ v3 hv3 -
      exact Hides.pure hr hv3
  · intro σ v put s y hhid h
    unfold announced
    refine Via.before (quiet_hookSupBeforeDispatch hS ev hhid) ?_
    refine Via.andThen (A := fun r o => wanted r = o.bind wanted) ?_ ?_
    · rw [supHandle_unfold]
      exact Via.before (quiet_callSupHandler hS ev hhid) (via_afterResponse rfl h)
    · intro r o v' hv' hr
      exact ⟨r, hr, (quiet_hookSupAfterDispatch hS ev (by rw [hv']; exact hhid)).bind (Via.Quiet.pure v' r)⟩

include hF hS hW in
theorem handleLoop_on (ev : S.Ev) {σ : Type} (q q' : Option (S.Sup × (S.Sup → σ))) (s : σ) (P : σ → Prop)
    (hq : m.Skips hidden q q') (hv : ViewOf m P s q) (hs : P s) :
    Hides m hidden P SameWish? s (Eff.borrow (fun _ => q) (Awaitable.handleLoop m ev))
      (Eff.borrow (fun _ => q') (Awaitable.handleLoop n ev)) := by
  refine handle_on hF (handleLoop_keeps hF ev) ?_ ?_ hW.supSuperstate _ q q' s P hq (Nat.le_refl _) hv hs
  · intro v hvis ih
    rw [handleLoop_unfold m, handleLoop_unfold n, hW.hookSupBeforeDispatch, hW.hookSupAfterDispatch, hW.callSupHandler]
    refine Hides.bind (A := Eq) (Hides.hook (shows_sup hvis) rfl) ?_
    rintro _ _ v1 hv1 -
    refine Hides.bind (hides_callSupHandler hF ev hv1 hvis) ?_
    rintro r _ v2 hv2 rfl
    refine Hides.bind (A := Eq) (Hides.hook (shows_sup (by rw [hv2]; exact hvis)) hv2) ?_
    rintro _ _ v3 hv3 -
    exact hides_afterResponse (P := fun w => m.supDiscr w = m.supDiscr v) rfl rfl hv3 (ih v3 hv3) r
  · intro σ v put s y hhid h
    rw [handleLoop_unfold]
    exact Via.before (quiet_hookSupBeforeDispatch hS ev hhid) (Via.before (quiet_callSupHandler hS ev hhid)
      (Via.before (quiet_hookSupAfterDispatch hS ev hhid) (via_afterResponse rfl h)))

include hF hS hW in
theorem mode_handle_on (mode : Mode) (ev : S.Ev) {d : S.D} {s : S.St} (hs : m.discr s = d) :
    Hides m hidden (fun w => m.discr w = d) SameWish s (mode.handle m ev) (mode.handle n ev) := by
  have key : ∀ B B' : Eff S S.Sup (Response S.St),
      (∀ s1, m.discr s1 = d → Hides m hidden (fun w => m.discr w = d) SameWish? s1 (Eff.borrow m.superstate B)
        (Eff.borrow n.superstate B')) →
      Hides m hidden (fun w => m.discr w = d) SameWish s
        (hookBeforeDispatch m ev >>= fun _ => callHandler m ev >>= fun r => hookAfterDispatch m ev >>= fun _ =>
          afterResponse m.superstate B .super r)
        (hookBeforeDispatch n ev >>= fun _ => callHandler n ev >>= fun r => hookAfterDispatch n ev >>= fun _ =>
          afterResponse n.superstate B' .super r) := by
    intro B B' h
    rw [hW.hookBeforeDispatch, hW.hookAfterDispatch, hW.callHandler]
    refine Hides.bind (A := Eq) (Hides.hook rfl hs) ?_
    rintro _ _ v1 hv1 -
    refine Hides.bind (hides_callHandler hF ev hv1) ?_
    rintro r _ v2 hv2 rfl
    refine Hides.bind (A := Eq) (Hides.hook rfl hv2) ?_
    rintro _ _ v3 hv3 -
    exact hides_afterResponse (P := fun w => m.discr w = d) rfl rfl hv3 (h v3 hv3) r
  have hview : ∀ s1, m.discr s1 = d → ViewOf m (fun w => m.discr w = d) s1 (m.superstate s1) := by
    intro s1 h1
    have := viewOf_leaf hF s1
    rw [h1] at this; exact this
  cases mode with
  | blocking =>
    exact key (announced m ev) (announced n ev) fun s1 h1 =>
      announced_on hF hS hW ev _ _ s1 _ (hW.superstate s1) (hview s1 h1) h1
  | awaitable =>
    exact key (Awaitable.handleLoop m ev) (Awaitable.handleLoop n ev) fun s1 h1 =>
      handleLoop_on hF hS hW ev _ _ s1 _ (hW.superstate s1) (hview s1 h1) h1

/-! ## Entering and leaving -/

/-- How many of the first superstates of a chain are still there. -/
def cnt (hidden : S.E → Bool) (l : List S.E) (k : Nat) : Nat := ((l.take k).filter fun e => !hidden e).length

theorem cnt_zero (l : List S.E) : cnt hidden l 0 = 0 := rfl

theorem cnt_nil (k : Nat) : cnt hidden ([] : List S.E) k = 0 := by simp [cnt]

theorem cnt_keep {e : S.E} (h : hidden e = false) (l : List S.E) (k : Nat) :
    cnt hidden (e :: l) (k + 1) = cnt hidden l k + 1 := by
  simp [cnt, h]

theorem cnt_skip {e : S.E} (h : hidden e = true) (l : List S.E) (k : Nat) :
    cnt hidden (e :: l) (k + 1) = cnt hidden l k := by
  simp [cnt, h]

theorem supEnter_succ (m : Machine S) : ∀ k, Blocking.supEnter m (k + 1) =
    Eff.borrow m.supSuperstate (Blocking.supEnter m k) >>= fun _ => callSupEntry m
  | 0 => by
    show callSupEntry m = Eff.borrow m.supSuperstate (Pure.pure ()) >>= fun _ => callSupEntry m
    have := congrArg (fun x => x >>= fun _ => callSupEntry m) (borrow_pure (S := S) m.supSuperstate_back)
    simp only [bind_assoc', pure_bind'] at this
    exact this.symm
  | k + 1 => rfl

theorem enter_succ' (m : Machine S) : ∀ k, Blocking.enter m (k + 1) =
    Eff.borrow m.superstate (Blocking.supEnter m k) >>= fun _ => callEntry m
  | 0 => by
    show callEntry m = Eff.borrow m.superstate (Pure.pure ()) >>= fun _ => callEntry m
    have := congrArg (fun x => x >>= fun _ => callEntry m) (borrow_pure (S := S) m.superstate_back)
    simp only [bind_assoc', pure_bind'] at this
    exact this.symm
  | k + 1 => rfl

theorem supExit_succ (m : Machine S) : ∀ k, Blocking.supExit m (k + 1) =
    callSupExit m >>= fun _ => Eff.borrow m.supSuperstate (Blocking.supExit m k) >>= fun _ => Pure.pure ()
  | 0 => by
    show callSupExit m = callSupExit m >>= fun _ =>
      Eff.borrow m.supSuperstate (Pure.pure ()) >>= fun _ => Pure.pure ()
    rw [borrow_pure m.supSuperstate_back, bind_pure']
  | k + 1 => rfl

theorem exit_succ' (m : Machine S) : ∀ k, Blocking.exit m (k + 1) =
    callExit m >>= fun _ => Eff.borrow m.superstate (Blocking.supExit m k) >>= fun _ => Pure.pure ()
  | 0 => by
    show callExit m = callExit m >>= fun _ => Eff.borrow m.superstate (Pure.pure ()) >>= fun _ => Pure.pure ()
    rw [borrow_pure m.superstate_back, bind_pure']
  | k + 1 => rfl

/-- A borrow that is not used. -/
theorem hides_unused {P : σ → Prop} {s : σ} {q q' : Option (S.Sup × (S.Sup → σ))} (hv : ViewOf m P s q)
    (hv' : ViewOf m P s q') (hs : P s) :
    Hides m hidden P (fun _ _ => True) s (Eff.borrow (fun _ => q) (Pure.pure () : Eff S S.Sup Unit))
      (Eff.borrow (fun _ => q') (Pure.pure () : Eff S S.Sup Unit)) := by
  have : ∀ {q : Option (S.Sup × (S.Sup → σ))} (g : Glob S), ViewOf m P s q →
      ∃ a, Eff.borrow (fun _ => q) (Pure.pure () : Eff S S.Sup Unit) s g = some (.ok a, s, g) := by
    intro q g hq
    cases q with
    | none => exact ⟨none, rfl⟩
    | some p =>
      obtain ⟨v, put⟩ := p
      refine ⟨some (), ?_⟩
      simp [Eff.borrow, pure_def, Out.map, (hq v put rfl).1]
  intro g g' hg
  obtain ⟨a, ha⟩ := this g hv
  obtain ⟨b, hb⟩ := this g' hv'
  rw [ha, hb]
  exact .some ⟨.ok trivial, rfl, hs, hg⟩

include hF in
theorem keeps_borrow_sup {x : Eff S S.Sup Unit} (h : ∀ e, Eff.Keeps (fun v => m.supDiscr v = e) x) (e : S.E) :
    Eff.Keeps (fun v => m.supDiscr v = e) (Eff.borrow m.supSuperstate x) := by
  cases he : F.supParent e with
  | none =>
    refine Eff.Keeps.borrow (P' := fun _ => False) (fun u v back hu hs => ?_) (fun s g o s' g' h => h.elim)
    rw [supNone hF he hu] at hs; cases hs
  | some e' => exact Eff.Keeps.borrow (sup_keeps hF he) (h e')

include hF in
theorem callSupExit_keeps (e : S.E) : Eff.Keeps (fun v => m.supDiscr v = e) (callSupExit m) :=
  Eff.Keeps.callback fun s sh c hs => by have := hF.supExit s sh c; rw [hs] at this; exact this

include hF in
theorem supEnter_keeps : ∀ k e, Eff.Keeps (fun v => m.supDiscr v = e) (Blocking.supEnter m k)
  | 0, _ => Eff.Keeps.pure ()
  | k + 1, e => by
    rw [supEnter_succ]
    exact Eff.Keeps.bind (keeps_borrow_sup hF (supEnter_keeps k) e) fun _ => callSupEntry_keeps hF e

include hF in
theorem supExit_keeps : ∀ k e, Eff.Keeps (fun v => m.supDiscr v = e) (Blocking.supExit m k)
  | 0, _ => Eff.Keeps.pure ()
  | k + 1, e => by
    rw [supExit_succ]
    exact Eff.Keeps.bind (callSupExit_keeps hF e) fun _ =>
      Eff.Keeps.bind (keeps_borrow_sup hF (supExit_keeps k) e) fun _ => Eff.Keeps.pure ()

include hF in
theorem viewOf_sup' {e : S.E} {v : S.Sup} (h : m.supDiscr v = e) :
    ViewOf m (fun w => m.supDiscr w = e) v (m.supSuperstate v) := by
  subst h; exact viewOf_sup hF v

include hF in
theorem viewOf_leaf' {d : S.D} {s : S.St} (h : m.discr s = d) :
    ViewOf m (fun w => m.discr w = d) s (m.superstate s) := by
  subst h; exact viewOf_leaf hF s

include hF hS hW in
theorem supEnter_on : ∀ (k : Nat) {σ : Type} (q q' : Option (S.Sup × (S.Sup → σ))) (s : σ) (P : σ → Prop),
    m.Skips hidden q q' → ViewOf m P s q → P s →
    Hides m hidden P (fun _ _ => True) s (Eff.borrow (fun _ => q) (Blocking.supEnter m k))
      (Eff.borrow (fun _ => q') (Blocking.supEnter n (cnt hidden (chainOf m F q) k)))
  | 0, _, q, q', s, P, hq, hv, hs => hides_unused hv (hq.viewOf hF hv) hs
  | k + 1, σ, q, q', s, P, hq, hv, hs => by
    cases hq with
    | none => exact fun g g' hg => .some ⟨.ok trivial, rfl, hs, hg⟩
    | @keep v put hvis =>
      obtain ⟨-, hput⟩ := hv v put rfl
      simp only [chainOf, cnt_keep hvis]
      refine (Hides.borrow_keep hput (A := Eq) ?_).mono fun _ _ _ => trivial
      rw [supEnter_succ m, supEnter_succ n, hW.callSupEntry]
      have := supEnter_on k _ _ v _ (hW.supSuperstate v) (viewOf_sup hF v) rfl
      rw [chainOf_sup hF] at this
      refine Hides.bind (A := fun _ _ => True) this ?_
      rintro _ _ v1 hv1 -
      exact hides_callSupEntry hF hv1 hvis
    | @skip v put q' hhid h =>
      obtain ⟨hp, hput⟩ := hv v put rfl
      have h1 := supEnter_on k _ _ s P h (hv.step hF) hs
      rw [chainOf_step hF] at h1
      simp only [chainOf, cnt_skip hhid]
      have h2 := via_borrow hF hp (supEnter_keeps hF k) h1
      rw [supEnter_succ m]
      refine ((Via.andThen (B := fun _ _ => True) h2 ?_).borrowed hput).mono fun _ _ _ => trivial
      intro a b v' hv' _
      exact ⟨(), trivial, quiet_callSupEntry hS (by rw [hv']; exact hhid)⟩

include hF hS hW in
theorem supExit_on : ∀ (k : Nat) {σ : Type} (q q' : Option (S.Sup × (S.Sup → σ))) (s : σ) (P : σ → Prop),
    m.Skips hidden q q' → ViewOf m P s q → P s →
    Hides m hidden P (fun _ _ => True) s (Eff.borrow (fun _ => q) (Blocking.supExit m k))
      (Eff.borrow (fun _ => q') (Blocking.supExit n (cnt hidden (chainOf m F q) k)))
  | 0, _, q, q', s, P, hq, hv, hs => hides_unused hv (hq.viewOf hF hv) hs
  | k + 1, σ, q, q', s, P, hq, hv, hs => by
    cases hq with
    | none => exact fun g g' hg => .some ⟨.ok trivial, rfl, hs, hg⟩
    | @keep v put hvis =>
      obtain ⟨-, hput⟩ := hv v put rfl
      simp only [chainOf, cnt_keep hvis]
      refine (Hides.borrow_keep hput (A := Eq) ?_).mono fun _ _ _ => trivial
      rw [supExit_succ m, supExit_succ n, hW.callSupExit]
      refine Hides.bind (A := Eq) (hides_callSupExit hF rfl hvis) ?_
      rintro _ _ v1 hv1 -
      have := supExit_on k _ _ v1 _ (hW.supSuperstate v1) (viewOf_sup' hF hv1) hv1
      rw [chainOf_sup hF, hv1] at this
      refine Hides.bind (A := fun _ _ => True) this ?_
      rintro _ _ v2 hv2 -
      exact Hides.pure rfl hv2
    | @skip v put q' hhid h =>
      obtain ⟨hp, hput⟩ := hv v put rfl
      have h1 := supExit_on k _ _ s P h (hv.step hF) hs
      rw [chainOf_step hF] at h1
      simp only [chainOf, cnt_skip hhid]
      have h2 := via_borrow hF hp (supExit_keeps hF k) h1
      rw [supExit_succ m]
      refine ((Via.before (quiet_callSupExit hS hhid) (Via.andThen (B := fun _ _ => True) h2 ?_)).borrowed hput).mono
        fun _ _ _ => trivial
      intro a b v' hv' _
      exact ⟨(), trivial, Via.Quiet.pure v' ()⟩

include hF hS hW in
theorem blocking_enter_on (k : Nat) {d : S.D} {s : S.St} (hs : m.discr s = d) :
    Hides m hidden (fun w => m.discr w = d) Eq s (Blocking.enter m (k + 1))
      (Blocking.enter n (cnt hidden (F.leafAnc d) k + 1)) := by
  rw [enter_succ' m, enter_succ' n, hW.callEntry]
  have := supEnter_on hF hS hW k _ _ s _ (hW.superstate s) (viewOf_leaf' hF hs) hs
  rw [chainOf_leaf hF, hs] at this
  refine Hides.bind (A := fun _ _ => True) this ?_
  rintro _ _ s1 hs1 -
  exact hides_callEntry hF hs1

include hF hS hW in
theorem blocking_exit_on (k : Nat) {d : S.D} {s : S.St} (hs : m.discr s = d) :
    Hides m hidden (fun w => m.discr w = d) Eq s (Blocking.exit m (k + 1))
      (Blocking.exit n (cnt hidden (F.leafAnc d) k + 1)) := by
  rw [exit_succ' m, exit_succ' n, hW.callExit]
  refine Hides.bind (A := Eq) (hides_callExit hF hs) ?_
  rintro _ _ s1 hs1 -
  have := supExit_on hF hS hW k _ _ s1 _ (hW.superstate s1) (viewOf_leaf' hF hs1) hs1
  rw [chainOf_leaf hF, hs1] at this
  refine Hides.bind (A := fun _ _ => True) this ?_
  rintro _ _ s2 hs2 -
  exact Hides.pure rfl hs2

/-! ## Entering in awaitable mode -/

theorem Via.Quiet.borrow {v : S.Sup} {put : S.Sup → σ} {s : σ} {x : Eff S S.Sup α} {a : α} (hp : put v = s)
    (h : Quiet m hidden v x a) : Quiet m hidden s (Eff.borrow (fun _ => some (v, put)) x) (some a) := by
  intro g
  obtain ⟨T, h1, h2⟩ := h g
  exact ⟨T, by simp [Eff.borrow, h1, Out.map, hp], h2⟩

include hF hS in
theorem climb_quiet : ∀ (k : Nat) {σ : Type} (q : Option (S.Sup × (S.Sup → σ))) (s : σ) (P : σ → Prop) (e : S.E),
    ViewOf m P s q → (chainOf m F q)[k]? = some e → hidden e = true →
    Quiet m hidden s (Eff.borrow (fun _ => q) (Awaitable.climbEntry m k)) (some ())
  | _, _, none, _, _, _, _, h, _ => by cases h
  | 0, _, some (v, put), s, P, e, hv, h, he => by
    simp only [chainOf, List.getElem?_cons_zero, Option.some.injEq] at h
    subst h
    exact (quiet_callSupEntry hS he).borrow (hv v put rfl).1
  | k + 1, _, some (v, put), s, P, e, hv, h, he => by
    refine Via.Quiet.borrow (hv v put rfl).1 ?_
    have := climb_quiet k (m.supSuperstate v) v _ e (viewOf_sup hF v)
      (by rw [chainOf_sup hF]; simpa [chainOf] using h) he
    exact Via.Quiet.bind (x := Eff.borrow m.supSuperstate (Awaitable.climbEntry m k)) this (Via.Quiet.pure v ())

include hF hW in
theorem climb_on : ∀ (k : Nat) {σ : Type} (q q' : Option (S.Sup × (S.Sup → σ))) (s : σ) (P : σ → Prop) (e : S.E),
    m.Skips hidden q q' → ViewOf m P s q → P s → (chainOf m F q)[k]? = some e → hidden e = false →
    Hides m hidden P (fun a b => a = some () ∧ b = some ()) s (Eff.borrow (fun _ => q) (Awaitable.climbEntry m k))
      (Eff.borrow (fun _ => q') (Awaitable.climbEntry n (cnt hidden (chainOf m F q) k)))
  | _, _, none, _, _, _, _, _, _, _, h, _ => by cases h
  | 0, _, some (v, put), q', s, P, e, hq, hv, hs, h, he => by
    simp only [chainOf, List.getElem?_cons_zero, Option.some.injEq] at h
    subst h
    cases hq with
    | skip hh => rw [he] at hh; cases hh
    | keep hvis =>
      refine (Hides.borrow_keep (hv v put rfl).2 (A := Eq) ?_).mono ?_
      · show Hides m hidden _ _ v (callSupEntry m) (callSupEntry n)
        rw [hW.callSupEntry]
        exact hides_callSupEntry hF rfl hvis
      · rintro _ _ ⟨_, _, rfl, rfl, -⟩
        exact ⟨rfl, rfl⟩
  | k + 1, _, some (v, put), q', s, P, e, hq, hv, hs, h, he => by
    have hk : (F.supAnc (m.supDiscr v))[k]? = some e := by simpa [chainOf] using h
    cases hq with
    | keep hvis =>
      simp only [chainOf, cnt_keep hvis]
      refine (Hides.borrow_keep (hv v put rfl).2 (A := Eq) ?_).mono ?_
      · have := climb_on k _ _ v _ e (hW.supSuperstate v) (viewOf_sup hF v) rfl (by rw [chainOf_sup hF]; exact hk) he
        rw [chainOf_sup hF] at this
        refine Hides.bind (x := Eff.borrow m.supSuperstate (Awaitable.climbEntry m k))
          (y := Eff.borrow n.supSuperstate (Awaitable.climbEntry n _)) this ?_
        rintro _ _ v1 hv1 ⟨rfl, rfl⟩
        exact Hides.pure rfl hv1
      · rintro _ _ ⟨_, _, rfl, rfl, -⟩
        exact ⟨rfl, rfl⟩
    | skip hhid hq =>
      obtain ⟨hp, hput⟩ := hv v put rfl
      simp only [chainOf, cnt_skip hhid]
      have h1 := climb_on k _ _ s P e hq (hv.step hF) hs (by rw [chainOf_step hF]; exact hk) he
      rw [chainOf_step hF] at h1
      have h2 := via_borrow hF hp (climbEntry_keeps hF k) h1
      refine ((Via.andThen (x := Eff.borrow m.supSuperstate (Awaitable.climbEntry m k))
        (B := fun _ b => b = some ()) h2 ?_).borrowed hput).mono ?_
      · rintro _ _ v' hv' ⟨rfl, rfl⟩
        exact ⟨(), rfl, Via.Quiet.pure v' ()⟩
      · rintro _ _ ⟨_, rfl, rfl⟩
        exact ⟨rfl, rfl⟩

include hF hS hW in
theorem awaitable_enter_on : ∀ (k : Nat) {d : S.D} {s : S.St}, m.discr s = d → k ≤ (F.leafAnc d).length →
    Hides m hidden (fun w => m.discr w = d) Eq s (Awaitable.enter m (k + 1))
      (Awaitable.enter n (cnt hidden (F.leafAnc d) k + 1))
  | 0, d, s, hs, _ => by
    show Hides m hidden _ _ s (callEntry m) (callEntry n)
    rw [hW.callEntry]
    exact hides_callEntry hF hs
  | k + 1, d, s, hs, hk => by
    have hlt : k < (F.leafAnc d).length := hk
    have hget := List.getElem?_eq_getElem hlt
    have hchain : (chainOf m F (m.superstate s))[k]? = some (F.leafAnc d)[k] := by
      rw [chainOf_leaf hF, hs]; exact hget
    have htake : (F.leafAnc d).take (k + 1) = (F.leafAnc d).take k ++ [(F.leafAnc d)[k]] := by
      rw [List.take_add_one, hget]; rfl
    cases hhid : hidden (F.leafAnc d)[k] with
    | true =>
      have hc : cnt hidden (F.leafAnc d) (k + 1) = cnt hidden (F.leafAnc d) k := by
        unfold cnt; rw [htake, List.filter_append]; simp [hhid]
      rw [hc]
      exact Hides.before (x := Eff.borrow m.superstate (Awaitable.climbEntry m k))
        (climb_quiet hF hS k _ s _ _ (viewOf_leaf hF s) hchain hhid) (awaitable_enter_on k hs (Nat.le_of_lt hlt))
    | false =>
      have hc : cnt hidden (F.leafAnc d) (k + 1) = cnt hidden (F.leafAnc d) k + 1 := by
        unfold cnt; rw [htake, List.filter_append]; simp [hhid]
      rw [hc]
      have := climb_on hF hW k _ _ s _ _ (hW.superstate s) (viewOf_leaf' hF hs) hs hchain hhid
      rw [chainOf_leaf hF, hs] at this
      refine Hides.bind (x := Eff.borrow m.superstate (Awaitable.climbEntry m k))
        (y := Eff.borrow n.superstate (Awaitable.climbEntry n _)) this ?_
      rintro _ _ s1 hs1 -
      exact awaitable_enter_on k hs1 (Nat.le_of_lt hlt)

include hF hS hW in
theorem mode_enter_on (mode : Mode) (k : Nat) {d : S.D} {s : S.St} (hs : m.discr s = d)
    (hk : k ≤ (F.leafAnc d).length) :
    Hides m hidden (fun w => m.discr w = d) Eq s (mode.enter m (k + 1))
      (mode.enter n (cnt hidden (F.leafAnc d) k + 1)) := by
  cases mode with
  | blocking => exact blocking_enter_on hF hS hW k hs
  | awaitable => exact awaitable_enter_on hF hS hW k hs hk

include hF hS hW in
theorem mode_exit_on (mode : Mode) (k : Nat) {d : S.D} {s : S.St} (hs : m.discr s = d) :
    Hides m hidden (fun w => m.discr w = d) Eq s (mode.exit m (k + 1))
      (mode.exit n (cnt hidden (F.leafAnc d) k + 1)) := by
  cases mode with
  | blocking => exact blocking_exit_on hF hS hW k hs
  | awaitable =>
    have := blocking_exit_on hF hS hW k hs
    rw [← exit_eq, ← exit_eq] at this
    exact this

/-! ## Transitions -/

theorem Hides.bind' {P P' : σ → Prop} {A : α → β → Prop} {B : α' → β' → Prop} {s : σ} {x : Eff S σ α} {y : Eff S σ β}
    {f : α → Eff S σ α'} {h : β → Eff S σ β'} (hx : Hides m hidden P A s x y) (hP : ∀ s, P s → P' s)
    (hf : ∀ a b s', P s' → A a b → Hides m hidden P' B s' (f a) (h b)) :
    Hides m hidden P' B s (x >>= f) (y >>= h) := by
  intro g g' hg
  simp only [bind_def, Eff.bind]
  have := hx g g' hg
  generalize x s g = a at this ⊢
  generalize y s g' = b at this ⊢
  cases this with
  | none => exact .none
  | @some p q hpq =>
    obtain ⟨o, v1, g1⟩ := p
    obtain ⟨o', v2, g2⟩ := q
    obtain ⟨h1, h2, h3, h4⟩ := hpq
    simp only at h1 h2 h3 h4
    subst h2
    cases h1 with
    | ok hab => exact hf _ _ v1 h3 hab g1 g2 h4
    | panic => exact .some ⟨.panic, rfl, hP _ h3, h4⟩
    | stopped => exact .some ⟨.stopped, rfl, hP _ h3, h4⟩

theorem Hides.self {P : σ → Prop} {s : σ} (hs : P s) :
    Hides m hidden P (fun a b => s = a ∧ s = b) s (Eff.self : Eff S σ σ) (Eff.self : Eff S σ σ) :=
  fun _ _ hg => .some ⟨.ok ⟨rfl, rfl⟩, rfl, hs, hg⟩

theorem Hides.swap {P : σ → Prop} {s t : σ} (ht : P t) :
    Hides m hidden P (fun a b => a = b) s (Eff.swap t : Eff S σ σ) (Eff.swap t : Eff S σ σ) :=
  fun _ _ hg => .some ⟨.ok rfl, rfl, ht, hg⟩

theorem Hides.lift {P : σ → Prop} {s : σ} (hs : P s) {x : α} {y : β} :
    Hides m hidden P (fun a b => a = x ∧ b = y) s (Eff.lift (some (.ok x)) : Eff S σ α)
      (Eff.lift (some (.ok y)) : Eff S σ β) :=
  fun _ _ hg => .some ⟨.ok ⟨rfl, rfl⟩, rfl, hs, hg⟩

/-- Leaving out superstates from the part of a chain that is not shared with another chain. -/
theorem cnt_common {d t : S.D} :
    cnt hidden (F.leafAnc d) ((F.leafAnc d).length - ((F.leafAnc d).filter (· ∈ F.leafAnc t)).length) =
      ((F.hide hidden).leafAnc d).length -
        (((F.hide hidden).leafAnc d).filter (· ∈ (F.hide hidden).leafAnc t)).length := by
  rw [F.hide_leafAnc, F.hide_leafAnc]
  have hsplit := F.filter_append_filter (F.asc_leafAnc d) (F.leafAnc_closed t)
  have hlen := congrArg List.length hsplit
  rw [List.length_append] at hlen
  have hk : (F.leafAnc d).length - ((F.leafAnc d).filter (· ∈ F.leafAnc t)).length
      = ((F.leafAnc d).filter (· ∉ F.leafAnc t)).length := by omega
  have ht : (F.leafAnc d).take ((F.leafAnc d).filter (· ∉ F.leafAnc t)).length =
      (F.leafAnc d).filter (· ∉ F.leafAnc t) := by
    conv => lhs; rw [← hsplit]
    simp
  unfold cnt
  rw [hk, ht]
  have h1 : ((F.leafAnc d).filter fun e => !hidden e).filter (fun e => decide (e ∈ (F.leafAnc t).filter fun e => !hidden e))
      = ((F.leafAnc d).filter (· ∈ F.leafAnc t)).filter fun e => !hidden e := by
    simp only [List.filter_filter]
    refine List.filter_congr fun e _ => ?_
    cases he : hidden e <;> simp [he]
  rw [h1]
  have h2 := congrArg (fun l => (l.filter fun e => !hidden e).length) hsplit
  simp only [List.filter_append, List.length_append] at h2
  omega

include hF hW in
theorem path_on (s t : S.St) :
    ∃ a b, a ≤ (F.leafAnc (m.discr s)).length ∧ b ≤ (F.leafAnc (m.discr t)).length ∧
      transitionPath m s t = some (.ok (a + 1, b + 1)) ∧
      transitionPath n s t = some (.ok (cnt hidden (F.leafAnc (m.discr s)) a + 1,
        cnt hidden (F.leafAnc (m.discr t)) b + 1)) := by
  by_cases h : m.discr s = m.discr t
  · exact ⟨0, 0, Nat.zero_le _, Nat.zero_le _, transitionPath_of_eq s t h,
      transitionPath_of_eq s t (by rw [hW.discr]; exact h)⟩
  · have h' : n.discr s ≠ n.discr t := by rw [hW.discr]; exact h
    have hsub : ∀ (G : Forest S.D S.E) (d t : S.D), ((G.leafAnc d).filter (· ∈ G.leafAnc t)).length
        ≤ (G.leafAnc d).length := fun G d t => List.length_filter_le _ _
    have hcomm : ∀ (G : Forest S.D S.E) (d t : S.D), ((G.leafAnc d).filter (· ∈ G.leafAnc t)).length =
        ((G.leafAnc t).filter (· ∈ G.leafAnc d)).length :=
      fun G d t => Forest.common_length_comm (G.leafAnc_nodup d) (G.leafAnc_nodup t)
    refine ⟨_, _, Nat.sub_le _ ((F.leafAnc (m.discr s)).filter (· ∈ F.leafAnc (m.discr t))).length, Nat.sub_le _
      ((F.leafAnc (m.discr t)).filter (· ∈ F.leafAnc (m.discr s))).length, ?_, ?_⟩
    · rw [transitionPath_of_ne hF s t h]
      have h1 := hsub F (m.discr s) (m.discr t)
      have h2 := hsub F (m.discr t) (m.discr s)
      have h3 := hcomm F (m.discr s) (m.discr t)
      congr 3 <;> omega
    · rw [transitionPath_of_ne (hW.follows hF) s t h', cnt_common, cnt_common, hW.discr]
      have h1 := hsub (F.hide hidden) (m.discr s) (m.discr t)
      have h2 := hsub (F.hide hidden) (m.discr t) (m.discr s)
      have h3 := hcomm (F.hide hidden) (m.discr s) (m.discr t)
      congr 3 <;> omega

include hF hS hW in
theorem mode_transition_on (mode : Mode) (t : S.St) (s : S.St) :
    Hides m hidden (fun _ => True) Eq s (mode.transition m t) (mode.transition n t) := by
  obtain ⟨a, b, -, hb, h1, h2⟩ := path_on hF hW s t
  have hleave : Hides m hidden (fun w => m.discr w = m.discr s)
      (fun i j => i = b + 1 ∧ j = cnt hidden (F.leafAnc (m.discr t)) b + 1) s (mode.leave m t) (mode.leave n t) := by
    unfold Mode.leave
    refine Hides.bind (Hides.self rfl) ?_
    rintro _ _ s1 hs1 ⟨rfl, rfl⟩
    have hbef : ∀ x y, mode.before n x y = mode.before m x y := by
      intro x y
      cases mode
      · exact hW.hookBeforeTransition _ _
      · exact hW.hookBeforeTransition _ _
    rw [hbef]
    refine Hides.bind (A := Eq) (P := fun w => m.discr w = m.discr s) ?_ ?_
    · have hh : ∀ x y, Hides m hidden (fun w => m.discr w = m.discr s) Eq s1 (hookBeforeTransition m x y)
          (hookBeforeTransition m x y) := fun x y => Hides.hook rfl hs1
      cases mode
      · exact hh _ _
      · exact hh _ _
    · rintro _ _ s2 hs2 -
      rw [h1, h2]
      refine Hides.bind (P := fun w => m.discr w = m.discr s) (Hides.lift (P := fun w => m.discr w = m.discr s) hs2) ?_
      rintro _ _ s3 hs3 ⟨rfl, rfl⟩
      refine Hides.bind (mode_exit_on hF hS hW mode a hs3) ?_
      rintro _ _ s4 hs4 -
      exact Hides.pure ⟨rfl, rfl⟩ hs4
  unfold Mode.transition
  refine hleave.bind' (fun _ _ => trivial) ?_
  rintro _ _ s1 hs1 ⟨rfl, rfl⟩
  refine Hides.bind' (P := fun w => m.discr w = m.discr t) (Hides.swap rfl) (fun _ _ => trivial) ?_
  rintro old _ s2 hs2 rfl
  unfold Mode.arrive
  refine (mode_enter_on hF hS hW mode b hs2 hb).bind' (fun _ _ => trivial) ?_
  rintro _ _ s3 hs3 -
  refine Hides.bind (Hides.self trivial) ?_
  rintro _ _ s4 - ⟨rfl, rfl⟩
  rw [hW.hookAfterTransition]
  exact Hides.hook rfl trivial

include hF hS hW in
theorem mode_handleEvent_on (mode : Mode) (ev : S.Ev) (s : S.St) :
    Hides m hidden (fun _ => True) Eq s (mode.handleEvent m ev) (mode.handleEvent n ev) := by
  unfold Mode.handleEvent
  refine (mode_handle_on hF hS hW mode ev rfl).bind' (fun _ _ => trivial) ?_
  rintro r r' s1 - hr
  have pu : Hides m hidden (fun _ => True) Eq s1 (Pure.pure () : Eff S S.St Unit) (Pure.pure ()) :=
    Hides.pure rfl trivial
  cases r <;> cases r' <;> simp only [SameWish, wanted, reduceCtorEq, Option.some.injEq] at hr
  · exact pu
  · exact pu
  · exact pu
  · exact pu
  · subst hr
    exact mode_transition_on hF hS hW mode _ s1

include hF hS hW in
theorem mode_init_on (mode : Mode) (s : S.St) :
    Hides m hidden (fun _ => True) Eq s (mode.init m) (mode.init n) := by
  unfold Mode.init
  refine Hides.bind' (P := fun w => m.discr w = m.discr s) (Hides.self rfl) (fun _ _ => trivial) ?_
  rintro _ _ s1 hs1 ⟨rfl, rfl⟩
  rw [depth_eq hF, depth_eq (hW.follows hF), hW.discr]
  simp only [Option.map_some]
  refine Hides.bind' (P := fun w => m.discr w = m.discr s) (Hides.lift (P := fun w => m.discr w = m.discr s) hs1) (fun _ _ => trivial) ?_
  rintro _ _ s2 hs2 ⟨rfl, rfl⟩
  have : ((F.hide hidden).leafAnc (m.discr s)).length =
      cnt hidden (F.leafAnc (m.discr s)) (F.leafAnc (m.discr s)).length := by
    rw [F.hide_leafAnc]; simp [cnt]
  rw [this]
  have := (mode_enter_on hF hS hW mode (F.leafAnc (m.discr s)).length hs2 (Nat.le_refl _)).bind' (P' := fun _ => True)
    (B := Eq) (f := fun _ => Pure.pure ()) (h := fun _ => Pure.pure ()) (fun _ _ => trivial)
    (fun _ _ _ _ _ => Hides.pure rfl trivial)
  rw [bind_pure', bind_pure'] at this
  exact this

end

/-! ## Such a machine exists -/

theorem skips_exists (hF : Follows m F) (hidden : S.E → Bool) : ∀ (N : Nat) {σ : Type}
    (q : Option (S.Sup × (S.Sup → σ))), (chainOf m F q).length ≤ N → ∃ q', m.Skips hidden q q'
  | _, _, none, _ => ⟨none, .none⟩
  | 0, _, some (v, put), h => by simp [chainOf] at h
  | N + 1, _, some (v, put), h => by
    cases hv : hidden (m.supDiscr v) with
    | false => exact ⟨_, .keep hv⟩
    | true =>
      obtain ⟨q', hq'⟩ := skips_exists hF hidden N
        ((m.supSuperstate v).map fun p => (p.1, fun w => put (p.2 w)))
        (by rw [chainOf_step hF]; simp only [chainOf, List.length_cons] at h; omega)
      exact ⟨q', .skip hv hq'⟩

end Statig
