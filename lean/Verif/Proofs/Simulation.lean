import Verif.Spec.Simulation
import Verif.Proofs.StateMachine
/-!
# Related machines give related calls

`Sim`: if the left program returns from related data, so does the right program, with related results.
The reverse implication is obtained from the flipped relation.
-/
namespace Statig
variable {S T : Sig} {R : Rel S T}

/-! ## Relation combinators -/

theorem ListRel.append {A B : Type} {Q : A → B → Prop} {l l' : List A} {k k' : List B}
    (h : ListRel Q l k) (h' : ListRel Q l' k') : ListRel Q (l ++ l') (k ++ k') := by
  induction h with
  | nil => exact h'
  | cons h _ ih => exact .cons h ih

theorem ListRel.flip {A B : Type} {Q : A → B → Prop} {l : List A} {k : List B}
    (h : ListRel Q l k) : ListRel (fun b a => Q a b) k l := by
  induction h with
  | nil => exact .nil
  | cons h _ ih => exact .cons h ih

theorem ListRel.mono {A B : Type} {Q Q' : A → B → Prop} (hq : ∀ a b, Q a b → Q' a b)
    {l : List A} {k : List B} (h : ListRel Q l k) : ListRel Q' l k := by
  induction h with
  | nil => exact .nil
  | cons h _ ih => exact .cons (hq _ _ h) ih

theorem ListRel.refl {A : Type} {Q : A → A → Prop} (hq : ∀ a, Q a a) (l : List A) : ListRel Q l l := by
  induction l with
  | nil => exact .nil
  | cons a l ih => exact .cons (hq a) ih

theorem OptRel.flip {A B : Type} {Q : A → B → Prop} {l : Option A} {k : Option B}
    (h : OptRel Q l k) : OptRel (fun b a => Q a b) k l := by
  cases h with
  | none => exact .none
  | some h => exact .some h

theorem ResponseRel.flip {A B : Type} {Q : A → B → Prop} {l k} (h : ResponseRel Q l k) :
    ResponseRel (fun b a => Q a b) k l := by
  cases h with
  | handled => exact .handled
  | super => exact .super
  | transition h => exact .transition h

theorem FutRel.flip {I J W W' A B : Type} {RI : I → J → Prop} {RW : W → W' → Prop} {RA : A → B → Prop}
    {RI' : J → I → Prop} {RW' : W' → W → Prop} {RA' : B → A → Prop}
    (hI : ∀ i j, RI' j i → RI i j) (hW : ∀ i j, RW i j → RW' j i) (hA : ∀ i j, RA i j → RA' j i)
    {f : Fut I W A} {g : Fut J W' B} (h : FutRel RI RW RA f g) : FutRel RI' RW' RA' g f := by
  induction h with
  | done h1 h2 => exact .done (hW _ _ h1) (hA _ _ h2)
  | panic h1 => exact .panic (hW _ _ h1)
  | pending h1 _ ih => exact .pending (hW _ _ h1) fun j i hj => ih i j (hI _ _ hj)

theorem Rel.Node.flip {a b} (h : R.flip.Node a b) : R.Node b a := by
  cases h with
  | state h => exact .state h
  | superstate h => exact .superstate h

theorem Rel.Obs.flip {a b} (h : R.flip.Obs a b) : R.Obs b a := by
  cases h with
  | handler h e => exact .handler h.flip e
  | returned h r => exact .returned h.flip r.flip
  | entry h => exact .entry h.flip
  | exit h => exact .exit h.flip
  | beforeDispatch h e => exact .beforeDispatch h.flip e
  | afterDispatch h e => exact .afterDispatch h.flip e
  | beforeTransition h e => exact .beforeTransition h e
  | afterTransition h e => exact .afterTransition h e

theorem viewRel_flip {A B A' B' : Type} {RA : A → A' → Prop} {RB : B → B' → Prop} {x y}
    (h : OptRel (ViewRel RA RB) x y) : OptRel (ViewRel (fun a b => RA b a) (fun a b => RB b a)) y x := by
  cases h with
  | none => exact .none
  | some h => exact .some ⟨h.1, fun w w' hw => h.2 w' w hw⟩

theorem Respects.flip {m : Machine S} {n : Machine T} (h : Respects R m n) : Respects R.flip n m where
  discr h1 h2 := (h.discr h1 h2).symm
  supDiscr h1 h2 := (h.supDiscr h1 h2).symm
  handler h1 h2 h3 h4 := (h.handler h1 h2 h3 h4).flip (fun _ _ => id) (fun _ _ h => h)
    (fun _ _ h => h.flip)
  entry h1 h2 h3 := (h.entry h1 h2 h3).flip (fun _ _ => id) (fun _ _ h => h) (fun _ _ h => h.symm)
  exit h1 h2 h3 := (h.exit h1 h2 h3).flip (fun _ _ => id) (fun _ _ h => h) (fun _ _ h => h.symm)
  superstate h1 := viewRel_flip (h.superstate h1)
  supHandler h1 h2 h3 h4 := (h.supHandler h1 h2 h3 h4).flip (fun _ _ => id) (fun _ _ h => h)
    (fun _ _ h => h.flip)
  supEntry h1 h2 h3 := (h.supEntry h1 h2 h3).flip (fun _ _ => id) (fun _ _ h => h) (fun _ _ h => h.symm)
  supExit h1 h2 h3 := (h.supExit h1 h2 h3).flip (fun _ _ => id) (fun _ _ h => h) (fun _ _ h => h.symm)
  supSuperstate h1 := viewRel_flip (h.supSuperstate h1)
  beforeDispatch h1 h2 h3 := (h.beforeDispatch h1 h2.flip h3).flip (fun _ _ => id) (fun _ _ h => h)
    (fun _ _ h => h.symm)
  afterDispatch h1 h2 h3 := (h.afterDispatch h1 h2.flip h3).flip (fun _ _ => id) (fun _ _ h => h)
    (fun _ _ h => h.symm)
  beforeTransition h1 h2 h3 := (h.beforeTransition h1 h2 h3).flip (fun _ _ => id) (fun _ _ h => h)
    (fun _ _ h => h.symm)
  afterTransition h1 h2 h3 := (h.afterTransition h1 h2 h3).flip (fun _ _ => id) (fun _ _ h => h)
    (fun _ _ h => h.symm)

theorem CallRel.flip {A B : Type} {Q : A → B → Prop} {c d} (h : CallRel R.flip (fun b a => Q a b) c d) :
    CallRel R Q d c where
  out := h.out.symm
  self := h.self
  ctx := h.ctx
  sched := h.sched.flip
  trace := h.trace.flip.mono fun _ _ h => h.flip

theorem Rel.Command.flip {a b} (h : R.Command a b) : R.flip.Command b a := by
  cases h with
  | init h1 h2 => exact .init h1 h2.flip
  | handle h1 h2 h3 => exact .handle h1 h2 h3.flip

/-! ## The program logic -/

/-- Related shared data. -/
structure GlobRel (R : Rel S T) (g : Glob S) (g' : Glob T) : Prop where
  sh : R.M g.sh g'.sh
  ctx : R.Ctx g.ctx g'.ctx
  sched : ListRel R.In g.sched g'.sched
  trace : ListRel R.Obs g.trace g'.trace

theorem FutRel.run {I J W W' A B : Type} {RI : I → J → Prop} {RW : W → W' → Prop} {RA : A → B → Prop}
    {f : Fut I W A} {g : Fut J W' B} (h : FutRel RI RW RA f g) {l : List I} {l' : List J}
    (hl : ListRel RI l l') : OutRel RA (f.run l).1 (g.run l').1 ∧ RW (f.run l).2.1 (g.run l').2.1 ∧
      ListRel RI (f.run l).2.2 (g.run l').2.2 := by
  induction h generalizing l l' with
  | done h1 h2 => exact ⟨.ok h2, h1, hl⟩
  | panic h1 => exact ⟨.panic, h1, hl⟩
  | pending h1 _ ih =>
    cases hl with
    | nil => exact ⟨.stopped, h1, .nil⟩
    | cons h hl => exact ih _ _ h hl

variable {σ σ' τ τ' α α' β β' : Type}

/-- See the module comment. -/
def Sim (R : Rel S T) (Q : σ → σ' → Prop) (A : α → α' → Prop) (x : Eff S σ α) (y : Eff T σ' α') : Prop :=
  ∀ s s' g g', Q s s' → GlobRel R g g' → ∀ o t h, x s g = some (o, t, h) →
    ∃ o' t' h', y s' g' = some (o', t', h') ∧ OutRel A o o' ∧ Q t t' ∧ GlobRel R h h'

namespace Sim
variable {Q : σ → σ' → Prop} {P : τ → τ' → Prop} {A : α → α' → Prop} {B : β → β' → Prop}

theorem pure {a a'} (h : A a a') : Sim R Q A (Pure.pure a : Eff S σ α) (Pure.pure a' : Eff T σ' α') := by
  intro s s' g g' hs hg o t k hx
  cases hx
  exact ⟨.ok a', s', g', rfl, .ok h, hs, hg⟩

theorem bind {x : Eff S σ α} {y : Eff T σ' α'} {f : α → Eff S σ β} {f' : α' → Eff T σ' β'}
    (hx : Sim R Q A x y) (hf : ∀ a a', A a a' → Sim R Q B (f a) (f' a')) :
    Sim R Q B (x >>= f) (y >>= f') := by
  intro s s' g g' hs hg o t k h
  have h : Eff.bind x f s g = some (o, t, k) := h
  unfold Eff.bind at h
  cases hxs : x s g with
  | none => simp [hxs] at h
  | some r =>
    obtain ⟨o1, t1, k1⟩ := r
    obtain ⟨o1', t1', k1', h1, h2, h3, h4⟩ := hx s s' g g' hs hg o1 t1 k1 hxs
    have e : (y >>= f') s' g' = Eff.bind y f' s' g' := rfl
    rw [hxs] at h
    rw [e]
    unfold Eff.bind
    rw [h1]
    cases h2 with
    | ok ha => exact hf _ _ ha _ _ _ _ h3 h4 o t k h
    | panic => cases h; exact ⟨_, _, _, rfl, .panic, h3, h4⟩
    | stopped => cases h; exact ⟨_, _, _, rfl, .stopped, h3, h4⟩

theorem self : Sim R Q Q (Eff.self : Eff S σ σ) (Eff.self : Eff T σ' σ') := by
  intro s s' g g' hs hg o t k h
  cases h
  exact ⟨_, _, _, rfl, .ok hs, hs, hg⟩

theorem swap {n n'} (hn : Q n n') : Sim R Q Q (Eff.swap n : Eff S σ σ) (Eff.swap n' : Eff T σ' σ') := by
  intro s s' g g' hs hg o t k h
  cases h
  exact ⟨_, _, _, rfl, .ok hs, hn, hg⟩

theorem lift {x : Option (Out α)} {y : Option (Out α)} (h : ∀ r, x = some r → y = some r) :
    Sim R Q Eq (Eff.lift x : Eff S σ α) (Eff.lift y : Eff T σ' α) := by
  intro s s' g g' hs hg o t k hx
  unfold Eff.lift at hx
  cases hr : x with
  | none => simp [hr] at hx
  | some r =>
    rw [hr] at hx; cases hx
    refine ⟨o, s', g', ?_, ?_, hs, hg⟩
    · unfold Eff.lift; rw [h _ hr]
    · cases o with
      | ok a => exact .ok rfl
      | panic => exact .panic
      | stopped => exact .stopped

theorem borrow {sup : σ → Option (τ × (τ → σ))} {sup' : σ' → Option (τ' × (τ' → σ'))}
    {body : Eff S τ α} {body' : Eff T τ' α'}
    (hs : ∀ s s', Q s s' → OptRel (ViewRel Q P) (sup s) (sup' s')) (hb : Sim R P A body body') :
    Sim R Q (OptRel A) (Eff.borrow sup body) (Eff.borrow sup' body') := by
  intro s s' g g' hss hg o t k h
  unfold Eff.borrow at h ⊢
  have hv := hs s s' hss
  revert h
  generalize sup s = q at hv ⊢
  generalize sup' s' = q' at hv ⊢
  intro h
  cases hv with
  | none => cases h; exact ⟨_, _, _, rfl, .ok .none, hss, hg⟩
  | @some p p' hp =>
    obtain ⟨v, back⟩ := p
    obtain ⟨v', back'⟩ := p'
    simp only at h ⊢
    cases hbv : body v g with
    | none => simp [hbv] at h
    | some r =>
      obtain ⟨o1, t1, k1⟩ := r
      obtain ⟨o1', t1', k1', h1, h2, h3, h4⟩ := hb v v' g g' hp.1 hg o1 t1 k1 hbv
      rw [hbv] at h; cases h
      rw [h1]
      refine ⟨_, _, _, rfl, ?_, hp.2 _ _ h3, h4⟩
      cases h2 with
      | ok h => exact .ok (.some h)
      | panic => exact .panic
      | stopped => exact .stopped

theorem callback {o : σ → Obs S} {o' : σ' → Obs T}
    {f : σ → S.M → S.Ctx → Fut S.In (σ × S.M × S.Ctx) α} {f' : σ' → T.M → T.Ctx → Fut T.In (σ' × T.M × T.Ctx) α'}
    (ho : ∀ s s', Q s s' → R.Obs (o s) (o' s'))
    (hf : ∀ s s' x x' c c', Q s s' → R.M x x' → R.Ctx c c' →
      FutRel R.In (WorldRel Q R.M R.Ctx) A (f s x c) (f' s' x' c')) :
    Sim R Q A (Eff.callback o f) (Eff.callback o' f') := by
  intro s s' g g' hs hg r t k h
  obtain ⟨h1, h2, h3⟩ := (hf s s' g.sh g'.sh g.ctx g'.ctx hs hg.sh hg.ctx).run hg.sched
  unfold Eff.callback at h ⊢
  cases h
  exact ⟨_, _, _, rfl, h1, h2.1, h2.2.1, h2.2.2, h3, hg.trace.append (.cons (ho _ _ hs) .nil)⟩

theorem hook {o : σ → Obs S} {o' : σ' → Obs T}
    {f : σ → S.M → Fut S.In S.M Unit} {f' : σ' → T.M → Fut T.In T.M Unit}
    (ho : ∀ s s', Q s s' → R.Obs (o s) (o' s'))
    (hf : ∀ s s' x x', Q s s' → R.M x x' → FutRel R.In R.M Eq (f s x) (f' s' x')) :
    Sim R Q Eq (Eff.hook o f) (Eff.hook o' f') := by
  intro s s' g g' hs hg r t k h
  obtain ⟨h1, h2, h3⟩ := (hf s s' g.sh g'.sh hs hg.sh).run hg.sched
  unfold Eff.hook at h ⊢
  cases h
  exact ⟨_, _, _, rfl, h1, hs, h2, hg.ctx, h3, hg.trace.append (.cons (ho _ _ hs) .nil)⟩

theorem log {o : σ → Obs S} {o' : σ' → Obs T} (ho : ∀ s s', Q s s' → R.Obs (o s) (o' s')) :
    Sim R Q Eq (Eff.log o) (Eff.log o') := by
  intro s s' g g' hs hg r t k h
  cases h
  exact ⟨_, _, _, rfl, .ok rfl, hs, hg.sh, hg.ctx, hg.sched, hg.trace.append (.cons (ho _ _ hs) .nil)⟩

open Lean.Order in
theorem admissible (y : Eff T σ' α') : Lean.Order.admissible (fun x : Eff S σ α => Sim R Q A x y) := by
  unfold Sim
  apply admissible_pi; intro s
  apply admissible_pi; intro s'
  apply admissible_pi; intro g
  apply admissible_pi; intro g'
  apply admissible_pi; intro _
  apply admissible_pi; intro _
  let P : Option (Out α × σ × Glob S) → Prop := fun r => ∀ (o : Out α) (t : σ) (h : Glob S),
      r = some (o, t, h) → ∃ o' t' h', y s' g' = some (o', t', h') ∧ OutRel A o o' ∧ Q t t' ∧ GlobRel R h h'
  have hP : Lean.Order.admissible P := by
    apply admissible_flatOrder (α := Option (Out α × σ × Glob S)) (b := none)
    intro o t h hn
    cases hn
  exact admissible_apply (β := fun _ : σ => Glob S → Option (Out α × σ × Glob S)) (fun _ f => P (f g)) s
    (admissible_apply (β := fun _ : Glob S => Option (Out α × σ × Glob S)) (fun _ r => P r) g hP)

end Sim

/-! ## Walking the hierarchy -/

section
variable {m : Machine S} {n : Machine T} (hR : Respects R m n)
include hR

theorem sameState_sim {a a' b b'} (h1 : R.St a a') (h2 : R.St b b') : sameState m a b = sameState n a' b' := by
  unfold sameState
  have := hR.discr h1 h2
  by_cases h : m.discr a = m.discr b
  · simp [h, this.1 h]
  · have h' : ¬ n.discr a' = n.discr b' := fun k => h (this.2 k)
    rw [beq_eq_false_iff_ne.2 h, beq_eq_false_iff_ne.2 h']

theorem supSameState_sim {a a' b b'} (h1 : R.Sup a a') (h2 : R.Sup b b') :
    supSameState m a b = supSameState n a' b' := by
  unfold supSameState
  have := hR.supDiscr h1 h2
  by_cases h : m.supDiscr a = m.supDiscr b
  · simp [h, this.1 h]
  · have h' : ¬ n.supDiscr a' = n.supDiscr b' := fun k => h (this.2 k)
    rw [beq_eq_false_iff_ne.2 h, beq_eq_false_iff_ne.2 h']

theorem supDepth_sim {v v'} (hv : R.Sup v v') {d} (h : supDepth m v = some d) : supDepth n v' = some d := by
  have key : ∀ v d, supDepth m v = some d → ∀ v', R.Sup v v' → supDepth n v' = some d := by
    apply supDepth.partial_correctness m (fun v d => ∀ v', R.Sup v v' → supDepth n v' = some d)
    intro f ih v d hr v' hv
    have hs := hR.supSuperstate hv
    rw [supDepth]
    revert hr
    generalize m.supSuperstate v = q at hs ⊢
    generalize n.supSuperstate v' = q' at hs ⊢
    intro hr
    cases hs with
    | none => exact hr
    | @some p p' hp =>
      obtain ⟨w, back⟩ := p
      obtain ⟨w', back'⟩ := p'
      simp only at hr ⊢
      cases hf : f w with
      | none => simp [hf] at hr
      | some e =>
        rw [ih w e hf w' hp.1]
        simpa [hf] using hr
  exact key v d h v' hv

theorem depth_sim {s s'} (hs : R.St s s') {d} (h : depth m s = some d) : depth n s' = some d := by
  have hv := hR.superstate hs
  unfold depth at h ⊢
  revert h
  generalize m.superstate s = q at hv ⊢
  generalize n.superstate s' = q' at hv ⊢
  intro h
  cases hv with
  | none => exact h
  | @some p p' hp =>
    obtain ⟨w, back⟩ := p
    obtain ⟨w', back'⟩ := p'
    simp only at h ⊢
    cases hf : supDepth m w with
    | none => simp [hf] at h
    | some e => rw [supDepth_sim hR hp.1 hf]; simpa [hf] using h

theorem supCommonAncestorDepth_sim {v v' w w'} (hv : R.Sup v v') (hw : R.Sup w w') {d}
    (h : supCommonAncestorDepth m v w = some d) : supCommonAncestorDepth n v' w' = some d := by
  have key : ∀ v w d, supCommonAncestorDepth m v w = some d →
      ∀ v' w', R.Sup v v' → R.Sup w w' → supCommonAncestorDepth n v' w' = some d := by
    apply supCommonAncestorDepth.partial_correctness m
      (fun v w d => ∀ v' w', R.Sup v v' → R.Sup w w' → supCommonAncestorDepth n v' w' = some d)
    intro f ih v w d hr v' w' hv hw
    rw [supCommonAncestorDepth]
    cases h1 : supDepth m v with
    | none => simp [h1] at hr
    | some dv =>
      cases h2 : supDepth m w with
      | none => simp [h1, h2] at hr
      | some dw =>
        have e1 := supDepth_sim hR hv h1
        have e2 := supDepth_sim hR hw h2
        simp only [h1, h2, e1, e2, Option.bind_eq_bind, Option.bind_some] at hr ⊢
        rw [← supSameState_sim hR hv hw]
        have hsv := hR.supSuperstate hv
        have hsw := hR.supSuperstate hw
        revert hr
        generalize m.supSuperstate v = q at hsv ⊢
        generalize n.supSuperstate v' = q' at hsv ⊢
        generalize m.supSuperstate w = r at hsw ⊢
        generalize n.supSuperstate w' = r' at hsw ⊢
        intro hr
        cases hcmp : compare dv dw with
        | eq =>
          rw [hcmp] at hr
          simp only at hr ⊢
          cases hsm : supSameState m v w with
          | true => rw [hsm] at hr; exact hr
          | false =>
            rw [hsm] at hr
            cases hsv with
            | none => simpa using hr
            | some hp =>
              cases hsw with
              | none => simpa using hr
              | some hp' => exact ih _ _ _ hr _ _ hp.1 hp'.1
        | gt =>
          rw [hcmp] at hr
          cases hsv with
          | none => simpa using hr
          | some hp => exact ih _ _ _ hr _ _ hp.1 hw
        | lt =>
          rw [hcmp] at hr
          cases hsw with
          | none => simpa using hr
          | some hp => exact ih _ _ _ hr _ _ hv hp.1
  exact key v w d h v' w' hv hw

theorem transitionPath_sim {s s' t t'} (hs : R.St s s') (ht : R.St t t') {d}
    (h : transitionPath m s t = some d) : transitionPath n s' t' = some d := by
  unfold transitionPath at h ⊢
  rw [← sameState_sim hR hs ht]
  split
  · next hsm => simpa [hsm] using h
  · next hsm =>
    simp only [hsm] at h
    cases h1 : depth m s with
    | none => simp [h1] at h
    | some ds =>
      cases h2 : depth m t with
      | none => simp [h1, h2] at h
      | some dt =>
        simp only [h1, h2, depth_sim hR hs h1, depth_sim hR ht h2, Option.bind_eq_bind,
          Option.bind_some] at h ⊢
        have hv := hR.superstate hs
        have hw := hR.superstate ht
        revert h
        generalize m.superstate s = q at hv ⊢
        generalize n.superstate s' = q' at hv ⊢
        generalize m.superstate t = r at hw ⊢
        generalize n.superstate t' = r' at hw ⊢
        intro h
        cases hv with
        | none => simpa using h
        | @some p p' hp =>
          cases hw with
          | none => simpa using h
          | @some q q' hq =>
            simp only at h ⊢
            cases h3 : supCommonAncestorDepth m p.1 q.1 with
            | none => simp [h3] at h
            | some c =>
              rw [supCommonAncestorDepth_sim hR hp.1 hq.1 h3]
              simpa [h3] using h

/-! ## Callbacks -/

theorem callHandler_sim {e e'} (he : R.Ev e e') :
    Sim R R.St (ResponseRel R.St) (callHandler m e) (callHandler n e') := by
  unfold callHandler
  refine Sim.bind (Sim.callback (fun _ _ h => .handler (.state h) he)
    (fun _ _ _ _ _ _ h1 h2 h3 => hR.handler h1 h2 he h3)) fun a a' ha => ?_
  exact Sim.bind (A := Eq) (Sim.log fun _ _ h => .returned (.state h) ha) fun _ _ _ => Sim.pure ha

theorem callSupHandler_sim {e e'} (he : R.Ev e e') :
    Sim R R.Sup (ResponseRel R.St) (callSupHandler m e) (callSupHandler n e') := by
  unfold callSupHandler
  refine Sim.bind (Sim.callback (fun _ _ h => .handler (.superstate h) he)
    (fun _ _ _ _ _ _ h1 h2 h3 => hR.supHandler h1 h2 he h3)) fun a a' ha => ?_
  exact Sim.bind (A := Eq) (Sim.log fun _ _ h => .returned (.superstate h) ha) fun _ _ _ => Sim.pure ha

theorem callEntry_sim : Sim R R.St Eq (callEntry m) (callEntry n) :=
  Sim.callback (fun _ _ h => .entry (.state h)) fun _ _ _ _ _ _ h1 h2 h3 => hR.entry h1 h2 h3

theorem callExit_sim : Sim R R.St Eq (callExit m) (callExit n) :=
  Sim.callback (fun _ _ h => .exit (.state h)) fun _ _ _ _ _ _ h1 h2 h3 => hR.exit h1 h2 h3

theorem callSupEntry_sim : Sim R R.Sup Eq (callSupEntry m) (callSupEntry n) :=
  Sim.callback (fun _ _ h => .entry (.superstate h)) fun _ _ _ _ _ _ h1 h2 h3 => hR.supEntry h1 h2 h3

theorem callSupExit_sim : Sim R R.Sup Eq (callSupExit m) (callSupExit n) :=
  Sim.callback (fun _ _ h => .exit (.superstate h)) fun _ _ _ _ _ _ h1 h2 h3 => hR.supExit h1 h2 h3

theorem hookBeforeDispatch_sim {e e'} (he : R.Ev e e') :
    Sim R R.St Eq (hookBeforeDispatch m e) (hookBeforeDispatch n e') :=
  Sim.hook (fun _ _ h => .beforeDispatch (.state h) he) fun _ _ _ _ h1 h2 => hR.beforeDispatch h2 (.state h1) he

theorem hookAfterDispatch_sim {e e'} (he : R.Ev e e') :
    Sim R R.St Eq (hookAfterDispatch m e) (hookAfterDispatch n e') :=
  Sim.hook (fun _ _ h => .afterDispatch (.state h) he) fun _ _ _ _ h1 h2 => hR.afterDispatch h2 (.state h1) he

theorem hookSupBeforeDispatch_sim {e e'} (he : R.Ev e e') :
    Sim R R.Sup Eq (hookSupBeforeDispatch m e) (hookSupBeforeDispatch n e') :=
  Sim.hook (fun _ _ h => .beforeDispatch (.superstate h) he)
    fun _ _ _ _ h1 h2 => hR.beforeDispatch h2 (.superstate h1) he

theorem hookSupAfterDispatch_sim {e e'} (he : R.Ev e e') :
    Sim R R.Sup Eq (hookSupAfterDispatch m e) (hookSupAfterDispatch n e') :=
  Sim.hook (fun _ _ h => .afterDispatch (.superstate h) he)
    fun _ _ _ _ h1 h2 => hR.afterDispatch h2 (.superstate h1) he

theorem hookBeforeTransition_sim {a a' b b'} (ha : R.St a a') (hb : R.St b b') :
    Sim R R.St Eq (hookBeforeTransition m a b) (hookBeforeTransition n a' b') :=
  Sim.hook (fun _ _ _ => .beforeTransition ha hb) fun _ _ _ _ _ h2 => hR.beforeTransition h2 ha hb

theorem hookAfterTransition_sim {a a' b b'} (ha : R.St a a') (hb : R.St b b') :
    Sim R R.St Eq (hookAfterTransition m a b) (hookAfterTransition n a' b') :=
  Sim.hook (fun _ _ _ => .afterTransition ha hb) fun _ _ _ _ _ h2 => hR.afterTransition h2 ha hb

/-! ## Dispatch -/

theorem blocking_supHandle_sim {e e'} (he : R.Ev e e') :
    Sim R R.Sup (ResponseRel R.St) (Blocking.supHandle m e) (Blocking.supHandle n e') := by
  refine Blocking.supHandle.fixpoint_induct m e
    (fun x => Sim R R.Sup (ResponseRel R.St) x (Blocking.supHandle n e')) (Sim.admissible _) ?_
  intro f ih
  rw [Blocking.supHandle]
  refine Sim.bind (callSupHandler_sim hR he) fun r r' hr => ?_
  cases hr with
  | handled => exact Sim.pure .handled
  | transition h => exact Sim.pure (.transition h)
  | super =>
    refine Sim.bind (A := OptRel (ResponseRel R.St)) (Sim.borrow (P := R.Sup) (fun _ _ h => hR.supSuperstate h)
      (Sim.bind (hookSupBeforeDispatch_sim hR he) fun _ _ _ =>
        Sim.bind ih fun _ _ hr => Sim.bind (hookSupAfterDispatch_sim hR he) fun _ _ _ => Sim.pure hr))
      fun _ _ hr => ?_
    cases hr with
    | none => exact Sim.pure .super
    | some h => exact Sim.pure h

theorem blocking_handle_sim {e e'} (he : R.Ev e e') :
    Sim R R.St (ResponseRel R.St) (Blocking.handle m e) (Blocking.handle n e') := by
  unfold Blocking.handle
  refine Sim.bind (hookBeforeDispatch_sim hR he) fun _ _ _ => ?_
  refine Sim.bind (callHandler_sim hR he) fun r r' hr => ?_
  refine Sim.bind (hookAfterDispatch_sim hR he) fun _ _ _ => ?_
  cases hr with
  | handled => exact Sim.pure .handled
  | transition h => exact Sim.pure (.transition h)
  | super =>
    refine Sim.bind (A := OptRel (ResponseRel R.St)) (Sim.borrow (P := R.Sup) (fun _ _ h => hR.superstate h)
      (Sim.bind (hookSupBeforeDispatch_sim hR he) fun _ _ _ =>
        Sim.bind (blocking_supHandle_sim hR he) fun _ _ hr =>
          Sim.bind (hookSupAfterDispatch_sim hR he) fun _ _ _ => Sim.pure hr))
      fun _ _ hr => ?_
    cases hr with
    | none => exact Sim.pure .super
    | some h => exact Sim.pure h

theorem awaitable_handleLoop_sim {e e'} (he : R.Ev e e') :
    Sim R R.Sup (ResponseRel R.St) (Awaitable.handleLoop m e) (Awaitable.handleLoop n e') := by
  refine Awaitable.handleLoop.fixpoint_induct m e
    (fun x => Sim R R.Sup (ResponseRel R.St) x (Awaitable.handleLoop n e')) (Sim.admissible _) ?_
  intro f ih
  rw [Awaitable.handleLoop]
  refine Sim.bind (hookSupBeforeDispatch_sim hR he) fun _ _ _ => ?_
  refine Sim.bind (callSupHandler_sim hR he) fun r r' hr => ?_
  refine Sim.bind (hookSupAfterDispatch_sim hR he) fun _ _ _ => ?_
  cases hr with
  | handled => exact Sim.pure .handled
  | transition h => exact Sim.pure (.transition h)
  | super =>
    refine Sim.bind (A := OptRel (ResponseRel R.St))
      (Sim.borrow (P := R.Sup) (fun _ _ h => hR.supSuperstate h) ih) fun _ _ hr => ?_
    cases hr with
    | none => exact Sim.pure .handled
    | some h => exact Sim.pure h

theorem awaitable_handle_sim {e e'} (he : R.Ev e e') :
    Sim R R.St (ResponseRel R.St) (Awaitable.handle m e) (Awaitable.handle n e') := by
  unfold Awaitable.handle
  refine Sim.bind (hookBeforeDispatch_sim hR he) fun _ _ _ => ?_
  refine Sim.bind (callHandler_sim hR he) fun r r' hr => ?_
  refine Sim.bind (hookAfterDispatch_sim hR he) fun _ _ _ => ?_
  cases hr with
  | handled => exact Sim.pure .handled
  | transition h => exact Sim.pure (.transition h)
  | super =>
    refine Sim.bind (A := OptRel (ResponseRel R.St)) (Sim.borrow (P := R.Sup) (fun _ _ h => hR.superstate h)
      (awaitable_handleLoop_sim hR he)) fun _ _ hr => ?_
    cases hr with
    | none => exact Sim.pure .super
    | some h => exact Sim.pure h

/-! ## Entering and leaving -/

theorem blocking_supEnter_sim : ∀ k, Sim R R.Sup Eq (Blocking.supEnter m k) (Blocking.supEnter n k)
  | 0 => Sim.pure rfl
  | 1 => callSupEntry_sim hR
  | k + 2 => by
    unfold Blocking.supEnter
    exact Sim.bind (A := OptRel Eq) (Sim.borrow (P := R.Sup) (fun _ _ h => hR.supSuperstate h)
      (blocking_supEnter_sim (k + 1))) fun _ _ _ => callSupEntry_sim hR

theorem blocking_enter_sim (k : Nat) : Sim R R.St Eq (Blocking.enter m k) (Blocking.enter n k) := by
  match k with
  | 0 => exact Sim.pure rfl
  | 1 => exact callEntry_sim hR
  | k + 2 =>
    unfold Blocking.enter
    exact Sim.bind (A := OptRel Eq) (Sim.borrow (P := R.Sup) (fun _ _ h => hR.superstate h)
      (blocking_supEnter_sim hR (k + 1))) fun _ _ _ => callEntry_sim hR

theorem blocking_supExit_sim : ∀ k, Sim R R.Sup Eq (Blocking.supExit m k) (Blocking.supExit n k)
  | 0 => Sim.pure rfl
  | 1 => callSupExit_sim hR
  | k + 2 => by
    unfold Blocking.supExit
    exact Sim.bind (callSupExit_sim hR) fun _ _ _ =>
      Sim.bind (A := OptRel Eq) (Sim.borrow (P := R.Sup) (fun _ _ h => hR.supSuperstate h)
        (blocking_supExit_sim (k + 1))) fun _ _ _ => Sim.pure rfl

theorem blocking_exit_sim (k : Nat) : Sim R R.St Eq (Blocking.exit m k) (Blocking.exit n k) := by
  match k with
  | 0 => exact Sim.pure rfl
  | 1 => exact callExit_sim hR
  | k + 2 =>
    unfold Blocking.exit
    exact Sim.bind (callExit_sim hR) fun _ _ _ =>
      Sim.bind (A := OptRel Eq) (Sim.borrow (P := R.Sup) (fun _ _ h => hR.superstate h)
        (blocking_supExit_sim hR (k + 1))) fun _ _ _ => Sim.pure rfl

theorem awaitable_climbEntry_sim : ∀ k, Sim R R.Sup Eq (Awaitable.climbEntry m k) (Awaitable.climbEntry n k)
  | 0 => callSupEntry_sim hR
  | k + 1 => by
    unfold Awaitable.climbEntry
    refine Sim.bind (A := OptRel Eq) (Sim.borrow (P := R.Sup) (fun _ _ h => hR.supSuperstate h)
      (awaitable_climbEntry_sim k)) fun _ _ h => ?_
    cases h with
    | none => exact callSupEntry_sim hR
    | some _ => exact Sim.pure rfl

theorem awaitable_enter_sim : ∀ k, Sim R R.St Eq (Awaitable.enter m k) (Awaitable.enter n k)
  | 0 => Sim.pure rfl
  | 1 => callEntry_sim hR
  | k + 2 => by
    unfold Awaitable.enter
    exact Sim.bind (A := OptRel Eq) (Sim.borrow (P := R.Sup) (fun _ _ h => hR.superstate h)
      (awaitable_climbEntry_sim hR k)) fun _ _ _ => awaitable_enter_sim (k + 1)

theorem awaitable_exitLoop_sim : ∀ k, Sim R R.Sup Eq (Awaitable.exitLoop m k) (Awaitable.exitLoop n k)
  | 0 => Sim.pure rfl
  | 1 => Sim.pure rfl
  | k + 2 => by
    unfold Awaitable.exitLoop
    exact Sim.bind (callSupExit_sim hR) fun _ _ _ =>
      Sim.bind (A := OptRel Eq) (Sim.borrow (P := R.Sup) (fun _ _ h => hR.supSuperstate h)
        (awaitable_exitLoop_sim (k + 1))) fun _ _ _ => Sim.pure rfl

theorem awaitable_exit_sim (k : Nat) : Sim R R.St Eq (Awaitable.exit m k) (Awaitable.exit n k) := by
  unfold Awaitable.exit
  have hl : Sim R R.St Eq (do let _ ← Eff.borrow m.superstate (Awaitable.exitLoop m k); pure ())
      (do let _ ← Eff.borrow n.superstate (Awaitable.exitLoop n k); pure ()) :=
    Sim.bind (A := OptRel Eq) (Sim.borrow (P := R.Sup) (fun _ _ h => hR.superstate h)
      (awaitable_exitLoop_sim hR k)) fun _ _ _ => Sim.pure rfl
  by_cases hk : k ≥ 1
  · simp only [hk, ↓reduceIte]
    exact Sim.bind (callExit_sim hR) fun _ _ _ => hl
  · simp only [hk, ↓reduceIte]
    exact hl

/-! ## `Inner` -/

theorem blocking_init_sim : Sim R R.St Eq (Blocking.init m) (Blocking.init n) := by
  unfold Blocking.init
  refine Sim.bind Sim.self fun s s' hs => Sim.bind (Sim.lift ?_) fun _ _ hk => hk ▸ blocking_enter_sim hR _
  intro r hr
  cases hd : depth m s with
  | none => simp [hd] at hr
  | some d => rw [depth_sim hR hs hd]; simpa [hd] using hr

theorem awaitable_init_sim : Sim R R.St Eq (Awaitable.init m) (Awaitable.init n) := by
  unfold Awaitable.init
  refine Sim.bind Sim.self fun s s' hs => Sim.bind (Sim.lift ?_) fun _ _ hk => hk ▸ awaitable_enter_sim hR _
  intro r hr
  cases hd : depth m s with
  | none => simp [hd] at hr
  | some d => rw [depth_sim hR hs hd]; simpa [hd] using hr

theorem blocking_transition_sim {t t'} (ht : R.St t t') :
    Sim R R.St Eq (Blocking.transition m t) (Blocking.transition n t') := by
  unfold Blocking.transition
  refine Sim.bind Sim.self fun s s' hs => ?_
  refine Sim.bind (hookBeforeTransition_sim hR ht hs) fun _ _ _ => ?_
  refine Sim.bind (Sim.lift fun r hr => transitionPath_sim hR hs ht hr) fun p p' hp => ?_
  subst hp
  refine Sim.bind (blocking_exit_sim hR _) fun _ _ _ => ?_
  refine Sim.bind (Sim.swap ht) fun old old' ho => ?_
  refine Sim.bind (blocking_enter_sim hR _) fun _ _ _ => ?_
  exact Sim.bind Sim.self fun new new' hn => hookAfterTransition_sim hR ho hn

theorem awaitable_transition_sim {t t'} (ht : R.St t t') :
    Sim R R.St Eq (Awaitable.transition m t) (Awaitable.transition n t') := by
  unfold Awaitable.transition
  refine Sim.bind Sim.self fun s s' hs => ?_
  refine Sim.bind (hookBeforeTransition_sim hR hs ht) fun _ _ _ => ?_
  refine Sim.bind (Sim.lift fun r hr => transitionPath_sim hR hs ht hr) fun p p' hp => ?_
  subst hp
  refine Sim.bind (awaitable_exit_sim hR _) fun _ _ _ => ?_
  refine Sim.bind (Sim.swap ht) fun old old' ho => ?_
  refine Sim.bind (awaitable_enter_sim hR _) fun _ _ _ => ?_
  exact Sim.bind Sim.self fun new new' hn => hookAfterTransition_sim hR ho hn

theorem blocking_handleEvent_sim {e e'} (he : R.Ev e e') :
    Sim R R.St Eq (Blocking.handleEvent m e) (Blocking.handleEvent n e') := by
  unfold Blocking.handleEvent
  refine Sim.bind (blocking_handle_sim hR he) fun _ _ hr => ?_
  cases hr with
  | handled => exact Sim.pure rfl
  | super => exact Sim.pure rfl
  | transition h => exact blocking_transition_sim hR h

theorem awaitable_handleEvent_sim {e e'} (he : R.Ev e e') :
    Sim R R.St Eq (Awaitable.handleEvent m e) (Awaitable.handleEvent n e') := by
  unfold Awaitable.handleEvent
  refine Sim.bind (awaitable_handle_sim hR he) fun _ _ hr => ?_
  cases hr with
  | handled => exact Sim.pure rfl
  | super => exact Sim.pure rfl
  | transition h => exact awaitable_transition_sim hR h

/-! ## API -/

omit hR in
theorem run_sim {x : Eff S S.St Unit} {y : Eff T T.St Unit} (hx : Sim R R.St Eq x y)
    {i j} (hi : R.Inner i j) {ctx ctx' sched sched'} (hc : R.Ctx ctx ctx') (hs : ListRel R.In sched sched')
    {c} (h : i.run x ctx sched = some c) :
    ∃ d, j.run y ctx' sched' = some d ∧ CallRel R R.Inner c d := by
  unfold Inner.run at h
  cases hxi : x i.state ⟨i.shared, ctx, sched, []⟩ with
  | none => simp [hxi] at h
  | some r =>
    obtain ⟨o, t, k⟩ := r
    obtain ⟨o', t', k', h1, h2, h3, h4⟩ := hx i.state j.state ⟨i.shared, ctx, sched, []⟩
      ⟨j.shared, ctx', sched', []⟩ hi.2 ⟨hi.1, hc, hs, .nil⟩ o t k hxi
    rw [hxi] at h; cases h
    unfold Inner.run
    rw [h1]
    refine ⟨_, rfl, ?_, ⟨h4.sh, h3⟩, h4.ctx, h4.sched, h4.trace⟩
    cases h2 with
    | ok h => rfl
    | panic => rfl
    | stopped => rfl

theorem inner_init_sim (mode : Mode) {i j} (hi : R.Inner i j) {ctx ctx' sched sched'} (hc : R.Ctx ctx ctx')
    (hs : ListRel R.In sched sched') {c} (h : i.init mode m ctx sched = some c) :
    ∃ d, j.init mode n ctx' sched' = some d ∧ CallRel R R.Inner c d := by
  cases mode
  · exact run_sim (blocking_init_sim hR) hi hc hs h
  · exact run_sim (awaitable_init_sim hR) hi hc hs h

theorem inner_handle_sim (mode : Mode) {i j} (hi : R.Inner i j) {e e' ctx ctx' sched sched'} (he : R.Ev e e')
    (hc : R.Ctx ctx ctx') (hs : ListRel R.In sched sched') {c} (h : i.handle mode m e ctx sched = some c) :
    ∃ d, j.handle mode n e' ctx' sched' = some d ∧ CallRel R R.Inner c d := by
  cases mode
  · exact run_sim (blocking_handleEvent_sim hR he) hi hc hs h
  · exact run_sim (awaitable_handleEvent_sim hR he) hi hc hs h

theorem exec_sim (mode : Mode) {a b} (hab : R.Machine a b) {cmd cmd'} (hcmd : R.Command cmd cmd') {c}
    (h : cmd.exec mode m a = some c) : ∃ d, cmd'.exec mode n b = some d ∧ CallRel R R.Machine c d := by
  obtain ⟨i, ini⟩ := a
  obtain ⟨j, ini'⟩ := b
  obtain ⟨hi, rfl⟩ := hab
  cases ini with
  | true =>
    cases hcmd with
    | init hc hs =>
      have h : StateMachine.initWithContext mode m ⟨i, true⟩ _ _ = some c := h
      rw [sm_init_initialized rfl] at h
      cases h
      exact ⟨_, sm_init_initialized (sm := ⟨j, true⟩) rfl _ _, rfl, ⟨hi, rfl⟩, hc, hs, .nil⟩
    | @handle e e' cx cx' l l' he hc hs =>
      obtain ⟨d, h1, rfl⟩ := (sm_handle_initialized (sm := ⟨i, true⟩) rfl _ _ _).1 h
      unfold InitializedStateMachine.handleWithContext at h1
      cases hd : i.handle mode m e cx l with
      | none => simp [hd] at h1
      | some d0 =>
        obtain ⟨d', k1, k2⟩ := inner_handle_sim hR mode hi he hc hs hd
        simp [hd] at h1
        subst h1
        refine ⟨_, (sm_handle_initialized (sm := ⟨j, true⟩) rfl _ _ _).2
          ⟨{ d' with self := ⟨d'.self⟩ }, ?_, rfl⟩, k2.out, ⟨k2.self, rfl⟩, k2.ctx, k2.sched, k2.trace⟩
        unfold InitializedStateMachine.handleWithContext
        rw [k1]; rfl
  | false =>
    cases hcmd with
    | @init cx cx' l l' hc hs =>
      obtain ⟨c0, h1, rfl⟩ := (sm_init_uninitialized (sm := ⟨i, false⟩) rfl _ _).1 h
      obtain ⟨d', k1, k2⟩ := inner_init_sim hR mode hi hc hs h1
      exact ⟨_, (sm_init_uninitialized (sm := ⟨j, false⟩) rfl _ _).2 ⟨d', k1, rfl⟩, k2.out,
        ⟨k2.self, by rw [k2.out]⟩, k2.ctx, k2.sched, k2.trace⟩
    | @handle e e' cx cx' l l' he hc hs =>
      obtain ⟨c0, h1, h2⟩ := (sm_handle_uninitialized (sm := ⟨i, false⟩) rfl _ _ _).1 h
      obtain ⟨d', k1, k2⟩ := inner_init_sim hR mode hi hc hs h1
      rcases h2 with ⟨h2, rfl⟩ | ⟨h2, d, h3, rfl⟩
      · exact ⟨_, (sm_handle_uninitialized (sm := ⟨j, false⟩) rfl _ _ _).2
          ⟨d', k1, .inl ⟨k2.out ▸ h2, rfl⟩⟩, k2.out, ⟨k2.self, rfl⟩, k2.ctx, k2.sched, k2.trace⟩
      · unfold InitializedStateMachine.handleWithContext at h3
        cases hd : c0.self.handle mode m e c0.ctx c0.sched with
        | none => simp [hd] at h3
        | some d0 =>
          obtain ⟨e', j1, j2⟩ := inner_handle_sim hR mode k2.self he k2.ctx k2.sched hd
          simp [hd] at h3
          subst h3
          refine ⟨_, (sm_handle_uninitialized (sm := ⟨j, false⟩) rfl _ _ _).2
            ⟨d', k1, .inr ⟨k2.out ▸ h2, { e' with self := ⟨e'.self⟩ }, ?_, rfl⟩⟩,
            j2.out, ⟨j2.self, rfl⟩, j2.ctx, j2.sched, k2.trace.append j2.trace⟩
          unfold InitializedStateMachine.handleWithContext
          rw [j1]; rfl

end

/-- Related calls on related machines: both return related results, or neither returns. -/
theorem exec_bisim {m : Machine S} {n : Machine T} (hR : Respects R m n) (mode : Mode) {a b}
    (hab : R.Machine a b) {cmd cmd'} (hcmd : R.Command cmd cmd') :
    OptRel (CallRel R R.Machine) (cmd.exec mode m a) (cmd'.exec mode n b) := by
  cases h : cmd.exec mode m a with
  | some c =>
    obtain ⟨d, h1, h2⟩ := exec_sim hR mode hab hcmd h
    rw [h1]; exact .some h2
  | none =>
    cases h' : cmd'.exec mode n b with
    | none => exact .none
    | some d =>
      obtain ⟨c, h1, -⟩ := exec_sim hR.flip mode ⟨hab.1, hab.2.symm⟩ hcmd.flip h'
      rw [h] at h1; cases h1

end Statig
