import Verif.Spec.Endless
import Verif.Proofs.Drops
import Verif.Proofs.Does
/-! # Calls that never return -/
namespace Statig
variable {S : Sig} {m : Machine S} {σ τ α β : Type}

/-- Started where `P` holds, `x` returns only something of which `Q` holds. -/
def Gives (P : σ → Prop) (x : Eff S σ α) (Q : α → σ → Prop) : Prop :=
  ∀ s g a s' g', P s → x s g = some (.ok a, s', g') → Q a s'

namespace Gives
variable {P : σ → Prop}

theorem bind {x : Eff S σ α} {f : α → Eff S σ β} {Q : α → σ → Prop} {R : β → σ → Prop} (hx : Gives P x Q)
    (hf : ∀ a, Gives (Q a) (f a) R) : Gives P (x >>= f) R := by
  intro s g b s' g' hs h
  obtain ⟨a, s1, g1, h1, h2⟩ := Eff.inv_bind_ok h
  exact hf a _ _ _ _ _ (hx _ _ _ _ _ hs h1) h2

theorem hook (o : σ → Obs S) (f : σ → S.M → Fut S.In S.M Unit) : Gives P (Eff.hook o f) fun _ s => P s := by
  intro s g a s' g' hs h
  obtain rfl := Keeps.hook o f _ _ _ _ _ h
  exact hs

theorem log (o : σ → Obs S) : Gives P (Eff.log o) fun _ s => P s := by
  intro s g a s' g' hs h
  obtain rfl := Keeps.log o _ _ _ _ _ h
  exact hs

theorem callback {ob : σ → Obs S} {f : σ → S.M → S.Ctx → Fut S.In (σ × S.M × S.Ctx) α} {Q : α → σ → Prop}
    (hf : ∀ s sh c, P s → (f s sh c).Returns fun a w => Q a w.1) : Gives P (Eff.callback ob f) Q := by
  intro s g a s' g' hs h
  unfold Eff.callback at h
  rcases e : (f s g.sh g.ctx).run g.sched with ⟨r, ⟨s1, m1, c1⟩, l⟩
  rw [e] at h
  cases h
  exact hf s g.sh g.ctx hs _ _ _ _ e

theorem pure_false {a : α} {Q : α → σ → Prop} : Gives (fun _ => False) (Pure.pure a : Eff S σ α) Q := fun _ _ _ _ _ h => h.elim

theorem of_false {x : Eff S σ α} {Q : α → σ → Prop} : Gives (fun _ => False) x Q := fun _ _ _ _ _ h => h.elim

/-- Nothing is returned from a superstate that never returns. -/
theorem borrow {sup : σ → Option (τ × (τ → σ))} {P' : τ → Prop} {x : Eff S τ α}
    (hs : ∀ s, P s → ∃ v back, sup s = some (v, back) ∧ P' v) (hx : Gives P' x fun _ _ => False) :
    Gives P (Eff.borrow sup x) fun _ _ => False := by
  intro s g a s' g' hp h
  obtain ⟨v, back, e, hv⟩ := hs s hp
  unfold Eff.borrow at h
  simp only [e] at h
  cases hr : x v g with
  | none => simp [hr] at h
  | some r =>
    obtain ⟨o, v', g1⟩ := r
    simp only [hr] at h
    cases o with
    | ok b => exact hx _ _ _ _ _ hv hr
    | panic => cases h
    | stopped => cases h

theorem admissible (Q : α → σ → Prop) : Lean.Order.admissible (fun x : Eff S σ α => Gives P x Q) := by
  have := Eff.admissible (S := S) (σ := σ) (α := α) fun s _ r => P s → ∀ a, r.1 = .ok a → Q a r.2.1
  have e : (fun x : Eff S σ α => Gives P x Q) = fun x => ∀ s g r, x s g = some r → P s → ∀ a, r.1 = .ok a → Q a r.2.1 := by
    funext x
    refine propext ⟨fun h s g r hr hs a ha => ?_, fun h s g a s' g' hs hr => h s g _ hr hs a rfl⟩
    obtain ⟨o, s', g'⟩ := r
    cases ha
    exact h s g a s' g' hs hr
  rw [e]; exact this

end Gives

section
variable {ev : S.Ev} {L : S.St → Prop} {P : S.Sup → Prop} (hd : m.AlwaysDefers ev L P)
include hd

theorem callSupHandler_defers : Gives P (callSupHandler m ev) fun r u =>
    r = .super ∧ ∃ v back, m.supSuperstate u = some (v, back) ∧ P v :=
  Gives.bind (Gives.callback fun u sh c hu => hd.sup u sh c hu) fun r => Gives.bind (Gives.log _) fun _ => by
    intro s g a s' g' hs h; cases h; exact hs

theorem callHandler_defers : Gives L (callHandler m ev) fun r s =>
    r = .super ∧ ∃ v back, m.superstate s = some (v, back) ∧ P v :=
  Gives.bind (Gives.callback fun u sh c hu => hd.leaf u sh c hu) fun r => Gives.bind (Gives.log _) fun _ => by
    intro s g a s' g' hs h; cases h; exact hs

theorem supHandle_defers : Gives P (Blocking.supHandle m ev) fun _ _ => False := by
  refine Blocking.supHandle.fixpoint_induct m ev (fun x => Gives P x fun _ _ => False) (Gives.admissible _) ?_
  intro f ih
  refine (callSupHandler_defers hd).bind fun r => ?_
  cases r with
  | handled => intro s g a s' g' hs; cases hs.1
  | transition t => intro s g a s' g' hs; cases hs.1
  | super =>
    exact Gives.bind (Gives.borrow (fun s hs => hs.2) (Gives.bind (Gives.hook _ _) fun _ =>
      Gives.bind ih fun _ => .of_false)) fun _ => .of_false

theorem handleLoop_defers : Gives P (Awaitable.handleLoop m ev) fun _ _ => False := by
  refine Awaitable.handleLoop.fixpoint_induct m ev (fun x => Gives P x fun _ _ => False) (Gives.admissible _) ?_
  intro f ih
  refine Gives.bind (Gives.hook _ _) fun _ => (callSupHandler_defers hd).bind fun r =>
    Gives.bind (Gives.hook _ _) fun _ => ?_
  cases r with
  | handled => intro s g a s' g' hs; cases hs.1
  | transition t => intro s g a s' g' hs; cases hs.1
  | super => exact Gives.bind (Gives.borrow (fun s hs => hs.2) ih) fun _ => .of_false

theorem handle_defers (mode : Mode) : Gives L (mode.handle m ev) fun _ _ => False := by
  cases mode with
  | blocking =>
    refine Gives.bind (Gives.hook _ _) fun _ => (callHandler_defers hd).bind fun r =>
      Gives.bind (Gives.hook _ _) fun _ => ?_
    cases r with
    | handled => intro s g a s' g' hs; cases hs.1
    | transition t => intro s g a s' g' hs; cases hs.1
    | super =>
      exact Gives.bind (Gives.borrow (fun s hs => hs.2) (Gives.bind (Gives.hook _ _) fun _ =>
        Gives.bind (supHandle_defers hd) fun _ => .of_false)) fun _ => .of_false
  | awaitable =>
    refine Gives.bind (Gives.hook _ _) fun _ => (callHandler_defers hd).bind fun r =>
      Gives.bind (Gives.hook _ _) fun _ => ?_
    cases r with
    | handled => intro s g a s' g' hs; cases hs.1
    | transition t => intro s g a s' g' hs; cases hs.1
    | super => exact Gives.bind (Gives.borrow (fun s hs => hs.2) (handleLoop_defers hd)) fun _ => .of_false

end

/-! ## Without panics and suspensions, what ends returns -/

/-- If `x` ends it returns. -/
def Calm (x : Eff S σ α) : Prop := ∀ s g o s' g', x s g = some (o, s', g') → o.isOk = true

namespace Calm

theorem pure (a : α) : Calm (Pure.pure a : Eff S σ α) := by rintro s g o s' g' h; cases h; rfl

theorem bind {x : Eff S σ α} {f : α → Eff S σ β} (hx : Calm x) (hf : ∀ a, Calm (f a)) : Calm (x >>= f) := by
  intro s g o s' g' h
  rcases Eff.inv_bind h with ⟨a, s1, g1, h1, h2⟩ | ⟨o', h1, ho, -⟩
  · exact hf a _ _ _ _ _ h2
  · rw [hx _ _ _ _ _ h1] at ho; cases ho

theorem borrow {sup : σ → Option (τ × (τ → σ))} {x : Eff S τ α} (hx : Calm x) : Calm (Eff.borrow sup x) := by
  intro s g o s' g' h
  unfold Eff.borrow at h
  cases e : sup s with
  | none => rw [e] at h; cases h; rfl
  | some p =>
    obtain ⟨v, back⟩ := p
    simp only [e] at h
    cases hr : x v g with
    | none => simp [hr] at h
    | some r =>
      obtain ⟨o1, v', g1⟩ := r
      simp only [hr] at h
      cases h
      have := hx _ _ _ _ _ hr
      cases o1 with
      | ok a => rfl
      | panic => cases this
      | stopped => cases this

theorem run_ok {In W : Type} {f : Fut In W α} (h1 : f.NoPanic) (h2 : f.NoSuspend) (l : List In) :
    (f.run l).1.isOk = true := by
  have k1 := Fut.run_noPanic h1 l
  have k2 := Fut.run_noSuspend h2 l
  cases e : (f.run l).1 with
  | ok a => rfl
  | panic => exact absurd e k1
  | stopped => exact absurd e k2

theorem callback {ob : σ → Obs S} {f : σ → S.M → S.Ctx → Fut S.In (σ × S.M × S.Ctx) α}
    (hf : ∀ s sh c, (f s sh c).NoPanic ∧ (f s sh c).NoSuspend) : Calm (Eff.callback ob f) := by
  intro s g o s' g' h
  unfold Eff.callback at h
  have := run_ok (hf s g.sh g.ctx).1 (hf s g.sh g.ctx).2 g.sched
  cases h
  exact this

theorem hook {ob : σ → Obs S} {f : σ → S.M → Fut S.In S.M Unit} (hf : ∀ s sh, (f s sh).NoPanic ∧ (f s sh).NoSuspend) :
    Calm (Eff.hook ob f) := by
  intro s g o s' g' h
  unfold Eff.hook at h
  have := run_ok (hf s g.sh).1 (hf s g.sh).2 g.sched
  cases h
  exact this

theorem log (ob : σ → Obs S) : Calm (Eff.log ob) := by rintro s g o s' g' h; cases h; rfl

theorem admissible : Lean.Order.admissible (fun x : Eff S σ α => Calm x) := by
  have := Eff.admissible (S := S) (σ := σ) (α := α) fun _ _ r => r.1.isOk = true
  have e : (fun x : Eff S σ α => Calm x) = fun x => ∀ s g r, x s g = some r → r.1.isOk = true := by
    funext x
    exact propext ⟨fun h s g r hr => h s g r.1 r.2.1 r.2.2 hr, fun h s g o s' g' hr => h s g (o, s', g') hr⟩
  rw [e]; exact this

end Calm

section
variable (hp : m.NoPanic) (hs : m.NoSuspend)
include hp hs

theorem callSupHandler_calm (ev : S.Ev) : Calm (callSupHandler m ev) :=
  Calm.bind (.callback fun v sh c => ⟨hp.supHandler v sh ev c, hs.supHandler v sh ev c⟩) fun _ =>
    Calm.bind (.log _) fun _ => .pure _

theorem callHandler_calm (ev : S.Ev) : Calm (callHandler m ev) :=
  Calm.bind (.callback fun v sh c => ⟨hp.handler v sh ev c, hs.handler v sh ev c⟩) fun _ =>
    Calm.bind (.log _) fun _ => .pure _

theorem hooks_calm (ev : S.Ev) : Calm (hookBeforeDispatch m ev) ∧ Calm (hookAfterDispatch m ev) ∧
    Calm (hookSupBeforeDispatch m ev) ∧ Calm (hookSupAfterDispatch m ev) :=
  ⟨.hook fun s sh => ⟨hp.beforeDispatch sh (.state s) ev, hs.beforeDispatch sh (.state s) ev⟩,
   .hook fun s sh => ⟨hp.afterDispatch sh (.state s) ev, hs.afterDispatch sh (.state s) ev⟩,
   .hook fun s sh => ⟨hp.beforeDispatch sh (.superstate s) ev, hs.beforeDispatch sh (.superstate s) ev⟩,
   .hook fun s sh => ⟨hp.afterDispatch sh (.superstate s) ev, hs.afterDispatch sh (.superstate s) ev⟩⟩

theorem handle_calm (mode : Mode) (ev : S.Ev) : Calm (mode.handle m ev) := by
  obtain ⟨k1, k2, k3, k4⟩ := hooks_calm hp hs ev
  cases mode with
  | blocking =>
    have hsup : Calm (Blocking.supHandle m ev) := by
      refine Blocking.supHandle.fixpoint_induct m ev (fun x => Calm x) Calm.admissible ?_
      intro f ih
      refine (callSupHandler_calm hp hs ev).bind fun r => ?_
      cases r with
      | handled => exact .pure _
      | transition t => exact .pure _
      | super =>
        refine Calm.bind (Calm.borrow (k3.bind fun _ => ih.bind fun _ => k4.bind fun _ => .pure _)) fun r => ?_
        cases r <;> exact .pure _
    refine k1.bind fun _ => (callHandler_calm hp hs ev).bind fun r => k2.bind fun _ => ?_
    cases r with
    | handled => exact .pure _
    | transition t => exact .pure _
    | super =>
      refine Calm.bind (Calm.borrow (k3.bind fun _ => hsup.bind fun _ => k4.bind fun _ => .pure _)) fun r => ?_
      cases r <;> exact .pure _
  | awaitable =>
    have hsup : Calm (Awaitable.handleLoop m ev) := by
      refine Awaitable.handleLoop.fixpoint_induct m ev (fun x => Calm x) Calm.admissible ?_
      intro f ih
      refine k3.bind fun _ => (callSupHandler_calm hp hs ev).bind fun r => k4.bind fun _ => ?_
      cases r with
      | handled => exact .pure _
      | transition t => exact .pure _
      | super =>
        refine Calm.bind (Calm.borrow ih) fun r => ?_
        cases r <;> exact .pure _
    refine k1.bind fun _ => (callHandler_calm hp hs ev).bind fun r => k2.bind fun _ => ?_
    cases r with
    | handled => exact .pure _
    | transition t => exact .pure _
    | super =>
      refine Calm.bind (Calm.borrow hsup) fun r => ?_
      cases r <;> exact .pure _

end

/-- An event that is always deferred: the call does not return, and no transition is begun. -/
theorem inner_handle_defers {ev : S.Ev} {L : S.St → Prop} {P : S.Sup → Prop} (hd : m.AlwaysDefers ev L P) {mode : Mode}
    {i : Inner S} (hi : L i.state) {ctx : S.Ctx} {sched : List S.In} {c : Call S (Inner S)}
    (h : i.handle mode m ev ctx sched = some c) :
    c.out.isOk = false ∧ (m.NoPanic → m.NoSuspend → False) := by
  have h' : i.run (mode.plainHandleEvent m ev) ctx sched = some c := by cases mode <;> exact h
  unfold Inner.run at h'
  split at h'
  · cases h'
  · rename_i o st g e
    cases h'
    rw [handleEvent_eq] at e
    rcases Eff.inv_bind2 e with ⟨r, s1, g1, k1, k2⟩ | ⟨o', k1, ho, rfl⟩
    · exact (handle_defers hd mode _ _ _ _ _ hi k1).elim
    · refine ⟨Out.isOk_cast _, fun hp hs => ?_⟩
      rw [handle_calm hp hs mode ev _ _ _ _ _ k1] at ho
      cases ho

/-! ## Transitions -/

theorem transitionPath_endless {s t : S.St} (hne : m.discr s ≠ m.discr t) (h : depth m s = none ∨ depth m t = none) :
    transitionPath m s t = none := by
  unfold transitionPath
  have : sameState m s t = false := by simp [sameState, hne]
  rw [this]
  simp only [Bool.false_eq_true, if_false, Option.bind_eq_bind]
  cases hs : depth m s with
  | none => rfl
  | some a =>
    rcases h with h | h
    · rw [hs] at h; cases h
    · simp [h]

theorem transition_endless (mode : Mode) {s t : S.St} {g : Glob S} {o s' g'} (hp : transitionPath m s t = none)
    (h : mode.transitionTo m t s g = some (o, s', g')) :
    o.isOk = false ∧ (m.NoPanic → m.NoSuspend → False) ∧
      ∃ a b, g'.trace = g.trace ++ [.beforeTransition a b] ∧ ((a = s ∧ b = t) ∨ (a = t ∧ b = s)) := by
  rw [transitionTo_eq] at h
  have h0 : (mode.hookBefore m s t >>= fun _ => Eff.lift (transitionPath m s t) >>= fun p => mode.exit m p.1 >>= fun _ =>
      Eff.swap t >>= fun old => mode.enter m p.2 >>= fun _ => Eff.self >>= fun new => hookAfterTransition m old new) s g =
      some (o, s', g') := h
  rcases Eff.inv_bind2 h0 with ⟨u, s1, g1, k1, h1⟩ | ⟨o', k1, ho, rfl⟩
  · rcases Eff.inv_bind2 h1 with ⟨p, s2, g2, k2, h2⟩ | ⟨o', k2, -, -⟩
    · rw [hp] at k2; cases k2
    · rw [hp] at k2; cases k2
  · refine ⟨Out.isOk_cast _, fun hp hs => ?_, ?_⟩
    · have : Calm (mode.hookBefore m s t) := by
        cases mode with
        | blocking => exact Calm.hook fun _ sh => ⟨hp.beforeTransition sh t s, hs.beforeTransition sh t s⟩
        | awaitable => exact Calm.hook fun _ sh => ⟨hp.beforeTransition sh s t, hs.beforeTransition sh s t⟩
      rw [this _ _ _ _ _ k1] at ho
      cases ho
    cases mode with
    | blocking =>
      refine ⟨t, s, ?_, .inr ⟨rfl, rfl⟩⟩
      unfold Mode.hookBefore hookBeforeTransition Eff.hook at k1
      cases k1; rfl
    | awaitable =>
      refine ⟨s, t, ?_, .inl ⟨rfl, rfl⟩⟩
      unfold Mode.hookBefore hookBeforeTransition Eff.hook at k1
      cases k1; rfl

theorem transition_first (mode : Mode) {s t : S.St} {g : Glob S} {o s' g'}
    (h : mode.transitionTo m t s g = some (o, s', g')) :
    ∃ a b L, g'.trace = g.trace ++ .beforeTransition a b :: L ∧ ((a = s ∧ b = t) ∨ (a = t ∧ b = s)) ∧
      ∀ a' b', .beforeTransition a' b' ∉ L := by
  rw [transitionTo_eq] at h
  have h0 : (mode.hookBefore m s t >>= fun _ => Eff.lift (transitionPath m s t) >>= fun p => mode.exit m p.1 >>= fun _ =>
      Eff.swap t >>= fun old => mode.enter m p.2 >>= fun _ => Eff.self >>= fun new => hookAfterTransition m old new) s g =
      some (o, s', g') := h
  have hk : ∀ o1 s1 g1, mode.hookBefore m s t s g = some (o1, s1, g1) →
      ∃ a b, g1.trace = g.trace ++ [.beforeTransition a b] ∧ ((a = s ∧ b = t) ∨ (a = t ∧ b = s)) := by
    intro o1 s1 g1 k1
    cases mode with
    | blocking =>
      refine ⟨t, s, ?_, .inr ⟨rfl, rfl⟩⟩
      unfold Mode.hookBefore hookBeforeTransition Eff.hook at k1
      cases k1; rfl
    | awaitable =>
      refine ⟨s, t, ?_, .inl ⟨rfl, rfl⟩⟩
      unfold Mode.hookBefore hookBeforeTransition Eff.hook at k1
      cases k1; rfl
  rcases Eff.inv_bind2 h0 with ⟨u, s1, g1, k1, h1⟩ | ⟨o', k1, ho, rfl⟩
  · obtain ⟨a, b, e, hab⟩ := hk _ _ _ k1
    have rest : ∃ L, g'.trace = g1.trace ++ L ∧ ∀ a' b', .beforeTransition a' b' ∉ L := by
      rcases Eff.inv_bind2 h1 with ⟨p, s2, g2, k2, h2⟩ | ⟨o', k2, -, -⟩
      · obtain ⟨-, rfl, rfl⟩ := lift_inv k2
        have hA : Adds (fun ob => ∀ a' b', ob ≠ .beforeTransition a' b') (mode.exit m p.1 >>= fun _ =>
            Eff.swap t >>= fun old => mode.enter m p.2 >>= fun _ => Eff.self >>= fun new =>
            hookAfterTransition m old new) := by
          refine Adds.bind (fun s g o s' g' h => ?_) fun _ => Adds.bind (fun s g o s' g' h => ?_) fun old =>
            Adds.bind (fun s g o s' g' h => ?_) fun _ => Adds.bind (fun s g o s' g' h => ?_) fun new => ?_
          · obtain ⟨L, e, p, n⟩ := mode_exit_adds mode _ _ _ _ _ _ h
            exact ⟨L, e, fun ob hob a' b' e' => by have := p ob hob; rw [e'] at this; exact this, n⟩
          · cases h; exact ⟨[], by simp [Out.isOk]⟩
          · obtain ⟨L, e, p, n⟩ := mode_enter_adds mode _ _ _ _ _ _ h
            exact ⟨L, e, fun ob hob a' b' e' => by have := p ob hob; rw [e'] at this; exact this, n⟩
          · cases h; exact ⟨[], by simp [Out.isOk]⟩
          · unfold hookAfterTransition
            refine Adds.hook ?_ _
            intro _ a' b' e'; cases e'
        obtain ⟨L, e, p, -⟩ := hA _ _ _ _ _ h2
        exact ⟨L, e, fun a' b' hm => p _ hm a' b' rfl⟩
      · obtain ⟨-, rfl, rfl⟩ := lift_inv k2
        exact ⟨[], by simp, by simp⟩
    obtain ⟨L, e2, hn⟩ := rest
    exact ⟨a, b, L, by rw [e2, e]; simp, hab, hn⟩
  · obtain ⟨a, b, e, hab⟩ := hk _ _ _ k1
    exact ⟨a, b, [], e, hab, by simp⟩

/-- A transition between variants that have no path: if the call ends at all it is in the hook before the transition. -/
theorem inner_handle_endless {mode : Mode} {i : Inner S} {ev : S.Ev} {ctx : S.Ctx} {sched : List S.In}
    {c : Call S (Inner S)} (h : i.handle mode m ev ctx sched = some c) {a b : S.St}
    (hab : .beforeTransition a b ∈ c.trace) (hp : transitionPath m a b = none ∧ transitionPath m b a = none) :
    c.out.isOk = false ∧ c.trace.getLast? = some (.beforeTransition a b) ∧ (m.NoPanic → m.NoSuspend → False) := by
  have h' : i.run (mode.plainHandleEvent m ev) ctx sched = some c := by cases mode <;> exact h
  unfold Inner.run at h'
  split at h'
  · cases h'
  · rename_i o st g e
    cases h'
    rw [handleEvent_eq] at e
    have hno : ∀ {L : List (Obs S)}, (∀ ob ∈ L, ob.OfDispatch) → .beforeTransition a b ∉ L := fun hL hm => hL _ hm
    rcases Eff.inv_bind2 e with ⟨r, s1, g1, k1, k2⟩ | ⟨o', k1, ho, rfl⟩
    · obtain ⟨L1, e1, p1, -⟩ := handle_ofDispatch mode ev _ _ _ _ _ k1
      rw [List.nil_append] at e1
      cases r with
      | handled => cases k2; exact absurd (e1 ▸ hab) (hno p1)
      | super => cases k2; exact absurd (e1 ▸ hab) (hno p1)
      | transition t =>
        obtain ⟨a1, b1, L, e2, hst, hL⟩ := transition_first mode k2
        have hm : Obs.beforeTransition a b ∈ g1.trace ++ Obs.beforeTransition a1 b1 :: L := e2 ▸ hab
        have : a = a1 ∧ b = b1 := by
          rcases List.mem_append.1 hm with hm | hm
          · exact absurd (e1 ▸ hm) (hno p1)
          · rcases List.mem_cons.1 hm with hm | hm
            · cases hm; exact ⟨rfl, rfl⟩
            · exact absurd hm (hL _ _)
        obtain ⟨rfl, rfl⟩ := this
        have hp' : transitionPath m s1 t = none := by
          rcases hst with ⟨rfl, rfl⟩ | ⟨rfl, rfl⟩
          · exact hp.1
          · exact hp.2
        obtain ⟨j1, j3, a2, b2, j2, -⟩ := transition_endless mode hp' k2
        refine ⟨j1, ?_, j3⟩
        have : g1.trace ++ [Obs.beforeTransition a2 b2] = g1.trace ++ .beforeTransition a b :: L := j2.symm.trans e2
        have := List.append_cancel_left this
        show g.trace.getLast? = _
        rw [j2]
        simp only [List.cons.injEq] at this
        simp [this.1]
    · obtain ⟨L1, e1, p1, -⟩ := handle_ofDispatch mode ev _ _ _ _ _ k1
      rw [List.nil_append] at e1
      exact absurd (e1 ▸ hab) (hno p1)

end Statig
