import Verif.Spec.Restore
import Verif.Proofs.Api
/-!
# Effects that change nothing
-/
namespace Statig
variable {S : Sig} {σ τ α β : Type} {m : Machine S} {F : Forest S.D S.E}

/-- The function returns normally, if at all, and changes nothing. -/
def Eff.Idle (x : Eff S σ α) : Prop :=
  ∀ s g r, x s g = some r → ∃ a pre, r = (.ok a, s, { g with trace := g.trace ++ pre })

theorem Eff.Idle.pure (a : α) : Eff.Idle (pure a : Eff S σ α) := by
  intro s g r h
  cases h
  exact ⟨a, [], by simp⟩

theorem Eff.Idle.bind {x : Eff S σ α} {f : α → Eff S σ β} (hx : x.Idle) (hf : ∀ a, (f a).Idle) :
    Eff.Idle (x >>= f) := by
  intro s g r h
  have h : Eff.bind x f s g = some r := h
  unfold Eff.bind at h
  cases h1 : x s g with
  | none => rw [h1] at h; cases h
  | some q =>
    obtain ⟨a, pre, rfl⟩ := hx s g q h1
    rw [h1] at h
    obtain ⟨b, pre', h2⟩ := hf a _ _ _ h
    exact ⟨b, pre ++ pre', by simp [h2]⟩

theorem Eff.Idle.borrow {sup : σ → Option (τ × (τ → σ))} {x : Eff S τ α}
    (hb : ∀ s v back, sup s = some (v, back) → back v = s) (hx : x.Idle) : Eff.Idle (Eff.borrow sup x) := by
  intro s g r h
  unfold Eff.borrow at h
  cases h1 : sup s with
  | none => rw [h1] at h; cases h; exact ⟨none, [], by simp⟩
  | some p =>
    obtain ⟨v, back⟩ := p
    rw [h1] at h
    simp only at h
    cases h2 : x v g with
    | none => rw [h2] at h; cases h
    | some q =>
      obtain ⟨a, pre, rfl⟩ := hx v g q h2
      rw [h2] at h
      cases h
      exact ⟨some a, pre, by simp [Out.map, hb s v back h1]⟩

theorem Eff.Idle.callback {o : σ → Obs S} {f : σ → S.M → S.Ctx → Fut S.In (σ × S.M × S.Ctx) α} {a : α}
    (h : ∀ s sh c, f s sh c = .done (s, sh, c) a) : Eff.Idle (Eff.callback o f) := by
  intro s g r hr
  unfold Eff.callback at hr
  rw [h] at hr
  cases hr
  exact ⟨a, [o s], rfl⟩

variable (hI : m.EntriesIdle)
include hI

theorem callEntry_idle : (callEntry m).Idle := Eff.Idle.callback hI.leaf
theorem callSupEntry_idle : (callSupEntry m).Idle := Eff.Idle.callback hI.sup

theorem supEnter_idle : ∀ n, (Blocking.supEnter m n).Idle
  | 0 => .pure ()
  | 1 => callSupEntry_idle hI
  | n + 2 => .bind (.borrow m.supSuperstate_back (supEnter_idle (n + 1))) fun _ => callSupEntry_idle hI

theorem enter_idle : ∀ n, (Blocking.enter m n).Idle
  | 0 => .pure ()
  | 1 => callEntry_idle hI
  | n + 2 => .bind (.borrow m.superstate_back (supEnter_idle hI (n + 1))) fun _ => callEntry_idle hI

theorem climbEntry_idle : ∀ n, (Awaitable.climbEntry m n).Idle
  | 0 => callSupEntry_idle hI
  | n + 1 => by
    refine .bind (.borrow m.supSuperstate_back (climbEntry_idle n)) fun r => ?_
    cases r with
    | none => exact callSupEntry_idle hI
    | some u => exact .pure ()

theorem awaitEnter_idle : ∀ n, (Awaitable.enter m n).Idle
  | 0 => .pure ()
  | 1 => callEntry_idle hI
  | n + 2 => .bind (.borrow m.superstate_back (climbEntry_idle hI n)) fun _ => awaitEnter_idle (n + 1)

theorem init_idle (hF : Follows m F) (mode : Mode) (i : Inner S) (ctx : S.Ctx) (sched : List S.In) :
    ∃ pre, m.steps pre = (F.path (m.discr i.state)).reverse.map .entry ∧
      i.init mode m ctx sched = some ⟨.ok (), i, ctx, sched, pre⟩ := by
  obtain ⟨c, h, h1, -⟩ := init_call hF mode i ctx sched
  have key : ∀ x : Eff S S.St Unit, x.Idle → i.run x ctx sched = some c →
      c.out = .ok () ∧ c = ⟨.ok (), i, ctx, sched, c.trace⟩ := by
    intro x hx hr
    unfold Inner.run at hr
    cases hq : x i.state { sh := i.shared, ctx := ctx, sched := sched, trace := [] } with
    | none => rw [hq] at hr; cases hr
    | some q =>
      obtain ⟨⟨⟩, pre, rfl⟩ := hx _ _ _ hq
      rw [hq] at hr
      cases hr
      exact ⟨rfl, rfl⟩
  have hself : (Eff.self (S := S) (σ := S.St)).Idle := by
    intro s g r h; cases h; exact ⟨s, [], by simp⟩
  have hlift : ∀ d : Option Nat, (Eff.lift (S := S) (σ := S.St) (d.map .ok)).Idle := by
    intro d s g r h
    cases d with
    | none => cases h
    | some n => cases h; exact ⟨n, [], by simp⟩
  have hk : c.out = .ok () ∧ c = ⟨.ok (), i, ctx, sched, c.trace⟩ := by
    cases mode with
    | blocking => exact key _ (.bind hself fun s => .bind (hlift _) fun n => enter_idle hI n) h
    | awaitable => exact key _ (.bind hself fun s => .bind (hlift _) fun n => awaitEnter_idle hI n) h
  refine ⟨c.trace, h1 hk.1, ?_⟩
  rw [h]
  exact congrArg some hk.2

theorem resumes (hF : Follows m F) (mode : Mode) (i : Inner S) (cmds : List (Command S)) :
    Resumes m F (m.discr i.state) (callAll mode m ⟨i, true⟩ cmds) (callAll mode m ⟨i, false⟩ cmds) := by
  cases cmds with
  | nil => rfl
  | cons cmd cmds =>
    cases cmd with
    | init ctx sched =>
      obtain ⟨pre, h1, h2⟩ := init_idle hI hF mode i ctx sched
      simp only [callAll, Command.exec, StateMachine.initWithContext, h2, Bool.true_eq_false, if_false, if_true, bind,
        Option.bind, Resumes]
      exact ⟨pre, h1, by simp⟩
    | handle ev ctx sched =>
      obtain ⟨pre, h1, h2⟩ := init_idle hI hF mode i ctx sched
      simp only [callAll, Command.exec, StateMachine.handleWithContext, h2, Bool.true_eq_false, if_false, if_true, bind,
        Option.bind]
      cases h3 : i.handle mode m ev ctx sched with
      | none => rfl
      | some d => exact ⟨pre, h1, rfl⟩

end Statig
