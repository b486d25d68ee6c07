import Verif.Proofs.TransitionValues
/-!
# Calls that leave `self` alone as long as what is called does
-/
namespace Statig
variable {S : Sig} {σ τ α β : Type} {m : Machine S}

/-- `x` leaves `self` alone if `P` holds of everything it logs. -/
def KeepsOn (P : Obs S → Prop) (x : Eff S σ α) : Prop :=
  ∀ s g o s' g', x s g = some (o, s', g') → ∃ T, g'.trace = g.trace ++ T ∧ ((∀ ob ∈ T, P ob) → s' = s)

namespace KeepsOn
variable {P : Obs S → Prop}

theorem admissible : Lean.Order.admissible (fun x : Eff S σ α => KeepsOn P x) := by
  have h := Eff.admissible (S := S) (σ := σ) (α := α)
    (fun s g r => ∃ T, r.2.2.trace = g.trace ++ T ∧ ((∀ ob ∈ T, P ob) → r.2.1 = s))
  have e : (fun x : Eff S σ α => ∀ s g r, x s g = some r →
      ∃ T, r.2.2.trace = g.trace ++ T ∧ ((∀ ob ∈ T, P ob) → r.2.1 = s)) = fun x => KeepsOn P x := by
    funext x
    apply propext
    exact ⟨fun h s g o s' g' hx => h s g _ hx, fun h s g r hx => h s g r.1 r.2.1 r.2.2 hx⟩
  rw [← e]; exact h

theorem pure (a : α) : KeepsOn P (Pure.pure a : Eff S σ α) := by
  rintro s g o s' g' h; cases h; exact ⟨[], by simp, fun _ => rfl⟩

theorem log (o : σ → Obs S) : KeepsOn P (Eff.log o) := by
  rintro s g o s' g' h; cases h; exact ⟨_, rfl, fun _ => rfl⟩

theorem hook (o : σ → Obs S) (f : σ → S.M → Fut S.In S.M Unit) : KeepsOn P (Eff.hook o f) := by
  rintro s g o s' g' h
  unfold Eff.hook at h
  split at h
  cases h; exact ⟨_, rfl, fun _ => rfl⟩

theorem callback {o : σ → Obs S} {f : σ → S.M → S.Ctx → Fut S.In (σ × S.M × S.Ctx) α}
    (hf : ∀ s, P (o s) → ∀ sh c, (f s sh c).All (fun w => w.1 = s)) : KeepsOn P (Eff.callback o f) := by
  rintro s g o s' g' h
  unfold Eff.callback at h
  split at h
  rename_i hr
  cases h
  refine ⟨_, rfl, fun hp => ?_⟩
  have := Fut.run_all (hf s (hp _ (List.mem_singleton.2 rfl)) g.sh g.ctx) g.sched
  rw [hr] at this
  exact this

theorem bind {x : Eff S σ α} {f : α → Eff S σ β} (hx : KeepsOn P x) (hf : ∀ a, KeepsOn P (f a)) :
    KeepsOn P (x >>= f) := by
  rintro s g o s' g' h
  rcases Eff.inv_bind h with ⟨a, s1, g1, h1, h2⟩ | ⟨o', h1, -⟩
  · obtain ⟨T1, e1, k1⟩ := hx _ _ _ _ _ h1
    obtain ⟨T2, e2, k2⟩ := hf a _ _ _ _ _ h2
    refine ⟨T1 ++ T2, by rw [e2, e1, List.append_assoc], fun hp => ?_⟩
    rw [k2 fun ob hob => hp ob (List.mem_append_right _ hob), k1 fun ob hob => hp ob (List.mem_append_left _ hob)]
  · exact hx _ _ _ _ _ h1

theorem borrow {sup : σ → Option (τ × (τ → σ))} {body : Eff S τ α}
    (hsup : ∀ s v back, sup s = some (v, back) → back v = s) (hbody : KeepsOn P body) :
    KeepsOn P (Eff.borrow sup body) := by
  rintro s g o s' g' h
  unfold Eff.borrow at h
  split at h
  · cases h; exact ⟨[], by simp, fun _ => rfl⟩
  · rename_i v back hs
    split at h
    · cases h
    · rename_i o1 v1 g1 hb
      cases h
      obtain ⟨T, e, k⟩ := hbody _ _ _ _ _ hb
      exact ⟨T, e, fun hp => by rw [k hp]; exact hsup s v back hs⟩

end KeepsOn

/-- If it is a call of a handler with `ev`, the handler does not write local storage. -/
def KeptBy (m : Machine S) (ev : S.Ev) (ob : Obs S) : Prop := ∀ n, ob = .handler n ev → m.HandlerKeeps ev n

section
variable {ev : S.Ev}

theorem keepsOn_callHandler : KeepsOn (KeptBy m ev) (callHandler m ev) :=
  (KeepsOn.callback fun s hp sh c => hp _ rfl sh c).bind fun _ => (KeepsOn.log _).bind fun _ => KeepsOn.pure _

theorem keepsOn_callSupHandler : KeepsOn (KeptBy m ev) (callSupHandler m ev) :=
  (KeepsOn.callback fun s hp sh c => hp _ rfl sh c).bind fun _ => (KeepsOn.log _).bind fun _ => KeepsOn.pure _

theorem keepsOn_supHandle : KeepsOn (KeptBy m ev) (Blocking.supHandle m ev) := by
  refine Blocking.supHandle.fixpoint_induct m ev (fun x => KeepsOn (KeptBy m ev) x) ?_ ?_
  · exact KeepsOn.admissible
  · intro x hx
    refine keepsOn_callSupHandler.bind fun r => ?_
    cases r with
    | handled => exact KeepsOn.pure _
    | transition t => exact KeepsOn.pure _
    | super =>
      refine (KeepsOn.borrow m.supSuperstate_back ?_).bind fun r => ?_
      · exact (KeepsOn.hook _ _).bind fun _ => hx.bind fun _ => (KeepsOn.hook _ _).bind fun _ => KeepsOn.pure _
      · cases r <;> exact KeepsOn.pure _

theorem keepsOn_handleLoop : KeepsOn (KeptBy m ev) (Awaitable.handleLoop m ev) := by
  refine Awaitable.handleLoop.fixpoint_induct m ev (fun x => KeepsOn (KeptBy m ev) x) ?_ ?_
  · exact KeepsOn.admissible
  · intro x hx
    refine (KeepsOn.hook _ _).bind fun _ => keepsOn_callSupHandler.bind fun r =>
      (KeepsOn.hook _ _).bind fun _ => ?_
    cases r with
    | handled => exact KeepsOn.pure _
    | transition t => exact KeepsOn.pure _
    | super =>
      refine (KeepsOn.borrow m.supSuperstate_back hx).bind fun r => ?_
      cases r <;> exact KeepsOn.pure _

theorem keepsOn_handle (mode : Mode) : KeepsOn (KeptBy m ev) (mode.handle m ev) := by
  cases mode
  · refine (KeepsOn.hook _ _).bind fun _ => keepsOn_callHandler.bind fun r => (KeepsOn.hook _ _).bind fun _ => ?_
    cases r with
    | handled => exact KeepsOn.pure _
    | transition t => exact KeepsOn.pure _
    | super =>
      refine (KeepsOn.borrow m.superstate_back ?_).bind fun r => ?_
      · exact (KeepsOn.hook _ _).bind fun _ => keepsOn_supHandle.bind fun _ =>
          (KeepsOn.hook _ _).bind fun _ => KeepsOn.pure _
      · cases r <;> exact KeepsOn.pure _
  · refine (KeepsOn.hook _ _).bind fun _ => keepsOn_callHandler.bind fun r => (KeepsOn.hook _ _).bind fun _ => ?_
    cases r with
    | handled => exact KeepsOn.pure _
    | transition t => exact KeepsOn.pure _
    | super =>
      refine (KeepsOn.borrow m.superstate_back keepsOn_handleLoop).bind fun r => ?_
      cases r <;> exact KeepsOn.pure _

end
end Statig
