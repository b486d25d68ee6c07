import Verif.Spec.Values
import Verif.Proofs.Transition
/-! # What happens to the value of `self` -/
namespace Statig
variable {S : Sig} {m : Machine S} {F : Forest S.D S.E} {σ τ α β : Type}

/-- The two ways in which a sequence of two computations can end. -/
theorem Eff.inv_bind {x : Eff S σ α} {f : α → Eff S σ β} {s s' g g' o}
    (h : (x >>= f) s g = some (o, s', g')) :
    (∃ a s1 g1, x s g = some (.ok a, s1, g1) ∧ f a s1 g1 = some (o, s', g')) ∨
    (∃ o' : Out α, x s g = some (o', s', g') ∧ o'.isOk = false ∧ o.isOk = false) := by
  have h' : Eff.bind x f s g = some (o, s', g') := h
  unfold Eff.bind at h'
  split at h'
  · cases h'
  · rename_i a s1 g1 hx; exact .inl ⟨a, s1, g1, hx, h'⟩
  · rename_i s1 g1 hx; cases h'; exact .inr ⟨.panic, hx, rfl, rfl⟩
  · rename_i s1 g1 hx; cases h'; exact .inr ⟨.stopped, hx, rfl, rfl⟩

theorem Eff.inv_bind_ok {x : Eff S σ α} {f : α → Eff S σ β} {s s' g g' b}
    (h : (x >>= f) s g = some (.ok b, s', g')) :
    ∃ a s1 g1, x s g = some (.ok a, s1, g1) ∧ f a s1 g1 = some (.ok b, s', g') := by
  rcases Eff.inv_bind h with h | ⟨o', -, -, h⟩
  · exact h
  · cases h

theorem Eff.inv_pure {a : α} {s s' : σ} {g g'} {o}
    (h : (Pure.pure a : Eff S σ α) s g = some (o, s', g')) : o = .ok a ∧ s' = s ∧ g' = g := by
  cases h; exact ⟨rfl, rfl, rfl⟩

/-- Partial correctness statements can be proved by induction on a fixed point. -/
theorem Eff.admissible (P : σ → Glob S → Out α × σ × Glob S → Prop) :
    Lean.Order.admissible (fun x : Eff S σ α => ∀ s g r, x s g = some r → P s g r) :=
  Lean.Order.admissible_pi_apply (fun s (y : Glob S → Option (Out α × σ × Glob S)) =>
      ∀ g r, y g = some r → P s g r)
    (fun s => Lean.Order.admissible_pi_apply (fun g (y : Option (Out α × σ × Glob S)) =>
      ∀ r, y = some r → P s g r)
      (fun _ => Lean.Order.admissible_flatOrder _ (by intro r h; cases h)))

/-- `x` leaves `self` alone. -/
def Keeps (x : Eff S σ α) : Prop := ∀ s g o s' g', x s g = some (o, s', g') → s' = s

namespace Keeps

theorem admissible : Lean.Order.admissible (fun x : Eff S σ α => Keeps x) := by
  have h := Eff.admissible (S := S) (σ := σ) (α := α) (fun s _ r => r.2.1 = s)
  have e : (fun x : Eff S σ α => ∀ s g r, x s g = some r → r.2.1 = s) = fun x => Keeps x := by
    funext x
    apply propext
    exact ⟨fun h s g o s' g' hx => h s g _ hx, fun h s g r hx => h s g r.1 r.2.1 r.2.2 hx⟩
  rw [← e]; exact h

theorem pure (a : α) : Keeps (Pure.pure a : Eff S σ α) := by
  rintro s g o s' g' h; cases h; rfl

theorem self : Keeps (Eff.self : Eff S σ σ) := by
  rintro s g o s' g' h; cases h; rfl

theorem log (o : σ → Obs S) : Keeps (Eff.log o) := by
  rintro s g o s' g' h; cases h; rfl

theorem lift (x : Option (Out α)) : Keeps (Eff.lift x : Eff S σ α) := by
  rintro s g o s' g' h
  unfold Eff.lift at h
  split at h
  · cases h
  · cases h; rfl

theorem hook (o : σ → Obs S) (f : σ → S.M → Fut S.In S.M Unit) : Keeps (Eff.hook o f) := by
  rintro s g o s' g' h
  unfold Eff.hook at h
  split at h
  cases h; rfl

theorem callback (o : σ → Obs S) {f : σ → S.M → S.Ctx → Fut S.In (σ × S.M × S.Ctx) α}
    (hf : ∀ s sh c, (f s sh c).All (fun w => w.1 = s)) : Keeps (Eff.callback o f) := by
  rintro s g o s' g' h
  unfold Eff.callback at h
  have := Fut.run_all (hf s g.sh g.ctx) g.sched
  split at h
  rename_i hr
  rw [hr] at this
  cases h; exact this

theorem bind {x : Eff S σ α} {f : α → Eff S σ β} (hx : Keeps x) (hf : ∀ a, Keeps (f a)) :
    Keeps (x >>= f) := by
  rintro s g o s' g' h
  rcases Eff.inv_bind h with ⟨a, s1, g1, h1, h2⟩ | ⟨o', h1, -⟩
  · rw [hf a _ _ _ _ _ h2, hx _ _ _ _ _ h1]
  · exact hx _ _ _ _ _ h1

theorem borrow {sup : σ → Option (τ × (τ → σ))} {body : Eff S τ α}
    (hsup : ∀ s v back, sup s = some (v, back) → back v = s) (hbody : Keeps body) :
    Keeps (Eff.borrow sup body) := by
  rintro s g o s' g' h
  unfold Eff.borrow at h
  split at h
  · cases h; rfl
  · rename_i v back hs
    split at h
    · cases h
    · rename_i o1 v1 g1 hb
      cases h
      rw [hbody _ _ _ _ _ hb]
      exact hsup s v back hs

end Keeps

section actions
variable (m)

theorem keeps_callSupExit (h : m.ExitsKeep) : Keeps (callSupExit m) := Keeps.callback _ h.sup
theorem keeps_callExit (h : m.ExitsKeep) : Keeps (callExit m) := Keeps.callback _ h.leaf
theorem keeps_callSupEntry (h : m.EntriesKeep) : Keeps (callSupEntry m) := Keeps.callback _ h.sup
theorem keeps_callEntry (h : m.EntriesKeep) : Keeps (callEntry m) := Keeps.callback _ h.leaf

theorem keeps_supBlockingExit (h : m.ExitsKeep) : ∀ n, Keeps (Blocking.supExit m n)
  | 0 => Keeps.pure ()
  | 1 => keeps_callSupExit m h
  | n + 2 => (keeps_callSupExit m h).bind fun _ =>
      (Keeps.borrow m.supSuperstate_back (keeps_supBlockingExit h (n + 1))).bind fun _ => Keeps.pure ()

theorem keeps_blockingExit (h : m.ExitsKeep) : ∀ n, Keeps (Blocking.exit m n)
  | 0 => Keeps.pure ()
  | 1 => keeps_callExit m h
  | n + 2 => (keeps_callExit m h).bind fun _ =>
      (Keeps.borrow m.superstate_back (keeps_supBlockingExit m h (n + 1))).bind fun _ => Keeps.pure ()

theorem keeps_exitLoop (h : m.ExitsKeep) : ∀ n, Keeps (Awaitable.exitLoop m n)
  | 0 => Keeps.pure ()
  | 1 => Keeps.pure ()
  | n + 2 => (keeps_callSupExit m h).bind fun _ =>
      (Keeps.borrow m.supSuperstate_back (keeps_exitLoop h (n + 1))).bind fun _ => Keeps.pure ()

theorem keeps_awaitExit (h : m.ExitsKeep) (n : Nat) : Keeps (Awaitable.exit m n) := by
  unfold Awaitable.exit
  have hl : Keeps (do
      let _ ← Eff.borrow m.superstate (Awaitable.exitLoop m n)
      pure ()) := (Keeps.borrow m.superstate_back (keeps_exitLoop m h n)).bind fun _ => Keeps.pure ()
  split
  · exact (keeps_callExit m h).bind fun _ => hl
  · exact hl

theorem keeps_exit (h : m.ExitsKeep) (mode : Mode) (n : Nat) : Keeps (mode.exit m n) := by
  cases mode
  · exact keeps_blockingExit m h n
  · exact keeps_awaitExit m h n

theorem keeps_supBlockingEnter (h : m.EntriesKeep) : ∀ n, Keeps (Blocking.supEnter m n)
  | 0 => Keeps.pure ()
  | 1 => keeps_callSupEntry m h
  | n + 2 => (Keeps.borrow m.supSuperstate_back (keeps_supBlockingEnter h (n + 1))).bind fun _ =>
      keeps_callSupEntry m h

theorem keeps_blockingEnter (h : m.EntriesKeep) : ∀ n, Keeps (Blocking.enter m n)
  | 0 => Keeps.pure ()
  | 1 => keeps_callEntry m h
  | n + 2 => (Keeps.borrow m.superstate_back (keeps_supBlockingEnter m h (n + 1))).bind fun _ =>
      keeps_callEntry m h

theorem keeps_climbEntry (h : m.EntriesKeep) : ∀ n, Keeps (Awaitable.climbEntry m n)
  | 0 => keeps_callSupEntry m h
  | n + 1 => (Keeps.borrow m.supSuperstate_back (keeps_climbEntry h n)).bind fun r => by
      cases r
      · exact keeps_callSupEntry m h
      · exact Keeps.pure ()

theorem keeps_awaitEnter (h : m.EntriesKeep) : ∀ n, Keeps (Awaitable.enter m n)
  | 0 => Keeps.pure ()
  | 1 => keeps_callEntry m h
  | n + 2 => (Keeps.borrow m.superstate_back (keeps_climbEntry m h n)).bind fun _ =>
      keeps_awaitEnter h (n + 1)

theorem keeps_enter (h : m.EntriesKeep) (mode : Mode) (n : Nat) : Keeps (mode.enter m n) := by
  cases mode
  · exact keeps_blockingEnter m h n
  · exact keeps_awaitEnter m h n

variable {m}

theorem keeps_callHandler {ev : S.Ev} (h : m.HandlersKeep ev) : Keeps (callHandler m ev) :=
  (Keeps.callback _ h.leaf).bind fun _ => (Keeps.log _).bind fun _ => Keeps.pure _

theorem keeps_callSupHandler {ev : S.Ev} (h : m.HandlersKeep ev) : Keeps (callSupHandler m ev) :=
  (Keeps.callback _ h.sup).bind fun _ => (Keeps.log _).bind fun _ => Keeps.pure _

/-- By induction on the fixed point: no hypothesis on the hierarchy. -/
theorem keeps_supHandle {ev : S.Ev} (h : m.HandlersKeep ev) : Keeps (Blocking.supHandle m ev) := by
  refine Blocking.supHandle.fixpoint_induct m ev (fun x => Keeps x) ?_ ?_
  · exact Keeps.admissible
  · intro x hx
    refine (keeps_callSupHandler h).bind fun r => ?_
    cases r with
    | handled => exact Keeps.pure _
    | transition t => exact Keeps.pure _
    | super =>
      refine (Keeps.borrow m.supSuperstate_back ?_).bind fun r => ?_
      · exact (Keeps.hook _ _).bind fun _ => hx.bind fun _ => (Keeps.hook _ _).bind fun _ => Keeps.pure _
      · cases r <;> exact Keeps.pure _

theorem keeps_blockingHandle {ev : S.Ev} (h : m.HandlersKeep ev) : Keeps (Blocking.handle m ev) := by
  refine (Keeps.hook _ _).bind fun _ => (keeps_callHandler h).bind fun r => (Keeps.hook _ _).bind fun _ => ?_
  cases r with
  | handled => exact Keeps.pure _
  | transition t => exact Keeps.pure _
  | super =>
    refine (Keeps.borrow m.superstate_back ?_).bind fun r => ?_
    · exact (Keeps.hook _ _).bind fun _ => (keeps_supHandle h).bind fun _ =>
        (Keeps.hook _ _).bind fun _ => Keeps.pure _
    · cases r <;> exact Keeps.pure _

theorem keeps_handleLoop {ev : S.Ev} (h : m.HandlersKeep ev) : Keeps (Awaitable.handleLoop m ev) := by
  refine Awaitable.handleLoop.fixpoint_induct m ev (fun x => Keeps x) ?_ ?_
  · exact Keeps.admissible
  · intro x hx
    refine (Keeps.hook _ _).bind fun _ => (keeps_callSupHandler h).bind fun r =>
      (Keeps.hook _ _).bind fun _ => ?_
    cases r with
    | handled => exact Keeps.pure _
    | transition t => exact Keeps.pure _
    | super =>
      refine (Keeps.borrow m.supSuperstate_back hx).bind fun r => ?_
      cases r <;> exact Keeps.pure _

theorem keeps_awaitHandle {ev : S.Ev} (h : m.HandlersKeep ev) : Keeps (Awaitable.handle m ev) := by
  refine (Keeps.hook _ _).bind fun _ => (keeps_callHandler h).bind fun r => (Keeps.hook _ _).bind fun _ => ?_
  cases r with
  | handled => exact Keeps.pure _
  | transition t => exact Keeps.pure _
  | super =>
    refine (Keeps.borrow m.superstate_back (keeps_handleLoop h)).bind fun r => ?_
    cases r <;> exact Keeps.pure _

theorem keeps_handle {ev : S.Ev} (h : m.HandlersKeep ev) (mode : Mode) : Keeps (mode.handle m ev) := by
  cases mode
  · exact keeps_blockingHandle h
  · exact keeps_awaitHandle h

end actions
end Statig
