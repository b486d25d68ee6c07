import Verif.Spec.Log
import Verif.Proofs.Hierarchy
/-!
# A small program logic for library functions

`Does m tag x s A`: started in `s`, `x` returns; `tag self` is unchanged; when it completes with `a` the log
it appends is some `L` with `A L a`; when it is interrupted the log is a non-empty prefix of some allowed
`L` (only user callbacks, which are logged, can be interrupted); and it only panics / is only stopped if a user callback can panic / suspend.
-/
namespace Statig
variable {S : Sig} {σ τ α β κ : Type}

theorem Fut.run_all {In W : Type} {P : W → Prop} {f : Fut In W α} (h : f.All P) (l : List In) :
    P (f.run l).2.1 := by
  induction h generalizing l with
  | done h => exact h
  | panic h => exact h
  | pending h _ ih =>
    cases l with
    | nil => exact h
    | cons i l => exact ih i l

theorem Fut.run_noPanic {In W : Type} {f : Fut In W α} (h : f.NoPanic) (l : List In) :
    (f.run l).1 ≠ .panic := by
  induction f generalizing l with
  | done => simp [Fut.run]
  | panic => exact absurd h (by simp [Fut.NoPanic])
  | pending w k ih =>
    cases l with
    | nil => simp [Fut.run]
    | cons i l => exact ih i (h i) l

theorem Fut.run_noSuspend {In W : Type} {f : Fut In W α} (h : f.NoSuspend) (l : List In) :
    (f.run l).1 ≠ .stopped := by
  cases f with
  | done => simp [Fut.run]
  | panic => simp [Fut.run]
  | pending => exact absurd h (by simp [Fut.NoSuspend])

/-- See the module comment. -/
def Does (m : Machine S) (tag : σ → κ) (x : Eff S σ α) (s : σ)
    (A : List (Step S.D S.E S.Ev S.St) → α → Prop) : Prop :=
  ∀ g, ∃ o s' g' T, x s g = some (o, s', g') ∧ g'.trace = g.trace ++ T ∧ tag s' = tag s ∧
    (∀ a, o = .ok a → A (m.steps T) a) ∧
    (∃ L a, A L a ∧ m.steps T <+: L) ∧ (T = [] → o.isOk = true) ∧
    (m.NoPanic → o ≠ .panic) ∧ (m.NoSuspend → o ≠ .stopped)

namespace Does
variable {m : Machine S} {tag : σ → κ}

theorem nonempty {x : Eff S σ α} {s A} (h : Does m tag x s A) (g : Glob S) : ∃ L a, A L a := by
  obtain ⟨o, s', g', T, -, -, -, -, ⟨L, a, h, -⟩, -⟩ := h g
  exact ⟨L, a, h⟩

theorem mono {x : Eff S σ α} {s A B} (h : Does m tag x s A) (hAB : ∀ L a, A L a → B L a) :
    Does m tag x s B := by
  intro g
  obtain ⟨o, s', g', T, h1, h2, h3, h4, ⟨L, a, h5, h6⟩, h7⟩ := h g
  exact ⟨o, s', g', T, h1, h2, h3, fun a ha => hAB _ _ (h4 a ha), ⟨L, a, hAB _ _ h5, h6⟩, h7⟩

theorem pure (a : α) (s : σ) : Does m tag (Pure.pure a : Eff S σ α) s (fun L b => L = [] ∧ b = a) := by
  intro g
  refine ⟨.ok a, s, g, [], rfl, by simp, rfl, ?_, ⟨[], a, ⟨rfl, rfl⟩, by simp [Machine.steps]⟩,
    fun _ => rfl, by simp, by simp⟩
  intro b hb; cases hb; exact ⟨rfl, rfl⟩

theorem bind {x : Eff S σ α} {f : α → Eff S σ β} {s A} {B : α → List _ → β → Prop}
    (hx : Does m tag x s A) (hf : ∀ a s', tag s' = tag s → Does m tag (f a) s' (B a)) :
    Does m tag (x >>= f) s (fun L b => ∃ L1 a L2, A L1 a ∧ B a L2 b ∧ L = L1 ++ L2) := by
  intro g
  obtain ⟨o, s1, g1, T1, h1, h2, h3, h4, ⟨L, a, h5, h6⟩, h9, h7, h8⟩ := hx g
  have hbind : (x >>= f) s g = Eff.bind x f s g := rfl
  cases o with
  | ok a =>
    obtain ⟨o', s2, g2, T2, k1, k2, k3, k4, ⟨L', b', k5, k6⟩, k9, k7, k8⟩ := hf a s1 h3 g1
    refine ⟨o', s2, g2, T1 ++ T2, ?_, ?_, k3.trans h3, ?_, ?_, fun h => k9 (List.append_eq_nil_iff.1 h).2, k7, k8⟩
    · rw [hbind]; unfold Eff.bind; rw [h1]; exact k1
    · rw [k2, h2, List.append_assoc]
    · intro b hb
      exact ⟨_, a, _, h4 a rfl, k4 b hb, by simp [Machine.steps]⟩
    · refine ⟨m.steps T1 ++ L', b', ⟨_, a, _, h4 a rfl, k5, rfl⟩, ?_⟩
      rw [show m.steps (T1 ++ T2) = m.steps T1 ++ m.steps T2 by simp [Machine.steps]]
      exact (List.prefix_append_right_inj _).2 k6
  | panic =>
    obtain ⟨L2, b, hB⟩ := (hf a s1 h3).nonempty g1
    refine ⟨.panic, s1, g1, T1, ?_, h2, h3, by simp, ?_, h9, by simpa using h7, by simp⟩
    · rw [hbind]; unfold Eff.bind; rw [h1]
    · exact ⟨L ++ L2, b, ⟨_, a, _, h5, hB, rfl⟩, h6.trans (List.prefix_append _ _)⟩
  | stopped =>
    obtain ⟨L2, b, hB⟩ := (hf a s1 h3).nonempty g1
    refine ⟨.stopped, s1, g1, T1, ?_, h2, h3, by simp, ?_, h9, by simp, by simpa using h8⟩
    · rw [hbind]; unfold Eff.bind; rw [h1]
    · exact ⟨L ++ L2, b, ⟨_, a, _, h5, hB, rfl⟩, h6.trans (List.prefix_append _ _)⟩

theorem lift_ok {o : Option (Out α)} {a : α} (h : o = some (.ok a)) (s : σ) :
    Does m tag (Eff.lift o : Eff S σ α) s (fun L b => L = [] ∧ b = a) := by
  subst h; exact Does.pure a s

theorem self (s : σ) : Does m tag (Eff.self : Eff S σ σ) s (fun L b => L = [] ∧ b = s) := by
  intro g
  refine ⟨.ok s, s, g, [], rfl, by simp, rfl, ?_, ⟨[], s, ⟨rfl, rfl⟩, by simp [Machine.steps]⟩,
    fun _ => rfl, by simp, by simp⟩
  intro b hb; cases hb; exact ⟨rfl, rfl⟩

theorem log (o : σ → Obs S) (s : σ) :
    Does m tag (Eff.log o) s (fun L _ => L = [m.step (o s)]) := by
  intro g
  refine ⟨.ok (), s, _, [o s], rfl, by simp, rfl, ?_, ⟨_, (), rfl, ?_⟩, by simp, by simp, by simp⟩
  · intro b _; simp [Machine.steps]
  · simp [Machine.steps]

/-- A callback logs its start. `a0` witnesses that it could return something. -/
theorem callback (o : σ → Obs S) {f : σ → S.M → S.Ctx → Fut S.In (σ × S.M × S.Ctx) α} (s : σ) (a0 : α)
    (hall : ∀ sh c, (f s sh c).All (fun w => tag w.1 = tag s))
    (hp : m.NoPanic → ∀ sh c, (f s sh c).NoPanic)
    (hs : m.NoSuspend → ∀ sh c, (f s sh c).NoSuspend) :
    Does m tag (Eff.callback o f) s (fun L _ => L = [m.step (o s)]) := by
  intro g
  refine ⟨_, _, _, [o s], rfl, rfl, ?_, ?_, ⟨_, a0, rfl, ?_⟩, by simp, ?_, ?_⟩
  · exact Fut.run_all (hall g.sh g.ctx) g.sched
  · intro a _; simp [Machine.steps]
  · simp [Machine.steps]
  · intro h; exact Fut.run_noPanic (hp h _ _) _
  · intro h; exact Fut.run_noSuspend (hs h _ _) _

theorem hook (o : σ → Obs S) {f : σ → S.M → Fut S.In S.M Unit} (s : σ)
    (hp : m.NoPanic → ∀ sh, (f s sh).NoPanic)
    (hs : m.NoSuspend → ∀ sh, (f s sh).NoSuspend) :
    Does m tag (Eff.hook o f) s (fun L _ => L = [m.step (o s)]) := by
  intro g
  refine ⟨_, _, _, [o s], rfl, rfl, rfl, ?_, ⟨_, (), rfl, ?_⟩, by simp, ?_, ?_⟩
  · intro a _; simp [Machine.steps]
  · simp [Machine.steps]
  · intro h; exact Fut.run_noPanic (hp h _) _
  · intro h; exact Fut.run_noSuspend (hs h _) _

theorem borrow_none {sup : σ → Option (τ × (τ → σ))} {body : Eff S τ α} {s : σ} (h : sup s = none) :
    Does m tag (Eff.borrow sup body) s (fun L b => L = [] ∧ b = none) := by
  intro g
  refine ⟨.ok none, s, g, [], ?_, by simp, rfl, ?_, ⟨[], none, ⟨rfl, rfl⟩, by simp [Machine.steps]⟩,
    fun _ => rfl, by simp, by simp⟩
  · unfold Eff.borrow; rw [h]
  · intro b hb; cases hb; exact ⟨rfl, rfl⟩

theorem borrow_some {κ' : Type} {tag' : τ → κ'} {sup : σ → Option (τ × (τ → σ))} {body : Eff S τ α}
    {s : σ} {v back A} (h : sup s = some (v, back)) (hb : ∀ w, tag' w = tag' v → tag (back w) = tag s)
    (hbody : Does m tag' body v A) :
    Does m tag (Eff.borrow sup body) s (fun L b => ∃ a, b = some a ∧ A L a) := by
  intro g
  obtain ⟨o, s1, g1, T1, h1, h2, h3, h4, ⟨L, a, h5, h6⟩, h9, h7, h8⟩ := hbody g
  refine ⟨o.map some, back s1, g1, T1, ?_, h2, hb _ h3, ?_, ⟨L, some a, ⟨a, rfl, h5⟩, h6⟩,
    fun h => by have := h9 h; cases o <;> simp_all [Out.map, Out.isOk], ?_, ?_⟩
  · unfold Eff.borrow; simp [h, h1]
  · intro b hb'
    cases o with
    | ok a => cases hb'; exact ⟨a, rfl, h4 a rfl⟩
    | panic => cases hb'
    | stopped => cases hb'
  · intro hp; have := h7 hp; cases o <;> simp_all [Out.map]
  · intro hp; have := h8 hp; cases o <;> simp_all [Out.map]

/-- Sequencing of computations with a fixed log. -/
theorem seq {x : Eff S σ α} {f : α → Eff S σ β} {s} {L1 L2 : List _}
    (hx : Does m tag x s (fun L _ => L = L1))
    (hf : ∀ a s', tag s' = tag s → Does m tag (f a) s' (fun L _ => L = L2)) :
    Does m tag (x >>= f) s (fun L _ => L = L1 ++ L2) := by
  refine (hx.bind hf).mono ?_
  rintro L a ⟨l1, _, l2, rfl, rfl, rfl⟩
  rfl

theorem seq_cons {x : Eff S σ α} {f : α → Eff S σ β} {s} {a} {L2 : List _}
    (hx : Does m tag x s (fun L _ => L = [a]))
    (hf : ∀ a s', tag s' = tag s → Does m tag (f a) s' (fun L _ => L = L2)) :
    Does m tag (x >>= f) s (fun L _ => L = a :: L2) :=
  hx.seq hf

theorem then_pure {x : Eff S σ α} {b : β} {s} {L1 : List _}
    (hx : Does m tag x s (fun L _ => L = L1)) :
    Does m tag (x >>= fun _ => Pure.pure b) s (fun L _ => L = L1) := by
  refine (hx.seq (fun _ s' _ => (Does.pure b s').mono (B := fun L _ => L = []) (fun L _ h => h.1))).mono ?_
  rintro L _ rfl; simp

end Does
end Statig
