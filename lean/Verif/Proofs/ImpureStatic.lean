import Verif.Spec.Impure
import Verif.Proofs.Transition
/-! # Logs of machines whose `superstate()` has effects, with a static hierarchy -/
namespace Statig
variable {S : Sig} {F : Forest S.D S.E}

theorem Does.bindNil {m : Machine S} {σ α β κ : Type} {tag : σ → κ} {x : Eff S σ α} {f : α → Eff S σ β} {s} {a : α}
    {C : List (Step S.D S.E S.Ev S.St) → β → Prop} (hx : Does m tag x s (fun L b => L = [] ∧ b = a))
    (hf : ∀ s', tag s' = tag s → Does m tag (f a) s' C) : Does m tag (x >>= f) s C := by
  refine hx.bindR ?_
  rintro _ s' _ hs ⟨rfl, rfl⟩
  exact ⟨C, hf s' hs, fun L2 b h => h⟩

namespace Impure
variable {m : Impure S}

open Classical in
/-- Without the effects of `superstate()`: what is written back unchanged has changed nothing. -/
noncomputable def calm {σ τ : Type} (s : σ) : Borrowed σ τ → Option (τ × (τ → σ))
  | .some v back => some (v, fun w => if w = v then s else back w)
  | _ => none

/-- The machine of the rest of the model with the same callbacks and variants, whose `superstate()` has lost its
effects. -/
noncomputable def forget (m : Impure S) : Machine S :=
  { m.base with
    superstate := fun s => calm s (m.superstate s)
    supSuperstate := fun v => calm v (m.supSuperstate v)
    superstate_back := by
      intro s v back h
      cases e : m.superstate s <;> simp only [e, calm] at h
      · cases h; simp
      · cases h
      · cases h
    supSuperstate_back := by
      intro s v back h
      cases e : m.supSuperstate s <;> simp only [e, calm] at h
      · cases h; simp
      · cases h
      · cases h }

theorem Static.follows (h : m.Static F) : Follows m.forget F where
  leaf s := by
    have := h.leaf s
    show (calm s (m.superstate s)).map (fun p => m.base.supDiscr p.1) = F.leafParent (m.base.discr s)
    cases e : m.superstate s <;> simp only [e] at this
    · exact this.1.symm
    · exact this.1.symm
  sup v := by
    have := h.sup v
    show (calm v (m.supSuperstate v)).map (fun p => m.base.supDiscr p.1) = F.supParent (m.base.supDiscr v)
    cases e : m.supSuperstate v <;> simp only [e] at this
    · exact this.1.symm
    · exact this.1.symm
  leaf_back s v back w hs hw := by
    have := h.leaf s
    have hs : calm s (m.superstate s) = some (v, back) := hs
    cases e : m.superstate s <;> simp only [e] at this hs
    · cases hs
      show m.base.discr (@ite _ _ (Classical.propDecidable _) _ _) = m.base.discr s
      split
      · rfl
      · exact this.2 w hw
    · cases hs
  sup_back s v back w hs hw := by
    have := h.sup s
    have hs : calm s (m.supSuperstate s) = some (v, back) := hs
    cases e : m.supSuperstate s <;> simp only [e] at this hs
    · cases hs
      show m.base.supDiscr (@ite _ _ (Classical.propDecidable _) _ _) = m.base.supDiscr s
      split
      · rfl
      · exact this.2 w hw
    · cases hs
  handler := h.handler
  entry := h.entry
  exit := h.exit
  supHandler := h.supHandler
  supEntry := h.supEntry
  supExit := h.supExit

theorem Static.leaf_some (h : m.Static F) {s v back} (e : m.superstate s = .some v back) :
    F.leafParent (m.base.discr s) = some (m.base.supDiscr v) ∧
      ∀ v', m.base.supDiscr v' = m.base.supDiscr v → m.base.discr (back v') = m.base.discr s := by
  have := h.leaf s; rw [e] at this; exact this

theorem Static.leaf_none (h : m.Static F) {s s'} (e : m.superstate s = .none s') :
    F.leafParent (m.base.discr s) = none ∧ m.base.discr s' = m.base.discr s := by
  have := h.leaf s; rw [e] at this; exact this

theorem Static.leaf_panic (h : m.Static F) {s s'} (e : m.superstate s = .panic s') : False := by
  have := h.leaf s; rw [e] at this; exact this

theorem Static.sup_some (h : m.Static F) {s v back} (e : m.supSuperstate s = .some v back) :
    F.supParent (m.base.supDiscr s) = some (m.base.supDiscr v) ∧
      ∀ v', m.base.supDiscr v' = m.base.supDiscr v → m.base.supDiscr (back v') = m.base.supDiscr s := by
  have := h.sup s; rw [e] at this; exact this

theorem Static.sup_none (h : m.Static F) {s s'} (e : m.supSuperstate s = .none s') :
    F.supParent (m.base.supDiscr s) = none ∧ m.base.supDiscr s' = m.base.supDiscr s := by
  have := h.sup s; rw [e] at this; exact this

theorem Static.sup_panic (h : m.Static F) {s s'} (e : m.supSuperstate s = .panic s') : False := by
  have := h.sup s; rw [e] at this; exact this

/-! ## Rules -/

section rules
variable {M : Machine S} {σ τ ρ α κ κ' : Type} {tag : σ → κ}

theorem does_climb_none {sup : σ → Borrowed σ τ} {body : Eff S τ α} {s s' : σ} (h : sup s = .none s')
    (ht : tag s' = tag s) : Does M tag (climb sup body) s (fun L b => L = [] ∧ b = none) := by
  intro g
  refine ⟨.ok none, s', g, [], ?_, by simp, ht, ?_, ⟨[], none, ⟨rfl, rfl⟩, by simp [Machine.steps]⟩,
    fun _ => rfl, by simp, by simp⟩
  · unfold climb; rw [h]
  · intro b hb; cases hb; exact ⟨rfl, rfl⟩

theorem does_climb_some {tag' : τ → κ'} {sup : σ → Borrowed σ τ} {body : Eff S τ α}
    {s : σ} {v back A} (h : sup s = .some v back) (hb : ∀ w, tag' w = tag' v → tag (back w) = tag s)
    (hbody : Does M tag' body v A) :
    Does M tag (climb sup body) s (fun L b => ∃ a, b = some a ∧ A L a) := by
  intro g
  obtain ⟨o, s1, g1, T1, h1, h2, h3, h4, ⟨L, a, h5, h6⟩, h9, h7, h8⟩ := hbody g
  refine ⟨o.map some, back s1, g1, T1, ?_, h2, hb _ h3, ?_, ⟨L, some a, ⟨a, rfl, h5⟩, h6⟩,
    fun h => by have := h9 h; cases o <;> simp_all [Out.map, Out.isOk], ?_, ?_⟩
  · unfold climb; simp [h, h1]
  · intro b hb'
    cases o with
    | ok a => cases hb'; exact ⟨a, rfl, h4 a rfl⟩
    | panic => cases hb'
    | stopped => cases hb'
  · intro hp; have := h7 hp; cases o <;> simp_all [Out.map]
  · intro hp; have := h8 hp; cases o <;> simp_all [Out.map]

theorem does_first {tag' : ρ → κ'} {x : Eff S σ α} {p : σ × ρ} {A} (h : Does M tag x p.1 A) :
    Does M (fun q : σ × ρ => (tag q.1, tag' q.2)) (first x) p A := by
  intro g
  obtain ⟨o, s1, g1, T1, h1, h2, h3, h4⟩ := h g
  refine ⟨o, (s1, p.2), g1, T1, ?_, h2, by simp [h3], h4⟩
  unfold first; rw [h1]

theorem does_second {tag' : ρ → κ'} {x : Eff S σ α} {p : ρ × σ} {A} (h : Does M tag x p.2 A) :
    Does M (fun q : ρ × σ => (tag' q.1, tag q.2)) (second x) p A := by
  intro g
  obtain ⟨o, s1, g1, T1, h1, h2, h3, h4⟩ := h g
  refine ⟨o, (p.1, s1), g1, T1, ?_, h2, by simp [h3], h4⟩
  unfold second; rw [h1]

theorem does_withLocal {x : Eff S (σ × σ) α} {s loc : σ} {A}
    (h : Does M (fun q : σ × σ => (tag q.1, tag q.2)) x (s, loc) A) :
    Does M tag (withLocal loc x) s (fun L r => A L r.1 ∧ tag r.2 = tag loc) := by
  intro g
  obtain ⟨o, p, g1, T1, h1, h2, h3, h4, ⟨L, a, h5, h6⟩, h9, h7, h8⟩ := h g
  simp only [Prod.mk.injEq] at h3
  refine ⟨o.map (·, p.2), p.1, g1, T1, ?_, h2, h3.1, ?_, ⟨L, (a, loc), ⟨h5, rfl⟩, h6⟩, ?_, ?_, ?_⟩
  · unfold withLocal; rw [h1]
  · intro b hb
    cases o with
    | ok a => cases hb; exact ⟨h4 a rfl, h3.2⟩
    | panic => cases hb
    | stopped => cases hb
  · intro h; have := h9 h; cases o <;> simp_all [Out.map, Out.isOk]
  · intro hp; have := h7 hp; cases o <;> simp_all [Out.map]
  · intro hp; have := h8 hp; cases o <;> simp_all [Out.map]

end rules

/-! ## Callbacks -/

section callbacks
variable (hF : m.Static F)
include hF

theorem doesHandler (ev : S.Ev) (s : S.St) : Does m.forget m.base.discr (callHandler m.base ev) s (fun L r =>
    L = [.handler (.leaf (m.base.discr s)) ev, .returned (.leaf (m.base.discr s)) r]) :=
  does_callHandler hF.follows ev s

theorem doesSupHandler (ev : S.Ev) (s : S.Sup) : Does m.forget m.base.supDiscr (callSupHandler m.base ev) s (fun L r =>
    L = [.handler (.sup (m.base.supDiscr s)) ev, .returned (.sup (m.base.supDiscr s)) r]) :=
  does_callSupHandler hF.follows ev s

theorem doesEntry (s : S.St) :
    Does m.forget m.base.discr (callEntry m.base) s (fun L _ => L = [.entry (.leaf (m.base.discr s))]) :=
  does_callEntry hF.follows s

theorem doesExit (s : S.St) :
    Does m.forget m.base.discr (callExit m.base) s (fun L _ => L = [.exit (.leaf (m.base.discr s))]) :=
  does_callExit hF.follows s

theorem doesSupEntry (s : S.Sup) :
    Does m.forget m.base.supDiscr (callSupEntry m.base) s (fun L _ => L = [.entry (.sup (m.base.supDiscr s))]) :=
  does_callSupEntry hF.follows s

theorem doesSupExit (s : S.Sup) :
    Does m.forget m.base.supDiscr (callSupExit m.base) s (fun L _ => L = [.exit (.sup (m.base.supDiscr s))]) :=
  does_callSupExit hF.follows s

omit hF in
theorem doesBeforeDispatch (ev : S.Ev) (s : S.St) : Does m.forget m.base.discr (hookBeforeDispatch m.base ev) s
    (fun L _ => L = [.beforeDispatch (.leaf (m.base.discr s)) ev]) :=
  does_hookBeforeDispatch (m := m.forget) ev s

omit hF in
theorem doesAfterDispatch (ev : S.Ev) (s : S.St) : Does m.forget m.base.discr (hookAfterDispatch m.base ev) s
    (fun L _ => L = [.afterDispatch (.leaf (m.base.discr s)) ev]) :=
  does_hookAfterDispatch (m := m.forget) ev s

omit hF in
theorem doesSupBeforeDispatch (ev : S.Ev) (s : S.Sup) : Does m.forget m.base.supDiscr (hookSupBeforeDispatch m.base ev) s
    (fun L _ => L = [.beforeDispatch (.sup (m.base.supDiscr s)) ev]) :=
  does_hookSupBeforeDispatch (m := m.forget) ev s

omit hF in
theorem doesSupAfterDispatch (ev : S.Ev) (s : S.Sup) : Does m.forget m.base.supDiscr (hookSupAfterDispatch m.base ev) s
    (fun L _ => L = [.afterDispatch (.sup (m.base.supDiscr s)) ev]) :=
  does_hookSupAfterDispatch (m := m.forget) ev s

omit hF in
theorem doesBeforeTransition (a b s : S.St) : Does m.forget m.base.discr (hookBeforeTransition m.base a b) s
    (fun L _ => L = [.beforeTransition (m.base.discr a) (m.base.discr b)]) :=
  does_hookBeforeTransition (m := m.forget) a b s

omit hF in
theorem doesAfterTransition (a b s : S.St) : Does m.forget m.base.discr (hookAfterTransition m.base a b) s
    (fun L _ => L = [.afterTransition (m.base.discr a) (m.base.discr b)]) :=
  does_hookAfterTransition (m := m.forget) a b s

/-- Borrow the superstate of a superstate for something with a fixed log. -/
theorem supClimb {α : Type} {body : Eff S S.Sup α} {v : S.Sup} {Ls : S.E → List _}
    (hbody : ∀ w, F.supParent (m.base.supDiscr v) = some (m.base.supDiscr w) →
      Does m.forget m.base.supDiscr body w (fun L _ => L = Ls (m.base.supDiscr w))) :
    Does m.forget m.base.supDiscr (climb m.supSuperstate body) v (fun L _ =>
      L = (F.supParent (m.base.supDiscr v)).elim [] Ls) := by
  cases hs : m.supSuperstate v with
  | panic v' => exact (hF.sup_panic hs).elim
  | none v' =>
    rw [(hF.sup_none hs).1]
    exact (does_climb_none hs (hF.sup_none hs).2).mono (fun L a h => h.1)
  | some w back =>
    obtain ⟨hp, hb⟩ := hF.sup_some hs
    rw [hp]
    refine (does_climb_some hs hb (hbody w hp)).mono ?_
    rintro L _ ⟨a, rfl, h⟩; exact h

/-- Borrow the superstate of a state for something with a fixed log. -/
theorem leafClimb {α : Type} {body : Eff S S.Sup α} {s : S.St} {Ls : S.E → List _}
    (hbody : ∀ w, F.leafParent (m.base.discr s) = some (m.base.supDiscr w) →
      Does m.forget m.base.supDiscr body w (fun L _ => L = Ls (m.base.supDiscr w))) :
    Does m.forget m.base.discr (climb m.superstate body) s (fun L _ =>
      L = (F.leafParent (m.base.discr s)).elim [] Ls) := by
  cases hs : m.superstate s with
  | panic v' => exact (hF.leaf_panic hs).elim
  | none v' =>
    rw [(hF.leaf_none hs).1]
    exact (does_climb_none hs (hF.leaf_none hs).2).mono (fun L a h => h.1)
  | some w back =>
    obtain ⟨hp, hb⟩ := hF.leaf_some hs
    rw [hp]
    refine (does_climb_some hs hb (hbody w hp)).mono ?_
    rintro L _ ⟨a, rfl, h⟩; exact h

end callbacks

/-! ## The hierarchy -/

section hierarchy
variable (hF : m.Static F)
include hF

theorem does_supDepth (v : S.Sup) : Does m.forget m.base.supDiscr m.supDepth v
    (fun L d => L = [] ∧ d = (F.chain (m.base.supDiscr v)).length) := by
  generalize hl : F.supAnc (m.base.supDiscr v) = l
  induction l generalizing v with
  | nil =>
    rw [supDepth]
    cases hs : m.supSuperstate v with
    | panic v' => exact (hF.sup_panic hs).elim
    | none v' =>
      refine (does_climb_none hs (hF.sup_none hs).2).bindNil fun s' _ => ?_
      refine (Does.pure 1 s').mono ?_
      rintro L d ⟨rfl, rfl⟩
      exact ⟨rfl, by simp [Forest.chain, hl]⟩
    | some w back =>
      rw [F.supAnc_eq', (hF.sup_some hs).1] at hl
      simp [Forest.chain] at hl
  | cons e l ih =>
    rw [supDepth]
    cases hs : m.supSuperstate v with
    | panic v' => exact (hF.sup_panic hs).elim
    | none v' =>
      rw [F.supAnc_eq', (hF.sup_none hs).1] at hl
      simp at hl
    | some w back =>
      obtain ⟨hp, hb⟩ := hF.sup_some hs
      have hl' := hl
      rw [F.supAnc_eq', hp] at hl'
      have hw : F.supAnc (m.base.supDiscr w) = l := by
        simp only [Forest.chain, List.cons.injEq] at hl'; exact hl'.2
      refine (does_climb_some hs hb (ih w hw)).bindR ?_
      rintro _ s' _ _ ⟨d, rfl, rfl, rfl⟩
      refine ⟨_, Does.pure _ s', ?_⟩
      rintro L d ⟨rfl, rfl⟩
      refine ⟨rfl, ?_⟩
      simp [Forest.chain, hl, hw]

theorem does_depth (s : S.St) : Does m.forget m.base.discr m.depth s
    (fun L d => L = [] ∧ d = (F.leafAnc (m.base.discr s)).length + 1) := by
  unfold depth
  cases hs : m.superstate s with
  | panic v' => exact (hF.leaf_panic hs).elim
  | none v' =>
    refine (does_climb_none hs (hF.leaf_none hs).2).bindNil fun s' _ => ?_
    refine (Does.pure 1 s').mono ?_
    rintro L d ⟨rfl, rfl⟩
    refine ⟨rfl, ?_⟩
    rw [F.leafAnc_eq, (hF.leaf_none hs).1]
    rfl
  | some w back =>
    obtain ⟨hp, hb⟩ := hF.leaf_some hs
    refine (does_climb_some hs hb (does_supDepth hF w)).bindR ?_
    rintro _ s' _ _ ⟨d, rfl, rfl, rfl⟩
    refine ⟨_, Does.pure _ s', ?_⟩
    rintro L d ⟨rfl, rfl⟩
    refine ⟨rfl, ?_⟩
    rw [F.leafAnc_eq, hp]

/-- The variants of two superstates. -/
abbrev supTags (m : Impure S) (p : S.Sup × S.Sup) : S.E × S.E := (m.base.supDiscr p.1, m.base.supDiscr p.2)

/-- The variants of two states. -/
abbrev tags (m : Impure S) (p : S.St × S.St) : S.D × S.D := (m.base.discr p.1, m.base.discr p.2)

/-- The number of superstates that two superstates share, themselves included. -/
def shared (F : Forest S.D S.E) (a b : S.E) : Nat := ((F.chain a).filter (· ∈ F.chain b)).length

omit hF in
theorem does_some {κ : Type} {σ : Type} {tag : σ → κ} {x : Eff S σ (Option Nat)} {d n : Nat} {s : σ}
    (h : Does m.forget tag x s (fun L r => L = [] ∧ r = some d)) :
    Does m.forget tag (x >>= fun r => match r with
      | some d => pure d
      | none => pure n) s (fun L r => L = [] ∧ r = d) :=
  h.bindNil fun s' _ => Does.pure d s'

omit hF in
theorem does_none {κ : Type} {σ : Type} {tag : σ → κ} {x : Eff S σ (Option Nat)} {n : Nat} {s : σ}
    (h : Does m.forget tag x s (fun L r => L = [] ∧ r = none)) :
    Does m.forget tag (x >>= fun r => match r with
      | some d => pure d
      | none => pure n) s (fun L r => L = [] ∧ r = n) :=
  h.bindNil fun s' _ => Does.pure n s'

theorem does_supCommon (p : S.Sup × S.Sup) : Does m.forget m.supTags m.supCommonAncestorDepth p
    (fun L d => L = [] ∧ d = shared F (m.base.supDiscr p.1) (m.base.supDiscr p.2)) := by
  generalize hn : (F.supAnc (m.base.supDiscr p.1)).length + (F.supAnc (m.base.supDiscr p.2)).length = n
  induction n using Nat.strongRecOn generalizing p with
  | _ n ih =>
  rw [supCommonAncestorDepth]
  refine (does_first (does_supDepth hF p.1)).bindNil fun p1 hp1 => ?_
  refine (does_second (does_supDepth hF p1.2)).bindNil fun p2 hp2 => ?_
  have h2 : m.base.supDiscr p2.1 = m.base.supDiscr p.1 ∧ m.base.supDiscr p2.2 = m.base.supDiscr p.2 := by
    have := hp2.trans hp1
    exact Prod.mk.injEq _ _ _ _ ▸ this
  have h1 : m.base.supDiscr p1.2 = m.base.supDiscr p.2 := (Prod.mk.injEq _ _ _ _ ▸ hp1 :
    m.base.supDiscr p1.1 = m.base.supDiscr p.1 ∧ m.base.supDiscr p1.2 = m.base.supDiscr p.2).2
  rw [h1, ← h2.1, ← h2.2]
  rw [← h2.1, ← h2.2] at hn
  clear h1 h2 hp1 hp2 p1 p
  obtain ⟨s, t⟩ := p2
  dsimp only at hn
  have hlen : ∀ e, (F.chain e).length = (F.supAnc e).length + 1 := fun e => by simp [Forest.chain]
  cases hc : compare (F.chain (m.base.supDiscr s)).length (F.chain (m.base.supDiscr t)).length with
  | eq =>
    rw [Nat.compare_eq_eq] at hc
    dsimp only
    refine (Does.self (s, t)).bindNil fun p1 hp1 => ?_
    dsimp only
    have h1 : m.base.supDiscr p1.1 = m.base.supDiscr s ∧ m.base.supDiscr p1.2 = m.base.supDiscr t :=
      Prod.mk.injEq _ _ _ _ ▸ hp1
    by_cases hsame : m.base.supDiscr s = m.base.supDiscr t
    · have hsm : supSameState m.base s t = true := by simp [supSameState, hsame]
      rw [hsm]
      dsimp only
      refine (does_first (does_supDepth hF p1.1)).mono ?_
      rintro L d ⟨rfl, rfl⟩
      refine ⟨rfl, ?_⟩
      rw [h1.1]
      unfold shared
      rw [List.filter_eq_self.2 (fun a ha => by rw [← hsame]; simpa using ha)]
    · have hsm : supSameState m.base s t = false := by simp [supSameState, hsame]
      rw [hsm]
      dsimp only
      have hnot : m.base.supDiscr s ∉ F.chain (m.base.supDiscr t) :=
        F.not_mem_chain_of_length (by omega) hsame
      have hnot' : m.base.supDiscr t ∉ F.chain (m.base.supDiscr s) :=
        F.not_mem_chain_of_length (by omega) (Ne.symm hsame)
      have hfil : shared F (m.base.supDiscr s) (m.base.supDiscr t)
          = ((F.supAnc (m.base.supDiscr s)).filter (· ∈ F.supAnc (m.base.supDiscr t))).length := by
        unfold shared
        conv => lhs; arg 1; arg 2; unfold Forest.chain
        rw [List.filter_cons_of_neg (by simpa using hnot)]
        congr 1
        apply List.filter_congr
        intro a ha
        have : a ≠ m.base.supDiscr t := by
          rintro rfl; exact hnot' (List.mem_cons_of_mem _ ha)
        simp [Forest.chain, this]
      rw [hfil]
      rw [← h1.1, ← h1.2] at hn ⊢
      clear h1 hp1 hfil hnot hnot' hsm hsame hc s t
      obtain ⟨s, t⟩ := p1
      dsimp only at hn ⊢
      cases hs : m.supSuperstate s with
      | panic v' => exact (hF.sup_panic hs).elim
      | none s' =>
        obtain ⟨k1, k2⟩ := hF.sup_none hs
        rw [F.supAnc_eq' (m.base.supDiscr s), k1]
        cases ht : m.supSuperstate t with
        | panic v' => exact (hF.sup_panic ht).elim
        | none t' =>
          exact does_none (does_climb_none (s' := (s', t')) (by simp [both, hs, ht])
            (by simp [k2, (hF.sup_none ht).2]))
        | some w back =>
          exact does_none (does_climb_none (s' := (s', back w)) (by simp [both, hs, ht])
            (by simp [k2, (hF.sup_some ht).2 w rfl]))
      | some v back =>
        obtain ⟨k1, k2⟩ := hF.sup_some hs
        have k3 := F.supAnc_eq' (m.base.supDiscr s)
        rw [k1] at k3
        dsimp only at k3
        cases ht : m.supSuperstate t with
        | panic v' => exact (hF.sup_panic ht).elim
        | none t' =>
          obtain ⟨j1, j2⟩ := hF.sup_none ht
          refine (does_none (does_climb_none (s' := (back v, t')) (by simp [both, hs, ht])
            (by simp [j2, k2 v rfl]))).mono ?_
          rintro L d ⟨rfl, rfl⟩
          refine ⟨rfl, ?_⟩
          rw [F.supAnc_eq' (m.base.supDiscr t), j1]
          simp
        | some w back' =>
          obtain ⟨j1, j2⟩ := hF.sup_some ht
          have j3 := F.supAnc_eq' (m.base.supDiscr t)
          rw [j1] at j3
          dsimp only at j3
          rw [k3, j3]
          have hm := ih (((F.supAnc (m.base.supDiscr v)).length + (F.supAnc (m.base.supDiscr w)).length))
            (by rw [← hn, k3, j3, hlen, hlen]; omega) (v, w) rfl
          refine does_some ((does_climb_some (v := (v, w)) (back := fun q => (back q.1, back' q.2))
            (by simp [both, hs, ht]) ?_ hm).mono ?_)
          · intro q hq
            have hq : m.base.supDiscr q.1 = m.base.supDiscr v ∧ m.base.supDiscr q.2 = m.base.supDiscr w :=
              Prod.mk.injEq _ _ _ _ ▸ hq
            simp [k2 _ hq.1, j2 _ hq.2]
          · rintro L r ⟨a, rfl, rfl, rfl⟩
            exact ⟨rfl, rfl⟩
  | gt =>
    rw [Nat.compare_eq_gt] at hc
    dsimp only at hc ⊢
    have hnot : m.base.supDiscr s ∉ F.chain (m.base.supDiscr t) :=
      F.not_mem_chain_of_length (by omega) (by intro h; rw [h] at hc; omega)
    have hfil : shared F (m.base.supDiscr s) (m.base.supDiscr t)
        = ((F.supAnc (m.base.supDiscr s)).filter (· ∈ F.chain (m.base.supDiscr t))).length := by
      unfold shared
      conv => lhs; arg 1; arg 2; unfold Forest.chain
      rw [List.filter_cons_of_neg (by simpa using hnot)]
    rw [hfil]
    cases hs : m.supSuperstate s with
    | panic v' => exact (hF.sup_panic hs).elim
    | none s' =>
      obtain ⟨k1, k2⟩ := hF.sup_none hs
      rw [F.supAnc_eq' (m.base.supDiscr s), k1]
      exact does_none (does_climb_none (s' := (s', t)) (by simp [left, hs]) (by simp [k2]))
    | some v back =>
      obtain ⟨k1, k2⟩ := hF.sup_some hs
      have k3 := F.supAnc_eq' (m.base.supDiscr s)
      rw [k1] at k3
      dsimp only at k3
      have hm := ih (((F.supAnc (m.base.supDiscr v)).length + (F.supAnc (m.base.supDiscr t)).length))
        (by rw [← hn, k3, hlen]; omega) (v, t) rfl
      rw [k3]
      refine does_some ((does_climb_some (v := (v, t)) (back := fun q => (back q.1, q.2))
        (by simp [left, hs]) ?_ hm).mono ?_)
      · intro q hq
        have hq : m.base.supDiscr q.1 = m.base.supDiscr v ∧ m.base.supDiscr q.2 = m.base.supDiscr t :=
          Prod.mk.injEq _ _ _ _ ▸ hq
        simp [k2 _ hq.1, hq.2]
      · rintro L r ⟨a, rfl, rfl, rfl⟩
        exact ⟨rfl, rfl⟩
  | lt =>
    rw [Nat.compare_eq_lt] at hc
    dsimp only at hc ⊢
    have hnot : m.base.supDiscr t ∉ F.chain (m.base.supDiscr s) :=
      F.not_mem_chain_of_length (by omega) (by intro h; rw [h] at hc; omega)
    have hfil : shared F (m.base.supDiscr s) (m.base.supDiscr t)
        = ((F.chain (m.base.supDiscr s)).filter (· ∈ F.supAnc (m.base.supDiscr t))).length := by
      unfold shared
      congr 1
      apply List.filter_congr
      intro a ha
      have : a ≠ m.base.supDiscr t := by
        rintro rfl; exact hnot ha
      simp [Forest.chain, this]
    rw [hfil]
    cases hs : m.supSuperstate t with
    | panic v' => exact (hF.sup_panic hs).elim
    | none t' =>
      obtain ⟨k1, k2⟩ := hF.sup_none hs
      refine (does_none (does_climb_none (s' := (s, t')) (by simp [right, hs]) (by simp [k2]))).mono ?_
      rintro L d ⟨rfl, rfl⟩
      refine ⟨rfl, ?_⟩
      rw [F.supAnc_eq' (m.base.supDiscr t), k1]
      simp
    | some v back =>
      obtain ⟨k1, k2⟩ := hF.sup_some hs
      have k3 := F.supAnc_eq' (m.base.supDiscr t)
      rw [k1] at k3
      dsimp only at k3
      have hm := ih (((F.supAnc (m.base.supDiscr s)).length + (F.supAnc (m.base.supDiscr v)).length))
        (by rw [← hn, k3, hlen]; omega) (s, v) rfl
      rw [k3]
      refine does_some ((does_climb_some (v := (s, v)) (back := fun q => (q.1, back q.2))
        (by simp [right, hs]) ?_ hm).mono ?_)
      · intro q hq
        have hq : m.base.supDiscr q.1 = m.base.supDiscr s ∧ m.base.supDiscr q.2 = m.base.supDiscr v :=
          Prod.mk.injEq _ _ _ _ ▸ hq
        simp [k2 _ hq.2, hq.1]
      · rintro L r ⟨a, rfl, rfl, rfl⟩
        exact ⟨rfl, rfl⟩

/-- The path computed by the code is the one of a machine without effects. -/
theorem does_transitionPath (s t : S.St) {x n : Nat} (h : Statig.transitionPath m.forget s t = some (.ok (x, n))) :
    Does m.forget m.tags m.transitionPath (s, t) (fun L r => L = [] ∧ r = (x, n)) := by
  unfold transitionPath
  refine (Does.self (s, t)).bindNil fun p hp => ?_
  dsimp only
  by_cases hst : m.base.discr s = m.base.discr t
  · have hsm : sameState m.base s t = true := by simp [sameState, hst]
    rw [if_pos hsm]
    rw [transitionPath_of_eq (m := m.forget) s t hst] at h
    cases h
    exact Does.pure _ _
  · have hsm : sameState m.base s t = false := by simp [sameState, hst]
    rw [if_neg (by simp [hsm])]
    rw [transitionPath_of_ne hF.follows s t hst] at h
    have e1 : ∀ a, m.forget.discr a = m.base.discr a := fun _ => rfl
    simp only [Option.some.injEq, Out.ok.injEq, Prod.mk.injEq, e1] at h
    refine (does_first (does_depth hF p.1)).bindNil fun p1 hp1 => ?_
    refine (does_second (does_depth hF p1.2)).bindNil fun p2 hp2 => ?_
    have h0 : m.base.discr p.1 = m.base.discr s ∧ m.base.discr p.2 = m.base.discr t := Prod.mk.injEq _ _ _ _ ▸ hp
    have h1 : m.base.discr p1.1 = m.base.discr p.1 ∧ m.base.discr p1.2 = m.base.discr p.2 :=
      Prod.mk.injEq _ _ _ _ ▸ hp1
    have h2 : m.base.discr p2.1 = m.base.discr p1.1 ∧ m.base.discr p2.2 = m.base.discr p1.2 :=
      Prod.mk.injEq _ _ _ _ ▸ hp2
    rw [h0.1, h1.2, h0.2]
    rw [h1.1, h0.1, h1.2, h0.2] at h2
    clear h0 h1 hp hp1 hp2 p p1
    obtain ⟨a, b⟩ := p2
    dsimp only at h2
    obtain ⟨ha, hb⟩ := h2
    have hc1 : ((F.leafAnc (m.base.discr s)).filter (· ∈ F.leafAnc (m.base.discr t))).length
        ≤ (F.leafAnc (m.base.discr s)).length := List.length_filter_le _ _
    have hc2 : ((F.leafAnc (m.base.discr s)).filter (· ∈ F.leafAnc (m.base.discr t))).length
        ≤ (F.leafAnc (m.base.discr t)).length := by
      rw [Forest.common_length_comm (F.leafAnc_nodup _) (F.leafAnc_nodup _)]
      exact List.length_filter_le _ _
    obtain ⟨rfl, rfl⟩ := h
    cases hs : m.superstate a with
    | panic v' => exact (hF.leaf_panic hs).elim
    | none a' =>
      obtain ⟨k1, k2⟩ := hF.leaf_none hs
      have k3 := F.leafAnc_eq (m.base.discr s)
      rw [← ha, k1, ha] at k3
      dsimp only at k3
      rw [k3]
      cases ht : m.superstate b with
      | panic v' => exact (hF.leaf_panic ht).elim
      | none b' =>
        refine (does_climb_none (s' := (a', b')) (by simp [both, hs, ht])
          (by simp [k2, (hF.leaf_none ht).2])).bindNil fun p _ => ?_
        exact Does.pure _ p
      | some w back =>
        refine (does_climb_none (s' := (a', back w)) (by simp [both, hs, ht])
          (by simp [k2, (hF.leaf_some ht).2 w rfl])).bindNil fun p _ => ?_
        exact Does.pure _ p
    | some v back =>
      obtain ⟨k1, k2⟩ := hF.leaf_some hs
      have k3 := F.leafAnc_eq (m.base.discr s)
      rw [← ha, k1, ha] at k3
      dsimp only at k3
      cases ht : m.superstate b with
      | panic v' => exact (hF.leaf_panic ht).elim
      | none b' =>
        obtain ⟨j1, j2⟩ := hF.leaf_none ht
        have j3 := F.leafAnc_eq (m.base.discr t)
        rw [← hb, j1, hb] at j3
        dsimp only at j3
        refine (does_climb_none (s' := (back v, b')) (by simp [both, hs, ht])
          (by simp [j2, k2 v rfl])).bindNil fun p _ => ?_
        refine (Does.pure _ p).mono ?_
        rintro L r ⟨rfl, rfl⟩
        rw [j3]
        simp
      | some w back' =>
        obtain ⟨j1, j2⟩ := hF.leaf_some ht
        have j3 := F.leafAnc_eq (m.base.discr t)
        rw [← hb, j1, hb] at j3
        dsimp only at j3
        refine ((does_climb_some (v := (v, w)) (back := fun q => (back q.1, back' q.2)) (by simp [both, hs, ht]) ?_
          (does_supCommon hF (v, w))).mono (B := fun L r => L = [] ∧
            r = some (shared F (m.base.supDiscr v) (m.base.supDiscr w))) ?_).bindNil fun p _ => ?_
        · intro q hq
          have hq : m.base.supDiscr q.1 = m.base.supDiscr v ∧ m.base.supDiscr q.2 = m.base.supDiscr w :=
            Prod.mk.injEq _ _ _ _ ▸ hq
          simp [k2 _ hq.1, j2 _ hq.2]
        · rintro L r ⟨a, rfl, rfl, rfl⟩
          exact ⟨rfl, rfl⟩
        · dsimp only
          rw [k3, j3] at hc1 hc2 ⊢
          refine (Does.lift_ok (by unfold usizeSub; rw [if_pos (by unfold shared; omega)]) _).bindNil fun p _ => ?_
          refine (Does.lift_ok (by unfold usizeSub; rw [if_pos (by unfold shared; omega)]) _).bindNil fun p _ => ?_
          exact Does.pure _ p

end hierarchy

/-! ## Entering and leaving -/

section enterExit
variable (hF : m.Static F)
include hF

theorem does_blockingSupExit (n : Nat) (v : S.Sup) : Does m.forget m.base.supDiscr (m.blockingSupExit n) v
    (fun L _ => L = ((F.up (.sup (m.base.supDiscr v))).take n).map .exit) := by
  induction n generalizing v with
  | zero => exact (Does.pure () v).mono (fun L _ h => by simp [h.1])
  | succ n ih =>
    cases n with
    | zero =>
      unfold blockingSupExit
      exact (doesSupExit hF v).mono (fun L _ h => by rw [up_sup]; simp [h])
    | succ n =>
      unfold blockingSupExit
      rw [take_up_sup, List.map_cons, map_match]
      refine (doesSupExit hF v).seq_cons (fun _ v' hv' => ?_)
      rw [← hv']
      exact (supClimb hF (fun w hw => ih w)).then_pure

theorem does_blockingExit (n : Nat) (s : S.St) : Does m.forget m.base.discr (m.blockingExit n) s
    (fun L _ => L = ((F.path (m.base.discr s)).take n).map .exit) := by
  cases n with
  | zero => exact (Does.pure () s).mono (fun L _ h => by simp [h.1])
  | succ n =>
    cases n with
    | zero =>
      unfold blockingExit
      exact (doesExit hF s).mono (fun L _ h => by rw [up_leaf]; simp [h])
    | succ n =>
      unfold blockingExit
      rw [take_path, List.map_cons, map_match]
      refine (doesExit hF s).seq_cons (fun _ v' hv' => ?_)
      rw [← hv']
      exact (leafClimb hF (fun w hw => does_blockingSupExit hF _ w)).then_pure

theorem does_blockingSupEnter (n : Nat) (v : S.Sup) : Does m.forget m.base.supDiscr (m.blockingSupEnter n) v
    (fun L _ => L = ((F.up (.sup (m.base.supDiscr v))).take n).reverse.map .entry) := by
  induction n generalizing v with
  | zero => exact (Does.pure () v).mono (fun L _ h => by simp [h.1])
  | succ n ih =>
    cases n with
    | zero =>
      unfold blockingSupEnter
      exact (doesSupEntry hF v).mono (fun L _ h => by rw [up_sup]; simp [h])
    | succ n =>
      unfold blockingSupEnter
      rw [take_up_sup, List.reverse_cons, List.map_append, reverse_match, map_match]
      refine (supClimb hF (fun w hw => ih w)).seq (fun _ v' hv' => ?_)
      rw [← hv']
      exact doesSupEntry hF v'

theorem does_blockingEnter (n : Nat) (s : S.St) : Does m.forget m.base.discr (m.blockingEnter n) s
    (fun L _ => L = ((F.path (m.base.discr s)).take n).reverse.map .entry) := by
  cases n with
  | zero => exact (Does.pure () s).mono (fun L _ h => by simp [h.1])
  | succ n =>
    cases n with
    | zero =>
      unfold blockingEnter
      exact (doesEntry hF s).mono (fun L _ h => by rw [up_leaf]; simp [h])
    | succ n =>
      unfold blockingEnter
      rw [take_path, List.reverse_cons, List.map_append, reverse_match, map_match]
      refine (leafClimb hF (fun w hw => does_blockingSupEnter hF _ w)).seq (fun _ v' hv' => ?_)
      rw [← hv']
      exact doesEntry hF v'

theorem does_awaitableExitLoop (n : Nat) (v : S.Sup) :
    Does m.forget m.base.supDiscr (m.awaitableExitLoop (n + 1)) v
      (fun L _ => L = ((F.up (.sup (m.base.supDiscr v))).take n).map .exit) := by
  induction n generalizing v with
  | zero => exact (Does.pure () v).mono (fun L _ h => by simp [h.1])
  | succ n ih =>
    unfold awaitableExitLoop
    rw [take_up_sup, List.map_cons, map_match]
    refine (doesSupExit hF v).seq_cons (fun _ v' hv' => ?_)
    rw [← hv']
    exact (supClimb hF (fun w hw => ih w)).then_pure

theorem does_awaitableExit (n : Nat) (s : S.St) : Does m.forget m.base.discr (m.awaitableExit n) s
    (fun L _ => L = ((F.path (m.base.discr s)).take n).map .exit) := by
  unfold awaitableExit
  cases n with
  | zero =>
    rw [if_neg (by omega)]
    refine (leafClimb hF (s := s) (Ls := fun _ => []) (fun w hw =>
      (Does.pure () w).mono (fun L _ h => by simp [h.1]))).then_pure.mono (fun L _ h => ?_)
    rw [h]; cases F.leafParent (m.base.discr s) <;> rfl
  | succ n =>
    rw [if_pos (by omega), take_path, List.map_cons, map_match]
    refine (doesExit hF s).seq_cons (fun _ v' hv' => ?_)
    rw [← hv']
    exact (leafClimb hF (fun w hw => does_awaitableExitLoop hF _ w)).then_pure

theorem does_awaitableClimbEntry (n : Nat) (v : S.Sup) :
    Does m.forget m.base.supDiscr (m.awaitableClimbEntry n) v
      (fun L _ => L = [.entry (.sup (climbTo F n (m.base.supDiscr v)))]) := by
  induction n generalizing v with
  | zero => exact doesSupEntry hF v
  | succ n ih =>
    unfold awaitableClimbEntry climbTo
    cases hs : m.supSuperstate v with
    | panic v' => exact (hF.sup_panic hs).elim
    | none v' =>
      obtain ⟨k1, k2⟩ := hF.sup_none hs
      rw [k1]
      refine (does_climb_none hs k2).bindNil fun s' hs' => ?_
      dsimp only
      rw [← hs']
      exact doesSupEntry hF s'
    | some w back =>
      obtain ⟨k1, k2⟩ := hF.sup_some hs
      rw [k1]
      refine (does_climb_some hs k2 (ih w)).bindR ?_
      rintro _ s' L _ ⟨_, rfl, hL⟩
      refine ⟨_, Does.pure () s', ?_⟩
      rintro L2 _ ⟨rfl, -⟩
      simpa using hL

theorem does_awaitableEnter' (n : Nat) (s : S.St) : Does m.forget m.base.discr (m.awaitableEnter n) s
    (fun L _ => L = (awaitEntered F (m.base.discr s) n).map .entry) := by
  induction n generalizing s with
  | zero => exact (Does.pure () s).mono (fun L _ h => by simp [h.1, awaitEntered])
  | succ n ih =>
    cases n with
    | zero => exact doesEntry hF s
    | succ n =>
      unfold awaitableEnter awaitEntered
      rw [List.map_append, map_match]
      refine (leafClimb hF (fun w hw => does_awaitableClimbEntry hF _ w)).seq (fun _ s' hs' => ?_)
      rw [← hs']
      exact ih s'


theorem does_awaitableEnter (n : Nat) (s : S.St) (hn : n ≤ (F.path (m.base.discr s)).length) :
    Does m.forget m.base.discr (m.awaitableEnter n) s
      (fun L _ => L = ((F.path (m.base.discr s)).take n).reverse.map .entry) := by
  refine (does_awaitableEnter' hF n s).mono (fun L _ h => ?_)
  rw [h, awaitEntered_eq]
  have : n - (F.path (m.base.discr s)).length = 0 := by omega
  rw [this]
  cases (F.leafAnc (m.base.discr s)).getLast? <;> simp

theorem does_exitMode (mode : Mode) (n : Nat) (s : S.St) : Does m.forget m.base.discr (m.exit mode n) s
    (fun L _ => L = ((F.path (m.base.discr s)).take n).map .exit) := by
  cases mode
  · exact does_blockingExit hF n s
  · exact does_awaitableExit hF n s

theorem does_enterMode (mode : Mode) (n : Nat) (s : S.St) (hn : n ≤ (F.path (m.base.discr s)).length) :
    Does m.forget m.base.discr (m.enter mode n) s
      (fun L _ => L = ((F.path (m.base.discr s)).take n).reverse.map .entry) := by
  cases mode
  · exact does_blockingEnter hF n s
  · exact does_awaitableEnter hF n s hn

theorem does_initMode (mode : Mode) (s : S.St) :
    Does m.forget m.base.discr (m.init mode) s (fun L _ => L = initLog F (m.base.discr s)) := by
  unfold init
  refine (does_depth hF s).bindNil fun s1 hs1 => ?_
  have hl : (F.path (m.base.discr s)).length = (F.leafAnc (m.base.discr s)).length + 1 := by
    simp [Forest.path, Forest.up, Forest.anc]
  refine (does_enterMode hF mode _ s1 (by rw [hs1, hl]; exact Nat.le_refl _)).mono ?_
  rintro L _ rfl
  rw [hs1, ← hl]
  simp [initLog]

end enterExit

/-! ## Dispatch -/

section dispatch
variable (hF : m.Static F)
include hF

omit hF in
/-- Blocking: what a superstate surrounded by its dispatch hooks does. -/
theorem does_announce (ev : S.Ev) (v : S.Sup) {P : List (Node S.D S.E × Response S.St) → Response S.St → Prop}
    (hcl : ∀ cl r, P cl r → ∃ r0 rest, cl = (.sup (m.base.supDiscr v), r0) :: rest)
    (h : ∀ v', m.base.supDiscr v' = m.base.supDiscr v →
      Does m.forget m.base.supDiscr (m.blockingSupHandle ev) v' (fun L r => ∃ cl, P cl r ∧ L = bodyLog ev cl)) :
    Does m.forget m.base.supDiscr (do
      hookSupBeforeDispatch m.base ev
      let response ← m.blockingSupHandle ev
      hookSupAfterDispatch m.base ev
      pure response) v (fun L r => ∃ cl, P cl r ∧ L = nestedLog ev cl) := by
  refine (doesSupBeforeDispatch ev v).bindR ?_
  rintro _ v1 _ hv1 rfl
  refine ⟨fun L2 r => ∃ cl, P cl r ∧ [.beforeDispatch (.sup (m.base.supDiscr v)) ev] ++ L2 = nestedLog ev cl,
    ?_, fun L2 r h => h⟩
  refine (h v1 hv1).bindR ?_
  rintro r v2 _ hv2 ⟨cl, hP, rfl⟩
  obtain ⟨r0, rest, rfl⟩ := hcl cl r hP
  refine ⟨_, ((doesSupAfterDispatch ev v2).bind (fun _ s' _ => Does.pure r s')), ?_⟩
  rintro L2 r' ⟨l1, _, l2, rfl, ⟨rfl, rfl⟩, rfl⟩
  refine ⟨_, hP, ?_⟩
  rw [hv2, hv1]
  simp [bodyLog, nestedLog]

omit hF in
/-- The response of a superstate, or what is returned if there is none. -/
theorem does_answer {σ : Type} {κ : Type} {tag : σ → κ} {x : Eff S σ (Option (Response S.St))} {r0 : Response S.St}
    {s : σ} {A : List (Step S.D S.E S.Ev S.St) → Response S.St → Prop}
    (h : Does m.forget tag x s (fun L r => ∃ a, r = some a ∧ A L a)) :
    Does m.forget tag (x >>= fun r => match r with
      | some response => pure response
      | none => pure r0) s A := by
  refine h.bindR ?_
  rintro _ s' L _ ⟨a, rfl, hL⟩
  refine ⟨_, Does.pure a s', ?_⟩
  rintro L2 b ⟨rfl, rfl⟩
  simpa using hL

omit hF in
theorem does_noAnswer {σ : Type} {κ : Type} {tag : σ → κ} {x : Eff S σ (Option (Response S.St))} {r0 : Response S.St}
    {s : σ} (h : Does m.forget tag x s (fun L r => L = [] ∧ r = none)) :
    Does m.forget tag (x >>= fun r => match r with
      | some response => pure response
      | none => pure r0) s (fun L r => L = [] ∧ r = r0) :=
  h.bindNil fun s' _ => Does.pure r0 s'

theorem does_blockingSupHandle (ev : S.Ev) (v : S.Sup) :
    Does m.forget m.base.supDiscr (m.blockingSupHandle ev) v (fun L r =>
      ∃ cl, (Climb (F.up (.sup (m.base.supDiscr v))) cl ∧ lastResponse cl = some r) ∧
        L = bodyLog ev cl) := by
  generalize hl : F.chain (m.base.supDiscr v) = l
  induction l generalizing v with
  | nil => simp [Forest.chain] at hl
  | cons e l ih =>
    rw [blockingSupHandle]
    refine (doesSupHandler hF ev v).bindR ?_
    rintro r v1 _ hv1 rfl
    cases r with
    | handled =>
      refine ⟨_, Does.pure _ v1, ?_⟩
      rintro L2 b ⟨rfl, rfl⟩
      refine ⟨[(.sup (m.base.supDiscr v), .handled)], ⟨?_, rfl⟩, by simp [bodyLog, nestedLog]⟩
      rw [up_sup]; exact Climb.stop (r := .handled) (by simp)
    | transition t =>
      refine ⟨_, Does.pure _ v1, ?_⟩
      rintro L2 b ⟨rfl, rfl⟩
      refine ⟨[(.sup (m.base.supDiscr v), .transition t)], ⟨?_, rfl⟩, by simp [bodyLog, nestedLog]⟩
      rw [up_sup]; exact Climb.stop (r := .transition t) (by simp)
    | super =>
      cases hs : m.supSuperstate v1 with
      | panic v' => exact (hF.sup_panic hs).elim
      | none v' =>
        obtain ⟨k1, k2⟩ := hF.sup_none hs
        refine ⟨_, does_noAnswer (does_climb_none hs k2), ?_⟩
        rintro L2 b ⟨rfl, rfl⟩
        refine ⟨[(.sup (m.base.supDiscr v), .super)], ⟨?_, rfl⟩, by simp [bodyLog, nestedLog]⟩
        rw [up_sup, ← hv1, k1]; exact Climb.top
      | some w back =>
        obtain ⟨k1, k2⟩ := hF.sup_some hs
        have hwl : F.chain (m.base.supDiscr w) = l := by
          have h2 := F.supAnc_eq' (m.base.supDiscr v)
          rw [← hv1, k1, hv1] at h2
          simp only [Forest.chain, List.cons.injEq] at hl h2 ⊢
          rw [← hl.2, h2]
        have hup : F.up (.sup (m.base.supDiscr v)) = .sup (m.base.supDiscr v) :: F.up (.sup (m.base.supDiscr w)) := by
          rw [up_sup, ← hv1, k1]; rfl
        rw [hup]
        refine ⟨_, does_answer (does_climb_some hs k2 (does_announce ev w (P := fun cl r =>
          Climb (F.up (.sup (m.base.supDiscr w))) cl ∧ lastResponse cl = some r) ?_ ?_)), ?_⟩
        · rintro cl r ⟨h1, h2⟩
          obtain ⟨n, r0, rest, p, rfl, hp⟩ := h1.head
          rw [up_sup] at hp
          injection hp with hp1 hp2
          exact ⟨r0, rest, by rw [hp1]⟩
        · intro v' hv'
          have := ih v' (by rw [hv']; exact hwl)
          rw [hv'] at this
          exact this
        · rintro L2 b ⟨cl, ⟨h1, h2⟩, rfl⟩
          refine ⟨_, ⟨Climb.up h1, ?_⟩, ?_⟩
          · rw [lastResponse_cons _ h1.ne_nil]; exact h2
          · simp [bodyLog]

theorem does_blockingHandle (ev : S.Ev) (s : S.St) :
    Does m.forget m.base.discr (m.blockingHandle ev) s (fun L r =>
      ∃ cl, Climb (F.path (m.base.discr s)) cl ∧ lastResponse cl = some r ∧ L = blockingLog ev cl) := by
  unfold blockingHandle
  refine (doesBeforeDispatch ev s).bindR ?_
  rintro _ s1 _ hs1 rfl
  refine ⟨_, ?_, fun L2 b h => h⟩
  refine (doesHandler hF ev s1).bindR ?_
  rintro r s2 _ hs2 rfl
  refine ⟨_, ?_, fun L2 b h => h⟩
  refine (doesAfterDispatch ev s2).bindR ?_
  rintro _ s3 _ hs3 rfl
  rw [hs2, hs1]
  rw [hs2, hs1] at hs3
  cases r with
  | handled =>
    refine ⟨_, Does.pure _ s3, ?_⟩
    rintro L2 b ⟨rfl, rfl⟩
    exact ⟨_, Climb.stop (r := .handled) (by simp), rfl, by simp [blockingLog, nestedLog]⟩
  | transition t =>
    refine ⟨_, Does.pure _ s3, ?_⟩
    rintro L2 b ⟨rfl, rfl⟩
    exact ⟨_, Climb.stop (r := .transition t) (by simp), rfl, by simp [blockingLog, nestedLog]⟩
  | super =>
    cases hs : m.superstate s3 with
    | panic v' => exact (hF.leaf_panic hs).elim
    | none v' =>
      obtain ⟨k1, k2⟩ := hF.leaf_none hs
      have hp : F.path (m.base.discr s) = [.leaf (m.base.discr s)] := by
        rw [up_leaf, ← hs3, k1]; rfl
      rw [hp]
      refine ⟨_, does_noAnswer (does_climb_none hs k2), ?_⟩
      rintro L2 b ⟨rfl, rfl⟩
      exact ⟨_, Climb.top, rfl, by simp [blockingLog, nestedLog]⟩
    | some w back =>
      obtain ⟨k1, k2⟩ := hF.leaf_some hs
      have hp : F.path (m.base.discr s) = .leaf (m.base.discr s) :: F.up (.sup (m.base.supDiscr w)) := by
        rw [up_leaf, ← hs3, k1]; rfl
      rw [hp]
      refine ⟨_, does_answer (does_climb_some hs k2 (does_announce ev w (P := fun cl r =>
        Climb (F.up (.sup (m.base.supDiscr w))) cl ∧ lastResponse cl = some r) ?_ ?_)), ?_⟩
      · rintro cl r ⟨h1, h2⟩
        obtain ⟨n, r0, rest, p, rfl, hp⟩ := h1.head
        rw [up_sup] at hp
        injection hp with hp1 hp2
        exact ⟨r0, rest, by rw [hp1]⟩
      · intro v' hv'
        have := does_blockingSupHandle hF ev v'
        rw [hv'] at this
        exact this
      · rintro L2 b ⟨cl, ⟨h1, h2⟩, rfl⟩
        refine ⟨_, Climb.up h1, ?_, ?_⟩
        · rw [lastResponse_cons _ h1.ne_nil]; exact h2
        · simp [blockingLog]

theorem does_awaitableHandleLoop (ev : S.Ev) (v : S.Sup) :
    Does m.forget m.base.supDiscr (m.awaitableHandleLoop ev) v (fun L r =>
      ∃ cl x, Climb (F.up (.sup (m.base.supDiscr v))) cl ∧ lastResponse cl = some x ∧
        r = superToHandled x ∧ L = sequentialLog ev cl) := by
  generalize hl : F.chain (m.base.supDiscr v) = l
  induction l generalizing v with
  | nil => simp [Forest.chain] at hl
  | cons e l ih =>
    rw [awaitableHandleLoop]
    refine (doesSupBeforeDispatch ev v).bindR ?_
    rintro _ v1 _ hv1 rfl
    refine ⟨_, ?_, fun L2 b h => h⟩
    refine (doesSupHandler hF ev v1).bindR ?_
    rintro r v2 _ hv2 rfl
    refine ⟨_, ?_, fun L2 b h => h⟩
    refine (doesSupAfterDispatch ev v2).bindR ?_
    rintro _ v3 _ hv3 rfl
    rw [hv2, hv1]
    rw [hv2, hv1] at hv3
    cases r with
    | handled =>
      refine ⟨_, Does.pure _ v3, ?_⟩
      rintro L2 b ⟨rfl, rfl⟩
      refine ⟨[(.sup (m.base.supDiscr v), .handled)], .handled, ?_, rfl, rfl, by simp [sequentialLog]⟩
      rw [up_sup]; exact Climb.stop (r := .handled) (by simp)
    | transition t =>
      refine ⟨_, Does.pure _ v3, ?_⟩
      rintro L2 b ⟨rfl, rfl⟩
      refine ⟨[(.sup (m.base.supDiscr v), .transition t)], .transition t, ?_, rfl, rfl, by simp [sequentialLog]⟩
      rw [up_sup]; exact Climb.stop (r := .transition t) (by simp)
    | super =>
      cases hs : m.supSuperstate v3 with
      | panic v' => exact (hF.sup_panic hs).elim
      | none v' =>
        obtain ⟨k1, k2⟩ := hF.sup_none hs
        refine ⟨_, does_noAnswer (does_climb_none hs k2), ?_⟩
        rintro L2 b ⟨rfl, rfl⟩
        refine ⟨[(.sup (m.base.supDiscr v), .super)], .super, ?_, rfl, rfl, by simp [sequentialLog]⟩
        rw [up_sup, ← hv3, k1]; exact Climb.top
      | some w back =>
        obtain ⟨k1, k2⟩ := hF.sup_some hs
        have hwl : F.chain (m.base.supDiscr w) = l := by
          have h2 := F.supAnc_eq' (m.base.supDiscr v)
          rw [← hv3, k1, hv3] at h2
          simp only [Forest.chain, List.cons.injEq] at hl h2 ⊢
          rw [← hl.2, h2]
        have hup : F.up (.sup (m.base.supDiscr v)) = .sup (m.base.supDiscr v) :: F.up (.sup (m.base.supDiscr w)) := by
          rw [up_sup, ← hv3, k1]; rfl
        rw [hup]
        refine ⟨_, does_answer (does_climb_some hs k2 (ih w hwl)), ?_⟩
        rintro L2 b ⟨cl, x, h1, h2, h3, rfl⟩
        refine ⟨_, x, Climb.up h1, ?_, h3, ?_⟩
        · rw [lastResponse_cons _ h1.ne_nil]; exact h2
        · simp [sequentialLog]

theorem does_awaitableHandle (ev : S.Ev) (s : S.St) :
    Does m.forget m.base.discr (m.awaitableHandle ev) s (fun L r =>
      ∃ cl x, Climb (F.path (m.base.discr s)) cl ∧ lastResponse cl = some x ∧
        (∀ t, r = .transition t ↔ x = .transition t) ∧ L = sequentialLog ev cl) := by
  unfold awaitableHandle
  refine (doesBeforeDispatch ev s).bindR ?_
  rintro _ s1 _ hs1 rfl
  refine ⟨_, ?_, fun L2 b h => h⟩
  refine (doesHandler hF ev s1).bindR ?_
  rintro r s2 _ hs2 rfl
  refine ⟨_, ?_, fun L2 b h => h⟩
  refine (doesAfterDispatch ev s2).bindR ?_
  rintro _ s3 _ hs3 rfl
  rw [hs2, hs1]
  rw [hs2, hs1] at hs3
  cases r with
  | handled =>
    refine ⟨_, Does.pure _ s3, ?_⟩
    rintro L2 b ⟨rfl, rfl⟩
    exact ⟨_, _, Climb.stop (r := .handled) (by simp), rfl, fun t => Iff.rfl, by simp [sequentialLog]⟩
  | transition t =>
    refine ⟨_, Does.pure _ s3, ?_⟩
    rintro L2 b ⟨rfl, rfl⟩
    exact ⟨_, _, Climb.stop (r := .transition t) (by simp), rfl, fun t => Iff.rfl, by simp [sequentialLog]⟩
  | super =>
    cases hs : m.superstate s3 with
    | panic v' => exact (hF.leaf_panic hs).elim
    | none v' =>
      obtain ⟨k1, k2⟩ := hF.leaf_none hs
      have hp : F.path (m.base.discr s) = [.leaf (m.base.discr s)] := by
        rw [up_leaf, ← hs3, k1]; rfl
      rw [hp]
      refine ⟨_, does_noAnswer (does_climb_none hs k2), ?_⟩
      rintro L2 b ⟨rfl, rfl⟩
      exact ⟨_, _, Climb.top, rfl, fun t => Iff.rfl, by simp [sequentialLog]⟩
    | some w back =>
      obtain ⟨k1, k2⟩ := hF.leaf_some hs
      have hp : F.path (m.base.discr s) = .leaf (m.base.discr s) :: F.up (.sup (m.base.supDiscr w)) := by
        rw [up_leaf, ← hs3, k1]; rfl
      rw [hp]
      refine ⟨_, does_answer (does_climb_some hs k2 (does_awaitableHandleLoop hF ev w)), ?_⟩
      rintro L2 b ⟨cl, x, h1, h2, rfl, rfl⟩
      refine ⟨_, x, Climb.up h1, ?_, fun t => superToHandled_transition, ?_⟩
      · rw [lastResponse_cons _ h1.ne_nil]; exact h2
      · simp [sequentialLog]

theorem does_handleMode (mode : Mode) (ev : S.Ev) (s : S.St) :
    Does m.forget m.base.discr (m.handle mode ev) s (fun L r =>
      ∃ cl x, Climb (F.path (m.base.discr s)) cl ∧ lastResponse cl = some x ∧
        (∀ t, r = .transition t ↔ x = .transition t) ∧ L = dispatchLog mode ev cl) := by
  cases mode with
  | blocking =>
    refine (does_blockingHandle hF ev s).mono ?_
    rintro L r ⟨cl, h1, h2, h3⟩
    exact ⟨cl, r, h1, h2, fun t => Iff.rfl, h3⟩
  | awaitable => exact does_awaitableHandle hF ev s

end dispatch

/-! ## Transitions -/

/-- The call of `before_transition`. -/
def before (m : Impure S) (mode : Mode) (s t : S.St) : Eff S S.St Unit :=
  match mode with
  | .blocking => hookBeforeTransition m.base t s
  | .awaitable => hookBeforeTransition m.base s t

/-- First part of a transition: everything up to the swap; returns the number of levels to enter, and the target. -/
def leave (m : Impure S) (mode : Mode) (target : S.St) : Eff S S.St (Nat × S.St) := do
  let s ← Eff.self
  m.before mode s target
  let r ← withLocal target (transitionPath m)
  m.exit mode r.1.1
  pure (r.1.2, r.2)

/-- Last part of a transition, after the swap. -/
def arrive (m : Impure S) (mode : Mode) (old : S.St) (n : Nat) : Eff S S.St Unit := do
  m.enter mode n
  let new ← Eff.self
  hookAfterTransition m.base old new

theorem transition_parts (mode : Mode) (t : S.St) : m.transition mode t = (do
    let r ← m.leave mode t
    let old ← Eff.swap r.2
    m.arrive mode old r.1) := by
  unfold transition leave arrive before
  simp only [bind_assoc, pure_bind]
  cases mode <;> rfl

section transitions
variable (hF : m.Static F)
include hF

omit hF in
theorem does_beforeMode (mode : Mode) (s t s0 : S.St) : Does m.forget m.base.discr (m.before mode s t) s0
    (fun L _ => L = [mode.beforeStep (m.base.discr s) (m.base.discr t)]) := by
  cases mode
  · exact doesBeforeTransition t s s0
  · exact doesBeforeTransition s t s0

theorem does_leaveMode (mode : Mode) (s t : S.St) : Does m.forget m.base.discr (m.leave mode t) s (fun L r =>
    r.1 ≤ (F.path (m.base.discr t)).length ∧ F.entries (m.base.discr s) (m.base.discr t) ≠ [] ∧
    F.entries (m.base.discr s) (m.base.discr t) = ((F.path (m.base.discr t)).take r.1).reverse ∧
    m.base.discr r.2 = m.base.discr t ∧
    L = mode.beforeStep (m.base.discr s) (m.base.discr t) ::
      (F.exits (m.base.discr s) (m.base.discr t)).map .exit) := by
  unfold leave
  refine (Does.self s).bindR ?_
  rintro _ s1 _ hs1 ⟨rfl, rfl⟩
  refine ⟨_, ?_, fun L2 b h => h⟩
  refine (does_beforeMode mode _ t s1).bindR ?_
  rintro _ s2 _ hs2 rfl
  refine ⟨_, ?_, fun L2 b h => h⟩
  obtain ⟨x, n, hp, h1, h2, h3, h4, h5, h6⟩ := transitionPath_spec hF.follows s2 t
  refine (does_withLocal (does_transitionPath hF s2 t hp)).bindR ?_
  rintro ⟨_, t'⟩ s3 _ hs3 ⟨⟨rfl, rfl⟩, ht⟩
  dsimp only at ht
  refine ⟨_, ?_, fun L2 b h => h⟩
  refine (does_exitMode hF mode x s3).bindR ?_
  rintro _ s4 _ hs4 rfl
  refine ⟨_, Does.pure _ s4, ?_⟩
  rintro L2 b ⟨rfl, rfl⟩
  have e1 : ∀ a, m.forget.discr a = m.base.discr a := fun _ => rfl
  simp only [e1] at h2 h4 h5 h6
  have hs21 := hs2.trans hs1
  rw [hs21] at h2 h5 h6
  refine ⟨h4, ?_, h6, ht, ?_⟩
  · rw [h6]; intro h; have := congrArg List.length h
    simp only [List.length_reverse, List.length_take, List.length_nil] at this; omega
  rw [hs3, hs21, h5]
  simp

theorem does_arriveMode (mode : Mode) (old s : S.St) (n : Nat) (hn : n ≤ (F.path (m.base.discr s)).length) :
    Does m.forget m.base.discr (m.arrive mode old n) s (fun L _ =>
      L = ((F.path (m.base.discr s)).take n).reverse.map .entry ++
        [.afterTransition (m.base.discr old) (m.base.discr s)]) := by
  unfold arrive
  refine (does_enterMode hF mode n s hn).seq ?_
  intro _ s1 hs1
  refine ((Does.self s1).bind (fun a s2 hs2 => doesAfterTransition old a s2)).mono ?_
  rintro L _ ⟨l1, a, l2, ⟨rfl, rfl⟩, rfl, rfl⟩
  rw [hs1]; rfl

/-- Everything about one transition. -/
theorem transition_static (mode : Mode) (s t : S.St) (g : Glob S) :
    ∃ o s' g' T, m.transition mode t s g = some (o, s', g') ∧ g'.trace = g.trace ++ T ∧
      (o = .ok () → m.forget.steps T = transitionLog mode F (m.base.discr s) (m.base.discr t)) ∧
      m.forget.steps T <+: transitionLog mode F (m.base.discr s) (m.base.discr t) ∧
      m.base.discr s' = (if entriesOf (m.forget.steps T) = [] then m.base.discr s else m.base.discr t) ∧
      (m.forget.NoPanic → o ≠ .panic) ∧ (m.forget.NoSuspend → o ≠ .stopped) := by
  have hlog : transitionLog mode F (m.base.discr s) (m.base.discr t) =
      (mode.beforeStep (m.base.discr s) (m.base.discr t) :: (F.exits (m.base.discr s) (m.base.discr t)).map .exit) ++
      ((F.entries (m.base.discr s) (m.base.discr t)).map .entry ++
        [Step.afterTransition (V := S.Ev) (T := S.St) (m.base.discr s) (m.base.discr t)]) := by
    cases mode <;> simp [transitionLog, Mode.beforeStep]
  have hno : entriesOf (mode.beforeStep (S := S) (m.base.discr s) (m.base.discr t) ::
      (F.exits (m.base.discr s) (m.base.discr t)).map .exit) = [] := by
    cases mode <;> simp [entriesOf, Mode.beforeStep]
  obtain ⟨o, s1, g1, T1, h1, h2, h3, h4, ⟨L, a, ⟨-, -, -, -, h5⟩, h6⟩, h9, h7, h8⟩ := does_leaveMode hF mode s t g
  have hbind : m.transition mode t s g = Eff.bind (m.leave mode t) (fun r => Eff.bind (Eff.swap r.2)
      (fun old => m.arrive mode old r.1)) s g := by rw [transition_parts]; rfl
  subst h5
  cases o with
  | panic =>
    refine ⟨.panic, s1, g1, T1, ?_, h2, by simp, ?_, ?_, by simpa using h7, by simp⟩
    · rw [hbind]; unfold Eff.bind; rw [h1]
    · rw [hlog]; exact h6.trans (List.prefix_append _ _)
    · rw [if_pos (entriesOf_prefix h6 hno), h3]
  | stopped =>
    refine ⟨.stopped, s1, g1, T1, ?_, h2, by simp, ?_, ?_, by simp, by simpa using h8⟩
    · rw [hbind]; unfold Eff.bind; rw [h1]
    · rw [hlog]; exact h6.trans (List.prefix_append _ _)
    · rw [if_pos (entriesOf_prefix h6 hno), h3]
  | ok r =>
    obtain ⟨n, t'⟩ := r
    obtain ⟨hn, hne, hent, ht, hT1⟩ := h4 _ rfl
    dsimp only at hn hent ht
    obtain ⟨o, s2, g2, T2, k1, k2, k3, k4, ⟨L', a', k5, k6⟩, k9, k7, k8⟩ :=
      does_arriveMode hF mode s1 t' n (by rw [ht]; exact hn) g1
    rw [ht, ← hent, h3] at k4 k5
    subst k5
    have hsteps : m.forget.steps (T1 ++ T2) = m.forget.steps T1 ++ m.forget.steps T2 := by simp [Machine.steps]
    refine ⟨o, s2, g2, T1 ++ T2, ?_, ?_, ?_, ?_, ?_, k7, k8⟩
    · rw [hbind]; unfold Eff.bind; rw [h1]; exact k1
    · rw [k2, h2, List.append_assoc]
    · intro ho
      rw [hsteps, hlog, k4 () ho, hT1]
    · rw [hsteps, hlog]
      exact prefix_of_append_right k6 hT1
    · have hne2 : entriesOf (m.forget.steps (T1 ++ T2)) ≠ [] := by
        rw [hsteps, entriesOf_append]
        intro h
        have h := (List.append_eq_nil_iff.1 h).2
        obtain ⟨n0, rest, hnr⟩ := List.exists_cons_of_ne_nil hne
        rw [hnr] at k6 k4
        cases hT2 : T2 with
        | nil =>
          have hk := k9 hT2
          cases o with
          | ok u => have := k4 u rfl; simp [hT2, Machine.steps] at this
          | panic => simp [Out.isOk] at hk
          | stopped => simp [Out.isOk] at hk
        | cons x xs =>
          rw [hT2] at k6 h
          simp only [Machine.steps, List.map_cons, List.cons_append, List.cons_prefix_cons] at k6
          simp [Machine.steps, entriesOf, k6.1] at h
      rw [if_neg hne2, k3, ht]

/-- Everything about one `handle` call on an initialized machine. -/
theorem handleEvent_static (mode : Mode) (ev : S.Ev) (s : S.St) (g : Glob S) :
    ∃ o s' g' T cl, m.handleEvent mode ev s g = some (o, s', g') ∧ g'.trace = g.trace ++ T ∧
      Climb (F.path (m.base.discr s)) cl ∧
      (o = .ok () → m.forget.steps T = handleLog mode F m.base.discr (m.base.discr s) ev cl) ∧
      m.forget.steps T <+: handleLog mode F m.base.discr (m.base.discr s) ev cl ∧
      (entriesOf (m.forget.steps T) = [] → m.base.discr s' = m.base.discr s) ∧
      (entriesOf (m.forget.steps T) ≠ [] →
        ∃ t, lastResponse cl = some (.transition t) ∧ m.base.discr s' = m.base.discr t) ∧
      (m.forget.NoPanic → o ≠ .panic) ∧ (m.forget.NoSuspend → o ≠ .stopped) := by
  obtain ⟨o, s1, g1, T1, h1, h2, h3, h4, ⟨L, a, ⟨cl, x, hc, hx, hr, rfl⟩, h6⟩, h9, h7, h8⟩ :=
    does_handleMode hF mode ev s g
  have hbind : m.handleEvent mode ev s g =
      Eff.bind (m.handle mode ev) (fun r => match r with
        | .super => pure ()
        | .handled => pure ()
        | .transition t => m.transition mode t) s g := rfl
  have hpre : ∀ cl : List (Node S.D S.E × Response S.St), dispatchLog mode ev cl <+:
      handleLog mode F m.base.discr (m.base.discr s) ev cl := fun cl => List.prefix_append _ _
  have hnone : ∀ cl, m.forget.steps T1 <+: dispatchLog mode ev cl → entriesOf (m.forget.steps T1) = [] := fun cl h =>
    entriesOf_prefix h (entriesOf_eq_nil_of (dispatchLog_ofTransition mode ev cl))
  cases o with
  | panic =>
    refine ⟨.panic, s1, g1, T1, cl, ?_, h2, hc, by simp, h6.trans (hpre cl), fun _ => h3, ?_,
      by simpa using h7, by simp⟩
    · rw [hbind]; unfold Eff.bind; rw [h1]
    · intro h; exact absurd (hnone cl h6) h
  | stopped =>
    refine ⟨.stopped, s1, g1, T1, cl, ?_, h2, hc, by simp, h6.trans (hpre cl), fun _ => h3, ?_,
      by simp, by simpa using h8⟩
    · rw [hbind]; unfold Eff.bind; rw [h1]
    · intro h; exact absurd (hnone cl h6) h
  | ok r =>
    obtain ⟨cl, x, hc, hx, hr, hT1⟩ := h4 r rfl
    by_cases htr : ∃ t, r = .transition t
    · obtain ⟨t, rfl⟩ := htr
      have hxt := (hr t).1 rfl
      subst hxt
      obtain ⟨o, s2, g2, T2, k1, k2, k3, k4, k5, k6, k7⟩ := transition_static hF mode s1 t g1
      rw [h3] at k3 k4 k5
      have hsteps : m.forget.steps (T1 ++ T2) = m.forget.steps T1 ++ m.forget.steps T2 := by simp [Machine.steps]
      have hent : entriesOf (m.forget.steps (T1 ++ T2)) = entriesOf (m.forget.steps T2) := by
        rw [hsteps, entriesOf_append, hnone cl (by rw [hT1]; exact List.prefix_refl _), List.nil_append]
      refine ⟨o, s2, g2, T1 ++ T2, cl, ?_, ?_, hc, ?_, ?_, ?_, ?_, k6, k7⟩
      · rw [hbind]; unfold Eff.bind; rw [h1]; exact k1
      · rw [k2, h2, List.append_assoc]
      · intro ho
        rw [handleLog_transition hx, hsteps, hT1, k3 ho]
      · rw [handleLog_transition hx, hsteps]
        exact prefix_of_append_right k4 hT1
      · intro h; rw [hent] at h; rw [k5, if_pos h]
      · intro h; rw [hent] at h; exact ⟨t, hx, by rw [k5, if_neg h]⟩
    · have hxt : ∀ t, x ≠ .transition t := fun t ht => htr ⟨t, (hr t).2 ht⟩
      refine ⟨.ok (), s1, g1, T1, cl, ?_, h2, hc, ?_, ?_, fun _ => h3, ?_, by simp, by simp⟩
      · rw [hbind]; unfold Eff.bind; rw [h1]
        cases r with
        | transition t => exact absurd ⟨t, rfl⟩ htr
        | _ => rfl
      · intro _; rw [handleLog_other hx hxt, hT1]
      · rw [handleLog_other hx hxt, hT1]; exact List.prefix_refl _
      · intro h; exact absurd (hnone cl (by rw [hT1]; exact List.prefix_refl _)) h

end transitions

theorem forget_steps (l : List (Obs S)) : m.forget.steps l = m.base.steps l := by
  unfold Machine.steps
  congr 1

theorem forget_all {P : ∀ {W α : Type}, Fut S.In W α → Prop} (h : m.base.AllCallbacks P) :
    m.forget.AllCallbacks P := by
  obtain ⟨h1, h2, h3, h4, h5, h6, h7, h8, h9, h10⟩ := h
  exact ⟨h1, h2, h3, h4, h5, h6, h7, h8, h9, h10⟩

end Impure
end Statig
