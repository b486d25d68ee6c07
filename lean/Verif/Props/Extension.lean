import Verif.Spec.Extension
import Verif.Proofs.Simulation
import Verif.Props.Sample
import Verif.Props.Values
/-!
# Adding states does not change what is there: C73
-/
namespace Statig
section
variable {S : Sig} {St Sup D E : Type} [DecidableEq D] [DecidableEq E] {st : S.St → St} {sup : S.Sup → Sup}
  {m : Machine S} {n : Machine (S.grow St Sup D E)}

/-- Data of the small machine and its counterpart in the large one. -/
def growRel (S : Sig) {St Sup D E : Type} [DecidableEq D] [DecidableEq E] (st : S.St → St) (sup : S.Sup → Sup) :
    Rel S (S.grow St Sup D E) where
  M := fun x y => x = y
  St s t := st s = t
  Sup v w := sup v = w
  Ev := fun x y => x = y
  Ctx := fun x y => x = y
  In := fun x y => x = y

theorem futRel_image {I W W' A B : Type} {RW : W → W' → Prop} {RA : A → B → Prop} (f : W → W') (g : A → B)
    (hf : ∀ w, RW w (f w)) (hg : ∀ a, RA a (g a)) (x : Fut I W A) : FutRel Eq RW RA x (x.image f g) := by
  induction x with
  | done w a => exact .done (hf w) (hg a)
  | panic w => exact .panic (hf w)
  | pending w k ih =>
    refine .pending (hf w) ?_
    rintro i _ rfl
    exact ih i

theorem futRel_self {I W A : Type} (x : Fut I W A) : FutRel Eq Eq Eq x x := by
  induction x with
  | done w a => exact .done rfl rfl
  | panic w => exact .panic rfl
  | pending w k ih =>
    refine .pending rfl ?_
    rintro i _ rfl
    exact ih i

theorem responseRel_image {A B : Type} (f : A → B) (r : Response A) :
    ResponseRel (fun a b => f a = b) r (r.image f) := by
  cases r with
  | handled => exact .handled
  | super => exact .super
  | transition t => exact .transition rfl

theorem node_image {a b} (h : (growRel S st sup (D := D) (E := E)).Node a b) : b = a.image st sup := by
  cases h with
  | state h => cases h; rfl
  | superstate h => cases h; rfl

theorem respects_of_extendedBy (h : m.ExtendedBy st sup n) : Respects (growRel S st sup) m n where
  discr := by rintro a _ b _ rfl rfl; exact (h.discr a b).symm
  supDiscr := by rintro a _ b _ rfl rfl; exact (h.supDiscr a b).symm
  handler := by
    rintro s _ x _ e _ c _ rfl rfl rfl rfl
    rw [h.handler]
    exact futRel_image _ _ (fun _ => ⟨rfl, rfl, rfl⟩) (responseRel_image st) _
  entry := by
    rintro s _ x _ c _ rfl rfl rfl
    rw [h.entry]
    exact futRel_image _ _ (fun _ => ⟨rfl, rfl, rfl⟩) (fun _ => rfl) _
  exit := by
    rintro s _ x _ c _ rfl rfl rfl
    rw [h.exit]
    exact futRel_image _ _ (fun _ => ⟨rfl, rfl, rfl⟩) (fun _ => rfl) _
  superstate := by
    rintro s _ rfl
    cases hs : m.superstate s with
    | none => rw [h.superstate_none s hs]; exact .none
    | some p =>
      obtain ⟨v, back⟩ := p
      obtain ⟨back', h1, h2⟩ := h.superstate_some s v back hs
      rw [h1]
      refine .some ⟨rfl, ?_⟩
      rintro w _ rfl
      exact (h2 w).symm
  supHandler := by
    rintro s _ x _ e _ c _ rfl rfl rfl rfl
    rw [h.supHandler]
    exact futRel_image _ _ (fun _ => ⟨rfl, rfl, rfl⟩) (responseRel_image st) _
  supEntry := by
    rintro s _ x _ c _ rfl rfl rfl
    rw [h.supEntry]
    exact futRel_image _ _ (fun _ => ⟨rfl, rfl, rfl⟩) (fun _ => rfl) _
  supExit := by
    rintro s _ x _ c _ rfl rfl rfl
    rw [h.supExit]
    exact futRel_image _ _ (fun _ => ⟨rfl, rfl, rfl⟩) (fun _ => rfl) _
  supSuperstate := by
    rintro s _ rfl
    cases hs : m.supSuperstate s with
    | none => rw [h.supSuperstate_none s hs]; exact .none
    | some p =>
      obtain ⟨v, back⟩ := p
      obtain ⟨back', h1, h2⟩ := h.supSuperstate_some s v back hs
      rw [h1]
      refine .some ⟨rfl, ?_⟩
      rintro w _ rfl
      exact (h2 w).symm
  beforeDispatch := by
    rintro x _ k k' e _ rfl hk rfl
    rw [node_image hk, h.beforeDispatch]
    exact futRel_self _
  afterDispatch := by
    rintro x _ k k' e _ rfl hk rfl
    rw [node_image hk, h.afterDispatch]
    exact futRel_self _
  beforeTransition := by
    rintro x _ a _ b _ rfl rfl rfl
    rw [h.beforeTransition]
    exact futRel_self _
  afterTransition := by
    rintro x _ a _ b _ rfl rfl rfl
    rw [h.afterTransition]
    exact futRel_self _

theorem listRel_map {A B : Type} {R : A → B → Prop} (f : A → B) (hf : ∀ a b, R a b → b = f a) {l k}
    (h : ListRel R l k) : k = l.map f := by
  induction h with
  | nil => rfl
  | cons h _ ih => rw [hf _ _ h, ih]; rfl

theorem obs_grown {a b} (h : (growRel S st sup (D := D) (E := E)).Obs a b) : b = a.grown st sup := by
  cases h with
  | handler h he => cases he; rw [node_image h]; rfl
  | returned h hr =>
    rw [node_image h]
    cases hr with
    | handled => rfl
    | super => rfl
    | transition h => cases h; rfl
  | entry h => rw [node_image h]; rfl
  | exit h => rw [node_image h]; rfl
  | beforeDispatch h he => cases he; rw [node_image h]; rfl
  | afterDispatch h he => cases he; rw [node_image h]; rfl
  | beforeTransition h h' => cases h; cases h'; rfl
  | afterTransition h h' => cases h; cases h'; rfl

theorem call_grown {c d} (h : CallRel (growRel S st sup (D := D) (E := E)) (growRel S st sup).Machine c d) :
    d = c.grown st sup := by
  obtain ⟨o, s, x, l, t⟩ := c
  obtain ⟨o', s', x', l', t'⟩ := d
  obtain ⟨h1, ⟨⟨h2, h3⟩, h4⟩, h5, h6, h7⟩ := h
  obtain ⟨⟨sh, s⟩, i⟩ := s
  obtain ⟨⟨sh', s'⟩, i'⟩ := s'
  simp only at h1 h2 h3 h4 h5 h6 h7
  cases h1; cases h2; cases h3; cases h4; cases h5
  have := listRel_map id (fun a b (h : a = b) => h.symm) h6
  rw [List.map_id] at this
  subst this
  rw [listRel_map (Obs.grown st sup) (fun _ _ => obs_grown) h7]
  rfl

/-- C73. If a machine has all the states and superstates of another one, with the same callbacks and hierarchy, and
maybe more, then starting in one of the old states every sequence of calls has the same results: the additions are never
entered, and nothing else changes. -/
theorem C73_adding_states (h : m.ExtendedBy st sup n) (mode : Mode) (sm : StateMachine S) (cmds : List (Command S)) :
    callAll mode n (sm.grown st) (cmds.map Command.grown) =
      (callAll mode m sm cmds).map (Call.grown st sup) := by
  refine listRel_map _ (fun _ _ => call_grown) (C50_representation_independence (respects_of_extendedBy h)
    (a := sm) (b := sm.grown st) ⟨⟨rfl, rfl⟩, rfl⟩ ?_)
  induction cmds with
  | nil => exact .nil
  | cons cmd cmds ih =>
    refine .cons ?_ ih
    have hl : ∀ l : List S.In, ListRel (fun x y => x = y) l l := ListRel.refl fun _ => rfl
    cases cmd with
    | init ctx sched => exact .init rfl (hl _)
    | handle ev ctx sched => exact .handle rfl rfl (hl _)

/-- C73. In particular the state is always one of the old ones. -/
theorem C73_stays (h : m.ExtendedBy st sup n) (mode : Mode) (sm : StateMachine S) (cmds : List (Command S)) :
    ∀ c ∈ callAll mode n (sm.grown st) (cmds.map Command.grown), ∃ s, c.self.state = st s := by
  rw [C73_adding_states h]
  intro c hc
  obtain ⟨d, -, rfl⟩ := List.mem_map.1 hc
  exact ⟨d.self.state, rfl⟩

end

/-! ## The hypotheses are met -/

namespace Sample

/-- The old states and superstates in the larger types. -/
def old (s : D × Nat) : Option D × Nat := (some s.1, s.2)
def oldSup (v : E × Nat) : Option E × Nat := (some v.1, v.2)

/-- The sample with one more state (`none`, local storage a number) in one more superstate (`none`) inside `s`; the new
state leaves for `s11` on every event. -/
def larger : Machine (sig.grow (Option D × Nat) (Option E × Nat) (Option D) (Option E)) where
  initial := (none, 0)
  discr s := s.1
  supDiscr v := v.1
  handler s x e c := match s.1 with
    | none => .done (s, x, c) (.transition (some .s11, 0))
    | some d => ((machine true).handler (d, s.2) x e c).image (fun w => (old w.1, w.2)) (Response.image old)
  entry s x c := match s.1 with
    | none => .done (s, x, c) ()
    | some d => ((machine true).entry (d, s.2) x c).image (fun w => (old w.1, w.2)) id
  exit s x c := match s.1 with
    | none => .done (s, x, c) ()
    | some d => ((machine true).exit (d, s.2) x c).image (fun w => (old w.1, w.2)) id
  superstate s := some ((s.1.map leafParent, s.2), fun v => (s.1, v.2))
  supHandler v x e c := match v.1 with
    | none => .done (v, x, c) .super
    | some d => ((machine true).supHandler (d, v.2) x e c).image (fun w => (oldSup w.1, w.2)) (Response.image old)
  supEntry v x c := match v.1 with
    | none => .done (v, x, c) ()
    | some d => ((machine true).supEntry (d, v.2) x c).image (fun w => (oldSup w.1, w.2)) id
  supExit v x c := match v.1 with
    | none => .done (v, x, c) ()
    | some d => ((machine true).supExit (d, v.2) x c).image (fun w => (oldSup w.1, w.2)) id
  supSuperstate v := match v.1 with
    | none => some ((some .s, v.2), fun w => (none, w.2))
    | some e => (supParent e).map fun p => ((some p, v.2), fun w => (some e, w.2))
  beforeDispatch sh _ _ := .done sh ()
  afterDispatch sh _ _ := .done sh ()
  beforeTransition sh _ _ := .done sh ()
  afterTransition sh _ _ := .done sh ()
  superstate_back := by
    intro s v back h
    simp only [Option.some.injEq, Prod.mk.injEq] at h
    obtain ⟨rfl, rfl⟩ := h
    rfl
  supSuperstate_back := by
    rintro ⟨e, k⟩ w back h
    cases e with
    | none =>
      simp only [Option.some.injEq, Prod.mk.injEq] at h
      obtain ⟨rfl, rfl⟩ := h
      rfl
    | some e =>
      cases hp : supParent e with
      | none => simp [hp] at h
      | some p =>
        simp only [hp, Option.map_some, Option.some.injEq, Prod.mk.injEq] at h
        obtain ⟨rfl, rfl⟩ := h
        rfl

theorem larger_extends : (machine true).ExtendedBy old oldSup larger where
  discr a b := by simp [larger, old, machine]
  supDiscr a b := by simp [larger, oldSup, machine]
  handler _ _ _ _ := rfl
  entry _ _ _ := rfl
  exit _ _ _ := rfl
  supHandler _ _ _ _ := rfl
  supEntry _ _ _ := rfl
  supExit _ _ _ := rfl
  superstate_none s h := by simp [machine] at h
  superstate_some s v back h := by
    simp only [machine, Option.some.injEq, Prod.mk.injEq] at h
    obtain ⟨rfl, rfl⟩ := h
    exact ⟨_, rfl, fun _ => rfl⟩
  supSuperstate_none v h := by
    simp only [machine, Option.map_eq_none_iff] at h
    simp [larger, oldSup, h]
  supSuperstate_some u v back h := by
    cases hp : supParent u.1 with
    | none => simp [machine, hp] at h
    | some p =>
      simp only [machine, hp, Option.map_some, Option.some.injEq, Prod.mk.injEq] at h
      obtain ⟨rfl, rfl⟩ := h
      exact ⟨fun w => (some u.1, w.2), by simp [larger, oldSup, hp], fun _ => rfl⟩
  beforeDispatch _ _ _ := rfl
  afterDispatch _ _ _ := rfl
  beforeTransition _ _ _ := rfl
  afterTransition _ _ _ := rfl

/-- C73 applies to it, whatever is called. -/
example (mode : Mode) (sm : StateMachine sig) (cmds : List (Command sig)) :
    callAll mode larger (sm.grown old) (cmds.map Command.grown) =
      (callAll mode (machine true) sm cmds).map (Call.grown old oldSup) :=
  C73_adding_states larger_extends mode sm cmds

/-- The calls that C73 is about include transitions between subtrees. -/
example : ∃ c, InitializedStateMachine.handleWithContext .awaitable (machine true) (at_ .s12 9) .c 0 [] = some c ∧
    c.out = .ok () ∧ c.self.inner.state = (.s211, 0) := by sample_case

end Sample
end Statig
