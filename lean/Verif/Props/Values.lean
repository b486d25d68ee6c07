import Verif.Proofs.Simulation
import Verif.Props.Init
/-!
# Properties of equality and of the representation of machines: C37, C41, C50
-/
namespace Statig
variable {S T : Sig} {m : Machine S} {mode : Mode}

/-! ## C50 -/

/-- C50. Behaviour does not depend on the representation of the data: if all the callbacks of two machines
respect a relation between their data, then on related machines every sequence of related calls gives related
results, call by call: the same outcome, the same callbacks in the same order with related arguments, related
context, storage and state afterwards; and a call returns on one machine iff it does on the other. -/
theorem C50_representation_independence {R : Rel S T} {n : Machine T} (hR : Respects R m n)
    {a : StateMachine S} {b : StateMachine T} (hab : R.Machine a b)
    {cmds : List (Command S)} {cmds' : List (Command T)} (hc : ListRel R.Command cmds cmds') :
    ListRel (CallRel R R.Machine) (callAll mode m a cmds) (callAll mode n b cmds') := by
  induction hc generalizing a b with
  | nil => exact .nil
  | @cons cmd cmd' l l' h _ ih =>
    unfold callAll
    have := exec_bisim hR mode hab h
    generalize cmd.exec mode m a = x at this
    generalize cmd'.exec mode n b = y at this
    cases this with
    | none => exact .nil
    | some hcd => exact .cons hcd (ih hcd.self)

namespace Sample

/-- Relates data of the sample machine that differ in local storage only. -/
def shifted : Rel sig sig where
  M := Eq
  St s t := t.1 = s.1
  Sup s t := t.1 = s.1
  Ev := Eq
  Ctx := Eq
  In := Eq

theorem action_respects (fragile : Bool) {σ : Type} {Q : σ → σ → Prop} {x s s'} {sh : M} {c : Nat}
    (h : Q s s') : FutRel (I := Unit) Eq (WorldRel Q Eq Eq) Eq (action fragile x s sh c) (action fragile x s' sh c) := by
  unfold action
  split
  · exact .panic ⟨h, rfl, rfl⟩
  · exact .done ⟨h, rfl, rfl⟩ rfl

/-- The sample's callbacks do not look at local storage. -/
theorem respects (fragile : Bool) : Respects shifted (machine fragile) (machine fragile) where
  discr {a a' b b'} h1 h2 := by
    have h1 : a'.1 = a.1 := h1
    have h2 : b'.1 = b.1 := h2
    show a.1 = b.1 ↔ a'.1 = b'.1
    rw [h1, h2]
  supDiscr {a a' b b'} h1 h2 := by
    have h1 : a'.1 = a.1 := h1
    have h2 : b'.1 = b.1 := h2
    show a.1 = b.1 ↔ a'.1 = b'.1
    rw [h1, h2]
  handler {s s' x x' e e' c c'} h1 h2 h3 h4 := by
    cases h2; cases h3; cases h4
    have h1' : s'.1 = s.1 := h1
    show FutRel _ _ _ (leafHandler fragile s x e c) (leafHandler fragile s' x e c)
    unfold leafHandler
    split
    · exact .panic ⟨h1, rfl, rfl⟩
    · split
      · exact .pending ⟨h1, rfl, rfl⟩ fun _ _ _ => .done ⟨h1, rfl, rfl⟩ .handled
      · refine .done ⟨h1, rfl, rfl⟩ ?_
        rw [h1']
        cases leafResponse s.1 e with
        | handled => exact .handled
        | super => exact .super
        | transition t => exact .transition rfl
  entry {s s' x x' c c'} h1 h2 h4 := by
    cases h2; cases h4
    have h1' : s'.1 = s.1 := h1
    show FutRel _ _ _ (action fragile (.enter (.leaf s.1)) s x c) (action fragile (.enter (.leaf s'.1)) s' x c)
    rw [h1']
    exact action_respects fragile h1
  exit {s s' x x' c c'} h1 h2 h4 := by
    cases h2; cases h4
    have h1' : s'.1 = s.1 := h1
    show FutRel _ _ _ (action fragile (.leave (.leaf s.1)) s x c) (action fragile (.leave (.leaf s'.1)) s' x c)
    rw [h1']
    exact action_respects fragile h1
  superstate {s s'} h := by
    have h' : s'.1 = s.1 := h
    exact .some ⟨congrArg leafParent h', fun _ _ _ => h'⟩
  supHandler {s s' x x' e e' c c'} h1 h2 h3 h4 := by
    cases h2; cases h3; cases h4
    have h1' : s'.1 = s.1 := h1
    show FutRel _ _ _ (supHandler s x e c) (supHandler s' x e c)
    unfold supHandler
    rw [h1']
    split
    · exact .done ⟨h1, rfl, rfl⟩ (.transition rfl)
    · exact .done ⟨rfl, rfl, rfl⟩ .handled
    · exact .done ⟨h1, rfl, rfl⟩ .super
    · exact .done ⟨h1, rfl, rfl⟩ .handled
    · exact .done ⟨h1, rfl, rfl⟩ .super
  supEntry {s s' x x' c c'} h1 h2 h4 := by
    cases h2; cases h4
    have h1' : s'.1 = s.1 := h1
    show FutRel _ _ _ (action fragile (.enter (.sup s.1)) s x c) (action fragile (.enter (.sup s'.1)) s' x c)
    rw [h1']
    exact action_respects fragile h1
  supExit {s s' x x' c c'} h1 h2 h4 := by
    cases h2; cases h4
    have h1' : s'.1 = s.1 := h1
    show FutRel _ _ _ (action fragile (.leave (.sup s.1)) s x c) (action fragile (.leave (.sup s'.1)) s' x c)
    rw [h1']
    exact action_respects fragile h1
  supSuperstate {s s'} h := by
    have h' : s'.1 = s.1 := h
    show OptRel _ ((supParent s.1).map _) ((supParent s'.1).map _)
    rw [h']
    cases supParent s.1 with
    | none => exact .none
    | some p => exact .some ⟨rfl, fun _ _ _ => rfl⟩
  beforeDispatch h _ _ := .done h rfl
  afterDispatch h _ _ := .done h rfl
  beforeTransition h _ _ := .done h rfl
  afterTransition h _ _ := .done h rfl

end Sample

/-- C50 applies: two machines with different local storage, and calls on them. -/
example : Respects Sample.shifted (Sample.machine true) (Sample.machine true) ∧
    Sample.shifted.Machine ⟨⟨⟨[], 3⟩, (.s11, 5)⟩, false⟩ ⟨⟨⟨[], 3⟩, (.s11, 90)⟩, false⟩ ∧
    ListRel Sample.shifted.Command [.handle .a 0 [], .init 3 []] [.handle .a 0 [], .init 3 []] ∧
    (∃ c, StateMachine.handleWithContext .blocking (Sample.machine true)
      (⟨⟨⟨[], 3⟩, (.s11, 5)⟩, false⟩ : StateMachine Sample.sig) .b 0 [] = some c ∧ c.out = .panic) :=
  ⟨Sample.respects true, ⟨⟨rfl, rfl⟩, rfl⟩,
    .cons (.handle rfl rfl .nil) (.cons (.init rfl .nil) .nil), by sample_case⟩

/-! ## C37 -/

/-- The relation "equal by the user's `==`" on storage (`em`), states (`es`) and superstates (`ev`); events,
contexts and poll inputs are the same. -/
def userEq (em : S.M → S.M → Bool) (es : S.St → S.St → Bool) (ev : S.Sup → S.Sup → Bool) : Rel S S where
  M x y := em x y = true
  St x y := es x y = true
  Sup x y := ev x y = true
  Ev := Eq
  Ctx := Eq
  In := Eq

/-- Two machines compare equal iff their storage and states do and both or neither are initialized. -/
theorem C37_equality (em : S.M → S.M → Bool) (es : S.St → S.St → Bool) (a b : StateMachine S) :
    StateMachine.eq em es a b = true ↔
      em a.shared b.shared = true ∧ es a.state b.state = true ∧ (a.initialized = true ↔ b.initialized = true) := by
  unfold StateMachine.eq Inner.eq StateMachine.shared StateMachine.state
  cases a.initialized <;> cases b.initialized <;> simp

/-- C37. Let the user's callbacks not distinguish values that compare equal (`==` of the user's types). Then
two machines that compare equal behave identically on every sequence of calls: the results agree call by call,
in outcome, context and unused inputs exactly, in callbacks made up to `==` of their arguments, and the
machines compare equal again after each call. -/
theorem C37_equal_machines_behave_identically {em : S.M → S.M → Bool} {es : S.St → S.St → Bool}
    {ev : S.Sup → S.Sup → Bool} (hR : Respects (userEq em es ev) m m) {a b : StateMachine S}
    (hab : StateMachine.eq em es a b = true) (cmds : List (Command S)) :
    ListRel (fun c d => c.out = d.out ∧ c.ctx = d.ctx ∧ c.sched = d.sched ∧
        StateMachine.eq em es c.self d.self = true ∧ ListRel (userEq em es ev).Obs c.trace d.trace)
      (callAll mode m a cmds) (callAll mode m b cmds) := by
  have hcmds : ListRel (userEq em es ev).Command cmds cmds := ListRel.refl (fun cmd => by
    cases cmd with
    | init c l => exact .init rfl (ListRel.refl (fun _ => rfl) l)
    | handle e c l => exact .handle rfl rfl (ListRel.refl (fun _ => rfl) l)) cmds
  have hm : (userEq em es ev).Machine a b := by
    obtain ⟨h1, h2, h3⟩ := (C37_equality em es a b).1 hab
    exact ⟨⟨h1, h2⟩, Bool.eq_iff_iff.2 h3⟩
  refine (C50_representation_independence (mode := mode) hR hm hcmds).mono fun c d h => ?_
  have hl : ∀ {l l' : List S.In}, ListRel (fun x y => x = y) l l' → l = l' := by
    intro l l' h
    induction h with
    | nil => rfl
    | cons h _ ih => rw [h, ih]
  refine ⟨h.out, h.ctx, hl h.sched, ?_, h.trace⟩
  exact (C37_equality em es _ _).2 ⟨h.self.1.1, h.self.1.2, by rw [h.self.2]⟩

/-- C37, identical machines: with user equality that is genuine equality the calls give identical results. -/
theorem C37_deterministic {em : S.M → S.M → Bool} {es : S.St → S.St → Bool}
    (hm : ∀ x y, em x y = true → x = y) (hs : ∀ x y, es x y = true → x = y) {a b : StateMachine S}
    (hab : StateMachine.eq em es a b = true) (cmds : List (Command S)) :
    callAll mode m a cmds = callAll mode m b cmds := by
  obtain ⟨h1, h2, h3⟩ := (C37_equality em es a b).1 hab
  have : a = b := by
    obtain ⟨⟨x, s⟩, i⟩ := a
    obtain ⟨⟨y, t⟩, j⟩ := b
    cases hm _ _ h1; cases hs _ _ h2
    cases i <;> cases j <;> simp at h3 ⊢
  rw [this]

/-- C37, clone: if the user's clones compare equal to the original, so does the clone of a machine of each
type. -/
theorem C37_clone {em : S.M → S.M → Bool} {es : S.St → S.St → Bool} {cm : S.M → S.M} {cs : S.St → S.St}
    (hm : ∀ x, em (cm x) x = true) (hs : ∀ x, es (cs x) x = true) :
    (∀ sm : StateMachine S, StateMachine.eq em es (sm.clone cm cs) sm = true) ∧
    (∀ sm : InitializedStateMachine S, InitializedStateMachine.eq em es (sm.clone cm cs) sm = true) ∧
    (∀ sm : UninitializedStateMachine S, UninitializedStateMachine.eq em es (sm.clone cm cs) sm = true) := by
  refine ⟨fun sm => ?_, fun sm => ?_, fun sm => ?_⟩
  · simp [StateMachine.eq, StateMachine.clone, Inner.eq, Inner.clone, hm, hs]
  · simp [InitializedStateMachine.eq, InitializedStateMachine.clone, Inner.eq, Inner.clone, hm, hs]
  · simp [UninitializedStateMachine.eq, UninitializedStateMachine.clone, Inner.eq, Inner.clone, hm, hs]

/-- C37 applies: a user's equality that ignores local storage is respected by the sample; two different
machines compare equal; an initialized machine differs from an uninitialized one. -/
example : Respects (userEq (S := Sample.sig) (fun x y => decide (x = y)) (fun x y => decide (y.1 = x.1))
      (fun x y => decide (y.1 = x.1))) (Sample.machine true) (Sample.machine true) ∧
    StateMachine.eq (S := Sample.sig) (fun x y => decide (x = y)) (fun x y => decide (y.1 = x.1))
      ⟨⟨⟨[], 3⟩, (.s11, 5)⟩, false⟩ ⟨⟨⟨[], 3⟩, (.s11, 6)⟩, false⟩ = true ∧
    StateMachine.eq (S := Sample.sig) (fun x y => decide (x = y)) (fun x y => decide (y.1 = x.1))
      ⟨⟨⟨[], 3⟩, (.s11, 5)⟩, false⟩ ⟨⟨⟨[], 3⟩, (.s11, 5)⟩, true⟩ = false := by
  have e : userEq (S := Sample.sig) (fun x y => decide (x = y)) (fun x y => decide (y.1 = x.1))
      (fun x y => decide (y.1 = x.1)) = Sample.shifted := by
    simp only [userEq, Sample.shifted, decide_eq_true_eq]
  exact ⟨e ▸ Sample.respects true, rfl, rfl⟩

/-! ## C41 -/

/-- C41, `Response`: equal iff of the same kind, with equal targets for transitions. -/
theorem C41_response {A : Type} (es : A → A → Bool) (r q : Response A) :
    Response.eq es r q = true ↔
      (r = .handled ∧ q = .handled) ∨ (r = .super ∧ q = .super) ∨
      ∃ s t, r = .transition s ∧ q = .transition t ∧ es s t = true := by
  cases r <;> cases q <;> simp [Response.eq]

/-- C41, `StateOrSuperstate`: equal iff both are states or both are superstates, and they are equal. -/
theorem C41_state_or_superstate {A B : Type} (es : A → A → Bool) (ev : B → B → Bool)
    (x y : StateOrSuperstate A B) :
    StateOrSuperstate.eq es ev x y = true ↔
      (∃ s t, x = .state s ∧ y = .state t ∧ es s t = true) ∨
      (∃ v w, x = .superstate v ∧ y = .superstate w ∧ ev v w = true) := by
  cases x <;> cases y <;> simp [StateOrSuperstate.eq]

/-- C41: both are equivalence relations if the equalities of the elements are. -/
theorem C41_equivalences {A B : Type} {es : A → A → Bool} {ev : B → B → Bool}
    (h : Equivalence fun a b => es a b = true) (h' : Equivalence fun a b => ev a b = true) :
    Equivalence (fun r q => Response.eq es r q = true) ∧
    Equivalence (fun x y => StateOrSuperstate.eq es ev x y = true) := by
  refine ⟨⟨?_, ?_, ?_⟩, ⟨?_, ?_, ?_⟩⟩
  · intro x; cases x <;> simp [Response.eq, h.refl]
  · intro x y; cases x <;> cases y <;> simp [Response.eq]; exact h.symm
  · intro x y z; cases x <;> cases y <;> cases z <;> simp [Response.eq]; exact h.trans
  · intro x; cases x
    · simp [StateOrSuperstate.eq, h.refl]
    · simp [StateOrSuperstate.eq, h'.refl]
  · intro x y; cases x <;> cases y <;> simp [StateOrSuperstate.eq]
    · exact h.symm
    · exact h'.symm
  · intro x y z; cases x <;> cases y <;> cases z <;> simp [StateOrSuperstate.eq]
    · exact h.trans
    · exact h'.trans

/-- C41 applies: an equality that ignores local storage. -/
example : Equivalence (fun a b : Sample.D × Nat => decide (a.1 = b.1) = true) ∧
    Response.eq (fun a b : Sample.D × Nat => decide (a.1 = b.1)) (.transition (.s11, 0)) (.transition (.s11, 1)) = true ∧
    Response.eq (fun a b : Sample.D × Nat => decide (a.1 = b.1)) .handled .super = false := by
  refine ⟨⟨?_, ?_, ?_⟩, rfl, rfl⟩
  · intro x; simp
  · intro x y; simp; exact fun h => h.symm
  · intro x y z; simp; exact fun h h' => h.trans h'

end Statig
