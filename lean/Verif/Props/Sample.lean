import Verif.Proofs.Transition
import Verif.Spec.Values
/-!
# A concrete machine used to show that the hypotheses of the theorems are met

The hierarchy and handlers of `statig/tests/transition.rs:53-190`, extended with

* local storage: a number that every superstate borrows from the state;
* a context: a counter of executed actions;
* event `bump`, handled by superstate `S` by incrementing the borrowed local storage;
* event `skip`, which every handler defers;
* if `fragile`: actions panic when the fuse in the shared storage has burnt down, event `bomb` makes the
  leaf's handler panic and event `wait` makes it suspend once.
-/
namespace Statig.Sample

inductive D where
  | s11 | s12 | s211
deriving DecidableEq, Repr

inductive E where
  | s | s1 | s2 | s21
deriving DecidableEq, Repr

inductive Ev where
  | a | b | c | d | bump | skip | bomb | wait
deriving DecidableEq, Repr

structure M where
  path : List (Act D E)
  fuse : Nat
deriving DecidableEq

abbrev sig : Sig where
  M := M
  St := D × Nat
  Sup := E × Nat
  Ev := Ev
  Ctx := Nat
  In := Unit
  D := D
  E := E

def leafParent : D → E
  | .s11 => .s1
  | .s12 => .s1
  | .s211 => .s21

def supParent : E → Option E
  | .s => none
  | .s1 => some .s
  | .s2 => some .s
  | .s21 => some .s2

def supAnc : E → List E
  | .s => []
  | .s1 => [.s]
  | .s2 => [.s]
  | .s21 => [.s2, .s]

def forest : Forest D E where
  leafParent d := some (leafParent d)
  supParent := supParent
  supAnc := supAnc
  supAnc_eq e := by cases e <;> rfl

/-- Entry and exit actions push onto `path`; a fragile one panics when the fuse has burnt down. -/
def action {σ : Type} (fragile : Bool) (x : Act D E) (s : σ) (sh : M) (c : Nat) :
    Fut Unit (σ × M × Nat) Unit :=
  if fragile && sh.fuse == 0 then .panic (s, sh, c)
  else .done (s, { path := sh.path ++ [x], fuse := sh.fuse - 1 }, c + 1) ()

def leafResponse : D → Ev → Response (D × Nat)
  | .s11, .a => .transition (.s11, 0)
  | .s11, .b => .transition (.s12, 0)
  | .s12, .c => .transition (.s211, 0)
  | _, _ => .super

def leafHandler (fragile : Bool) (s : D × Nat) (sh : M) (ev : Ev) (c : Nat) :
    Fut Unit ((D × Nat) × M × Nat) (Response (D × Nat)) :=
  if fragile && ev == .bomb then .panic (s, sh, c)
  else if fragile && ev == .wait then .pending (s, sh, c) (fun _ => .done (s, sh, c) .handled)
  else .done (s, sh, c) (leafResponse s.1 ev)

def supHandler (v : E × Nat) (sh : M) (ev : Ev) (c : Nat) :
    Fut Unit ((E × Nat) × M × Nat) (Response (D × Nat)) :=
  match v.1, ev with
  | .s2, .d => .done (v, sh, c) (.transition (.s11, 0))
  | .s, .bump => .done ((v.1, v.2 + 1), sh, c) .handled
  | .s, .skip => .done (v, sh, c) .super
  | .s, _ => .done (v, sh, c) .handled
  | _, _ => .done (v, sh, c) .super

def machine (fragile : Bool) : Machine sig where
  initial := (.s11, 0)
  discr s := s.1
  supDiscr v := v.1
  handler := leafHandler fragile
  entry s sh c := action fragile (.enter (.leaf s.1)) s sh c
  exit s sh c := action fragile (.leave (.leaf s.1)) s sh c
  superstate s := some ((leafParent s.1, s.2), fun v => (s.1, v.2))
  supHandler := supHandler
  supEntry v sh c := action fragile (.enter (.sup v.1)) v sh c
  supExit v sh c := action fragile (.leave (.sup v.1)) v sh c
  supSuperstate v := (supParent v.1).map fun p => ((p, v.2), fun w => (v.1, w.2))
  beforeDispatch sh _ _ := .done sh ()
  afterDispatch sh _ _ := .done sh ()
  beforeTransition sh _ _ := .done sh ()
  afterTransition sh _ _ := .done sh ()
  superstate_back := by
    intro s v back h
    simp only [Option.some.injEq, Prod.mk.injEq] at h
    obtain ⟨h1, h2⟩ := h
    subst h1; subst h2; rfl
  supSuperstate_back := by
    intro v w back h
    cases hp : supParent v.1 with
    | none => simp [hp] at h
    | some p =>
      simp only [hp, Option.map_some, Option.some.injEq, Prod.mk.injEq] at h
      obtain ⟨h1, h2⟩ := h
      subst h1; subst h2; rfl

theorem action_all {σ : Type} {κ : Type} (tag : σ → κ) (fragile : Bool) (x : Act D E) (s : σ) (sh : M) (c : Nat) :
    (action fragile x s sh c).All (fun w => tag w.1 = tag s) := by
  unfold action
  split
  · exact .panic rfl
  · exact .done rfl

theorem follows (fragile : Bool) : Follows (machine fragile) forest where
  leaf s := rfl
  sup v := by
    show ((supParent v.1).map _).map _ = supParent v.1
    cases supParent v.1 <;> rfl
  leaf_back := by
    intro s v back w h _
    simp only [machine, Option.some.injEq, Prod.mk.injEq] at h
    obtain ⟨h1, h2⟩ := h
    subst h2; rfl
  sup_back := by
    intro u v back w h _
    cases hp : supParent u.1 with
    | none => simp [machine, hp] at h
    | some p =>
      simp only [machine, hp, Option.map_some, Option.some.injEq, Prod.mk.injEq] at h
      obtain ⟨h1, h2⟩ := h
      subst h2; rfl
  handler := by
    intro s sh ev c
    show (leafHandler fragile s sh ev c).All _
    unfold leafHandler
    split
    · exact .panic rfl
    · split
      · exact .pending rfl (fun _ => .done rfl)
      · exact .done rfl
  entry s sh c := action_all _ _ _ _ _ _
  exit s sh c := action_all _ _ _ _ _ _
  supHandler := by
    intro v sh ev c
    show (supHandler v sh ev c).All _
    unfold supHandler
    split <;> exact .done rfl
  supEntry s sh c := action_all _ _ _ _ _ _
  supExit s sh c := action_all _ _ _ _ _ _

theorem lawful (fragile : Bool) : Lawful (machine fragile) where
  leaf := by
    intro s v back w h hw
    simp only [machine, Option.some.injEq, Prod.mk.injEq] at h
    obtain ⟨h1, h2⟩ := h
    subst h1; subst h2
    refine ⟨fun v => (s.1, v.2), ?_, fun _ _ => rfl⟩
    have : w.1 = leafParent s.1 := hw
    simp [machine, ← this]
  sup := by
    intro u v back w h hw
    cases hp : supParent u.1 with
    | none => simp [machine, hp] at h
    | some p =>
      simp only [machine, hp, Option.map_some, Option.some.injEq, Prod.mk.injEq] at h
      obtain ⟨h1, h2⟩ := h
      subst h1; subst h2
      refine ⟨fun v => (u.1, v.2), ?_, fun _ _ => rfl⟩
      have : w.1 = p := hw
      simp [machine, hp, ← this]

theorem calm (P : ∀ {W α : Type}, Fut Unit W α → Prop) (hP : ∀ {W α : Type} (w : W) (a : α), P (.done w a)) :
    (machine false).AllCallbacks P where
  handler s sh ev c := by simp only [machine, leafHandler, Bool.false_and, Bool.false_eq_true, ↓reduceIte]; exact hP _ _
  entry s sh c := by simp only [machine, action, Bool.false_and, Bool.false_eq_true, ↓reduceIte]; exact hP _ _
  exit s sh c := by simp only [machine, action, Bool.false_and, Bool.false_eq_true, ↓reduceIte]; exact hP _ _
  supHandler v sh ev c := by
    show P (supHandler v sh ev c)
    unfold supHandler
    split <;> exact hP _ _
  supEntry s sh c := by simp only [machine, action, Bool.false_and, Bool.false_eq_true, ↓reduceIte]; exact hP _ _
  supExit s sh c := by simp only [machine, action, Bool.false_and, Bool.false_eq_true, ↓reduceIte]; exact hP _ _
  beforeDispatch _ _ _ := hP _ _
  afterDispatch _ _ _ := hP _ _
  beforeTransition _ _ _ := hP _ _
  afterTransition _ _ _ := hP _ _

theorem noPanic : (machine false).NoPanic := calm _ (fun _ _ => trivial)
theorem noSuspend : (machine false).NoSuspend := calm _ (fun _ _ => trivial)

/-- Closed form of the transition path of the sample, for evaluation. -/
def closedPath (s t : D × Nat) : Option (Out (Nat × Nat)) :=
  if s.1 = t.1 then some (.ok (1, 1))
  else
    let c := ((forest.leafAnc s.1).filter (· ∈ forest.leafAnc t.1)).length
    some (.ok ((forest.leafAnc s.1).length + 1 - c, (forest.leafAnc t.1).length + 1 - c))

theorem transitionPath_closed (fragile : Bool) :
    transitionPath (machine fragile) = closedPath := by
  funext s t
  unfold closedPath
  split
  · next h => exact transitionPath_of_eq s t h
  · next h => exact transitionPath_of_ne (follows fragile) s t h

theorem depth_closed (fragile : Bool) :
    depth (machine fragile) = fun s => some ((forest.leafAnc s.1).length + 1) := by
  funext s; exact depth_eq (follows fragile) s

/-- One call on the sample machine. -/
abbrev call (mode : Mode) (fragile : Bool) (sm : InitializedStateMachine sig) (ev : Ev)
    (sched : List Unit := []) : Option (Call sig (InitializedStateMachine sig)) :=
  InitializedStateMachine.handleWithContext mode (machine fragile) sm ev 0 sched

theorem witness {A : Type} {P : A → Prop} [DecidablePred P] {x : Option A}
    (h : (x.any fun c => decide (P c)) = true) : ∃ c, x = some c ∧ P c := by
  cases x with
  | none => simp at h
  | some c => exact ⟨c, rfl, by simpa using h⟩

/-- Evaluate a call on the sample machine; the functions defined by `partial_fixpoint` are first unfolded as
often as the depth of the hierarchy requires. -/
macro "eval_sample" : tactic => `(tactic| (
  simp only [call, InitializedStateMachine.handleWithContext, UninitializedStateMachine.initWithContext,
    StateMachine.handleWithContext, StateMachine.initWithContext, Inner.handle, Inner.init,
    Blocking.handleEvent, Blocking.handle, Blocking.transition, Blocking.init,
    Awaitable.handleEvent, Awaitable.handle, Awaitable.transition, Awaitable.init,
    transitionPath_closed, depth_closed];
  (try rw [Blocking.supHandle, Blocking.supHandle, Blocking.supHandle, Blocking.supHandle]);
  (try rw [Awaitable.handleLoop, Awaitable.handleLoop, Awaitable.handleLoop, Awaitable.handleLoop]);
  decide +kernel))

/-- Show that a call on the sample machine ends in a result with the stated properties. -/
macro "sample_case" : tactic => `(tactic| (apply witness; eval_sample))

/-- An initialized machine in state `d` with local storage 7. -/
def at_ (d : D) (fuse : Nat := 0) : InitializedStateMachine sig := ⟨⟨⟨[], fuse⟩, (d, 7)⟩⟩

example : ∃ c, InitializedStateMachine.handleWithContext .blocking (machine false) (at_ .s12) .c 0 [] = some c ∧
    c.self.inner.state = (.s211, 0) ∧ c.out = .ok () ∧ c.self.inner.shared.path =
      [.leave (.leaf .s12), .leave (.sup .s1), .enter (.sup .s2), .enter (.sup .s21), .enter (.leaf .s211)] := by
  sample_case

example : ∃ c, InitializedStateMachine.handleWithContext .awaitable (machine false) (at_ .s211) .bump 0 [] = some c ∧
    c.self.inner.state = (.s211, 8) ∧ c.out = .ok () := by
  sample_case

/-- The responses of a call on the sample machine. -/
abbrev responses (fragile : Bool) (c : Call sig (InitializedStateMachine sig)) :=
  responsesOf ((machine fragile).steps c.trace)

/-- The arguments of the `before_transition` calls. -/
def before (c : Call sig (InitializedStateMachine sig)) : List ((D × Nat) × (D × Nat)) :=
  c.trace.filterMap fun | .beforeTransition a b => some (a, b) | _ => none

/-- The arguments of `after_transition` if that is the last callback. -/
def lastAfter (c : Call sig (InitializedStateMachine sig)) : Option ((D × Nat) × (D × Nat)) :=
  match c.trace.getLast? with
  | some (.afterTransition a b) => some (a, b)
  | _ => none

theorem entriesKeep (fragile : Bool) : (machine fragile).EntriesKeep where
  leaf _ _ _ := action_all id _ _ _ _ _
  sup _ _ _ := action_all id _ _ _ _ _

theorem exitsKeep (fragile : Bool) : (machine fragile).ExitsKeep where
  leaf _ _ _ := action_all id _ _ _ _ _
  sup _ _ _ := action_all id _ _ _ _ _

theorem handlersKeep (fragile : Bool) {ev : Ev} (h : ev ≠ .bump) : (machine fragile).HandlersKeep ev where
  leaf s sh c := by
    show (leafHandler fragile s sh ev c).All _
    unfold leafHandler
    split
    · exact .panic rfl
    · split
      · exact .pending rfl (fun _ => .done rfl)
      · exact .done rfl
  sup v sh c := by
    show (supHandler v sh ev c).All _
    unfold supHandler
    split
    · exact .done rfl
    · exact absurd rfl h
    · exact .done rfl
    · exact .done rfl
    · exact .done rfl

end Statig.Sample
