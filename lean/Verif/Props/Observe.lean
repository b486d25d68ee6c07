import Verif.Spec.Observe
import Verif.Props.Values
/-!
# Hooks that only observe: C78
-/
namespace Statig
variable {S : Sig} {m : Machine S} {P : Type} {view : S.M → P}

/-- Equality, except for what `view` hides. -/
def alikeUpTo (S : Sig) {P : Type} (view : S.M → P) : Rel S S where
  M x y := view x = view y
  St := Eq
  Sup := Eq
  Ev := Eq
  Ctx := Eq
  In := Eq

theorem responseRel_eq {A : Type} (r : Response A) : ResponseRel Eq r r := by
  cases r with
  | handled => exact .handled
  | super => exact .super
  | transition s => exact .transition rfl

theorem FutRel.mono {I W A : Type} {RW : W → W → Prop} {Q : A → A → Prop} (h0 : ∀ a, Q a a)
    {f g : Fut I W A} (h : FutRel Eq RW Eq f g) : FutRel Eq RW Q f g := by
  induction h with
  | done hw ha => exact .done hw (ha ▸ h0 _)
  | panic hw => exact .panic hw
  | pending hw _ ih => exact .pending hw ih

theorem ListRel.eq_of {A : Type} {Q : A → A → Prop} (hQ : ∀ a b, Q a b → a = b) {l l' : List A} (h : ListRel Q l l') :
    l = l' := by
  induction h with
  | nil => rfl
  | cons h _ ih => rw [hQ _ _ h, ih]

theorem ListRel.of_refl {A : Type} {Q : A → A → Prop} (hQ : ∀ a, Q a a) (l : List A) : ListRel Q l l := by
  induction l with
  | nil => exact .nil
  | cons a l ih => exact .cons (hQ a) ih

theorem alikeUpTo_node {a b : StateOrSuperstate S.St S.Sup} (h : (alikeUpTo S view).Node a b) : a = b := by
  cases h with
  | state h => exact congrArg _ h
  | superstate h => exact congrArg _ h

theorem alikeUpTo_obs {a b : Obs S} (h : (alikeUpTo S view).Obs a b) : a = b := by
  cases h with
  | handler h1 h2 => rw [alikeUpTo_node h1, show _ = _ from h2]
  | returned h1 h2 =>
    rw [alikeUpTo_node h1]
    cases h2 with
    | handled => rfl
    | super => rfl
    | transition h => rw [show _ = _ from h]
  | entry h1 => rw [alikeUpTo_node h1]
  | exit h1 => rw [alikeUpTo_node h1]
  | beforeDispatch h1 h2 => rw [alikeUpTo_node h1, show _ = _ from h2]
  | afterDispatch h1 h2 => rw [alikeUpTo_node h1, show _ = _ from h2]
  | beforeTransition h1 h2 => rw [show _ = _ from h1, show _ = _ from h2]
  | afterTransition h1 h2 => rw [show _ = _ from h1, show _ = _ from h2]

theorem Fut.Observes.rel {x y : S.M} {f : Fut S.In S.M Unit} (h : f.Observes view x) (hxy : view x = view y) :
    FutRel Eq (alikeUpTo S view).M Eq f (.done y ()) := by
  obtain ⟨x', rfl, h⟩ := h
  exact .done (h.trans hxy) rfl

theorem withoutHooks_respects (hl : m.LooksOnlyAt view) (hh : m.HooksObserve view) :
    Respects (alikeUpTo S view) m m.withoutHooks where
  discr h1 h2 := by cases h1; cases h2; rfl
  supDiscr h1 h2 := by cases h1; cases h2; rfl
  handler h1 h2 h3 h4 := by
    cases h1; cases h3; cases h4
    exact (hl.handler _ _ _ _ _ h2).mono responseRel_eq
  entry h1 h2 h4 := by cases h1; cases h4; exact hl.entry _ _ _ _ h2
  exit h1 h2 h4 := by cases h1; cases h4; exact hl.exit _ _ _ _ h2
  superstate {s s'} h1 := by
    cases h1
    show OptRel _ (m.superstate s) (m.superstate s)
    cases m.superstate s with
    | none => exact .none
    | some p => exact .some ⟨rfl, fun _ _ h => congrArg p.2 h⟩
  supHandler h1 h2 h3 h4 := by
    cases h1; cases h3; cases h4
    exact (hl.supHandler _ _ _ _ _ h2).mono responseRel_eq
  supEntry h1 h2 h4 := by cases h1; cases h4; exact hl.supEntry _ _ _ _ h2
  supExit h1 h2 h4 := by cases h1; cases h4; exact hl.supExit _ _ _ _ h2
  supSuperstate {s s'} h1 := by
    cases h1
    show OptRel _ (m.supSuperstate s) (m.supSuperstate s)
    cases m.supSuperstate s with
    | none => exact .none
    | some p => exact .some ⟨rfl, fun _ _ h => congrArg p.2 h⟩
  beforeDispatch h1 h2 h3 := by cases h3; cases alikeUpTo_node h2; exact (hh.beforeDispatch _ _ _).rel h1
  afterDispatch h1 h2 h3 := by cases h3; cases alikeUpTo_node h2; exact (hh.afterDispatch _ _ _).rel h1
  beforeTransition h1 h2 h3 := by cases h3; cases h2; exact (hh.beforeTransition _ _ _).rel h1
  afterTransition h1 h2 h3 := by cases h3; cases h2; exact (hh.afterTransition _ _ _).rel h1

/-- C78. Hooks that only observe do not interfere: if they return at once and write only to a part of the shared storage
that handlers and actions do not depend on, then every sequence of calls, from every machine value, in both modes, goes
as it would without hooks, except for that part.  Panicking and dropped calls are included. -/
theorem C78_observing_hooks (hl : m.LooksOnlyAt view) (hh : m.HooksObserve view) (mode : Mode) (sm : StateMachine S)
    (cmds : List (Command S)) :
    ListRel (SameButHidden view) (callAll mode m sm cmds) (callAll mode m.withoutHooks sm cmds) := by
  have h := C50_representation_independence (mode := mode) (R := alikeUpTo S view) (withoutHooks_respects hl hh)
    (a := sm) (b := sm) ⟨⟨rfl, rfl⟩, rfl⟩ (cmds := cmds) (cmds' := cmds)
    (ListRel.of_refl (fun c => by
      cases c with
      | init => exact .init rfl (ListRel.of_refl (fun _ => rfl) _)
      | handle => exact .handle rfl rfl (ListRel.of_refl (fun _ => rfl) _)) _)
  generalize callAll mode m sm cmds = l at h
  generalize callAll mode m.withoutHooks sm cmds = l' at h
  induction h with
  | nil => exact .nil
  | cons h _ ih =>
    refine .cons ?_ ih
    exact ⟨h.out.symm, h.self.1.2.symm, h.self.2.symm, h.self.1.1.symm, (show _ = _ from h.ctx).symm,
      (h.sched.eq_of fun _ _ h => h).symm, (h.trace.eq_of fun _ _ h => alikeUpTo_obs h).symm⟩

/-- In particular what the machine's state is after any history of calls does not depend on the hooks. -/
theorem C78_state (hl : m.LooksOnlyAt view) (hh : m.HooksObserve view) (mode : Mode) (self : S.M)
    (cmds : List (Command S)) :
    (callAll mode m.withoutHooks (stateMachine m.withoutHooks self) cmds).map (fun c => (c.out, c.self.inner.state)) =
      (callAll mode m (stateMachine m self) cmds).map fun c => (c.out, c.self.inner.state) := by
  have h := C78_observing_hooks hl hh mode (stateMachine m self) cmds
  show (callAll mode m.withoutHooks (stateMachine m self) cmds).map _ = _
  generalize callAll mode m (stateMachine m self) cmds = l at h
  generalize callAll mode m.withoutHooks (stateMachine m self) cmds = l' at h
  induction h with
  | nil => rfl
  | cons h _ ih => rw [List.map_cons, List.map_cons, ih, h.out, h.state]

namespace Sample

/-- The sample with hooks that rewrite the path, which its handlers and actions do not look at. -/
def logged (fragile : Bool) : Machine sig :=
  { machine fragile with
    beforeDispatch := fun x k _ =>
      match k with
      | .state s => .done { x with path := x.path ++ [.leave (.leaf s.1)] } ()
      | .superstate v => .done { x with path := x.path ++ [.leave (.sup v.1)] } ()
    afterTransition := fun x _ _ => .done { x with path := [] } () }

theorem action_same (fragile : Bool) {σ : Type} {z} {s : σ} {x y : M} {c : Nat} (h : x.fuse = y.fuse) :
    SameCallback (S := sig) M.fuse (action fragile z s x c) (action fragile z s y c) := by
  unfold action
  rw [h]
  split
  · exact .panic ⟨rfl, h, rfl⟩
  · exact .done ⟨rfl, rfl, rfl⟩ rfl

theorem logged_looks (fragile : Bool) : (logged fragile).LooksOnlyAt M.fuse where
  handler s x y e c h := by
    show SameCallback (S := sig) M.fuse (leafHandler fragile s x e c) (leafHandler fragile s y e c)
    unfold leafHandler
    split
    · exact .panic ⟨rfl, h, rfl⟩
    · split
      · exact .pending ⟨rfl, h, rfl⟩ fun _ _ _ => .done ⟨rfl, h, rfl⟩ rfl
      · exact .done ⟨rfl, h, rfl⟩ rfl
  entry s x y c h := action_same fragile h
  exit s x y c h := action_same fragile h
  supHandler v x y e c h := by
    show SameCallback (S := sig) M.fuse (supHandler v x e c) (supHandler v y e c)
    unfold supHandler
    split <;> exact .done ⟨rfl, h, rfl⟩ rfl
  supEntry v x y c h := action_same fragile h
  supExit v x y c h := action_same fragile h

theorem logged_observes (fragile : Bool) : (logged fragile).HooksObserve M.fuse where
  beforeDispatch x k e := by cases k <;> exact ⟨_, rfl, rfl⟩
  afterDispatch x k e := ⟨_, rfl, rfl⟩
  beforeTransition x s t := ⟨_, rfl, rfl⟩
  afterTransition x s t := ⟨_, rfl, rfl⟩

/-- It really has hooks, and is otherwise the fragile sample. -/
example : logged true ≠ machine true ∧ (logged true).withoutHooks = machine true := by
  refine ⟨fun h => ?_, rfl⟩
  have h := congrFun (congrFun (congrFun (congrArg Machine.afterTransition h) ⟨[.enter (.sup .s)], 0⟩) (.s11, 0)) (.s11, 0)
  injection h with h
  injection h with h
  cases h

example (mode : Mode) (sm : StateMachine sig) (cmds : List (Command sig)) :
    ListRel (SameButHidden M.fuse) (callAll mode (logged true) sm cmds) (callAll mode (machine true) sm cmds) :=
  C78_observing_hooks (logged_looks true) (logged_observes true) mode sm cmds

end Sample

end Statig
