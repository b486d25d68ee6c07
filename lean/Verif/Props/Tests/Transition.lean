import Verif.Model.Tests.Transition
import Verif.Proofs.Examples.Common
import Verif.Props.MacroSample
import Verif.Props.MacroOrder
import Verif.Props.Values
import Verif.Props.Tracking
import Verif.Spec.Tests.Transition
/-!
# The machines of the transition tests: C82
-/
namespace Statig.Tests.Transition
open Statig.Macro Statig.Examples

theorem gen_eq (b : Bool) : expand Sample.syn Sample.forwards (source b) = .ok (gen b) := by cases b <;> decide +kernel
theorem compiles (b : Bool) : (gen b).Compiles := by cases b <;> decide +kernel

/-! ## The hand-written machine -/

/-- The hierarchy of the states. -/
def forest : Forest State Superstate where
  leafParent s := some (superstate s)
  supParent := supSuperstate
  supAnc
    | .s => []
    | .s1 => [.s]
    | .s2 => [.s]
    | .s21 => [.s2, .s]
  supAnc_eq v := by cases v <;> rfl

theorem follows : Follows machine forest where
  leaf s := by cases s <;> rfl
  sup v := by cases v <;> rfl
  leaf_back := by intro s v back w h _; cases h; rfl
  sup_back := by
    intro u v back w h _
    cases hs : supSuperstate u with
    | none => simp [machine, hs] at h
    | some w =>
      simp only [machine, hs, Option.map_some, Option.some.injEq, Prod.mk.injEq] at h
      obtain ⟨-, h⟩ := h; subst h; rfl
  handler s sh ev c := .done rfl
  entry s sh c := .done rfl
  exit s sh c := .done rfl
  supHandler v sh ev c := .done rfl
  supEntry v sh c := .done rfl
  supExit v sh c := .done rfl

def closedPath : State → State → Option (Out (Nat × Nat))
  | .s211, .s211 => some (.ok (1, 1))
  | .s211, _ => some (.ok (3, 2))
  | _, .s211 => some (.ok (2, 3))
  | _, _ => some (.ok (1, 1))

theorem transitionPath_closed : transitionPath machine = closedPath := by
  funext s t
  by_cases h : s = t
  · rw [transitionPath_of_eq s t h]; subst h; cases s <;> rfl
  · rw [transitionPath_of_ne follows s t h]
    cases s <;> cases t <;> first | rfl | exact absurd rfl h

def closedDepth : State → Option Nat
  | .s211 => some 4
  | _ => some 3

theorem depth_closed : depth machine = closedDepth := by
  funext s; rw [depth_eq follows s]; cases s <;> rfl

def plain : Option Event → Command sig
  | none => .init () []
  | some ev => .handle ev () []

theorem exec_empty (mode : Mode) (b : Bool) (s : State) (ev : Option Event) :
    ∃ c, (plain ev).exec mode machine ⟨⟨[], s⟩, b⟩ = some c ∧
      c.out = .ok () ∧ view c.self = View.call ⟨b, s, []⟩ ev := by
  cases mode
  · cases ev with
    | none =>
      simp only [plain, Command.exec, StateMachine.initWithContext, Inner.init, Blocking.init, depth_closed]
      apply witness
      cases b <;> cases s <;> decide +kernel
    | some ev =>
      simp only [plain, Command.exec, StateMachine.handleWithContext, Inner.handle, Inner.init, Blocking.handleEvent, Blocking.handle,
        Blocking.transition, Blocking.init, transitionPath_closed, depth_closed]
      rw [Blocking.supHandle, Blocking.supHandle, Blocking.supHandle, Blocking.supHandle]
      apply witness
      cases b <;> cases s <;> cases ev <;> decide +kernel
  · cases ev with
    | none =>
      simp only [plain, Command.exec, StateMachine.initWithContext, Inner.init, Awaitable.init, depth_closed]
      apply witness
      cases b <;> cases s <;> decide +kernel
    | some ev =>
      simp only [plain, Command.exec, StateMachine.handleWithContext, Inner.handle, Inner.init, Awaitable.handleEvent, Awaitable.handle,
        Awaitable.transition, Awaitable.init, transitionPath_closed, depth_closed]
      rw [Awaitable.handleLoop, Awaitable.handleLoop, Awaitable.handleLoop, Awaitable.handleLoop]
      apply witness
      cases b <;> cases s <;> cases ev <;> decide +kernel

/-- Relates data that differ in the beginning of the path only. -/
def prefixed (path : Path) : Rel sig sig where
  M x y := x = path ++ y
  St := Eq
  Sup := Eq
  Ev := Eq
  Ctx := Eq
  In := Eq

/-- The machine does not look at the path. -/
theorem ignores_prefix (path : Path) : Respects (prefixed path) machine machine where
  discr := by rintro a _ b _ rfl rfl; rfl
  supDiscr := by rintro a _ b _ rfl rfl; rfl
  handler := by
    rintro s _ x y e _ c _ rfl h rfl rfl
    refine .done ⟨rfl, h, rfl⟩ ?_
    cases handler s e <;> constructor; rfl
  entry := by
    rintro s _ x y c _ rfl rfl rfl
    exact .done ⟨rfl, List.append_assoc .., rfl⟩ rfl
  exit := by
    rintro s _ x y c _ rfl rfl rfl
    exact .done ⟨rfl, List.append_assoc .., rfl⟩ rfl
  superstate := by
    rintro s _ rfl
    exact .some ⟨rfl, fun _ _ _ => rfl⟩
  supHandler := by
    rintro s _ x y e _ c _ rfl h rfl rfl
    refine .done ⟨rfl, h, rfl⟩ ?_
    cases supHandler s e <;> constructor; rfl
  supEntry := by
    rintro s _ x y c _ rfl rfl rfl
    exact .done ⟨rfl, List.append_assoc .., rfl⟩ rfl
  supExit := by
    rintro s _ x y c _ rfl rfl rfl
    exact .done ⟨rfl, List.append_assoc .., rfl⟩ rfl
  supSuperstate := by
    rintro s _ rfl
    cases s
    case s => exact .none
    all_goals exact .some ⟨rfl, fun _ _ _ => rfl⟩
  beforeDispatch := by rintro x y _ _ _ _ rfl _ _; exact .done rfl rfl
  afterDispatch := by rintro x y _ _ _ _ rfl _ _; exact .done rfl rfl
  beforeTransition := by rintro x y _ _ _ _ rfl _ _; exact .done rfl rfl
  afterTransition := by rintro x y _ _ _ _ rfl _ _; exact .done rfl rfl

theorem call_append (b : Bool) (s : State) (path : Path) (ev : Option Event) :
    View.call ⟨b, s, path⟩ ev = ⟨(View.call ⟨b, s, []⟩ ev).initialized, (View.call ⟨b, s, []⟩ ev).state,
      path ++ (View.call ⟨b, s, []⟩ ev).path⟩ := by
  cases ev with
  | none => cases b <;> simp [View.call, View.init]
  | some ev =>
    cases h : requested s ev <;> cases b <;> simp [View.call, View.init, View.next, h]

theorem exec_eq (mode : Mode) (sm : StateMachine sig) (cmd : Command sig) :
    ∃ c, cmd.exec mode machine sm = some c ∧ c.out = .ok () ∧ view c.self = (view sm).call (event? cmd) := by
  obtain ⟨⟨path, s⟩, b⟩ := sm
  obtain ⟨c, h1, h2, h3⟩ := exec_empty mode b s (event? cmd)
  have hc : (prefixed path).Command cmd (plain (event? cmd)) := by
    have : ∀ l : List Empty, l = [] := fun l => by cases l with | nil => rfl | cons i _ => exact i.elim
    cases cmd with
    | init ctx l => rw [this l]; exact .init rfl .nil
    | handle ev ctx l => rw [this l]; exact .handle rfl rfl .nil
  have := exec_bisim (ignores_prefix path) mode
    (a := ⟨⟨path, s⟩, b⟩) (b := ⟨⟨[], s⟩, b⟩) ⟨⟨(List.append_nil path).symm, rfl⟩, rfl⟩ hc
  rw [h1] at this
  generalize cmd.exec mode machine _ = x at this
  cases this with
  | @some d _ h =>
    refine ⟨d, rfl, h.out.trans h2, ?_⟩
    obtain ⟨⟨k1, k2⟩, k3⟩ := h.self
    have e : view d.self = ⟨(view c.self).initialized, (view c.self).state, path ++ (view c.self).path⟩ := by
      have k1 : d.self.inner.shared = path ++ c.self.inner.shared := k1
      have k2 : d.self.inner.state = c.self.inner.state := k2
      simp only [view, k1, k2, k3]
    rw [e, h3]
    exact (call_append b s path (event? cmd)).symm

/-- A call on an initialized machine. -/
theorem handleEvent_eq (mode : Mode) (path : Path) (s : State) (ev : Event) :
    ∃ c, (⟨path, s⟩ : Inner sig).handle mode machine ev () [] = some c ∧ c.out = .ok () ∧
      (⟨true, c.self.state, c.self.shared⟩ : View) = View.next ⟨true, s, path⟩ ev := by
  obtain ⟨c, h1, h2, h3⟩ := exec_eq mode ⟨⟨path, s⟩, true⟩ (.handle ev () [])
  simp only [Command.exec, StateMachine.handleWithContext, Bool.true_eq_false, if_false] at h1
  generalize Inner.handle mode machine ⟨path, s⟩ ev () [] = x at h1
  cases x with
  | none => cases h1
  | some d => cases h1; exact ⟨d, rfl, h2, h3⟩

theorem init_eq (mode : Mode) (path : Path) (s : State) :
    ∃ c, (⟨path, s⟩ : Inner sig).init mode machine () [] = some c ∧ c.out = .ok () ∧
      (⟨true, c.self.state, c.self.shared⟩ : View) = View.init ⟨false, s, path⟩ := by
  obtain ⟨c, h1, h2, h3⟩ := exec_eq mode ⟨⟨path, s⟩, false⟩ (.init () [])
  simp only [Command.exec, StateMachine.initWithContext, if_true] at h1
  generalize Inner.init mode machine ⟨path, s⟩ () [] = x at h1
  cases x with
  | none => cases h1
  | some d =>
    obtain ⟨o, self, ctx, sched, trace⟩ := d
    cases o with
    | ok u => cases h1; exact ⟨_, rfl, rfl, h3⟩
    | panic => cases h1; cases h2
    | stopped => cases h1; cases h2

theorem calls_eq (mode : Mode) (sm : StateMachine sig) (cmds : List (Command sig)) :
    (callAll mode machine sm cmds).map (fun c => (c.out, view c.self)) =
      ((view sm).calls (cmds.map event?)).map fun v => (.ok (), v) := by
  induction cmds generalizing sm with
  | nil => rfl
  | cons cmd cmds ih =>
    obtain ⟨c, h1, h2, h3⟩ := exec_eq mode sm cmd
    simp only [callAll, h1, List.map_cons, View.calls, ih, h2, h3]

theorem handleAll_eq (mode : Mode) (sm : InitializedStateMachine sig) (events : List Event) :
    ∃ sm', handleAll mode sm events = some sm' ∧
      (⟨true, sm'.inner.state, sm'.inner.shared⟩ : View) =
        events.foldl View.next ⟨true, sm.inner.state, sm.inner.shared⟩ := by
  induction events generalizing sm with
  | nil => exact ⟨sm, rfl, rfl⟩
  | cons ev events ih =>
    obtain ⟨⟨path, s⟩⟩ := sm
    obtain ⟨d, k1, k2, k3⟩ := handleEvent_eq mode path s ev
    obtain ⟨sm', h1, h2⟩ := ih ⟨d.self⟩
    refine ⟨sm', ?_, ?_⟩
    · simp only [handleAll, InitializedStateMachine.handle, InitializedStateMachine.handleWithContext]
      rw [k1]
      simp only [Option.bind_eq_bind, Option.bind_some, k2]
      exact h1
    · rw [h2, k3]; rfl

/-! ## The generated machine -/

/-- The data of the two versions correspond: the states and superstates, also those along the path, have the same
names. -/
def sameNames (b : Bool) : Rel ((gen b).iface.sig (types b)) sig where
  M path path' := (path.map fun p => (p.1.map (fun s : MState b => s.variant) (fun s : MSuperstate b => s.variant), p.2)) =
    path'.map fun p => (p.1.map State.name Superstate.name, p.2)
  St s s' := s.variant = s'.name
  Sup v v' := v.variant = v'.name
  Ev := Eq
  Ctx := Eq
  In := Eq

theorem respects (b : Bool) : Respects (sameNames b) ((gen b).iface.machine (env b)) machine where
  discr := by
    intro a a' b b' ha hb
    show a.variant = b.variant ↔ a' = b'
    have ha : a.variant = a'.name := ha
    have hb : b.variant = b'.name := hb
    rw [ha, hb]
    cases a' <;> cases b' <;> decide
  supDiscr := by
    intro a a' b b' ha hb
    show a.variant = b.variant ↔ a' = b'
    have ha : a.variant = a'.name := ha
    have hb : b.variant = b'.name := hb
    rw [ha, hb]
    cases a' <;> cases b' <;> decide
  handler := by
    intro s s' x x' e e' c c' hs hx he hc
    have hs : s.variant = s'.name := hs
    cases he; cases hc
    cases s' <;> (simp only [Iface.machine, hs, State.name]; eval_gen [gen, env, userHandler, source, method, action]) <;>
      cases e <;>
      exact .done ⟨hs, hx, rfl⟩ (by first | exact .super | exact .transition rfl)
  entry := by
    intro s s' x x' c c' hs hx hc
    have hs : s.variant = s'.name := hs
    have hx : x.map _ = x'.map _ := hx
    cases s' <;> (simp only [Iface.machine, hs, State.name]; eval_gen [gen, env, userAction, pushed, source, method, action]) <;>
      exact .done ⟨hs, by show List.map _ _ = List.map _ _; rw [List.map_append, List.map_append, hx]; rfl, hc⟩ rfl
  exit := by
    intro s s' x x' c c' hs hx hc
    have hs : s.variant = s'.name := hs
    have hx : x.map _ = x'.map _ := hx
    cases s' <;> (simp only [Iface.machine, hs, State.name]; eval_gen [gen, env, userAction, pushed, source, method, action]) <;>
      exact .done ⟨hs, by show List.map _ _ = List.map _ _; rw [List.map_append, List.map_append, hx]; rfl, hc⟩ rfl
  superstate := by
    intro s s' hs
    have hs : s.variant = s'.name := hs
    have key : ∀ t t', (gen b).iface.superstate s.variant = some ⟨⟨s.variant, []⟩, some ⟨t, []⟩⟩ → superstate s' = t' →
        Superstate.name t' = t → (gen b).iface.supFields t = some [] →
        OptRel (ViewRel (sameNames b).St (sameNames b).Sup) (((gen b).iface.machine (env b)).superstate s)
          (machine.superstate s') := by
      intro t t' h1 h2 h2' h2''
      obtain ⟨v, back, h3, h4, h5⟩ := view_unit (I := (gen b).iface) (T := types b) (t := t) (bound := []) (s := s) h2''
      simp only [Iface.machine, machine, h1, h2, runSuperstate, h3]
      exact .some ⟨h4.trans h2'.symm, fun w w' _ => (h5 w).trans hs⟩
    cases s'
    all_goals exact key _ _ (by rw [hs]; rfl) rfl rfl rfl
  supHandler := by
    intro v v' x x' e e' c c' hv hx he hc
    have hv : v.variant = v'.name := hv
    cases he; cases hc
    cases v' <;> (simp only [Iface.machine, hv, Superstate.name]; eval_gen [gen, env, userHandler, source, method, action]) <;>
      cases e <;>
      exact .done ⟨hv, hx, rfl⟩ (by first | exact .super | exact .handled | exact .transition rfl)
  supEntry := by
    intro s s' x x' c c' hs hx hc
    have hs : s.variant = s'.name := hs
    have hx : x.map _ = x'.map _ := hx
    cases s' <;> (simp only [Iface.machine, hs, Superstate.name]; eval_gen [gen, env, userAction, pushed, source, method, action]) <;>
      exact .done ⟨hs, by show List.map _ _ = List.map _ _; rw [List.map_append, List.map_append, hx]; rfl, hc⟩ rfl
  supExit := by
    intro s s' x x' c c' hs hx hc
    have hs : s.variant = s'.name := hs
    have hx : x.map _ = x'.map _ := hx
    cases s' <;> (simp only [Iface.machine, hs, Superstate.name]; eval_gen [gen, env, userAction, pushed, source, method, action]) <;>
      exact .done ⟨hs, by show List.map _ _ = List.map _ _; rw [List.map_append, List.map_append, hx]; rfl, hc⟩ rfl
  supSuperstate := by
    intro s s' hs
    have hs : s.variant = s'.name := hs
    have key : ∀ t t', (gen b).iface.supSuperstate s.variant = some ⟨⟨s.variant, []⟩, some ⟨t, []⟩⟩ → supSuperstate s' = some t' →
        Superstate.name t' = t → (gen b).iface.supFields t = some [] →
        OptRel (ViewRel (sameNames b).Sup (sameNames b).Sup) (((gen b).iface.machine (env b)).supSuperstate s)
          (machine.supSuperstate s') := by
      intro t t' h1 h2 h2' h2''
      obtain ⟨v, back, h3, h4, h5⟩ := view_unit (I := (gen b).iface) (T := types b) (t := t) (bound := []) (s := s) h2''
      simp only [Iface.machine, machine, h1, h2, runSuperstate, h3]
      exact .some ⟨h4.trans h2'.symm, fun w w' _ => (h5 w).trans hs⟩
    cases s'
    case s =>
      simp only [Iface.machine, hs, Superstate.name]
      eval_gen [gen]
      exact .none
    all_goals exact key _ _ (by rw [hs]; rfl) rfl rfl rfl
  beforeDispatch := by intros; exact .done ‹_› rfl
  afterDispatch := by intros; exact .done ‹_› rfl
  beforeTransition := by intros; exact .done ‹_› rfl
  afterTransition := by intro x x' a a' b b' hx ha hb; exact .done hx rfl

end Statig.Tests.Transition

namespace Statig
open Tests.Transition Statig.Macro

/-- C82, the hand-written machine of `statig/tests/transition.rs` and `statig/tests/async_transition.rs`, in both modes.
Whatever calls are made on it, each returns, and the machine has then recorded the path it is meant to take. -/
theorem C82_path (mode : Mode) (cmds : List (Command sig)) :
    (callAll mode machine (stateMachine machine []) cmds).map (fun c => (c.out, view c.self)) =
      (View.calls ⟨false, .s11, []⟩ (cmds.map event?)).map fun v => (.ok (), v) :=
  calls_eq mode _ cmds

/-- The same on an explicitly initialized machine, as in the tests. -/
theorem C82_initialized (mode : Mode) (events : List Event) :
    ∃ sm, run mode events = some sm ∧
      (⟨true, sm.inner.state, sm.inner.shared⟩ : View) = events.foldl View.next (View.init ⟨false, .s11, []⟩) := by
  obtain ⟨c, h1, h2, h3⟩ := Tests.Transition.init_eq mode [] .s11
  obtain ⟨sm, h4, h5⟩ := handleAll_eq mode ⟨c.self⟩ events
  refine ⟨sm, ?_, h5.trans (congrArg (fun v => List.foldl View.next v events) h3)⟩
  simp only [run, UninitializedStateMachine.init, UninitializedStateMachine.initWithContext, uninitializedStateMachine]
  show (Option.bind (Option.bind (Inner.init mode machine ⟨[], .s11⟩ () []) _) _) = _
  rw [h1]
  simp only [Option.bind_some, h2]
  exact h4

/-- So the test passes: the path recorded for the events of `test_transition_path` is the expected one. -/
theorem C82_test (mode : Mode) :
    (run mode [.A, .B, .C, .D]).map (fun sm => sm.inner.shared) = some expectedPath := by
  obtain ⟨sm, h1, h2⟩ := C82_initialized mode [.A, .B, .C, .D]
  rw [h1, Option.map_some]
  have h3 : ([.A, .B, .C, .D].foldl View.next (View.init ⟨false, .s11, []⟩)).path = expectedPath := by decide +kernel
  exact congrArg some ((congrArg View.path h2).trans h3)

/-- C82, the macro versions: `statig/tests/transition_macro.rs` and, if `b`, `statig/tests/async_transition_macro.rs`.
In whatever order the macro iterates over its hash maps, it accepts the impl block, what it generates compiles and is
for the mode the test is for; and whatever calls are made on the generated machine, each returns, and the machine
has recorded the path it is meant to take. -/
theorem C82_macro (b : Bool) (ord) :
    ∃ g, expand Sample.syn ord (source b) = .ok g ∧ g.Compiles ∧ g.iface = (gen b).iface ∧
      g.mode = (if b then .awaitable else .blocking) ∧
      ∀ cmds, (callAll g.mode ((gen b).iface.machine (env b)) (stateMachine ((gen b).iface.machine (env b)) []) cmds).map
          (fun c => (c.out, named c.self)) =
        (View.calls ⟨false, .s11, []⟩ (cmds.map event?)).map fun v => (.ok (), v.named) := by
  obtain ⟨g, h, hi⟩ := C46_items (gen_eq b) ord
  obtain ⟨h1, h2⟩ := C46_behaviour (gen_eq b) h (compiles b)
  refine ⟨g, h, h1, h2, hi.mode.symm, fun cmds => ?_⟩
  let f : Command ((gen b).iface.sig (types b)) → Command sig := fun
    | .init c l => .init c l
    | .handle e c l => .handle e c l
  have hf : ListRel (sameNames b).Command cmds (cmds.map f) := by
    induction cmds with
    | nil => exact .nil
    | cons cmd cmds ih =>
      refine .cons ?_ ih
      cases cmd with
      | init c l => exact .init rfl (ListRel.refl (fun _ => rfl) l)
      | handle e c l => exact .handle rfl rfl (ListRel.refl (fun _ => rfl) l)
  have he : (cmds.map f).map event? = cmds.map event? := by
    rw [List.map_map]
    apply List.map_congr_left
    intro cmd _
    cases cmd <;> rfl
  have h' := C82_path g.mode (cmds.map f)
  rw [he] at h'
  have h4 := C50_representation_independence (mode := g.mode) (respects b)
    (a := stateMachine ((gen b).iface.machine (env b)) []) (b := stateMachine machine []) ⟨⟨rfl, rfl⟩, rfl⟩ hf
  have h5 : (callAll g.mode ((gen b).iface.machine (env b)) (stateMachine ((gen b).iface.machine (env b)) []) cmds).map
        (fun c => (c.out, named c.self)) =
      (callAll g.mode machine (stateMachine machine []) (cmds.map f)).map
        fun c => (c.out, (view c.self).named) :=
    ListRel.map_eq h4 fun c d hcd => Prod.ext hcd.out
      (Prod.ext hcd.self.2 (Prod.ext hcd.self.1.2 hcd.self.1.1))
  rw [h5]
  have h6 := congrArg (List.map fun p : Out Unit × View => (p.1, p.2.named)) h'
  simpa only [List.map_map, Function.comp_def] using h6

/-- C82 at work: the paths of the calls of the test, without the initialization. -/
example : (View.calls ⟨false, .s11, []⟩ [some .A, some .B, some .C, some .D]).map (fun v => v.path.length) =
    [5, 7, 12, 17] := by decide +kernel

end Statig
