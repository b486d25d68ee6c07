import Verif.Model.Examples.Barrier
import Verif.Spec.Examples.Barrier
import Verif.Proofs.Examples.Common
import Verif.Proofs.Transition
import Verif.Props.MacroSample
import Verif.Props.MacroOrder
import Verif.Props.Values
import Mathlib.Data.List.Basic
/-!
# The example `barrier`: C65
-/
namespace Statig.Examples.Barrier
open Statig.Macro

theorem gen_eq : expand Sample.syn Sample.forwards source = .ok gen := by decide +kernel
theorem compiles : gen.Compiles := by decide +kernel

/-- `State::initializing()`, where `true` is `true` and the default of `bool` is `false`. -/
theorem constructor_initializing : ∃ k ∈ gen.constructors, k.name = "initializing" ∧
    k.apply (fun _ => false) (fun e _ => e == "true") [] = some ("Initializing", (initializing true false false).get) := by
  refine ⟨_, List.mem_cons_self .., rfl, ?_⟩
  simp only [Constructor.apply, initializing, List.length_nil, ↓reduceIte, Option.some.injEq, Prod.mk.injEq, true_and]
  funext x
  by_cases h1 : x = "a"
  · subst h1; rfl
  by_cases h2 : x = "b"
  · subst h2; rfl
  by_cases h3 : x = "c"
  · subst h3; rfl
  have h4 : (x == "a") = false := by simpa using h1
  have h5 : (x == "b") = false := by simpa using h2
  have h6 : (x == "c") = false := by simpa using h3
  simp [List.lookup, h4, h5, h6]

/-! ## The machine with ordinary enums -/

inductive RState where
  | initializing (a b c : Bool)
  | initialized
deriving DecidableEq

abbrev rsig : Sig where
  M := Unit
  St := RState
  Sup := Bool × Bool × Bool
  Ev := Event
  Ctx := Unit
  In := Empty
  D := Bool
  E := Unit

def RState.discr : RState → Bool
  | .initializing .. => true
  | .initialized => false

def rhandler : RState → Event → RState × Response RState
  | .initializing _ b c, .A => (.initializing true b c, .super)
  | .initializing a _ c, .B => (.initializing a true c, .super)
  | .initializing a b _, .C => (.initializing a b true, .super)
  | .initialized, _ => (.initialized, .handled)

def rsuperstate : RState → Option ((Bool × Bool × Bool) × (Bool × Bool × Bool → RState))
  | .initializing a b c => some ((a, b, c), fun v => .initializing v.1 v.2.1 v.2.2)
  | .initialized => none

def rmachine : Machine rsig where
  initial := .initializing true false false
  discr := RState.discr
  supDiscr _ := ()
  handler s sh event ctx := .done ((rhandler s event).1, sh, ctx) (rhandler s event).2
  entry s sh ctx := .done (s, sh, ctx) ()
  exit s sh ctx := .done (s, sh, ctx) ()
  superstate := rsuperstate
  supHandler v sh _ ctx := .done (v, sh, ctx) (if v = (true, true, true) then .transition .initialized else .handled)
  supEntry v sh ctx := .done (v, sh, ctx) ()
  supExit v sh ctx := .done (v, sh, ctx) ()
  supSuperstate _ := none
  beforeDispatch sh _ _ := .done sh ()
  afterDispatch sh _ _ := .done sh ()
  beforeTransition sh _ _ := .done sh ()
  afterTransition sh _ _ := .done sh ()
  superstate_back := by
    intro s v back h
    cases s <;> cases h; rfl
  supSuperstate_back := by intro v w back h; cases h

def value : RState → MState
  | .initializing a b c => initializing a b c
  | .initialized => initialized

/-- A value of the generated superstate enum has the fields `v`. -/
def IsWaiting (u : Val gen.iface.supFields Bool) (v : Bool × Bool × Bool) : Prop :=
  u.variant = "WaitingForInitialization" ∧ u.get "a" = some v.1 ∧ u.get "b" = some v.2.1 ∧ u.get "c" = some v.2.2

def sameFields : Rel (gen.iface.sig types) rsig where
  M := Eq
  St s s' := s = value s'
  Sup := IsWaiting
  Ev := Eq
  Ctx := Eq
  In := Eq

theorem set_a {a b c x : Bool} : (initializing a b c).set "a" x = initializing x b c := by
  refine Val.ext (T := types) rfl fun y => ?_
  by_cases h : y = "a"
  · subst h; simp [Val.set, initializing]
  · have : (y == "a") = false := by simpa using h
    simp [Val.set, initializing, h, List.lookup, this]

theorem set_b {a b c x : Bool} : (initializing a b c).set "b" x = initializing a x c := by
  refine Val.ext (T := types) rfl fun y => ?_
  by_cases h : y = "b"
  · subst h; simp [Val.set, initializing, List.lookup]
  · have : (y == "b") = false := by simpa using h
    simp [Val.set, initializing, h, List.lookup, this]

theorem set_c {a b c x : Bool} : (initializing a b c).set "c" x = initializing a b x := by
  refine Val.ext (T := types) rfl fun y => ?_
  by_cases h : y = "c"
  · subst h; simp [Val.set, initializing, List.lookup]
  · have : (y == "c") = false := by simpa using h
    simp [Val.set, initializing, h, List.lookup, this]

theorem set_all {a b c x y z : Bool} :
    (((initializing a b c).set "a" x).set "b" y).set "c" z = initializing x y z := by
  rw [set_a, set_b, set_c]

theorem respects : Respects sameFields (gen.iface.machine env) rmachine where
  discr := by
    intro a a' b b' ha hb
    have ha : a = value a' := ha
    have hb : b = value b' := hb
    subst ha; subst hb
    show (value a').variant = (value b').variant ↔ a'.discr = b'.discr
    cases a' <;> cases b' <;> simp [value, initializing, initialized, RState.discr]
  supDiscr := by
    intro a a' b b' ha hb
    show a.variant = b.variant ↔ () = ()
    simp [ha.1, hb.1]
  handler := by
    intro s s' x x' e e' c c' hs hx he hc
    have hs : s = value s' := hs
    cases he; cases hc; cases hx; subst hs
    cases s'
    case initialized =>
      simp only [Iface.machine, value, initialized]
      eval_gen [gen, env, userHandler, source]
      exact .done ⟨rfl, rfl, rfl⟩ .handled
    case initializing a b d =>
      show FutRel _ _ _ (runHandler gen.iface (gen.iface.handler "Initializing") e (initializing a b d, x, c) userHandler) _
      have : gen.iface.handler "Initializing" = some ⟨⟨"Initializing", ["a", "b", "c"]⟩,
        ⟨"initializing", ["a", "b", "c", "event"], false⟩⟩ := by decide +kernel
      rw [this]
      have h1 : (initializing a b d).get "a" = some a := rfl
      have h2 : (initializing a b d).get "b" = some b := rfl
      have h3 : (initializing a b d).get "c" = some d := rfl
      cases e <;> eval_gen [gen, userHandler, source, h1, h2, h3] <;> exact .done ⟨set_all, rfl, rfl⟩ .super
  entry := by
    intro s s' x x' c c' hs hx hc
    have hs : s = value s' := hs
    subst hs
    cases s' <;> (simp only [Iface.machine, value, initializing, initialized]; eval_gen [gen]) <;>
      exact .done ⟨rfl, hx, hc⟩ rfl
  exit := by
    intro s s' x x' c c' hs hx hc
    have hs : s = value s' := hs
    subst hs
    cases s' <;> (simp only [Iface.machine, value, initializing, initialized]; eval_gen [gen]) <;>
      exact .done ⟨rfl, hx, hc⟩ rfl
  superstate := by
    intro s s' hs
    have hs : s = value s' := hs
    subst hs
    cases s' with
    | initialized =>
      simp only [Iface.machine, value, initialized]
      eval_gen [gen]
      exact .none
    | initializing a b c =>
      show OptRel _ (runSuperstate (T := types) gen.iface (gen.iface.superstate "Initializing") (initializing a b c)) _
      have h1 : gen.iface.superstate "Initializing" = some ⟨⟨"Initializing", ["a", "b", "c"]⟩,
        some ⟨"WaitingForInitialization", ["a", "b", "c"]⟩⟩ := by decide +kernel
      rw [h1]
      have hn : gen.iface.supFields "WaitingForInitialization" = some ["a", "b", "c"] := by decide +kernel
      obtain ⟨v, back, h⟩ := view_of (T := types) (I := gen.iface) (target := ⟨"WaitingForInitialization", ["a", "b", "c"]⟩)
        (bound := ["a", "b", "c"]) (s := initializing a b c) hn ⟨by simp, by simp [initializing, List.lookup]⟩
      obtain ⟨ns, h2, -, h3, h4, h5, h6⟩ := view_some h
      simp only [runSuperstate, h]
      rw [hn] at h2
      cases h2
      refine .some ⟨⟨h3, ?_, ?_, ?_⟩, ?_⟩
      · rw [h4]; rfl
      · rw [h4]; rfl
      · rw [h4]; rfl
      · rintro w ⟨a', b', c'⟩ ⟨g0, g1, g2, g3⟩
        refine Val.ext (T := types) (h5 w) fun x => ?_
        rw [h6 w g0]
        show _ = (initializing a' b' c').get x
        by_cases e1 : x = "a"
        · subst e1; exact g1
        by_cases e2 : x = "b"
        · subst e2; exact g2
        by_cases e3 : x = "c"
        · subst e3; exact g3
        have e4 : (x == "a") = false := by simpa using e1
        have e5 : (x == "b") = false := by simpa using e2
        have e6 : (x == "c") = false := by simpa using e3
        simp [e1, e2, e3, initializing, List.lookup, e4, e5, e6]
  supHandler := by
    intro v v' x x' e e' c c' hv hx he hc
    obtain ⟨h0, h1, h2, h3⟩ := hv
    cases he; cases hc; cases hx
    simp only [Iface.machine, h0]
    obtain ⟨a, b, d⟩ := v'
    eval_gen [gen, env, userHandler, source, h1, h2, h3]
    have key : IsWaiting (((v.set "a" a).set "b" b).set "c" d) (a, b, d) := by
      refine ⟨h0, ?_, ?_, ?_⟩ <;> simp [Val.set, h1, h2, h3]
    cases a <;> cases b <;> cases d <;>
      exact .done ⟨key, rfl, rfl⟩ (by first | exact .handled | exact .transition rfl)
  supEntry := by
    intro v v' x x' c c' hv hx hc
    simp only [Iface.machine, hv.1]
    eval_gen [gen]
    exact .done ⟨hv, hx, hc⟩ rfl
  supExit := by
    intro v v' x x' c c' hv hx hc
    simp only [Iface.machine, hv.1]
    eval_gen [gen]
    exact .done ⟨hv, hx, hc⟩ rfl
  supSuperstate := by
    intro v v' hv
    simp only [Iface.machine, hv.1]
    eval_gen [gen]
    exact .none
  beforeDispatch := by intros; exact .done ‹_› rfl
  afterDispatch := by intros; exact .done ‹_› rfl
  beforeTransition := by intros; exact .done ‹_› rfl
  afterTransition := by intro x x' a a' b b' hx ha hb; exact .done hx rfl

/-! ## What it does -/

def forest : Forest Bool Unit where
  leafParent b := if b then some () else none
  supParent _ := none
  supAnc _ := []
  supAnc_eq _ := rfl

theorem follows : Follows rmachine forest where
  leaf s := by cases s <;> rfl
  sup v := rfl
  leaf_back := by
    intro s v back w h _
    cases s with
    | initialized => cases h
    | initializing a b c => cases h; rfl
  sup_back := by intro u v back w h; cases h
  handler s sh ev c := .done (by cases s <;> cases ev <;> rfl)
  entry s sh c := .done rfl
  exit s sh c := .done rfl
  supHandler v sh ev c := .done rfl
  supEntry v sh c := .done rfl
  supExit v sh c := .done rfl

def closedPath : RState → RState → Option (Out (Nat × Nat))
  | .initializing .., .initialized => some (.ok (2, 1))
  | .initialized, .initializing .. => some (.ok (1, 2))
  | _, _ => some (.ok (1, 1))

theorem transitionPath_closed : transitionPath rmachine = closedPath := by
  funext s t
  by_cases h : rmachine.discr s = rmachine.discr t
  · rw [transitionPath_of_eq s t h]; cases s <;> cases t <;> first | rfl | cases h
  · rw [transitionPath_of_ne follows s t h]
    cases s <;> cases t <;> first | rfl | exact absurd rfl h

def closedDepth : RState → Option Nat
  | .initializing .. => some 2
  | .initialized => some 1

theorem depth_closed : depth rmachine = closedDepth := by
  funext s; rw [depth_eq follows s]; cases s <;> rfl

def next : RState → Event → RState
  | .initializing _ b c, .A => if b && c then .initialized else .initializing true b c
  | .initializing a _ c, .B => if a && c then .initialized else .initializing a true c
  | .initializing a b _, .C => if a && b then .initialized else .initializing a b true
  | .initialized, _ => .initialized

theorem handle_eq (i : Bool) (s : RState) (ev : Event) :
    ∃ c, (⟨⟨(), s⟩, i⟩ : StateMachine rsig).handleWithContext .blocking rmachine ev () [] = some c ∧
      c.out = .ok () ∧ c.self.inner.state = next s ev := by
  unfold_blocking [transitionPath_closed, depth_closed]
  rw [Blocking.supHandle]
  apply witness
  cases s with
  | initialized => cases i <;> cases ev <;> decide +kernel
  | initializing a b c => cases i <;> cases a <;> cases b <;> cases c <;> cases ev <;> decide +kernel

theorem init_eq (i : Bool) (s : RState) :
    ∃ c, (⟨⟨(), s⟩, i⟩ : StateMachine rsig).initWithContext .blocking rmachine () [] = some c ∧
      c.out = .ok () ∧ c.self.inner.state = s := by
  simp only [StateMachine.initWithContext, Inner.init, Blocking.init, depth_closed]
  apply witness
  cases s with
  | initialized => cases i <;> decide +kernel
  | initializing a b c => cases i <;> cases a <;> cases b <;> cases c <;> decide +kernel

def rafter (calls : List (Option Event)) : RState :=
  if some .B ∈ calls ∧ some .C ∈ calls then .initialized
  else .initializing true (some .B ∈ calls) (some .C ∈ calls)

theorem value_rafter (calls : List (Option Event)) : value (rafter calls) = after calls := by
  unfold rafter after; split <;> rfl

theorem next_rafter (calls : List (Option Event)) (ev : Event) :
    next (rafter calls) ev = rafter (calls ++ [some ev]) := by
  unfold rafter
  by_cases h1 : some Event.B ∈ calls <;> by_cases h2 : some Event.C ∈ calls <;> cases ev <;> simp [h1, h2, next]

theorem rafter_none (calls : List (Option Event)) : rafter (calls ++ [none]) = rafter calls := by
  unfold rafter; simp

theorem exec_eq {sm : StateMachine rsig} {calls : List (Option Event)} (h : sm.inner.state = rafter calls)
    (cmd : Command rsig) : ∃ c, cmd.exec .blocking rmachine sm = some c ∧ c.out = .ok () ∧
      c.self.inner.state = rafter (calls ++ [event? cmd]) := by
  obtain ⟨⟨⟨⟩, s⟩, b⟩ := sm
  cases cmd with
  | init ctx l =>
    have : l = [] := by cases l with | nil => rfl | cons i _ => exact i.elim
    subst this
    obtain ⟨c, h3, h4, h5⟩ := init_eq b s
    exact ⟨c, h3, h4, (h5.trans h).trans (rafter_none _).symm⟩
  | handle ev ctx l =>
    have : l = [] := by cases l with | nil => rfl | cons i _ => exact i.elim
    subst this
    obtain ⟨c, h3, h4, h5⟩ := handle_eq b s ev
    refine ⟨c, h3, h4, h5.trans ?_⟩
    have h : s = rafter calls := h
    rw [h]
    exact next_rafter calls ev

theorem calls_eq {sm : StateMachine rsig} {calls : List (Option Event)} (h : sm.inner.state = rafter calls)
    (cmds : List (Command rsig)) :
    (callAll .blocking rmachine sm cmds).map (fun c => (c.out, c.self.inner.state)) =
      (cmds.map event?).inits.tail.map fun l => (.ok (), rafter (calls ++ l)) := by
  induction cmds generalizing sm calls with
  | nil => rfl
  | cons cmd cmds ih =>
    obtain ⟨c, h1, h2, h3⟩ := exec_eq h cmd
    have := ih h3
    simp only [callAll, h1, List.map_cons, this, h2, h3, List.inits_cons, List.tail_cons]
    cases cmds with
    | nil => rfl
    | cons d ds => simp [List.inits_cons]

end Statig.Examples.Barrier

namespace Statig
open Examples.Barrier Statig.Macro

/-- C65.  The macro accepts the impl block of `examples/macro/barrier`, whatever the order of its hash maps, and what
it generates compiles and means the same. -/
theorem C65_barrier_accepted (ord) :
    ∃ g, expand Sample.syn ord source = .ok g ∧ g.Compiles ∧ g.iface = gen.iface := by
  obtain ⟨g, h, -⟩ := C46_items gen_eq ord
  obtain ⟨h1, h2⟩ := C46_behaviour gen_eq h compiles
  exact ⟨g, h, h1, h2⟩

/-- C65.  Whatever calls are made on the machine of `examples/macro/barrier`, each returns, and after it the state is
the one for the events received until then: the superstate sees what its state has just written, the event that
completes the set triggers the transition at once, and nothing received is forgotten. -/
theorem C65_barrier (cmds : List (Command (gen.iface.sig types))) :
    (callAll .blocking (gen.iface.machine env) (stateMachine (gen.iface.machine env) ()) cmds).map
        (fun c => (c.out, c.self.inner.state)) =
      (cmds.map event?).inits.tail.map fun received => (.ok (), after received) := by
  let f : Command (gen.iface.sig types) → Command rsig := fun
    | .init c l => .init c l
    | .handle e c l => .handle e c l
  have hf : ListRel sameFields.Command cmds (cmds.map f) := by
    induction cmds with
    | nil => exact .nil
    | cons cmd cmds ih =>
      refine .cons ?_ ih
      cases cmd with
      | init c l => exact .init rfl (ListRel.refl (fun _ => rfl) l)
      | handle e c l => exact .handle rfl rfl (ListRel.refl (fun _ => rfl) l)
  have h : ListRel (CallRel sameFields sameFields.Machine)
      (callAll .blocking (gen.iface.machine env) (stateMachine (gen.iface.machine env) ()) cmds)
      (callAll .blocking rmachine (stateMachine rmachine ()) (cmds.map f)) := by
    refine C50_representation_independence respects ?_ hf
    exact ⟨⟨rfl, rfl⟩, rfl⟩
  have he : (cmds.map f).map event? = cmds.map event? := by
    rw [List.map_map]
    apply List.map_congr_left
    intro cmd _
    cases cmd <;> rfl
  have h' := calls_eq (sm := stateMachine rmachine ()) (calls := []) rfl (cmds.map f)
  rw [he] at h'
  have h4 : (callAll .blocking (gen.iface.machine env) (stateMachine (gen.iface.machine env) ()) cmds).map
        (fun c => (c.out, c.self.inner.state)) =
      (callAll .blocking rmachine (stateMachine rmachine ()) (cmds.map f)).map
        fun c => (c.out, value c.self.inner.state) :=
    ListRel.map_eq h fun c d hcd => Prod.ext hcd.out hcd.self.1.2
  rw [h4]
  have h5 := congrArg (List.map fun p : Out Unit × RState => (p.1, value p.2)) h'
  simpa only [List.map_map, Function.comp_def, List.nil_append, value_rafter] using h5

/-- C65 at work: the run of the example (`examples/macro/barrier/src/main.rs:52-62`). -/
example : (([.A, .B, .C].map some : List (Option Event)).inits.tail.map after) =
    [initializing true false false, initializing true true false, initialized] := rfl

end Statig
