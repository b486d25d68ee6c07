import Verif.Model.Tests.Local
import Verif.Proofs.Examples.Common
import Verif.Proofs.Tests.Flat
import Verif.Proofs.Hierarchy
import Verif.Props.MacroSample
import Verif.Props.MacroOrder
import Verif.Spec.Tests.Local
/-!
# The machines of the tests of state-local storage: C84
-/
namespace Statig.Tests.LocalStorage

/-- The hierarchy of the states. -/
def forest : Forest Variant Unit where
  leafParent _ := some ()
  supParent _ := none
  supAnc _ := []
  supAnc_eq _ := rfl

theorem follows : Follows machine forest where
  leaf s := rfl
  sup v := rfl
  leaf_back := by
    intro s v back w h _
    cases s <;> (simp only [machine, superstate, Option.some.injEq, Prod.mk.injEq] at h; obtain ⟨h1, h2⟩ := h; subst h2; rfl)
  sup_back := by intro u v back w h; cases h
  handler s sh ev c := .done rfl
  entry s sh c := .done (by cases s <;> rfl)
  exit s sh c := .done rfl
  supHandler v sh ev c := .done rfl
  supEntry v sh c := .done rfl
  supExit v sh c := .done rfl

theorem path_eq : transitionPath machine = fun _ _ => some (.ok (1, 1)) := by
  funext s t
  by_cases h : machine.discr s = machine.discr t
  · exact transitionPath_of_eq (m := machine) s t h
  · rw [transitionPath_of_ne follows s t h]
    cases s <;> cases t <;> rfl

theorem depth_two (s : State) : depth machine s = some 2 := by
  rw [depth_eq follows s]; cases s <;> rfl

/-- What an event does. -/
def next : State → State
  | .on _ _ => .off false
  | .off _ => .on true 34

theorem init_eq (mode : Mode) (s : State) (hs : s = .off false ∨ ∃ led counter, s = .on led counter) (l : List Empty) :
    ∃ c, (⟨(), s⟩ : Inner sig).init mode machine () l = some c ∧ c.out = .ok () ∧ c.self = ⟨(), s⟩ := by
  rcases hs with rfl | ⟨led, counter, rfl⟩ <;> cases mode <;>
    (simp only [Inner.init, Inner.run, Blocking.init, Awaitable.init, depth_two, Eff.self, Eff.lift, bind, Eff.bind, Option.map]
     exact ⟨_, rfl, rfl, rfl⟩)

theorem step_eq (mode : Mode) (s : State) (l : List Empty) :
    ∃ c, (⟨(), s⟩ : Inner sig).handle mode machine () () l = some c ∧ c.out = .ok () ∧ c.self = ⟨(), next s⟩ := by
  cases s <;> cases mode <;>
    (simp only [Inner.handle, Blocking.handleEvent, Awaitable.handleEvent, Blocking.handle, Awaitable.handle, Blocking.transition,
       Awaitable.transition, path_eq]
     exact ⟨_, rfl, rfl, rfl⟩)

theorem stateAfter_succ (n : Nat) : stateAfter (n + 1) = next (stateAfter n) := by
  unfold stateAfter
  rcases Nat.eq_zero_or_pos n with rfl | h
  · rfl
  · rw [if_neg (Nat.succ_ne_zero n), if_neg (Nat.ne_of_gt h)]
    by_cases h2 : n % 2 = 1
    · rw [if_pos h2, if_neg (by omega)]; rfl
    · rw [if_neg h2, if_pos (by omega)]; rfl

theorem stateAfter_cases (n : Nat) : stateAfter n = .off false ∨ ∃ led counter, stateAfter n = .on led counter := by
  unfold stateAfter; split
  · exact .inr ⟨_, _, rfl⟩
  · split
    · exact .inl rfl
    · exact .inr ⟨_, _, rfl⟩

theorem calls_eq (mode : Mode) (b : Bool) (n : Nat) (cmds : List (Command sig)) :
    (callAll mode machine ⟨⟨(), stateAfter n⟩, b⟩ cmds).map (fun c => (c.out, c.self.inner.state)) = expected n cmds := by
  induction cmds generalizing n b with
  | nil => rfl
  | cons cmd cmds ih =>
    cases cmd with
    | init c l =>
      cases b with
      | true =>
        simp only [callAll, Command.exec, StateMachine.initWithContext, List.map_cons, expected, Bool.true_eq_false, if_false, ih]
      | false =>
        obtain ⟨r, h1, h2, h3⟩ := init_eq mode (stateAfter n) (stateAfter_cases n) l
        simp only [callAll, Command.exec, StateMachine.initWithContext, h1, h2, h3, List.map_cons, expected, if_true, bind, Option.bind, ih]
    | handle ev c l =>
      cases b with
      | true =>
        obtain ⟨q, h4, h5, h6⟩ := step_eq mode (stateAfter n) l
        rw [← stateAfter_succ] at h6
        simp only [callAll, Command.exec, StateMachine.handleWithContext, h4, h5, h6, List.map_cons, expected, Bool.true_eq_false, if_false,
          bind, Option.bind, ih]
      | false =>
        obtain ⟨r, h1, h2, h3⟩ := init_eq mode (stateAfter n) (stateAfter_cases n) l
        obtain ⟨q, h4, h5, h6⟩ := step_eq mode (stateAfter n) r.sched
        rw [← stateAfter_succ] at h6
        simp only [callAll, Command.exec, StateMachine.handleWithContext, h1, h2, h3, h4, h5, h6, List.map_cons, expected, if_true, bind,
          Option.bind, ih]

end Statig.Tests.LocalStorage

namespace Statig.Tests.Default
open Statig.Macro Statig.Examples

theorem gen_eq : expand Sample.syn Sample.forwards source = .ok gen := by decide +kernel
theorem compiles : gen.Compiles := by decide +kernel

theorem bar_eq : barConstructor.apply (fun _ => 0) value [] = some (bar.variant, bar.get) := by
  show some ("Bar", _) = some ("Bar", barField)
  refine congrArg (fun f => some ("Bar", f)) (funext fun x => ?_)
  unfold barField
  by_cases h1 : x = "local"
  · subst h1; rfl
  · by_cases h2 : x = "local_2"
    · subst h2; rfl
    · rw [if_neg h1, if_neg h2]
      simp only [barConstructor, List.lookup]
      rw [show (x == "local") = false by simpa using h1, show (x == "local_2") = false by simpa using h2]

/-- The machine as functions. -/
def flat : Flat (gen.iface.sig types) where
  handler s sh _ c := ((s, sh, c), .handled)
  entry s sh c := (s, sh, c)
  exit s sh c := (s, sh, c)
  beforeDispatch sh _ _ := sh
  afterDispatch sh _ _ := sh
  beforeTransition sh _ _ := sh
  afterTransition sh _ _ := sh

theorem variant_eq (s : State) : s.variant = "Bar" := by
  obtain ⟨ns, h, -⟩ := s.ok
  by_contra hn
  simp [Gen.iface, fieldsOf, gen, Ne.symm hn] at h

theorem set_get (s : State) (x : Ident) (v : Nat) (h : s.get x = some v) : s.set x v = s := by
  obtain ⟨n, get, ok⟩ := s
  simp only [Val.set, Val.mk.injEq, true_and]
  funext y
  by_cases hy : y = x
  · subst hy; simp only at h; simp [h]
  · simp [hy]

theorem flat_of : flat.Of machine where
  superstate s := by simp only [machine, Iface.machine, variant_eq]; eval_gen [gen]
  handler s sh ev c := by
    obtain ⟨ns, h, h'⟩ := s.ok
    rw [variant_eq s, show gen.iface.stateFields "Bar" = some ["local", "local_2"] by decide +kernel] at h
    cases h
    obtain ⟨a, ha⟩ := Option.isSome_iff_exists.1 ((h' "local").2 (by simp))
    obtain ⟨b, hb⟩ := Option.isSome_iff_exists.1 ((h' "local_2").2 (by simp))
    simp only [machine, Iface.machine, variant_eq]
    eval_gen [gen, env, barMethod, flat, ha, hb]
    exact congrArg (·, sh, c) ((congrArg (Val.set · "local_2" b) (set_get s "local" a ha)).trans (set_get s "local_2" b hb))
  entry s sh c := by simp only [machine, Iface.machine, variant_eq]; eval_gen [gen, flat]
  exit s sh c := by simp only [machine, Iface.machine, variant_eq]; eval_gen [gen, flat]
  beforeDispatch sh s ev := rfl
  afterDispatch sh s ev := rfl
  beforeTransition sh s t := rfl
  afterTransition sh s t := rfl

theorem calls_eq (mode : Mode) (sm : StateMachine (gen.iface.sig types)) (hs : sm.inner.state = bar)
    (cmds : List (Command (gen.iface.sig types))) :
    (callAll mode machine sm cmds).map (fun c => (c.out, c.self.inner.state)) = cmds.map fun _ => (.ok (), bar) := by
  induction cmds generalizing sm with
  | nil => rfl
  | cons cmd cmds ih =>
    obtain ⟨r, h1, h2, -, h3⟩ := flat_of.exec mode sm cmd
    have e : r.self.inner.state = bar := by
      have := congrArg Prod.fst h3
      simp only at this
      rw [this]
      cases cmd <;> simp only [Flat.exec, Flat.step, flat, ite_self, hs]
    simp only [callAll, h1, List.map_cons, ih r.self e, h2, e]

end Statig.Tests.Default

namespace Statig
open Statig.Macro

/-- C84, state-local storage without the macro (`statig/tests/state_local_storage.rs`).  Whatever calls are made on the
machine, in either mode, each returns, and the state afterwards has the local storage that the transition that led to it
and the entry action gave it. -/
theorem C84_local_storage (mode : Mode) (cmds : List (Command Tests.LocalStorage.sig)) :
    (callAll mode Tests.LocalStorage.machine (stateMachine Tests.LocalStorage.machine ()) cmds).map
      (fun c => (c.out, c.self.inner.state)) = Tests.LocalStorage.expected 0 cmds :=
  Tests.LocalStorage.calls_eq mode false 0 cmds

/-- C84, defaults of state-local storage (`statig/tests/default.rs`).  In whatever order the macro iterates over its hash
maps, it accepts the impl block and what it generates compiles; the constructor it generates for the initial state takes
no arguments and sets `local` to the default, 0, and `local_2` to 100; and these are the values before and after any
calls. -/
theorem C84_default (ord) :
    ∃ g, expand Sample.syn ord Tests.Default.source = .ok g ∧ g.Compiles ∧ g.iface = Tests.Default.gen.iface ∧
      g.constructors = [Tests.Default.barConstructor] ∧
      Tests.Default.barConstructor.apply (fun _ => 0) Tests.Default.value [] =
        some (Tests.Default.bar.variant, Tests.Default.bar.get) ∧
      Tests.Default.bar.get "local" = some 0 ∧ Tests.Default.bar.get "local_2" = some 100 ∧
      (stateMachine Tests.Default.machine ()).inner.state = Tests.Default.bar ∧
      ∀ cmds : List (Command (Tests.Default.gen.iface.sig Tests.Default.types)),
        (callAll g.mode Tests.Default.machine (stateMachine Tests.Default.machine ()) cmds).map
          (fun c => (c.out, c.self.inner.state)) = cmds.map fun _ => (.ok (), Tests.Default.bar) := by
  obtain ⟨g, h, h'⟩ := C46_items Tests.Default.gen_eq ord
  obtain ⟨h1, h2⟩ := C46_behaviour Tests.Default.gen_eq h Tests.Default.compiles
  exact ⟨g, h, h1, h2, List.perm_singleton.1 h'.constructors.symm, Tests.Default.bar_eq, rfl, rfl, rfl,
    fun cmds => Tests.Default.calls_eq g.mode _ rfl cmds⟩

end Statig
