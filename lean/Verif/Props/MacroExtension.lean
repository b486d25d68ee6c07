import Verif.Proofs.Macro.Extension
import Verif.Props.Extension
import Verif.Props.MacroSample
/-!
# Adding methods to the impl block: C74
-/
namespace Statig
open Macro
section
variable {syn : Syn} {ord ord' : Order} {src src' : Source} {g g' : Gen} {T : Types}

theorem Macro.Source.AddsTo.covers (h : src'.AddsTo src) : src'.Covers src := ⟨h.args, fun mth hm => ⟨_, h.methods mth hm⟩⟩

/-- C74. The generated enums keep their variants, with the same fields, when methods are added to the impl block, and
when functions become or cease to be `async`. -/
theorem C74_variants (ha : src'.Covers src) (h : expand syn ord src = .ok g) (hc : g.Compiles)
    (h' : expand syn ord' src' = .ok g') (hc' : g'.Compiles) :
    Widens g.iface.stateFields g'.iface.stateFields ∧ Widens g.iface.supFields g'.iface.supFields := by
  obtain ⟨sm, L, Lp, hg⟩ := genInfo (hc.distinct h) h
  obtain ⟨sm', L', Lp', hg'⟩ := genInfo (hc'.distinct h') h'
  exact hg.widens ha hc hg' hc'

/-- C74. The machine generated for the larger impl block extends the one generated for the smaller one: every old
state and superstate has the same callbacks, superstate and hooks.  (If the mode is not the same, async hooks, which a
blocking machine does not run, must not be there.) -/
theorem C74_extends (ha : src'.Covers src) (h : expand syn ord src = .ok g) (hc : g.Compiles)
    (h' : expand syn ord' src' = .ok g') (hc' : g'.Compiles) (hst : Widens g.iface.stateFields g'.iface.stateFields)
    (hsup : Widens g.iface.supFields g'.iface.supFields) {env : Env g.iface T} {env' : Env g'.iface T}
    (he : env.Same src hst hsup env') (hmode : g'.mode = g.mode ∨ ∀ p, g.Uses p → env.hookAsync p = false) :
    (g.iface.machine env).ExtendedBy (Val.widen hst) (Val.widen hsup) (g'.iface.machine env') := by
  obtain ⟨sm, L, Lp, hg⟩ := genInfo (hc.distinct h) h
  obtain ⟨sm', L', Lp', hg'⟩ := genInfo (hc'.distinct h') h'
  exact hg.extendedBy ha hc hg' hc' hst hsup he hmode

theorem initial_covers (ha : src'.Covers src) (h : expand syn ord src = .ok g) (hc : g.Compiles)
    (h' : expand syn ord' src' = .ok g') (hc' : g'.Compiles) {hst : Widens g.iface.stateFields g'.iface.stateFields}
    {hsup : Widens g.iface.supFields g'.iface.supFields} {env : Env g.iface T} {env' : Env g'.iface T}
    (he : env.Same src hst hsup env') : (g'.iface.machine env').initial = ((g.iface.machine env).initial).widen hst := by
  have e : g'.initial = g.initial := by
    obtain ⟨sm, L, Lp, hg⟩ := genInfo (hc.distinct h) h
    obtain ⟨sm', L', Lp', hg'⟩ := genInfo (hc'.distinct h') h'
    have h1 := hg.machine.initial
    have h2 := hg'.machine.initial
    have hs : src'.setting "initial" = src.setting "initial" := by unfold Source.setting; rw [ha.args]
    rw [hs, h1] at h2
    rw [hg.initial, hg'.initial]
    exact (Option.some.inj h2).symm
  show env'.initial g'.initial = (env.initial g.initial).widen hst
  rw [e]
  exact he.initial _

/-- C74. So a program that is given further states, superstates and actions behaves as before from its construction on,
whatever is called. -/
theorem C74_adding_methods (ha : src'.AddsTo src) (h : expand syn ord src = .ok g) (hc : g.Compiles)
    (h' : expand syn ord' src' = .ok g') (hc' : g'.Compiles) (hst : Widens g.iface.stateFields g'.iface.stateFields)
    (hsup : Widens g.iface.supFields g'.iface.supFields) {env : Env g.iface T} {env' : Env g'.iface T}
    (he : env.Same src hst hsup env') (hmode : g'.mode = g.mode) (self : T.M) (cmds : List (Command (g.iface.sig T))) :
    callAll g'.mode (g'.iface.machine env') (stateMachine (g'.iface.machine env') self) (cmds.map Command.grown) =
      (callAll g.mode (g.iface.machine env) (stateMachine (g.iface.machine env) self) cmds).map
        (Call.grown (Val.widen hst) (Val.widen hsup)) := by
  rw [hmode, ← C73_adding_states (C74_extends ha.covers h hc h' hc' hst hsup he (.inl hmode))]
  congr 1
  have hi := initial_covers ha.covers h hc h' hc' he
  unfold stateMachine StateMachine.grown
  rw [hi]

/-- The old functions can be used in the larger program. -/
theorem exists_same (hst : Widens g.iface.stateFields g'.iface.stateFields)
    (hsup : Widens g.iface.supFields g'.iface.supFields) (env : Env g.iface T) :
    ∃ env' : Env g'.iface T, env.Same src hst hsup env' := by
  classical
  have inj : ∀ {decl decl' : Ident → Option (List Ident)} (h : Widens decl decl') {a b : Val decl T.V},
      a.widen h = b.widen h → a = b := by
    intro decl decl' h a b e
    have h1 : (a.widen h).variant = (b.widen h).variant := by rw [e]
    have h2 : ∀ x, (a.widen h).get x = (b.widen h).get x := by rw [e]; exact fun _ => rfl
    exact Val.ext h1 h2
  have inj' : ∀ {a b : StateOrSuperstate (g.iface.sig T).St (g.iface.sig T).Sup},
      a.image (Val.widen hst) (Val.widen hsup) = b.image (Val.widen hst) (Val.widen hsup) → a = b := by
    intro a b e
    cases a <;> cases b <;> simp only [StateOrSuperstate.image, StateOrSuperstate.state.injEq,
      StateOrSuperstate.superstate.injEq, reduceCtorEq] at e <;> exact congrArg _ (inj _ e)
  refine ⟨{
    handler := fun n args => (env.handler n args).image id (Response.image (Val.widen hst))
    action := env.action
    initial := fun e => (env.initial e).widen hst
    dispatchHook := fun p sh k ev =>
      if hk : ∃ k', k = StateOrSuperstate.image (Val.widen hst) (Val.widen hsup) k' then
        env.dispatchHook p sh hk.choose ev
      else .done sh ()
    transitionHook := fun p sh s t =>
      if hs : ∃ s' t', s = Val.widen hst s' ∧ t = Val.widen hst t' then
        env.transitionHook p sh hs.choose hs.choose_spec.choose
      else .done sh ()
    hookAsync := env.hookAsync }, ?_⟩
  refine ⟨fun _ _ _ => rfl, fun _ _ _ => rfl, fun _ => rfl, fun p sh k ev => ?_, fun p sh s t => ?_, fun _ => rfl⟩
  · have hk : ∃ k', k.image (Val.widen hst) (Val.widen hsup) = StateOrSuperstate.image (Val.widen hst) (Val.widen hsup) k' :=
      ⟨k, rfl⟩
    simp only [hk, ↓reduceDIte]
    rw [← inj' hk.choose_spec]
  · have hs : ∃ s' t', s.widen hst = Val.widen hst s' ∧ t.widen hst = Val.widen hst t' := ⟨s, t, rfl, rfl⟩
    simp only [hs, ↓reduceDIte]
    exact congrArg₂ (env.transitionHook p sh) (inj _ hs.choose_spec.choose_spec.1).symm
      (inj _ hs.choose_spec.choose_spec.2).symm

end

/-! ## The hypotheses are met -/

namespace Macro.Sample

/-- A state with local storage of its own, in a new superstate inside `powered`, with an old and a new action. -/
def paused : Method where
  name := "paused"
  attrs := [⟨"state", some [⟨"superstate", .lit "waiting"⟩, ⟨"entry_action", .lit "enter_led"⟩,
    ⟨"exit_action", .lit "leave_paused"⟩]⟩]
  generic := false
  isAsync := false
  inputs := [selfArg, ledArg, .typed [] (.ident "rest") (refTo "u64")]

def waiting : Method where
  name := "waiting"
  attrs := [⟨"superstate", some [⟨"superstate", .lit "powered"⟩]⟩]
  generic := false
  isAsync := false
  inputs := [eventArg, .typed [] (.ident "rest") (refTo "u64")]

def leavePaused : Method where
  name := "leave_paused"
  attrs := [⟨"action", none⟩]
  generic := false
  isAsync := true
  inputs := [.typed [] (.ident "rest") (refTo "u64")]

/-- The sample with these methods in front. -/
def largerSource : Source where
  args := source.args
  methods := [paused, waiting, leavePaused] ++ source.methods

theorem adds : largerSource.AddsTo source := ⟨rfl, fun _ h => List.mem_append_right _ h⟩

theorem larger_ok : accepts backwards largerSource = true := by decide +kernel

/-- C74 applies, also if the hash maps are iterated in another order. -/
example : ∃ g', expand syn backwards largerSource = .ok g' ∧ g'.Compiles ∧ g'.mode = gen.mode ∧
    ∃ (hst : Widens gen.iface.stateFields g'.iface.stateFields) (hsup : Widens gen.iface.supFields g'.iface.supFields)
      (env' : Env g'.iface types), env.Same source hst hsup env' ∧
      (g'.iface.machine env').initial.variant = "LedOn" ∧
      (gen.iface.machine env).ExtendedBy (Val.widen hst) (Val.widen hsup) (g'.iface.machine env') := by
  have hc : (result _ _ larger_ok).Compiles := by decide +kernel
  have hm : (result _ _ larger_ok).mode = gen.mode := by decide +kernel
  obtain ⟨hst, hsup⟩ := C74_variants adds.covers gen_eq compiles (result_eq larger_ok) hc
  obtain ⟨env', he⟩ := exists_same (src := source) hst hsup env
  refine ⟨_, result_eq larger_ok, hc, hm, hst, hsup, env', he, ?_,
    C74_extends adds.covers gen_eq compiles (result_eq larger_ok) hc hst hsup he (.inl hm)⟩
  show (env'.initial _).variant = _
  rw [he.initial]
  show (env.initial (result _ _ larger_ok).initial).variant = _
  decide +kernel

/-- The variants of the larger enums: there are more. -/
example : ((result _ _ larger_ok).iface.stateFields "Paused") = some ["led", "rest"] ∧
    gen.iface.stateFields "Paused" = none ∧
    ((result _ _ larger_ok).iface.supFields "Waiting") = some ["rest"] ∧
    ((result _ _ larger_ok).iface.stateFields "LedOn") = some ["led", "counter", "extra"] := by decide +kernel

end Macro.Sample
end Statig
