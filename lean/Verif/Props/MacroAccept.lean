import Verif.Proofs.Macro.Usable
import Verif.Props.MacroSample
/-!
# Which declarations are accepted, and for which the generated code is well-scoped: C55, C56
-/
namespace Statig
open Macro
variable {syn : Syn} {ord : Order} {src : Source} {g : Gen}

/-! ## C55: The macro accepts exactly the well-formed declarations -/

/-- The macro accepts a declaration, whatever the order of iteration, iff it is well-formed.  (Methods and the parameters
of each have distinct names, a method has at most one `#[state]`, and event and context have different names.) -/
theorem C55_accepts (hd : src.Distinct) (h1 : ∀ mth ∈ src.methods, mth.countAttr "state" ≤ 1)
    (hn : ∀ mth ∈ src.methods, (mth.inputs.filterMap argName).Nodup) (hne : src.eventIdent ≠ src.contextIdent) :
    (∃ g, expand syn ord src = .ok g) ↔ src.WellFormed syn := expand_isOk hd h1 hn hne

/-- Otherwise it aborts with an error. -/
theorem C55_rejects (hd : src.Distinct) (h1 : ∀ mth ∈ src.methods, mth.countAttr "state" ≤ 1)
    (hn : ∀ mth ∈ src.methods, (mth.inputs.filterMap argName).Nodup) (hne : src.eventIdent ≠ src.contextIdent) :
    (∃ e, expand syn ord src = .error e) ↔ ¬ src.WellFormed syn := by
  rw [← C55_accepts (ord := ord) hd h1 hn hne]
  cases expand syn ord src with
  | ok g => simp
  | error e => simp

/-- For any declaration at all, it is rejected unless the type of the impl block is a path, every argument of `#[state_machine(..)]` is a known setting with a
value of the right form, and there is an initial state. -/
theorem C55_settings (h : expand syn ord src = .ok g) :
    (∃ n args, src.selfTy = .path n args) ∧ (∀ a ∈ src.args, a.Valid syn) ∧ (∃ a ∈ src.args, a.key = "initial") ∧
      src.EnumValid syn "state" ∧ src.EnumValid syn "superstate" := by
  unfold expand at h
  obtain ⟨model, hmodel, _⟩ := Res.bind_ok h
  unfold analyze at hmodel
  obtain ⟨sm, hs, _⟩ := Res.bind_ok hmodel
  exact analyzeStateMachine_isOk.1 ⟨sm, hs⟩

namespace Macro.Sample

/-- Decides the side conditions of `C55_accepts`. -/
def sideConditions (src : Source) : Bool :=
  decide ((src.methods.map (·.name)).Nodup ∧ (∀ mth ∈ src.methods, mth.countAttr "state" ≤ 1) ∧
    (∀ mth ∈ src.methods, (mth.inputs.filterMap argName).Nodup) ∧ src.eventIdent ≠ src.contextIdent)

theorem wellFormed_iff {src : Source} (h : sideConditions src = true) :
    (∃ g, expand Sample.syn forwards src = .ok g) ↔ src.WellFormed Sample.syn := by
  obtain ⟨h1, h2, h3, h4⟩ := of_decide_eq_true h
  exact C55_accepts h1 h2 h3 h4

/-- The sample without `initial`. -/
def noInitial : Source := { source with args := source.args.tail }

/-- The sample, where `led_on` names a superstate that is a state. -/
def wrongSuperstate : Source :=
  { source with
    methods := [{ ledOn with attrs := [⟨"state", some [⟨"superstate", .lit "stopped"⟩]⟩] }, stopped] }

/-- The sample, where `led` is passed by value. -/
def byValue : Source :=
  { source with
    methods := [{ ledOff with inputs := [selfArg, .typed [] (.ident "led") (.path "bool" .nil)] }] }

/-- `impl<T> Blinky<T> where (T,): Clone`. -/
def tuplePredicate : Source :=
  { source with generics := ⟨[.type "T" []], [.type (.compound "()" (.ty (.path "T" .nil) .nil)) ["Clone"]]⟩ }

end Macro.Sample

/-- The sample is well-formed. -/
example : Sample.source.WellFormed Sample.syn :=
  (Sample.wellFormed_iff (by decide +kernel)).1 ⟨_, Sample.gen_eq⟩

/-- These are rejected. -/
example : (∃ e, expand Sample.syn Sample.forwards Sample.noInitial = .error e) ∧
    (∃ e, expand Sample.syn Sample.forwards Sample.wrongSuperstate = .error e) ∧
    (∃ e, expand Sample.syn Sample.forwards Sample.byValue = .error e) ∧
    ∃ e, expand Sample.syn Sample.forwards Sample.tuplePredicate = .error e := by
  have side : ∀ {src : Source}, Sample.sideConditions src = true → ¬ src.WellFormed Sample.syn →
      ∃ e, expand Sample.syn Sample.forwards src = .error e := by
    intro src h hw
    obtain ⟨h1, h2, h3, h4⟩ := of_decide_eq_true h
    exact (C55_rejects h1 h2 h3 h4).2 hw
  refine ⟨side (by decide +kernel) fun w => ?_, side (by decide +kernel) fun w => ?_,
    side (by decide +kernel) fun w => ?_, side (by decide +kernel) fun w => ?_⟩
  · obtain ⟨a, ha, hk⟩ := w.initial
    simp only [Sample.noInitial, Sample.source, List.tail_cons, List.mem_cons, List.not_mem_nil, or_false] at ha
    rcases ha with rfl | rfl <;> simp at hk
  · obtain ⟨pm, hpm, hn, a, ha, hk⟩ := w.superstates { Sample.ledOn with
      attrs := [⟨"state", some [⟨"superstate", .lit "stopped"⟩]⟩] } (by simp [Sample.wrongSuperstate]) "state"
      (.inl rfl) "stopped" (by decide +kernel)
    simp only [Sample.wrongSuperstate, List.mem_cons, List.not_mem_nil, or_false] at hpm
    rcases hpm with rfl | rfl
    · simp [Sample.ledOn] at hn
    · simp only [Sample.stopped, List.mem_cons, List.not_mem_nil, or_false] at ha
      rcases ha with rfl | rfl <;> simp at hk
  · obtain ⟨i, l, m, t, _, ht, _⟩ := w.args { Sample.ledOff with
      inputs := [Sample.selfArg, .typed [] (.ident "led") (.path "bool" .nil)] } (by simp [Sample.byValue]) "state"
      (.inl rfl) ⟨_, List.mem_cons_self, rfl⟩ (.typed [] (.ident "led") (.path "bool" .nil)) (by simp)
    cases ht
  · obtain ⟨m, args, h⟩ := w.predicates "T" [] (by simp [Sample.tuplePredicate]) (.compound "()" (.ty (.path "T" .nil) .nil))
      ["Clone"] (by simp [Sample.tuplePredicate])
    cases h

/-! ## C56: When the generated code is well-scoped -/

/-- The code generated for an accepted declaration compiles, as far as names are concerned, iff names are distinct,
a state or superstate has all the fields of its superstate, and its actions ask only for what is available. -/
theorem C56_compiles (h : expand syn ord src = .ok g) : g.Compiles ↔ src.Usable syn := compiles_iff h

/-- Together: for which declarations there is code that compiles.  It does not depend on the order of iteration. -/
theorem C56_accepts (h1 : ∀ mth ∈ src.methods, mth.countAttr "state" ≤ 1)
    (hn : ∀ mth ∈ src.methods, (mth.inputs.filterMap argName).Nodup) :
    (∃ g, expand syn ord src = .ok g ∧ g.Compiles) ↔ src.WellFormed syn ∧ src.Usable syn := by
  constructor
  · rintro ⟨g, h, hc⟩
    have hu := (C56_compiles h).1 hc
    exact ⟨(C55_accepts hu.methods h1 hn hu.names.2.2).1 ⟨g, h⟩, hu⟩
  · rintro ⟨hw, hu⟩
    obtain ⟨g, h⟩ := (C55_accepts (ord := ord) hu.methods h1 hn hu.names.2.2).2 hw
    exact ⟨g, h, (C56_compiles h).2 hu⟩

example : Sample.source.Usable Sample.syn := (C56_compiles Sample.gen_eq).1 Sample.compiles

namespace Macro.Sample

/-- The sample, where `enter_led` asks for the event. -/
def eventAction : Source :=
  { source with methods := source.methods.map fun mth =>
      if mth.name = "enter_led" then { mth with inputs := [selfArg, eventArg] } else mth }

theorem eventAction_ok : accepts forwards eventAction = true := by decide +kernel

end Macro.Sample

/-- An action that asks for the event is accepted, but the generated code does not compile. -/
theorem C56_event_in_action : ∃ g, expand Sample.syn Sample.forwards Sample.eventAction = .ok g ∧ ¬ g.Compiles := by
  refine ⟨_, Sample.result_eq Sample.eventAction_ok, fun hc => ?_⟩
  have hu := (C56_compiles (Sample.result_eq Sample.eventAction_ok)).1 hc
  have := hu.actions "state" (.inl rfl) Sample.ledOn (by decide +kernel)
    { Sample.enterLed with inputs := [Sample.selfArg, Sample.eventArg] } (by decide +kernel)
    ⟨_, List.mem_cons_self, rfl⟩ "entry_action" (.inl rfl) (by decide +kernel) []
    "event" (.ref none false (.path "Event" .nil)) (by simp [Sample.eventArg])
  revert this
  decide +kernel

end Statig
