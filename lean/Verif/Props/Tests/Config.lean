import Verif.Model.Tests.Config
import Verif.Props.MacroSample
import Verif.Props.MacroOrder
/-!
# The tests of generics and of the arguments of the macro: C84
-/
namespace Statig
open Statig.Macro

/-- The result satisfies a decidable condition. -/
def Tests.okAnd (P : Gen → Prop) [DecidablePred P] : Res Gen → Bool
  | .ok g => decide (P g)
  | .error _ => false

theorem Tests.of_okAnd (P : Gen → Prop) [DecidablePred P] {r : Res Gen} (h : okAnd P r = true) : ∃ g, r = .ok g ∧ P g := by
  cases r with
  | error e => cases h
  | ok g => exact ⟨g, rfl, of_decide_eq_true h⟩

/-- What is expected of the impl block of `statig/tests/generics.rs`: the state enum has the parameters the fields of the
states use, in the order of the impl block (`State<T, B, SIZE>` in lines 29, 34 and 39), and the fields are those of the
functions. -/
def Tests.Generics.Expected (g : Gen) : Prop :=
  g.stateGenerics = [.type "T" [], .type "B" [], .const "SIZE" "usize"] ∧
    g.states.Perm [⟨"A", []⟩, ⟨"B", [⟨"array", array⟩]⟩, ⟨"C", [⟨"deref", .path "B" .nil⟩]⟩] ∧
    g.generics = generics ∧ g.stateImpl = generics ∧ g.mode = .blocking

instance : DecidablePred Tests.Generics.Expected := fun g => inferInstanceAs (Decidable (_ ∧ _))

/-- C84, generics.  In whatever order the macro iterates over its hash maps, it accepts the impl block, what it
generates compiles, and the state enum has the generics by which the functions refer to it. -/
theorem C84_generics (ord) :
    ∃ g, expand Sample.syn ord Tests.Generics.source = .ok g ∧ g.Compiles ∧ Tests.Generics.Expected g := by
  obtain ⟨g0, h0, hc, h1, h2, h3, h4, h5⟩ := Tests.of_okAnd (fun g => g.Compiles ∧ Tests.Generics.Expected g)
    (r := expand Sample.syn Sample.forwards Tests.Generics.source) (by decide +kernel)
  obtain ⟨g, h, hs⟩ := C46_items h0 ord
  obtain ⟨hc', -⟩ := C46_behaviour h0 h hc
  exact ⟨g, h, hc', hs.stateGenerics ▸ h1, hs.states.symm.trans h2, hs.generics ▸ h3, hs.stateImpl ▸ h4, hs.mode ▸ h5⟩

/-- What is expected of the impl block of `statig/tests/config_macro.rs`: the names, derives, visibility and parameter
names are the ones asked for. -/
def Tests.Config.Expected (g : Gen) : Prop :=
  g.stateIdent = "MyState" ∧ g.stateDerives = ["PartialEq", "Eq"] ∧ g.superstateIdent = "MySuperstate" ∧
    g.superstateDerives = ["Clone"] ∧ g.visibility = "pub(crate)" ∧ g.initial = "MyState::bar()" ∧
    g.eventIdent = "my_event" ∧ g.contextIdent = "my_context" ∧
    g.eventType = .path "Event" .nil ∧ g.contextType = .path "Context" .nil ∧
    g.states = [⟨"Bar", []⟩] ∧ g.superstates = [⟨"Foo", []⟩] ∧
    g.handlerArms = [⟨⟨"Bar", []⟩, ⟨"bar", ["my_event", "my_context"], false⟩⟩] ∧
    g.superstateArms = [⟨⟨"Bar", []⟩, some ⟨"Foo", []⟩⟩]

instance : DecidablePred Tests.Config.Expected := fun g => inferInstanceAs (Decidable (_ ∧ _))

theorem Tests.Config.types_unique : (∀ ty, source.EventTy ty → ty = .path "Event" .nil) ∧
    ∀ ty, source.ContextTy ty → ty = .path "Context" .nil := by
  have key : ∀ mth ∈ source.methods, ∀ a ∈ mth.inputs, ∀ attrs i l m ty, a = .typed attrs (.ident i) (.ref l m ty) →
      (i = "my_event" → ty = .path "Event" .nil) ∧ (i = "my_context" → ty = .path "Context" .nil) := by
    have : ∀ mth ∈ source.methods, ∀ a ∈ mth.inputs,
        (match a with
        | .typed _ (.ident i) (.ref _ _ ty) =>
          decide ((i = "my_event" → ty = .path "Event" .nil) ∧ (i = "my_context" → ty = .path "Context" .nil))
        | _ => true) = true := by decide +kernel
    rintro mth hm a ha attrs i l m ty rfl
    exact of_decide_eq_true (this mth hm _ ha)
  have he : source.eventIdent = "my_event" := by decide +kernel
  have hcx : source.contextIdent = "my_context" := by decide +kernel
  constructor
  · rintro ty ⟨mth, hm, _, attrs, l, m, ha⟩
    exact (key mth hm _ ha _ _ _ _ _ rfl).1 he
  · rintro ty ⟨mth, hm, _, attrs, l, m, ha⟩
    exact (key mth hm _ ha _ _ _ _ _ rfl).2 hcx

/-- C84, arguments of the macro.  In whatever order the macro iterates over its hash maps, it accepts the impl block, what
it generates compiles, and it has the names, derives, visibility and parameters that were asked for. -/
theorem C84_config (ord) :
    ∃ g, expand Sample.syn ord Tests.Config.source = .ok g ∧ g.Compiles ∧ Tests.Config.Expected g := by
  obtain ⟨g0, h0, hc, h1, h2, h3, h4, h5, h6, h7, h8, h9, h10, h11, h12, h13, h14⟩ :=
    Tests.of_okAnd (fun g => g.Compiles ∧ Tests.Config.Expected g)
      (r := expand Sample.syn Sample.forwards Tests.Config.source) (by decide +kernel)
  obtain ⟨g, h, hs⟩ := C46_items h0 ord
  obtain ⟨hc', -⟩ := C46_behaviour h0 h hc
  obtain ⟨t1, t2⟩ := Tests.Config.types_unique
  obtain ⟨e1, e2⟩ := C46_types h0 h hc (fun _ _ a b => (t1 _ a).trans (t1 _ b).symm) fun _ _ a b => (t2 _ a).trans (t2 _ b).symm
  refine ⟨g, h, hc', hs.stateIdent ▸ h1, hs.stateDerives ▸ h2, hs.superstateIdent ▸ h3, hs.superstateDerives ▸ h4,
    hs.visibility ▸ h5, hs.initial ▸ h6, hs.eventIdent ▸ h7, hs.contextIdent ▸ h8, e1.trans h9, e2.trans h10, ?_, ?_, ?_, ?_⟩
  · exact List.perm_singleton.1 (h11 ▸ hs.states.symm)
  · exact List.perm_singleton.1 (h12 ▸ hs.superstates.symm)
  · exact List.perm_singleton.1 (h13 ▸ hs.handlerArms.symm)
  · exact List.perm_singleton.1 (h14 ▸ hs.superstateArms.symm)

end Statig
