import Verif.Proofs.Macro.Reorder
import Verif.Proofs.Macro.Calls
import Verif.Props.MacroSample
/-!
# The output of the macro does not depend on hash order: C46
-/
namespace Statig
open Macro
variable {syn : Syn} {ord ord' : Order} {src : Source} {g g' : Gen} {T : Types}

theorem Macro.Ir.Reordered.items {ir ir' : Ir} (hr : ir.Reordered ir') :
    (codegen ord ir).SameItems { codegen ord' ir' with methods := (codegen ord ir).methods } := by
  have p : ∀ n, (ord.perm n ir.states).Perm (ord'.perm n ir'.states) := fun n =>
    ((ord.perm_perm n _).trans hr.states).trans (ord'.perm_perm n _).symm
  have q : ∀ n, (ord.perm n ir.superstates).Perm (ord'.perm n ir'.superstates) := fun n =>
    ((ord.perm_perm n _).trans hr.superstates).trans (ord'.perm_perm n _).symm
  constructor
  case methods => rfl
  case mode => exact hr.mode.symm
  case superstateLifetime => exact hr.superstateLifetime.symm
  case stateGenerics => exact hr.stateGenerics.symm
  case superstateGenerics => exact hr.superstateGenerics.symm
  case callArgs => exact hr.turbofish.symm
  case stateImpl => exact hr.stateImplGenerics.symm
  case superstateImpl => exact hr.superstateImplGenerics.symm
  case states => exact (p 8).map _
  case constructors => exact (p 9).map _
  case superstates => exact (q 12).map _
  all_goals
    simp only [codegen, hr.stateMachine]
  all_goals
    first
      | exact ((p 10).map _).map _
      | exact ((q 11).map _).map _

/-- If a declaration is accepted with one order of iteration of the hash maps, it is accepted with every other, and the
generated items are the same up to their order. -/
theorem C46_items (h : expand syn ord src = .ok g) (ord' : Order) :
    ∃ g', expand syn ord' src = .ok g' ∧ g.SameItems g' := by
  unfold expand at h
  obtain ⟨model, hmodel, h⟩ := Res.bind_ok h
  obtain ⟨ir, hir, h⟩ := Res.bind_ok h
  cases h
  obtain ⟨sm, hm, hmi⟩ := modelInfo hmodel
  obtain ⟨ir', hir', hr, hm1, hm2⟩ := lower_reordered ⟨rfl, .refl _, .refl _, .refl _⟩ hmi.states.keys
    hmi.superstates.keys hmi.actions.keys hir ord'
  refine ⟨codegen ord' ir', Res.bind_of hmodel (Res.bind_of hir' rfl), ?_⟩
  have := hr.items (ord := ord) (ord' := ord')
  have e : (codegen ord ir).methods = (codegen ord' ir').methods := hm1.trans hm2.symm
  rw [e] at this
  exact this

theorem Macro.Gen.SameItems.compiles (h : g.SameItems g') (hc : g.Compiles) : g'.Compiles := by
  have hres : ∀ bound b x, g'.iface.resolve bound b x = g.iface.resolve bound b x := by
    intro bound b x
    unfold Iface.resolve Gen.iface
    simp only [h.eventIdent, h.contextIdent]
  refine ⟨?_, ?_, ?_, ?_, ?_, ?_, ?_, ?_, ?_, ?_, ?_, ?_, ?_, ?_⟩
  · exact h.methods ▸ hc.methods
  · exact (h.states.map _).nodup_iff.1 hc.states
  · exact (h.superstates.map _).nodup_iff.1 hc.superstates
  · exact fun v hv => hc.stateFields v (h.states.mem_iff.2 hv)
  · exact fun v hv => hc.supFields v (h.superstates.mem_iff.2 hv)
  · exact h.eventIdent ▸ h.contextIdent ▸ hc.params
  · exact fun a ha x hx => hres _ _ _ ▸ hc.handlerArgs a (h.handlerArms.mem_iff.2 ha) x hx
  · exact fun a ha c hc' x hx => hres _ _ _ ▸ hc.entryArgs a (h.entryArms.mem_iff.2 ha) c hc' x hx
  · exact fun a ha c hc' x hx => hres _ _ _ ▸ hc.exitArgs a (h.exitArms.mem_iff.2 ha) c hc' x hx
  · exact fun a ha p hp x hx => hc.superstateFields a (h.superstateArms.mem_iff.2 ha) p hp x hx
  · exact fun a ha x hx => hres _ _ _ ▸ hc.supHandlerArgs a (h.supHandlerArms.mem_iff.2 ha) x hx
  · exact fun a ha c hc' x hx => hres _ _ _ ▸ hc.supEntryArgs a (h.supEntryArms.mem_iff.2 ha) c hc' x hx
  · exact fun a ha c hc' x hx => hres _ _ _ ▸ hc.supExitArgs a (h.supExitArms.mem_iff.2 ha) c hc' x hx
  · exact fun a ha p hp x hx => hc.supSuperstateFields a (h.supSuperstateArms.mem_iff.2 ha) p hp x hx

theorem armOf_perm {B β : Type} {L : HMap β} {arms arms' : List (Arm B)} {variant : β → Variant}
    {pat : β → VariantPat} {body : β → B} (hp : arms.Perm (L.map fun e => ⟨pat e.2, body e.2⟩))
    (hn : (L.map fun e => (variant e.2).name).Nodup) (hv : ∀ e ∈ L, (pat e.2).variant = (variant e.2).name)
    (hp' : arms.Perm arms') : armOf arms = armOf arms' :=
  funext fun v => (armOf_map hp hn hv v).trans (armOf_map (hp'.symm.trans hp) hn hv v).symm

theorem Macro.Gen.SameItems.iface (hs : g.SameItems g') (h : expand syn ord src = .ok g) (hc : g.Compiles) :
    g'.iface = g.iface := by
  obtain ⟨sm, L, Lp, hg⟩ := genInfo (hc.distinct h) h
  obtain ⟨hn, hn'⟩ := hg.nodup hc
  unfold Gen.iface
  simp only [Iface.mk.injEq]
  refine ⟨hs.mode.symm, hs.initial.symm, hs.eventIdent.symm, hs.contextIdent.symm, hs.beforeTransition.symm,
    hs.afterTransition.symm, hs.beforeDispatch.symm, hs.afterDispatch.symm, by rw [hs.methods], ?_, ?_, ?_, ?_, ?_, ?_,
    ?_, ?_, ?_, ?_⟩
  · exact funext fun v => (fieldsOf_map (hs.states.symm.trans hg.states) hn v).trans (fieldsOf_map hg.states hn v).symm
  · exact funext fun v =>
      (fieldsOf_map (hs.superstates.symm.trans hg.superstates) hn' v).trans (fieldsOf_map hg.superstates hn' v).symm
  · exact (armOf_perm hg.handlerArms hn hg.pats hs.handlerArms).symm
  · exact (armOf_perm hg.entryArms hn hg.pats hs.entryArms).symm
  · exact (armOf_perm hg.exitArms hn hg.pats hs.exitArms).symm
  · exact (armOf_perm hg.superstateArms hn hg.pats hs.superstateArms).symm
  · exact (armOf_perm hg.supHandlerArms hn' hg.supPats hs.supHandlerArms).symm
  · exact (armOf_perm hg.supEntryArms hn' hg.supPats hs.supEntryArms).symm
  · exact (armOf_perm hg.supExitArms hn' hg.supPats hs.supExitArms).symm
  · exact (armOf_perm hg.supSuperstateArms hn' hg.supPats hs.supSuperstateArms).symm

/-- All iteration orders of the hash maps give code that compiles, or all give code that does not; and if it compiles,
what it does when it runs is the same. -/
theorem C46_behaviour (h : expand syn ord src = .ok g) (h' : expand syn ord' src = .ok g') (hc : g.Compiles) :
    g'.Compiles ∧ g'.iface = g.iface := by
  obtain ⟨g₁, h₁, hs⟩ := C46_items h ord'
  rw [h'] at h₁
  cases h₁
  exact ⟨hs.compiles hc, hs.iface h hc⟩

/-- With another iteration order the sample has its variants in another order, but it behaves the same. -/
example : ∃ g', expand Sample.syn Sample.backwards Sample.source = .ok g' ∧ g' ≠ Sample.gen ∧
    g'.iface = Sample.gen.iface := by
  refine ⟨_, Sample.result_eq Sample.ok', by decide +kernel,
    (C46_behaviour Sample.gen_eq (Sample.result_eq Sample.ok') Sample.compiles).2⟩

/-! ## Types of event and context -/

theorem refArg_eventArgOf {ident : Ident} {l : List FnArg} {ty : Ty} (h : refArg ident (eventArgOf ident l) = some ty) :
    ∃ attrs lt m, .typed attrs (.ident ident) (.ref lt m ty) ∈ l := by
  unfold eventArgOf at h
  generalize hl : List.getLast? _ = o at h
  rcases o with _ | ⟨pat, ty'⟩
  · cases h
  · have := List.mem_of_getLast? hl
    obtain ⟨a, ha, e⟩ := List.mem_filterMap.1 this
    rcases a with _ | ⟨attrs, i | _ | _, ty''⟩
    · cases e
    · simp only [Option.ite_none_right_eq_some, Option.some.injEq, PatType.mk.injEq] at e
      obtain ⟨rfl, rfl, rfl⟩ := e
      cases ty'' with
      | ref lt m elem =>
        simp only [refArg, ↓reduceIte, Option.some.injEq] at h
        subst h
        exact ⟨attrs, lt, m, ha⟩
      | path => cases h
      | compound => cases h
    · cases e
    · cases e

theorem refArg_none {ident : Ident} {l : List FnArg} (hr : RefArg ident (eventArgOf ident l))
    (h : refArg ident (eventArgOf ident l) = none) (attrs : List ArgAttr) (ty : Ty) :
    .typed attrs (.ident ident) ty ∉ l := by
  intro hm
  unfold eventArgOf at h hr
  generalize hl : List.getLast? _ = o at h hr
  rcases o with _ | ⟨pat, ty'⟩
  · rw [List.getLast?_eq_none_iff, List.filterMap_eq_nil_iff] at hl
    have := hl _ hm
    simp at this
  · have := List.mem_of_getLast? hl
    obtain ⟨a, ha, e⟩ := List.mem_filterMap.1 this
    rcases a with _ | ⟨attrs, i | _ | _, ty''⟩
    · cases e
    · simp only [Option.ite_none_right_eq_some, Option.some.injEq, PatType.mk.injEq] at e
      obtain ⟨rfl, rfl, rfl⟩ := e
      cases ty'' with
      | ref lt m elem => simp [refArg] at h
      | path => exact hr rfl
      | compound => exact hr rfl
    · cases e
    · cases e

/-- The event type of the generated code is, up to lifetimes, the type that some handler declares, or `()` if there is
no event parameter; and the same for the context. -/
theorem C46_types_declared (h : expand syn ord src = .ok g) (hc : g.Compiles) :
    ((g.eventType = .compound "()" .nil ∧ ∀ ty, ¬ src.EventTy ty) ∨
      ∃ ty, src.EventTy ty ∧ g.eventType = renameTy "event" ty) ∧
    ((g.contextType = .compound "()" .nil ∧ ∀ ty, ¬ src.ContextTy ty) ∨
      ∃ ty, src.ContextTy ty ∧ g.contextType = renameTy "context" ty) := by
  have hd := hc.distinct h
  have hpar : src.eventIdent ≠ src.contextIdent := by
    obtain ⟨sm, L, Lp, hg⟩ := genInfo hd h
    exact (hg.params hc).2.2
  unfold expand at h
  obtain ⟨model, hmodel, h⟩ := Res.bind_ok h
  obtain ⟨ir, hir, h⟩ := Res.bind_ok h
  cases h
  obtain ⟨sm, hm, hmi⟩ := modelInfo hmodel
  have hpar' : sm.eventIdent ≠ sm.contextIdent := by
    rw [hm.eventIdent, hm.contextIdent]
    exact hpar
  unfold lower at hir
  obtain ⟨states, hstates, h⟩ := Res.bind_ok hir
  obtain ⟨sups, hsups, h⟩ := Res.bind_ok h
  obtain ⟨actions, hactions, h⟩ := Res.bind_ok h
  obtain ⟨states', hstates', h⟩ := Res.bind_ok h
  obtain ⟨sups', hsups', h⟩ := Res.bind_ok h
  obtain ⟨found, hf, h⟩ := Res.bind_ok h
  obtain ⟨found', hf', h⟩ := Res.bind_ok h
  obtain ⟨gen, hgen, h⟩ := Res.bind_ok h
  cases h
  rw [hmi.stateMachine] at hf hf'
  have s1 : ∀ e ∈ model.states, ∃ mth ∈ src.methods, mth.Has "state" ∧
      e.2.eventArg = eventArgOf src.eventIdent mth.inputs ∧ e.2.contextArg = eventArgOf src.contextIdent mth.inputs := by
    rintro ⟨n, st⟩ he
    obtain ⟨mth, h1, _, h2, h3⟩ := hmi.states.sound n st he
    exact ⟨mth, h1, h2, hm.eventIdent ▸ h3.info.eventArg, hm.contextIdent ▸ h3.info.contextArg hpar'⟩
  have s2 : ∀ e ∈ model.superstates, ∃ mth ∈ src.methods, mth.Has "superstate" ∧
      e.2.eventArg = eventArgOf src.eventIdent mth.inputs ∧ e.2.contextArg = eventArgOf src.contextIdent mth.inputs := by
    rintro ⟨n, st⟩ he
    obtain ⟨mth, h1, _, h2, h3⟩ := hmi.superstates.sound n st he
    exact ⟨mth, h1, h2, hm.eventIdent ▸ h3.1.eventArg, hm.contextIdent ▸ h3.1.contextArg hpar'⟩
  have t1 : ∀ mth ∈ src.methods, mth.Has "state" → ∃ e ∈ model.states,
      e.2.eventArg = eventArgOf src.eventIdent mth.inputs ∧ e.2.contextArg = eventArgOf src.contextIdent mth.inputs := by
    intro mth h1 h2
    obtain ⟨st, hst⟩ := hmi.states.complete mth h1 h2
    obtain ⟨mth', h1', hn, _, h3⟩ := hmi.states.sound _ st hst
    cases hd.eq h1' h1 hn
    exact ⟨_, hst, hm.eventIdent ▸ h3.info.eventArg, hm.contextIdent ▸ h3.info.contextArg hpar'⟩
  have t2 : ∀ mth ∈ src.methods, mth.Has "superstate" → ∃ e ∈ model.superstates,
      e.2.eventArg = eventArgOf src.eventIdent mth.inputs ∧ e.2.contextArg = eventArgOf src.contextIdent mth.inputs := by
    intro mth h1 h2
    obtain ⟨st, hst⟩ := hmi.superstates.complete mth h1 h2
    obtain ⟨mth', h1', hn, _, h3⟩ := hmi.superstates.sound _ st hst
    cases hd.eq h1' h1 hn
    exact ⟨_, hst, hm.eventIdent ▸ h3.1.eventArg, hm.contextIdent ▸ h3.1.contextArg hpar'⟩
  have r1 := foldlM_findTypes.1 ⟨_, hf⟩
  have r2 := foldlM_findTypes.1 ⟨_, hf'⟩
  simp only [(ord.perm_perm _ _).mem_iff, hm.eventIdent, hm.contextIdent] at r1 r2
  have e1 := foldlM_eventType hf
  have e2 := foldlM_eventType hf'
  have c1 := foldlM_contextType hf
  have c2 := foldlM_contextType hf'
  simp only [(ord.perm_perm _ _).mem_iff, hm.eventIdent, hm.contextIdent] at e1 e2 c1 c2
  simp only [codegen]
  constructor
  · rcases e2 with ⟨e2, n2⟩ | ⟨ty, e2, e, he, ht⟩
    · rcases e1 with ⟨e1, n1⟩ | ⟨ty, e1, e, he, ht⟩
      · left
        refine ⟨by rw [e2, e1]; rfl, ?_⟩
        rintro ty ⟨mth, h1, h2 | h2, attrs, l, m, hty⟩
        · obtain ⟨e, he, ha, _⟩ := t1 mth h1 h2
          exact refArg_none (ha ▸ (r1 e he).1) (ha ▸ n1 e he) _ _ hty
        · obtain ⟨e, he, ha, _⟩ := t2 mth h1 h2
          exact refArg_none (ha ▸ (r2 e he).1) (ha ▸ n2 e he) _ _ hty
      · right
        obtain ⟨mth, h1, h2, ha, _⟩ := s1 e he
        rw [ha] at ht
        exact ⟨ty, ⟨mth, h1, .inl h2, refArg_eventArgOf ht⟩, by rw [e2, e1]; rfl⟩
    · right
      obtain ⟨mth, h1, h2, ha, _⟩ := s2 e he
      rw [ha] at ht
      exact ⟨ty, ⟨mth, h1, .inr h2, refArg_eventArgOf ht⟩, by rw [e2]; rfl⟩
  · rcases c2 with ⟨e2, n2⟩ | ⟨ty, e2, e, he, ht⟩
    · rcases c1 with ⟨e1, n1⟩ | ⟨ty, e1, e, he, ht⟩
      · left
        refine ⟨by rw [e2, e1]; rfl, ?_⟩
        rintro ty ⟨mth, h1, h2 | h2, attrs, l, m, hty⟩
        · obtain ⟨e, he, _, ha⟩ := t1 mth h1 h2
          exact refArg_none (ha ▸ (r1 e he).2) (ha ▸ n1 e he) _ _ hty
        · obtain ⟨e, he, _, ha⟩ := t2 mth h1 h2
          exact refArg_none (ha ▸ (r2 e he).2) (ha ▸ n2 e he) _ _ hty
      · right
        obtain ⟨mth, h1, h2, _, ha⟩ := s1 e he
        rw [ha] at ht
        exact ⟨ty, ⟨mth, h1, .inl h2, refArg_eventArgOf ht⟩, by rw [e2, e1]; rfl⟩
    · right
      obtain ⟨mth, h1, h2, _, ha⟩ := s2 e he
      rw [ha] at ht
      exact ⟨ty, ⟨mth, h1, .inr h2, refArg_eventArgOf ht⟩, by rw [e2]; rfl⟩

/-- If all handlers agree on the types of event and context, these do not depend on the iteration order either. -/
theorem C46_types (h : expand syn ord src = .ok g) (h' : expand syn ord' src = .ok g') (hc : g.Compiles)
    (he : ∀ ty ty', src.EventTy ty → src.EventTy ty' → ty = ty')
    (hcx : ∀ ty ty', src.ContextTy ty → src.ContextTy ty' → ty = ty') :
    g'.eventType = g.eventType ∧ g'.contextType = g.contextType := by
  obtain ⟨h1, h2⟩ := C46_types_declared h hc
  obtain ⟨h1', h2'⟩ := C46_types_declared h' (C46_behaviour h h' hc).1
  constructor
  · rcases h1 with ⟨e, n⟩ | ⟨ty, ht, e⟩ <;> rcases h1' with ⟨e', n'⟩ | ⟨ty', ht', e'⟩
    · rw [e, e']
    · exact absurd ht' (n _)
    · exact absurd ht (n' _)
    · rw [e, e', he _ _ ht ht']
  · rcases h2 with ⟨e, n⟩ | ⟨ty, ht, e⟩ <;> rcases h2' with ⟨e', n'⟩ | ⟨ty', ht', e'⟩
    · rw [e, e']
    · exact absurd ht' (n _)
    · exact absurd ht (n' _)
    · rw [e, e', hcx _ _ ht ht']

/-- In the sample the event type is `Event` and the context type `Context`, whatever the order. -/
example (ord : Order) (g' : Gen) (h : expand Sample.syn ord Sample.source = .ok g') :
    g'.eventType = .path "Event" .nil ∧ g'.contextType = .path "Context" .nil := by
  have key : ∀ mth ∈ Sample.source.methods, ∀ a ∈ mth.inputs, ∀ attrs i l m ty, a = .typed attrs (.ident i) (.ref l m ty) →
      (i = "event" → ty = .path "Event" .nil) ∧ (i = "context" → ty = .path "Context" .nil) := by
    have : ∀ mth ∈ Sample.source.methods, ∀ a ∈ mth.inputs,
        (match a with
        | .typed _ (.ident i) (.ref _ _ ty) =>
          decide ((i = "event" → ty = .path "Event" .nil) ∧ (i = "context" → ty = .path "Context" .nil))
        | _ => true) = true := by decide +kernel
    rintro mth hm a ha attrs i l m ty rfl
    exact of_decide_eq_true (this mth hm _ ha)
  have he : Sample.source.eventIdent = "event" := by decide +kernel
  have hcx : Sample.source.contextIdent = "context" := by decide +kernel
  have := C46_types Sample.gen_eq h Sample.compiles ?_ ?_
  · exact this
  · rintro ty ty' ⟨mth, hm, _, attrs, l, m, ha⟩ ⟨mth', hm', _, attrs', l', m', ha'⟩
    rw [(key mth hm _ ha _ _ _ _ _ rfl).1 he, (key mth' hm' _ ha' _ _ _ _ _ rfl).1 he]
  · rintro ty ty' ⟨mth, hm, _, attrs, l, m, ha⟩ ⟨mth', hm', _, attrs', l', m', ha'⟩
    rw [(key mth hm _ ha _ _ _ _ _ rfl).2 hcx, (key mth' hm' _ ha' _ _ _ _ _ rfl).2 hcx]

namespace Macro.Sample

/-- `led_on` spells the event type differently. -/
def spelledSource : Source where
  args := source.args
  methods := source.methods.map fun mth =>
    if mth.name = "led_on" then
      { mth with inputs := [selfArg, .typed [] (.ident "event") (.ref none false (.path "crate::Event" .nil)), ledArg] }
    else if mth.name = "powered" then { mth with inputs := [] }
    else mth

theorem spelled_ok : accepts forwards spelledSource = true := by decide +kernel

/-- The states are iterated in reverse order when looking for the event type. -/
def other : Order where
  perm n l := if n = 5 then l.reverse else l
  perm_perm n l := by
    split
    · exact l.reverse_perm
    · exact .refl _

/-- The states are iterated in reverse order when generating the enum. -/
def third : Order where
  perm n l := if n = 8 then l.reverse else l
  perm_perm n l := by
    split
    · exact l.reverse_perm
    · exact .refl _

theorem third_ok : accepts third source = true := by decide +kernel

theorem spelled_ok' : accepts other spelledSource = true := by decide +kernel

end Macro.Sample

/-- If handlers spell the event type differently, which one is used depends on the iteration order. -/
theorem C46_types_differ : ∃ g g', expand Sample.syn Sample.forwards Sample.spelledSource = .ok g ∧
    expand Sample.syn Sample.other Sample.spelledSource = .ok g' ∧ g.Compiles ∧ g.eventType ≠ g'.eventType :=
  ⟨_, _, Sample.result_eq Sample.spelled_ok, Sample.result_eq Sample.spelled_ok', by decide +kernel, by decide +kernel⟩

/-- The order of the variants of the generated enums, which derived traits like `PartialOrd` may depend on, depends on
the iteration order. -/
theorem C46_variant_order : ∃ g', expand Sample.syn Sample.third Sample.source = .ok g' ∧
    Sample.gen.states.map (·.name) = ["LedOn", "LedOff", "Stopped"] ∧
    g'.states.map (·.name) = ["Stopped", "LedOff", "LedOn"] :=
  ⟨_, Sample.result_eq Sample.third_ok, by decide +kernel, by decide +kernel⟩

end Statig
