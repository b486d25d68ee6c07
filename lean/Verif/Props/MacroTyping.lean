import Verif.Proofs.Macro.Typing
import Verif.Props.MacroOrder
/-!
# When the generated code is well-typed: C75
-/
namespace Statig
open Macro
section
variable {syn : Syn} {ord : Order} {src : Source} {g : Gen} {co : Coercion}

/-- C75. The calls and superstate expressions in the code generated for a declaration (that is accepted, and well-scoped,
without fields named like parameters of the generated functions) are well-typed iff everything that the callbacks
declared by the user ask for can be given what the library provides. -/
theorem C75_type_checks (h : expand syn ord src = .ok g) (hc : g.Compiles)
    (hu : ∀ kind, kind = "state" ∨ kind = "superstate" → ∀ mth ∈ src.methods, mth.Has kind → src.Unshadowed kind mth) :
    g.TypeChecks co ↔ src.WellTyped co g.eventType g.contextType := typeChecks_iff h hc hu

theorem coerces_state {t u : Ty} {l : Option Ident} {m : Bool} (h : t.Same u) :
    co.coerces (.ref none true u) (.ref l m t) := by
  cases m with
  | true => exact co.erase rfl (by simp only [Ty.erase]; rw [h]) (co.refl (.ref none true u))
  | false => exact co.erase rfl (by simp only [Ty.erase]; rw [h]) (co.share u)

/-- A reference to what a role stands for can be passed for a parameter that fits. -/
theorem coerces_place {kind : Ident} {mth : Method} {E C E' C' : Ty} (hE : E'.Same E) (hC : C'.Same C) {r : Role}
    {p : Place} {ty : Ty} (hp : src.place kind mth E C r = some p) (hf : p.Fits ty) :
    ∃ t, src.roleTy kind mth E' C' r = some t ∧ co.coerces t ty := by
  cases ty with
  | path => exact hf.elim
  | compound => exact hf.elim
  | ref l m t =>
    obtain ⟨h1, h2⟩ := hf
    cases r with
    | storage =>
      cases hp
      exact ⟨_, rfl, coerces_state h1⟩
    | event =>
      cases hp
      refine ⟨_, rfl, ?_⟩
      have : m = false := by simpa using h2
      subst this
      exact co.erase rfl (by simp only [Ty.erase]; rw [h1, hE]) (co.refl (.ref none false E'))
    | context =>
      cases hp
      exact ⟨_, rfl, coerces_state (h1.trans hC.symm)⟩
    | field x =>
      simp only [Source.place, Source.fieldPlace, Option.bind_eq_some_iff] at hp
      obtain ⟨u, hu, hp⟩ := hp
      refine ⟨.ref none true u, by simp [Source.roleTy, hu], ?_⟩
      cases u with
      | path n args =>
        simp only at hp
        split at hp
        · cases hp
        · cases hp
          exact coerces_state h1
      | compound n args =>
        simp only at hp
        split at hp
        · cases hp
        · cases hp
          exact coerces_state h1
      | ref l' m' u =>
        simp only [Option.some.injEq] at hp
        split at hp
        · subst hp
          refine co.erase (t := .ref none true (.ref none m' u)) (by simp [Ty.erase]) ?_ (co.deref m' m u h2)
          simp only [Ty.erase]
          rw [h1]
        · subst hp
          exact coerces_state h1

theorem wellTyped_of_agrees {E C E' C' : Ty} (hE : E'.Same E) (hC : C'.Same C) (ha : src.Agrees E C) :
    src.WellTyped co E' C' := by
  refine ⟨?_, ?_, ?_⟩
  · intro kind hk mth hm hh a ha'
    obtain ⟨r, hr, p, hp, hf⟩ := ha.handlers kind hk mth hm hh a ha'
    obtain ⟨t, h1, h2⟩ := coerces_place (co := co) hE hC hp hf
    exact ⟨r, t, hr, h1, h2⟩
  · intro kind hk mth hm am ham hh key hkey hl a ha'
    obtain ⟨r, hr, p, hp, hf⟩ := ha.actions kind hk mth hm am ham hh key hkey hl a ha'
    obtain ⟨t, h1, h2⟩ := coerces_place (co := co) hE hC hp hf
    exact ⟨r, t, hr, h1, h2⟩
  · intro kind hk mth hm pm hpm hh hl x hx
    obtain ⟨u, hu, p, hp, hf⟩ := ha.superstates kind hk mth hm pm hpm hh hl x hx
    obtain ⟨t, h1, h2⟩ := coerces_place (co := co) (r := .field x) (E := E) (C := C) hE hC hp hf
    simp only [Source.roleTy, Option.map_eq_some_iff] at h1
    obtain ⟨t', h1, rfl⟩ := h1
    exact ⟨t', u, h1, hu, h2⟩

/-- Without event parameters the type of the event does not matter. -/
theorem agrees_event {E C : Ty} (ha : src.Agrees E C) (hn : ∀ ty, ¬ src.EventTy ty) (E' : Ty) : src.Agrees E' C := by
  refine ⟨?_, ?_, ha.superstates⟩
  · intro kind hk mth hm hh a ha'
    obtain ⟨r, hr, p, hp, hf⟩ := ha.handlers kind hk mth hm hh a ha'
    refine ⟨r, hr, ?_⟩
    cases r with
    | storage => exact ⟨p, hp, hf⟩
    | context => exact ⟨p, hp, hf⟩
    | field x => exact ⟨p, hp, hf⟩
    | event =>
      exfalso
      cases a with
      | receiver => cases hr
      | typed attrs pat ty =>
        cases pat with
        | reference => cases hr
        | unsupported => cases hr
        | ident i =>
          cases ty with
          | path => exact hf
          | compound => exact hf
          | ref l m t =>
            simp only [Source.role, Option.mem_def, Option.some.injEq] at hr
            split at hr
            · rename_i e
              subst e
              exact hn t ⟨mth, hm, by rcases hk with rfl | rfl <;> simp [hh], attrs, l, m, ha'⟩
            · split at hr <;> cases hr
  · intro kind hk mth hm am ham hh key hkey hl a ha'
    obtain ⟨r, hr, p, hp, hf⟩ := ha.actions kind hk mth hm am ham hh key hkey hl a ha'
    refine ⟨r, hr, ?_⟩
    cases r with
    | storage => exact ⟨p, hp, hf⟩
    | context => exact ⟨p, hp, hf⟩
    | field x => exact ⟨p, hp, hf⟩
    | event =>
      exfalso
      cases a with
      | receiver => cases hr
      | typed attrs pat ty =>
        cases pat with
        | reference => cases hr
        | unsupported => cases hr
        | ident i =>
          simp only [Source.actionRole, Option.mem_def, Option.some.injEq] at hr
          split at hr
          · cases hr
          · split at hr <;> cases hr

/-- In a declaration whose types agree, the declared types of event and context are those agreed on. -/
theorem agrees_declared {E C : Ty} (ha : src.Agrees E C) (hne : src.eventIdent ≠ src.contextIdent) :
    (∀ ty, src.EventTy ty → ty.Same E) ∧ ∀ ty, src.ContextTy ty → ty.Same C := by
  constructor
  · rintro ty ⟨mth, hm, hk, attrs, l, m, hi⟩
    obtain ⟨kind, hk, hh⟩ : ∃ kind, (kind = "state" ∨ kind = "superstate") ∧ mth.Has kind :=
      hk.elim (fun h => ⟨_, .inl rfl, h⟩) fun h => ⟨_, .inr rfl, h⟩
    obtain ⟨r, hr, p, hp, hf⟩ := ha.handlers kind hk mth hm hh _ hi
    simp only [Source.role, ↓reduceIte, Option.mem_def, Option.some.injEq] at hr
    subst hr
    cases hp
    exact hf.1
  · rintro ty ⟨mth, hm, hk, attrs, l, m, hi⟩
    obtain ⟨kind, hk, hh⟩ : ∃ kind, (kind = "state" ∨ kind = "superstate") ∧ mth.Has kind :=
      hk.elim (fun h => ⟨_, .inl rfl, h⟩) fun h => ⟨_, .inr rfl, h⟩
    obtain ⟨r, hr, p, hp, hf⟩ := ha.handlers kind hk mth hm hh _ hi
    simp only [Source.role, hne.symm, ↓reduceIte, Option.mem_def, Option.some.injEq] at hr
    subst hr
    cases hp
    exact hf.1

/-- C75. If the declarations agree on the types of what they share, and nobody asks for more access than there is, the
generated code is well-typed, whatever other coercions there are and whatever the order of iteration.  (If only actions
take the context, its type must be `()`.) -/
theorem C75_agreeing (h : expand syn ord src = .ok g) (hc : g.Compiles)
    (hu : ∀ kind, kind = "state" ∨ kind = "superstate" → ∀ mth ∈ src.methods, mth.Has kind → src.Unshadowed kind mth)
    {E C : Ty} (ha : src.Agrees E C) (hx : (∃ ty, src.ContextTy ty) ∨ C.Same (.compound "()" .nil)) :
    g.TypeChecks co := by
  have hne : src.eventIdent ≠ src.contextIdent := by
    obtain ⟨sm, L, Lp, hg⟩ := genInfo (hc.distinct h) h
    exact (hg.params hc).2.2
  obtain ⟨d1, d2⟩ := agrees_declared ha hne
  obtain ⟨he, hcx⟩ := C46_types_declared h hc
  rw [C75_type_checks h hc hu]
  have hC : g.contextType.Same C := by
    rcases hcx with ⟨e, n⟩ | ⟨ty, ht, e⟩
    · rcases hx with ⟨ty, ht⟩ | hx
      · exact absurd ht (n ty)
      · rw [e]
        exact hx.symm
    · rw [e]
      exact (renameTy_erase _ _).trans (d2 ty ht)
  rcases he with ⟨e, n⟩ | ⟨ty, ht, e⟩
  · exact wellTyped_of_agrees (E := g.eventType) rfl hC (agrees_event ha n _)
  · refine wellTyped_of_agrees ?_ hC ha
    rw [e]
    exact (renameTy_erase _ _).trans (d1 ty ht)

/-! ## Without references to references and other coercions the condition is exact -/

theorem isRef_erase {t : Ty} : t.erase.IsRef ↔ t.IsRef := by cases t <;> simp [Ty.erase, Ty.IsRef]

theorem refCoerces_simple {m m' : Bool} {t u : Ty} (ht : ¬ t.IsRef)
    (h : RefCoerces (.ref none m t) (.ref none m' u)) : u = t ∧ (m' = true → m = true) := by
  cases h with
  | refl => exact ⟨rfl, id⟩
  | share => simp
  | deref => exact absurd trivial ht

theorem refCoerces_double {m m' : Bool} {t u : Ty} (ht : ¬ t.IsRef) (hu : ¬ u.IsRef)
    (h : RefCoerces (.ref none true (.ref none m t)) (.ref none m' u)) : u = t ∧ (m' = true → m = true) := by
  cases h with
  | refl => exact absurd trivial hu
  | share => exact absurd trivial hu
  | deref h => simpa using refCoerces_simple ht h

theorem simpleRef_iff {t : Ty} : t.SimpleRef ↔ ∃ l m u, t = .ref l m u ∧ ¬ u.IsRef := by
  cases t <;> simp [Ty.SimpleRef]

/-- The types of fields in a flat declaration. -/
theorem flat_fieldTy (hf : src.Flat) {kind : Ident} (hk : kind = "state" ∨ kind = "superstate") {mth : Method}
    (hm : mth ∈ src.methods) (hh : mth.Has kind) {x : Ident} {t : Ty} (h : src.fieldTy kind mth x = some t) :
    if kind = "superstate" then t.SimpleRef else ¬ t.IsRef := by
  unfold Source.fieldTy at h
  rcases hs : ((mth.storageFields kind).filter fun f => f.name = x).getLast? with _ | f
  · rw [hs] at h
    simp only [Option.map_none, Option.none_or] at h
    unfold Source.paramTy at h
    obtain ⟨a, ha, hx⟩ := List.exists_of_findSome?_eq_some h
    have hp := hf.params mth hm (by rcases hk with rfl | rfl <;> simp [hh])
    cases a with
    | receiver => cases hx
    | typed attrs pat ty =>
      cases pat with
      | reference => cases hx
      | unsupported => cases hx
      | ident i =>
        have := hp _ _ _ ha
        cases ty with
        | path => cases hx
        | compound => cases hx
        | ref l m ty =>
          simp only at hx
          split at hx
          · cases hx
            split
            · exact this
            · exact this
          · cases hx
  · have := List.mem_of_getLast? hs
    obtain ⟨h1, -⟩ := List.mem_filter.1 this
    rw [hs] at h
    cases h
    rcases hk with rfl | rfl
    · exact hf.stateFields mth hm f h1
    · exact hf.supFields mth hm f h1

theorem place_of_coerces (hf : src.Flat) {kind : Ident} (hk : kind = "state" ∨ kind = "superstate") {mth : Method}
    (hm : mth ∈ src.methods) (hh : mth.Has kind) {E C : Ty} (hE : ¬ E.IsRef) (hC : ¬ C.IsRef)
    (hS : ¬ src.selfTy.IsRef) {r : Role} {t ty : Ty} (hty : ty.SimpleRef)
    (h : src.roleTy kind mth E C r = some t) (hco : Coercion.references.coerces t ty) :
    ∃ p, src.place kind mth E C r = some p ∧ p.Fits ty := by
  obtain ⟨l, m, u, rfl, hu⟩ := simpleRef_iff.1 hty
  rw [← isRef_erase] at hE hC hS hu
  cases r with
  | storage =>
    cases h
    obtain ⟨h1, h2⟩ := refCoerces_simple hS hco
    exact ⟨_, rfl, h1, fun _ => rfl⟩
  | event =>
    cases h
    obtain ⟨h1, h2⟩ := refCoerces_simple hE hco
    exact ⟨_, rfl, h1, h2⟩
  | context =>
    cases h
    obtain ⟨h1, h2⟩ := refCoerces_simple hC hco
    exact ⟨_, rfl, h1, fun _ => rfl⟩
  | field x =>
    simp only [Source.roleTy, Option.map_eq_some_iff] at h
    obtain ⟨t, h, rfl⟩ := h
    have hft := flat_fieldTy hf hk hm hh h
    simp only [Source.place, Source.fieldPlace, h, Option.bind_some]
    by_cases hs : kind = "superstate"
    · rw [if_pos hs, simpleRef_iff] at hft
      obtain ⟨l', m', t, rfl, ht⟩ := hft
      simp only [if_pos hs]
      rw [← isRef_erase] at ht
      obtain ⟨h1, h2⟩ := refCoerces_double ht hu hco
      exact ⟨_, rfl, h1, h2⟩
    · rw [if_neg hs] at hft
      have ht := hft
      rw [← isRef_erase] at hft
      obtain ⟨h1, h2⟩ := refCoerces_simple hft hco
      cases t with
      | ref => exact absurd trivial ht
      | path => exact ⟨⟨true, _⟩, by simp [hs], h1, fun _ => rfl⟩
      | compound => exact ⟨⟨true, _⟩, by simp [hs], h1, fun _ => rfl⟩

/-- C75. If there are no references to references, and no other coercions, the generated code is well-typed only if the
declarations agree: in particular all handlers take the same type of event, by shared reference, and a superstate can
write a field only if all superstates inside it can. -/
theorem C75_exact (h : expand syn ord src = .ok g) (hc : g.Compiles)
    (hu : ∀ kind, kind = "state" ∨ kind = "superstate" → ∀ mth ∈ src.methods, mth.Has kind → src.Unshadowed kind mth)
    (hf : src.Flat) : g.TypeChecks Coercion.references ↔ src.Agrees g.eventType g.contextType := by
  refine ⟨fun ht => ?_, fun ha => (C75_type_checks h hc hu).2 (wellTyped_of_agrees rfl rfl ha)⟩
  have hw := (C75_type_checks h hc hu).1 ht
  obtain ⟨he, hcx⟩ := C46_types_declared h hc
  have decl : ∀ (i : Ident) ty, (∃ mth ∈ src.methods, (mth.Has "state" ∨ mth.Has "superstate") ∧
      ∃ attrs l m, .typed attrs (.ident i) (.ref l m ty) ∈ mth.inputs) → ¬ ty.IsRef := by
    rintro i ty ⟨mth, hm, hk, attrs, l, m, hi⟩
    exact hf.params mth hm (by tauto) _ _ _ hi
  have hE : ¬ g.eventType.IsRef := by
    rcases he with ⟨e, -⟩ | ⟨ty, ht, e⟩
    · rw [e]
      exact id
    · rw [e, ← isRef_erase, renameTy_erase, isRef_erase]
      exact decl _ ty ht
  have hC : ¬ g.contextType.IsRef := by
    rcases hcx with ⟨e, -⟩ | ⟨ty, ht, e⟩
    · rw [e]
      exact id
    · rw [e, ← isRef_erase, renameTy_erase, isRef_erase]
      exact decl _ ty ht
  have hS : ¬ src.selfTy.IsRef := by
    obtain ⟨sm, L, Lp, hg⟩ := genInfo (hc.distinct h) h
    obtain ⟨n, args, e, -⟩ := hg.machine.path
    rw [e]
    exact id
  have argS : ∀ mth ∈ src.methods, mth.Has "state" ∨ mth.Has "superstate" ∨ mth.Has "action" →
      ∀ a ∈ mth.inputs, (src.argTy a).SimpleRef := by
    intro mth hm hk a ha
    cases a with
    | receiver m => exact hS
    | typed attrs pat ty => exact hf.params mth hm hk _ _ _ ha
  refine ⟨?_, ?_, ?_⟩
  · intro kind hk mth hm hh a ha
    obtain ⟨r, t, h1, h2, h3⟩ := hw.handlers kind hk mth hm hh a ha
    exact ⟨r, h1, place_of_coerces hf hk hm hh hE hC hS
      (argS mth hm (by rcases hk with rfl | rfl <;> simp [hh]) a ha) h2 h3⟩
  · intro kind hk mth hm am ham hh key hkey hl a ha
    obtain ⟨r, t, h1, h2, h3⟩ := hw.actions kind hk mth hm am ham hh key hkey hl a ha
    exact ⟨r, h1, place_of_coerces hf hk hm (link_has hl) hE hC hS (argS am ham (.inr (.inr hh)) a ha) h2 h3⟩
  · intro kind hk mth hm pm hpm hh hl x hx
    obtain ⟨t, u, h1, h2, h3⟩ := hw.superstates kind hk mth hm pm hpm hh hl x hx
    have hs := flat_fieldTy hf (.inr rfl) hpm hh h2
    rw [if_pos rfl] at hs
    exact ⟨u, h2, place_of_coerces (r := .field x) hf hk hm (link_has hl) hE hC hS hs (by simp [Source.roleTy, h1]) h3⟩

/-- C75. In such declarations, handlers take the event by shared reference, and all as the same type. -/
theorem C75_event (h : expand syn ord src = .ok g) (hc : g.Compiles)
    (hu : ∀ kind, kind = "state" ∨ kind = "superstate" → ∀ mth ∈ src.methods, mth.Has kind → src.Unshadowed kind mth)
    (hf : src.Flat) (ht : g.TypeChecks Coercion.references) {kind : Ident} (hk : kind = "state" ∨ kind = "superstate")
    {mth : Method} (hm : mth ∈ src.methods) (hh : mth.Has kind) {attrs : List ArgAttr} {l : Option Ident} {m : Bool}
    {ty : Ty} (hi : .typed attrs (.ident src.eventIdent) (.ref l m ty) ∈ mth.inputs) :
    m = false ∧ ty.Same g.eventType := by
  obtain ⟨r, hr, p, hp, hp'⟩ := ((C75_exact h hc hu hf).1 ht).handlers kind hk mth hm hh _ hi
  simp only [Source.role, ↓reduceIte, Option.mem_def, Option.some.injEq] at hr
  subst hr
  cases hp
  exact ⟨by simpa using hp'.2, hp'.1⟩

/-- C75. Whether the generated code is well-typed does not depend on the order of iteration then. -/
theorem C75_order (h : expand syn ord src = .ok g) (hc : g.Compiles)
    (hu : ∀ kind, kind = "state" ∨ kind = "superstate" → ∀ mth ∈ src.methods, mth.Has kind → src.Unshadowed kind mth)
    (hf : src.Flat) {ord' : Order} {g' : Gen} (h' : expand syn ord' src = .ok g') (hc' : g'.Compiles)
    (ht : g.TypeChecks Coercion.references) : g'.TypeChecks co := by
  refine C75_agreeing h' hc' hu ((C75_exact h hc hu hf).1 ht) ?_
  rcases (C46_types_declared h hc).2 with ⟨e, -⟩ | ⟨ty, hty, -⟩
  · exact .inr (by rw [e]; rfl)
  · exact .inl ⟨ty, hty⟩

end

/-! ## The hypotheses are met -/

namespace Macro.Sample

instance (t u : Ty) : Decidable (t.Same u) := inferInstanceAs (Decidable (t.erase = u.erase))
instance (mth : Method) (kind : Ident) : Decidable (mth.Has kind) :=
  inferInstanceAs (Decidable (∃ a ∈ mth.attrs, a.path = kind))
instance (p : Place) (ty : Ty) : Decidable (p.Fits ty) := by
  unfold Place.Fits
  split
  · exact inferInstanceAs (Decidable (_ ∧ _))
  · exact .isFalse id
instance (t : Ty) : Decidable t.IsRef := by
  unfold Ty.IsRef
  split <;> infer_instance
instance (t : Ty) : Decidable t.SimpleRef := by
  unfold Ty.SimpleRef
  split <;> infer_instance

/-- The sample, as an impl block of `Blinky`, where `powered` takes `led` as `&bool`. -/
def typed : Source where
  selfTy := .path "Blinky" .nil
  args := source.args
  methods := source.methods.map fun mth =>
    if mth.name = "powered" then
      { mth with inputs := mth.inputs ++ [.typed [] (.ident "led") (.ref none false (.path "bool" .nil))] } else mth

theorem typed_ok : accepts backwards typed = true := by decide +kernel

theorem typed_compiles : (result backwards typed typed_ok).Compiles := by decide +kernel

theorem typed_unshadowed : ∀ kind, kind = "state" ∨ kind = "superstate" → ∀ mth ∈ typed.methods, mth.Has kind →
    typed.Unshadowed kind mth := by
  rintro kind (rfl | rfl) <;> decide +kernel

theorem typed_agrees : typed.Agrees (.path "Event" .nil) (.path "Context" .nil) := by
  refine ⟨?_, ?_, ?_⟩
  · rintro kind (rfl | rfl) <;> decide +kernel
  · rintro kind (rfl | rfl) mth hm am ham hk key (rfl | rfl) <;> revert mth am <;> decide +kernel
  · rintro kind (rfl | rfl) <;> decide +kernel

/-- C75 applies to it. -/
example (co : Coercion) : (result backwards typed typed_ok).TypeChecks co :=
  C75_agreeing (result_eq typed_ok) typed_compiles typed_unshadowed typed_agrees
    (.inl ⟨.path "Context" .nil, ledOff, by decide +kernel, by decide +kernel, [], none, true, by decide +kernel⟩)

/-- The other way round: `blinking` takes `led` as `&bool`, and `powered`, which is around it, as `&mut bool`. -/
def tooMuch : Source where
  selfTy := .path "Blinky" .nil
  args := source.args
  methods := (source.methods.filter fun mth => mth.name ≠ "leave_blinking").map fun mth =>
    if mth.name = "powered" then { mth with inputs := mth.inputs ++ [ledArg] }
    else if mth.name = "blinking" then
      { mth with
        attrs := [⟨"superstate", some [⟨"superstate", .lit "powered"⟩]⟩]
        inputs := [.typed [] (.ident "led") (.ref none false (.path "bool" .nil))] }
    else mth

theorem tooMuch_ok : accepts forwards tooMuch = true := by decide +kernel

theorem tooMuch_flat : tooMuch.Flat := by
  have params : ∀ mth ∈ tooMuch.methods, ∀ a ∈ mth.inputs, match a with
      | .typed _ _ ty => ty.SimpleRef
      | _ => True := by
    have : ∀ mth ∈ tooMuch.methods, ∀ a ∈ mth.inputs, (match a with
      | .typed _ _ ty => decide ty.SimpleRef
      | _ => true) = true := by decide +kernel
    intro mth hm a ha
    have := this mth hm a ha
    cases a with
    | receiver => trivial
    | typed attrs pat ty => exact of_decide_eq_true this
  exact ⟨fun mth hm _ attrs pat ty hi => params mth hm _ hi, by decide +kernel, by decide +kernel⟩

end Macro.Sample

/-- C75. The macro accepts a superstate that takes as `&mut T` what a superstate inside it takes as `&T`; the generated
code is well-scoped, but not well-typed. -/
theorem C75_access : ∃ g, expand Sample.syn Sample.forwards Sample.tooMuch = .ok g ∧ g.Compiles ∧
    ¬ g.TypeChecks Coercion.references := by
  have hc : (Sample.result _ _ Sample.tooMuch_ok).Compiles := by decide +kernel
  refine ⟨_, Sample.result_eq Sample.tooMuch_ok, hc, fun ht => ?_⟩
  have := (C75_exact (Sample.result_eq Sample.tooMuch_ok) hc (by rintro kind (rfl | rfl) <;> decide +kernel)
    Sample.tooMuch_flat).1 ht
  have := this.superstates "superstate" (.inr rfl)
  revert this
  decide +kernel

end Statig
