import Verif.Proofs.Macro.Calls
import Verif.Proofs.Macro.Accept
/-!
# When the generated code is well-scoped
-/
namespace Statig.Macro
variable {syn : Syn} {src : Source} {g : Gen} {sm : StateMachine} {L : HMap LState} {Lp : HMap LSuperstate}

theorem resolve_isSome {I : Iface} {bound : List Ident} {b : Bool} {x : Ident} :
    (I.resolve bound b x).isSome ↔
      x ∈ bound ∨ x = "shared_storage" ∨ (b = true ∧ x = I.eventIdent) ∨ x = I.contextIdent := by
  unfold Iface.resolve
  repeat' split
  all_goals simp_all

/-- Statements about all entries of a map are statements about all methods. -/
theorem LoweredMap.forall_iff {V : Type} (hd : src.Distinct) {m : HMap V} {kind : Ident} {P : Method → V → Prop}
    (hm : LoweredMap m kind src.methods P) {Q : Ident × V → Prop} {R : Method → Prop}
    (h : ∀ mth ∈ src.methods, mth.Has kind → ∀ v, P mth v → (Q (mth.name, v) ↔ R mth)) :
    (∀ e ∈ m, Q e) ↔ ∀ mth ∈ src.methods, mth.Has kind → R mth := by
  constructor
  · intro hQ mth hmth hk
    obtain ⟨v, hv⟩ := hm.complete mth hmth hk
    obtain ⟨mth', hm', hn, _, hp⟩ := hm.sound _ _ hv
    cases hd.eq hm' hmth hn
    exact (h _ hm' hk v hp).1 (hQ _ hv)
  · rintro hR ⟨n, v⟩ he
    obtain ⟨mth, hmth, rfl, hk, hp⟩ := hm.sound n v he
    exact (h mth hmth hk v hp).2 (hR mth hmth hk)

/-- Statements about a permutation of the image of a map. -/
theorem forall_perm_map {α β : Type} {l : List β} {m : List α} {f : α → β} (hp : l.Perm (m.map f)) {Q : β → Prop} :
    (∀ b ∈ l, Q b) ↔ ∀ a ∈ m, Q (f a) := by
  simp only [hp.mem_iff, List.forall_mem_map]

/-- The handler's own parameters are always in scope. -/
theorem handlerArgs_resolve (h : GenInfo syn src g sm L Lp) {kind : Ident} {mth : Method} {variant : Variant}
    {pat : VariantPat} {call : FnCall} (hl : Lowered syn src kind mth variant pat call) {x : Ident}
    (hx : x ∈ call.args) : (g.iface.resolve pat.fields true x).isSome := by
  rw [resolve_isSome]
  obtain ⟨a, ha, hx⟩ := (mem_mapM hl.handlerArgs x).1 hx
  cases a with
  | receiver =>
    cases hx
    exact .inr (.inl rfl)
  | typed attrs pat' ty =>
    cases pat' with
    | reference => cases hx
    | unsupported => cases hx
    | ident i =>
      cases hx
      have e1 : g.iface.eventIdent = src.eventIdent := h.eventIdent.trans h.machine.eventIdent
      have e2 : g.iface.contextIdent = src.contextIdent := h.contextIdent.trans h.machine.contextIdent
      by_cases he : x = src.eventIdent
      · exact .inr (.inr (.inl ⟨rfl, e1 ▸ he⟩))
      by_cases hc : x = src.contextIdent
      · exact .inr (.inr (.inr (e2 ▸ hc)))
      rw [hl.patFields]
      exact .inl (mem_fields.2 (.inl ⟨_, ha, by simp [Source.param, he, hc]⟩))

/-- The arguments of an action are in scope iff its parameters name what is available. -/
theorem actionArgs_resolve (h : GenInfo syn src g sm L Lp) (hd : src.Distinct) {kind : Ident} {mth : Method}
    {variant : Variant} {pat : VariantPat} {call : FnCall} (hl : Lowered syn src kind mth variant pat call)
    {key : Ident} {action : Option FnCall} (ha : ActionLink src (mth.link kind key) action) :
    (∀ c ∈ action, ∀ x ∈ c.args, (g.iface.resolve pat.fields false x).isSome) ↔
      ∀ am ∈ src.methods, am.Has "action" → mth.link kind key = some am.name →
        ∀ attrs i ty, .typed attrs (.ident i) ty ∈ am.inputs →
          i ∈ src.fields kind mth ∨ i = src.contextIdent ∨ i = "shared_storage" := by
  have e2 : g.iface.contextIdent = src.contextIdent := h.contextIdent.trans h.machine.contextIdent
  simp only [resolve_isSome, hl.patFields, e2, Bool.false_eq_true, false_and, false_or]
  unfold ActionLink at ha
  split at ha
  · rename_i hn
    subst ha
    simp [hn]
  · rename_i a hn
    obtain ⟨am, ham, rfl, hk, c, rfl, hc⟩ := ha
    simp only [Option.mem_def, Option.some.injEq, forall_eq', hn]
    constructor
    · intro H am' ham' _ e attrs i ty hi
      cases hd.eq ham ham' e
      have := H i ((mem_mapM hc.args i).2 ⟨_, hi, rfl⟩)
      tauto
    · intro H x hx
      obtain ⟨a, ha, hx⟩ := (mem_mapM hc.args x).1 hx
      cases a with
      | receiver =>
        cases hx
        exact .inr (.inl rfl)
      | typed attrs pat' ty =>
        cases pat' with
        | reference => cases hx
        | unsupported => cases hx
        | ident i =>
          cases hx
          have := H am ham hk rfl attrs x ty ha
          tauto

/-- The superstate expression is in scope iff the fields are there. -/
theorem supFields_scope (hd : src.Distinct) {kind : Ident} {mth : Method} {variant : Variant} {pat : VariantPat}
    {call : FnCall} (hl : Lowered syn src kind mth variant pat call) {target : Option VariantPat}
    (ha : SupLink syn src (mth.link kind "superstate") target) :
    (∀ p ∈ target, ∀ x ∈ p.fields, x ∈ pat.fields) ↔
      ∀ pm ∈ src.methods, pm.Has "superstate" → mth.link kind "superstate" = some pm.name →
        ∀ x ∈ src.fields "superstate" pm, x ∈ src.fields kind mth := by
  simp only [hl.patFields]
  unfold SupLink at ha
  split at ha
  · rename_i hn
    subst ha
    simp [hn]
  · rename_i a hn
    obtain ⟨pm, hpm, rfl, hk, rfl⟩ := ha
    simp only [Option.mem_def, Option.some.injEq, forall_eq', hn]
    constructor
    · intro H pm' hpm' _ e
      cases hd.eq hpm hpm' e
      exact H
    · intro H
      exact H pm hpm hk rfl

theorem variants_nodup (hd : src.Distinct) {V : Type} {m : HMap V} {kind : Ident} {P : Method → V → Prop}
    (hm : LoweredMap m kind src.methods P) {name : V → Ident}
    (hn : ∀ mth v, P mth v → name v = variantName syn mth.name) :
    (m.map fun e => name e.2).Nodup ↔ ∀ mth ∈ src.methods, ∀ mth' ∈ src.methods, mth.Has kind → mth'.Has kind →
      variantName syn mth.name = variantName syn mth'.name → mth.name = mth'.name := by
  have e : (m.map fun e => name e.2) = (m.map (·.1)).map (variantName syn) := by
    rw [List.map_map]
    apply List.map_congr_left
    rintro ⟨n, v⟩ he
    obtain ⟨mth, _, rfl, _, hp⟩ := hm.sound n v he
    exact hn _ _ hp
  rw [e]
  constructor
  · intro h mth hmth mth' hmth' hk hk' hv
    obtain ⟨v, hv1⟩ := hm.complete mth hmth hk
    obtain ⟨v', hv2⟩ := hm.complete mth' hmth' hk'
    exact List.inj_on_of_nodup_map h (List.mem_map.2 ⟨_, hv1, rfl⟩) (List.mem_map.2 ⟨_, hv2, rfl⟩) hv
  · intro h
    refine hm.keys.map_on ?_
    intro a ha b hb hab
    obtain ⟨⟨n, ls⟩, he, rfl⟩ := List.mem_map.1 ha
    obtain ⟨⟨n', ls'⟩, he', rfl⟩ := List.mem_map.1 hb
    obtain ⟨mth, hm1, rfl, hk, _⟩ := hm.sound n ls he
    obtain ⟨mth', hm', rfl, hk', _⟩ := hm.sound n' ls' he'
    exact h mth hm1 mth' hm' hk hk' hab

theorem compiles_iff {ord : Order} (h : expand syn ord src = .ok g) : g.Compiles ↔ src.Usable syn := by
  have hdist : g.Compiles → src.Distinct := fun hc => hc.distinct h
  by_cases hd : src.Distinct
  swap
  · exact ⟨fun hc => absurd (hdist hc) hd, fun hu => absurd hu.methods hd⟩
  obtain ⟨sm, L, Lp, hg⟩ := genInfo hd h
  have i1 : g.eventIdent = src.eventIdent := hg.eventIdent.trans hg.machine.eventIdent
  have i2 : g.contextIdent = src.contextIdent := hg.contextIdent.trans hg.machine.contextIdent
  have v1 := ((hg.states.map (·.name)).nodup_iff.trans (by rw [List.map_map]; rfl)).trans <| variants_nodup (syn := syn) hd hg.statesMap (name := fun ls => ls.variant.name)
      fun mth v hp => hp.1.lowered.variantName
  have v2 := ((hg.superstates.map (·.name)).nodup_iff.trans (by rw [List.map_map]; rfl)).trans <| variants_nodup (syn := syn) hd hg.superstatesMap (name := fun ls => ls.variant.name)
      fun mth v hp => hp.lowered.variantName
  have f1 := (forall_perm_map hg.states (Q := fun v => (v.fields.map (·.name)).Nodup)).trans <|
    hg.statesMap.forall_iff hd (R := fun mth => (src.fields "state" mth).Nodup) fun mth hm hk v hp => by
      rw [hp.1.lowered.fields]
  have f2 := (forall_perm_map hg.superstates (Q := fun v => (v.fields.map (·.name)).Nodup)).trans <|
    hg.superstatesMap.forall_iff hd (R := fun mth => (src.fields "superstate" mth).Nodup) fun mth hm hk v hp => by
      rw [hp.lowered.fields]
  have a1 := (forall_perm_map hg.entryArms (Q := fun a => ∀ c ∈ a.body, ∀ x ∈ c.args, (g.iface.resolve a.pat.fields false x).isSome)).trans <|
    hg.statesMap.forall_iff hd fun mth hm hk v hp =>
      actionArgs_resolve hg hd hp.1.lowered hp.1.entry
  have a2 := (forall_perm_map hg.exitArms (Q := fun a => ∀ c ∈ a.body, ∀ x ∈ c.args, (g.iface.resolve a.pat.fields false x).isSome)).trans <|
    hg.statesMap.forall_iff hd fun mth hm hk v hp =>
      actionArgs_resolve hg hd hp.1.lowered hp.1.exit
  have a3 := (forall_perm_map hg.supEntryArms (Q := fun a => ∀ c ∈ a.body, ∀ x ∈ c.args, (g.iface.resolve a.pat.fields false x).isSome)).trans <|
    hg.superstatesMap.forall_iff hd fun mth hm hk v hp =>
      actionArgs_resolve hg hd hp.lowered hp.entry
  have a4 := (forall_perm_map hg.supExitArms (Q := fun a => ∀ c ∈ a.body, ∀ x ∈ c.args, (g.iface.resolve a.pat.fields false x).isSome)).trans <|
    hg.superstatesMap.forall_iff hd fun mth hm hk v hp =>
      actionArgs_resolve hg hd hp.lowered hp.exit
  have s1 := (forall_perm_map hg.superstateArms (Q := fun a => ∀ p ∈ a.body, ∀ x ∈ p.fields, x ∈ a.pat.fields)).trans <|
    hg.statesMap.forall_iff hd fun mth hm hk v hp =>
      supFields_scope hd hp.1.lowered hp.1.superstate
  have s2 := (forall_perm_map hg.supSuperstateArms (Q := fun a => ∀ p ∈ a.body, ∀ x ∈ p.fields, x ∈ a.pat.fields)).trans <|
    hg.superstatesMap.forall_iff hd fun mth hm hk v hp =>
      supFields_scope hd hp.lowered hp.superstate
  constructor
  · intro hc
    refine ⟨hd, ?_, ?_, ?_, ?_, ?_⟩
    · rintro kind (rfl | rfl)
      · exact v1.1 hc.states
      · exact v2.1 hc.superstates
    · rintro kind (rfl | rfl)
      · exact f1.1 hc.stateFields
      · exact f2.1 hc.supFields
    · obtain ⟨n1, n2, n3⟩ := hg.params hc
      exact ⟨n1.symm, n2.symm, n3⟩
    · rintro kind (rfl | rfl) mth hm pm hpm hk hl
      · exact s1.1 hc.superstateFields mth hm (link_has hl) pm hpm hk hl
      · exact s2.1 hc.supSuperstateFields mth hm (link_has hl) pm hpm hk hl
    · rintro kind (rfl | rfl) mth hm am ham hk key (rfl | rfl) hl
      · exact a1.1 hc.entryArgs mth hm (link_has hl) am ham hk hl
      · exact a2.1 hc.exitArgs mth hm (link_has hl) am ham hk hl
      · exact a3.1 hc.supEntryArgs mth hm (link_has hl) am ham hk hl
      · exact a4.1 hc.supExitArgs mth hm (link_has hl) am ham hk hl
  · intro hu
    refine ⟨?_, v1.2 (hu.variants _ (.inl rfl)), v2.2 (hu.variants _ (.inr rfl)), f1.2 (hu.fields _ (.inl rfl)),
      f2.2 (hu.fields _ (.inr rfl)), ?_, ?_, ?_, ?_, ?_, ?_, ?_, ?_, ?_⟩
    · rw [expand_methods h]
      exact hd
    · obtain ⟨n1, n2, n3⟩ := hu.names
      rw [i1, i2]
      simp [n1.symm, n2.symm, n3]
    · rw [forall_perm_map hg.handlerArms]
      rintro ⟨n, ls⟩ he x hx
      obtain ⟨mth, _, _, _, hp⟩ := hg.statesMap.sound n ls he
      exact handlerArgs_resolve hg hp.1.lowered hx
    · exact a1.2 fun mth hm hk am ham hk' hl => hu.actions _ (.inl rfl) mth hm am ham hk' _ (.inl rfl) hl
    · exact a2.2 fun mth hm hk am ham hk' hl => hu.actions _ (.inl rfl) mth hm am ham hk' _ (.inr rfl) hl
    · exact s1.2 fun mth hm hk pm hpm hk' hl => hu.superstates _ (.inl rfl) mth hm pm hpm hk' hl
    · rw [forall_perm_map hg.supHandlerArms]
      rintro ⟨n, ls⟩ he x hx
      obtain ⟨mth, _, _, _, hp⟩ := hg.superstatesMap.sound n ls he
      exact handlerArgs_resolve hg hp.lowered hx
    · exact a3.2 fun mth hm hk am ham hk' hl => hu.actions _ (.inr rfl) mth hm am ham hk' _ (.inl rfl) hl
    · exact a4.2 fun mth hm hk am ham hk' hl => hu.actions _ (.inr rfl) mth hm am ham hk' _ (.inr rfl) hl
    · exact s2.2 fun mth hm hk pm hpm hk' hl => hu.superstates _ (.inr rfl) mth hm pm hpm hk' hl

end Statig.Macro
