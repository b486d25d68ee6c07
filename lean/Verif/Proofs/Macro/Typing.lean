import Verif.Spec.MacroTyping
import Verif.Proofs.Macro.Usable
import Verif.Proofs.Macro.Types
/-!
# When the generated code is well-typed
-/
namespace Statig.Macro
variable {syn : Syn} {src : Source} {g : Gen} {sm : StateMachine} {L : HMap LState} {Lp : HMap LSuperstate}
  {co : Coercion}

/-! ## Lifetimes -/

mutual
theorem renameTy_erase (new : Ident) : ∀ t : Ty, (renameTy new t).erase = t.erase
  | .ref l m t => by
    cases l <;> simp only [renameTy]
    · rfl
    · split <;> rfl
  | .path n args => by simp [renameTy, Ty.erase, renameArgs_erase new args]
  | .compound k ts => by simp [renameTy, Ty.erase, renameArgs_erase new ts]
theorem renameArgs_erase (new : Ident) : ∀ t : Args, (renameArgs new t).erase = t.erase
  | .nil => rfl
  | .lifetime _ r => by simp [renameArgs, Args.erase, renameArgs_erase new r]
  | .ty t r => by simp [renameArgs, Args.erase, renameTy_erase new t, renameArgs_erase new r]
  | .ident _ r => by simp [renameArgs, Args.erase, renameArgs_erase new r]
end

/-! ## Callees -/

theorem strips_paramTy (hs : g.selfTy = src.selfTy) (k : Nat) (a : FnArg) :
    g.paramTy ((stripDefault sm)^[k] a) = src.argTy a := by
  have h0 : ∀ a, g.paramTy (stripDefault sm a) = g.paramTy a := by
    intro a
    cases a with
    | receiver => rfl
    | typed attrs pat ty =>
      unfold stripDefault
      split
      · rename_i heq
        cases heq
        split <;> rfl
      · rfl
  induction k with
  | zero =>
    cases a with
    | receiver m => simp [Gen.paramTy, Source.argTy, hs]
    | typed => rfl
  | succ k ih => rw [Function.iterate_succ_apply', h0, ih]

/-- The method that is called by its name, and the types of its parameters. -/
theorem GenInfo.callee (h : GenInfo syn src g sm L Lp) (hd : src.Distinct) {mth : Method} (hm : mth ∈ src.methods) :
    ∃ f : FnArg → FnArg, g.methods.find? (·.name == mth.name) = some { mth with inputs := mth.inputs.map f } ∧
      ∀ a, g.paramTy (f a) = src.argTy a := by
  refine ⟨(stripDefault sm)^[countAttr "state" (mth.attrs.map (·.path))], ?_,
    strips_paramTy (h.selfTy.trans h.machine.selfTy) _⟩
  have hn : (g.methods.map (·.name)).Nodup := by rw [h.distinct]; exact hd
  rw [find_of_nodup hn]
  refine ⟨?_, rfl⟩
  rw [h.methods, ← strips_eq]
  exact List.mem_map.2 ⟨mth, hm, rfl⟩

/-- A call checks iff every parameter can be given the variable of its name. -/
theorem callChecks_iff (h : GenInfo syn src g sm L Lp) (hd : src.Distinct) {am : Method} (hm : am ∈ src.methods)
    {vs : List Variant} {pat : VariantPat} {b : Bool} {c : FnCall} (hfn : c.fn = am.name)
    (hargs : am.inputs.mapM fnArgToIdent = .ok c.args) :
    g.CallChecks co vs pat b c ↔ ∀ a ∈ am.inputs, ∃ i t, fnArgToIdent a = .ok i ∧ g.varTy vs pat b i = some t ∧
      co.coerces t (src.argTy a) := by
  obtain ⟨f, hf, hty⟩ := h.callee hd hm
  have hF := mapM_ok hargs
  unfold Gen.CallChecks
  rw [hfn, hf]
  simp only [Option.some.injEq, exists_eq_left', List.length_map]
  have key : ∀ {inputs : List FnArg} {args : List Ident},
      List.Forall₂ (fun a i => fnArgToIdent a = .ok i) inputs args →
      ((args.length = inputs.length ∧ ∀ p ∈ args.zip (inputs.map f), ∃ t, g.varTy vs pat b p.1 = some t ∧
        co.coerces t (g.paramTy p.2)) ↔
      ∀ a ∈ inputs, ∃ i t, fnArgToIdent a = .ok i ∧ g.varTy vs pat b i = some t ∧ co.coerces t (src.argTy a)) := by
    intro inputs args hF
    induction hF with
    | nil => simp
    | @cons a i l l' hi _ ih =>
      simp only [List.length_cons, Nat.add_right_cancel_iff, List.map_cons, List.zip_cons_cons, List.forall_mem_cons,
        hty]
      rw [← ih]
      constructor
      · rintro ⟨h1, ⟨t, h2, h3⟩, h4⟩
        exact ⟨⟨i, t, hi, h2, h3⟩, h1, h4⟩
      · rintro ⟨⟨i', t, h0, h2, h3⟩, h1, h4⟩
        rw [hi] at h0
        cases h0
        exact ⟨h1, ⟨t, h2, h3⟩, h4⟩
  exact key hF

/-! ## Variables -/

theorem fieldTy_mem {kind : Ident} {mth : Method} {x : Ident} {t : Ty} (h : src.fieldTy kind mth x = some t) :
    x ∈ src.fields kind mth := by
  rw [mem_fields]
  unfold Source.fieldTy at h
  rcases hs : ((mth.storageFields kind).filter fun f => f.name = x).getLast? with _ | f
  · rw [hs] at h
    simp only [Option.map_none, Option.none_or] at h
    unfold Source.paramTy at h
    obtain ⟨a, ha, hx⟩ := List.exists_of_findSome?_eq_some h
    refine .inl ⟨a, ha, ?_⟩
    cases a with
    | receiver => cases hx
    | typed attrs pat ty =>
      cases pat with
      | reference => cases hx
      | unsupported => cases hx
      | ident i =>
        cases ty with
        | path => cases hx
        | compound => cases hx
        | ref l m ty =>
          simp only at hx
          split at hx
          · rename_i hc
            obtain ⟨rfl, h1, h2⟩ := hc
            simp [Source.param, h1, h2]
          · cases hx
  · right
    have := List.mem_of_getLast? hs
    obtain ⟨h1, h2⟩ := List.mem_filter.1 this
    exact List.mem_map.2 ⟨f, h1, by simpa using h2⟩

/-- The type of a field in the generated enum is the declared one. -/
theorem fieldTyOf_eq {kind : Ident} {mth : Method} {variant : Variant} {pat : VariantPat} {call : FnCall}
    (hl : Lowered syn src kind mth variant pat call) {vs : List Variant} (hv : variant ∈ vs)
    (hn : (vs.map (·.name)).Nodup) (hf : (variant.fields.map (·.name)).Nodup) (x : Ident) :
    fieldTyOf vs (variantName syn mth.name) x = src.fieldTy kind mth x := by
  unfold fieldTyOf
  rw [(find_of_nodup hn _ variant).2 ⟨hv, hl.variantName⟩, Option.bind_some]
  have hp : (mth.inputs.filterMap src.param).Nodup := params_nodup (kind := kind) (by rw [← hl.fields]; exact hf)
  cases hx : variant.fields.find? fun f => f.name == x with
  | some f =>
    obtain ⟨h1, h2⟩ := (find_of_nodup hf x f).1 hx
    rw [← h2, hl.types hp f h1]
    rfl
  | none =>
    cases ht : src.fieldTy kind mth x with
    | none => rfl
    | some t =>
      have := fieldTy_mem ht
      rw [← hl.fields] at this
      obtain ⟨f, h1, h2⟩ := List.mem_map.1 this
      have h3 := List.find?_eq_none.1 hx f h1
      simp [h2] at h3

/-- A variable in the arm of a state or superstate, by role. -/
theorem varTy_eq (h : GenInfo syn src g sm L Lp) (hc : g.Compiles) {kind : Ident} {mth : Method} {variant : Variant}
    {pat : VariantPat} {call : FnCall} (hl : Lowered syn src kind mth variant pat call) {vs : List Variant}
    (hv : variant ∈ vs) (hn : (vs.map (·.name)).Nodup) (hf : (variant.fields.map (·.name)).Nodup) (b : Bool) (x : Ident) :
    g.varTy vs pat b x = ((if x ∈ src.fields kind mth then some (.field x)
      else if x = "shared_storage" then some .storage
      else if b ∧ x = src.eventIdent then some .event
      else if x = src.contextIdent then some .context
      else none : Option Role)).bind (src.roleTy kind mth g.eventType g.contextType) := by
  unfold Gen.varTy
  rw [h.resolve, hl.patFields, hl.patVariant]
  congr 1
  funext r
  cases r with
  | storage => simp [Source.roleTy, h.selfTy, h.machine.selfTy]
  | event => rfl
  | context => rfl
  | field x => simp only [Source.roleTy, fieldTyOf_eq hl hv hn hf]

/-- The variable that a handler is given for a parameter. -/
theorem handlerVar (h : GenInfo syn src g sm L Lp) (hc : g.Compiles) {kind : Ident} {mth : Method} {variant : Variant}
    {pat : VariantPat} {call : FnCall} (hl : Lowered syn src kind mth variant pat call) {vs : List Variant}
    (hv : variant ∈ vs) (hn : (vs.map (·.name)).Nodup) (hf : (variant.fields.map (·.name)).Nodup)
    (hu : src.Unshadowed kind mth) {a : FnArg} (ha : a ∈ mth.inputs) {i : Ident} (hi : fnArgToIdent a = .ok i) :
    g.varTy vs pat true i = (src.role a).bind (src.roleTy kind mth g.eventType g.contextType) := by
  rw [varTy_eq h hc hl hv hn hf]
  congr 1
  obtain ⟨n1, n2, n3⟩ := h.params hc
  cases a with
  | receiver m =>
    cases hi
    have : "shared_storage" ∉ src.fields kind mth := fun hx => (hu _ hx).1 rfl
    simp [this, Source.role]
  | typed attrs pat ty =>
    cases pat with
    | reference => cases hi
    | unsupported => cases hi
    | ident j =>
      cases hi
      by_cases he : i = src.eventIdent
      · subst he
        have : src.eventIdent ∉ src.fields kind mth := fun hx => (hu _ hx).2.1 rfl
        simp [this, n1.symm, Source.role]
      by_cases hcx : i = src.contextIdent
      · subst hcx
        have : src.contextIdent ∉ src.fields kind mth := fun hx => (hu _ hx).2.2 rfl
        simp [this, n2.symm, n3.symm, Source.role]
      have : i ∈ src.fields kind mth := mem_fields.2 (.inl ⟨_, ha, by simp [Source.param, he, hcx]⟩)
      simp [this, he, hcx, Source.role]

/-- The variable that an action is given for a parameter. -/
theorem actionVar (h : GenInfo syn src g sm L Lp) (hc : g.Compiles) {kind : Ident} {mth : Method} {variant : Variant}
    {pat : VariantPat} {call : FnCall} (hl : Lowered syn src kind mth variant pat call) {vs : List Variant}
    (hv : variant ∈ vs) (hn : (vs.map (·.name)).Nodup) (hf : (variant.fields.map (·.name)).Nodup)
    (hu : src.Unshadowed kind mth) {a : FnArg} {i : Ident} (hi : fnArgToIdent a = .ok i) :
    g.varTy vs pat false i = (src.actionRole a).bind (src.roleTy kind mth g.eventType g.contextType) := by
  rw [varTy_eq h hc hl hv hn hf]
  obtain ⟨n1, n2, n3⟩ := h.params hc
  cases a with
  | receiver m =>
    cases hi
    have : "shared_storage" ∉ src.fields kind mth := fun hx => (hu _ hx).1 rfl
    simp [this, Source.actionRole]
  | typed attrs pat ty =>
    cases pat with
    | reference => cases hi
    | unsupported => cases hi
    | ident j =>
      cases hi
      by_cases he : i = "shared_storage"
      · subst he
        have : "shared_storage" ∉ src.fields kind mth := fun hx => (hu _ hx).1 rfl
        simp [this, Source.actionRole]
      by_cases hcx : i = src.contextIdent
      · subst hcx
        have : src.contextIdent ∉ src.fields kind mth := fun hx => (hu _ hx).2.2 rfl
        simp [this, he, Source.actionRole]
      by_cases hx : i ∈ src.fields kind mth
      · simp [hx, he, hcx, Source.actionRole]
      · have : src.fieldTy kind mth i = none := by
          cases ht : src.fieldTy kind mth i with
          | none => rfl
          | some t => exact absurd (fieldTy_mem ht) hx
        simp [hx, he, hcx, Source.actionRole, Source.roleTy, this]

theorem bind_coerces {o : Option Role} {f : Role → Option Ty} {u : Ty} :
    (∃ t, o.bind f = some t ∧ co.coerces t u) ↔ ∃ r t, o = some r ∧ f r = some t ∧ co.coerces t u := by
  cases o <;> simp

theorem handlerChecks_iff (h : GenInfo syn src g sm L Lp) (hc : g.Compiles) (hd : src.Distinct) {kind : Ident}
    {mth : Method} (hm : mth ∈ src.methods) {variant : Variant}
    {pat : VariantPat} {call : FnCall} (hl : Lowered syn src kind mth variant pat call) {vs : List Variant}
    (hv : variant ∈ vs) (hn : (vs.map (·.name)).Nodup) (hf : (variant.fields.map (·.name)).Nodup)
    (hu : src.Unshadowed kind mth) :
    g.CallChecks co vs pat true call ↔ ∀ a ∈ mth.inputs, ∃ r t, src.role a = some r ∧
      src.roleTy kind mth g.eventType g.contextType r = some t ∧ co.coerces t (src.argTy a) := by
  rw [callChecks_iff h hd hm hl.handlerFn hl.handlerArgs]
  refine forall₂_congr fun a ha => ?_
  obtain ⟨i, hi⟩ := mapM_isOk.1 ⟨_, hl.handlerArgs⟩ a ha
  rw [← bind_coerces, ← handlerVar h hc hl hv hn hf hu ha hi]
  constructor
  · rintro ⟨i', t, h1, h2⟩
    rw [hi] at h1
    cases h1
    exact ⟨t, h2⟩
  · rintro ⟨t, h2⟩
    exact ⟨i, t, hi, h2⟩

theorem actionChecks_iff (h : GenInfo syn src g sm L Lp) (hc : g.Compiles) (hd : src.Distinct) {kind : Ident}
    {mth : Method} {variant : Variant} {pat : VariantPat} {call : FnCall}
    (hl : Lowered syn src kind mth variant pat call) {vs : List Variant}
    (hv : variant ∈ vs) (hn : (vs.map (·.name)).Nodup) (hf : (variant.fields.map (·.name)).Nodup)
    (hu : src.Unshadowed kind mth) {key : Ident} {action : Option FnCall}
    (ha : ActionLink src (mth.link kind key) action) :
    (∀ c ∈ action, g.CallChecks co vs pat false c) ↔
      ∀ am ∈ src.methods, am.Has "action" → mth.link kind key = some am.name → ∀ a ∈ am.inputs, ∃ r t,
        src.actionRole a = some r ∧ src.roleTy kind mth g.eventType g.contextType r = some t ∧
        co.coerces t (src.argTy a) := by
  unfold ActionLink at ha
  split at ha
  · rename_i hn
    subst ha
    simp [hn]
  · rename_i a hn'
    obtain ⟨am, ham, rfl, hk, c, rfl, hca⟩ := ha
    simp only [Option.mem_def, Option.some.injEq, forall_eq', hn']
    rw [callChecks_iff h hd ham hca.fn hca.args]
    have key : ∀ a ∈ am.inputs, ((∃ i t, fnArgToIdent a = .ok i ∧ g.varTy vs pat false i = some t ∧
          co.coerces t (src.argTy a)) ↔ ∃ r t, src.actionRole a = some r ∧
          src.roleTy kind mth g.eventType g.contextType r = some t ∧ co.coerces t (src.argTy a)) := by
      intro a ha
      obtain ⟨i, hi⟩ := mapM_isOk.1 ⟨_, hca.args⟩ a ha
      rw [← bind_coerces, ← actionVar h hc hl hv hn hf hu hi]
      constructor
      · rintro ⟨i', t, h1, h2⟩
        rw [hi] at h1
        cases h1
        exact ⟨t, h2⟩
      · rintro ⟨t, h2⟩
        exact ⟨i, t, hi, h2⟩
    constructor
    · intro H am' ham' _ e a ha
      cases hd.eq ham ham' e
      exact (key a ha).1 (H a ha)
    · intro H a ha
      exact (key a ha).2 (H am ham hk rfl a ha)

theorem viewChecks_iff (h : GenInfo syn src g sm L Lp) (hc : g.Compiles) (hd : src.Distinct) {kind : Ident}
    {mth : Method} {variant : Variant} {pat : VariantPat} {call : FnCall}
    (hl : Lowered syn src kind mth variant pat call) {vs : List Variant}
    (hv : variant ∈ vs) (hn : (vs.map (·.name)).Nodup) (hf : (variant.fields.map (·.name)).Nodup)
    {target : Option VariantPat} (ha : SupLink syn src (mth.link kind "superstate") target)
    (hs : ∀ p ∈ target, ∀ x ∈ p.fields, x ∈ pat.fields) :
    (∀ p ∈ target, g.ViewChecks co vs pat p) ↔
      ∀ pm ∈ src.methods, pm.Has "superstate" → mth.link kind "superstate" = some pm.name →
        ∀ x ∈ src.fields "superstate" pm, ∃ t u, src.fieldTy kind mth x = some t ∧
          src.fieldTy "superstate" pm x = some u ∧ co.coerces (.ref none true t) u := by
  unfold SupLink at ha
  split at ha
  · rename_i hn
    subst ha
    simp [hn]
  · rename_i a hn'
    obtain ⟨pm, hpm, rfl, hk, rfl⟩ := ha
    simp only [Option.mem_def, Option.some.injEq, forall_eq', hn', Gen.ViewChecks] at hs ⊢
    obtain ⟨ls, -, hls, hdp⟩ := h.supOf hc hpm hk
    have hv' : ls.variant ∈ g.superstates := h.superstates.mem_iff.2 (List.mem_map.2 ⟨_, hls, rfl⟩)
    have key : ∀ x ∈ src.fields "superstate" pm, ((∃ t u, g.varTy vs pat false x = some t ∧
        fieldTyOf g.superstates (variantName syn pm.name) x = some u ∧ co.coerces t u) ↔
        ∃ t u, src.fieldTy kind mth x = some t ∧ src.fieldTy "superstate" pm x = some u ∧
          co.coerces (.ref none true t) u) := by
      intro x hx
      have hx' : x ∈ src.fields kind mth := by rw [← hl.patFields]; exact hs x hx
      rw [varTy_eq h hc hl hv hn hf, fieldTyOf_eq hdp.lowered hv' hc.superstates (hc.supFields _ hv'), if_pos hx']
      simp only [Option.bind_some, Source.roleTy, Option.map_eq_some_iff]
      constructor
      · rintro ⟨_, u, ⟨t, h1, rfl⟩, h2⟩
        exact ⟨t, u, h1, h2⟩
      · rintro ⟨t, u, h1, h2⟩
        exact ⟨_, u, ⟨t, h1, rfl⟩, h2⟩
    constructor
    · intro H pm' hpm' _ e x hx
      cases hd.eq hpm hpm' e
      exact (key x hx).1 (H x hx)
    · intro H x hx
      exact (key x hx).2 (H pm hpm hk rfl x hx)

theorem LoweredMap.mem {V : Type} {m : HMap V} {kind : Ident} {methods : List Method} {P : Method → V → Prop}
    (h : LoweredMap m kind methods P) : LoweredMap m kind methods (fun mth v => P mth v ∧ (mth.name, v) ∈ m) where
  keys := h.keys
  sound := by
    intro n v he
    obtain ⟨mth, hm, rfl, hk, hp⟩ := h.sound n v he
    exact ⟨mth, hm, rfl, hk, hp, he⟩
  complete := h.complete

theorem typeChecks_iff {ord : Order} (h : expand syn ord src = .ok g) (hc : g.Compiles)
    (hu : ∀ kind, kind = "state" ∨ kind = "superstate" → ∀ mth ∈ src.methods, mth.Has kind → src.Unshadowed kind mth) :
    g.TypeChecks co ↔ src.WellTyped co g.eventType g.contextType := by
  have hd := hc.distinct h
  obtain ⟨sm, L, Lp, hg⟩ := genInfo hd h
  have m1 : ∀ n ls, (n, ls) ∈ L → ls.variant ∈ g.states := fun _ _ he =>
    hg.states.mem_iff.2 (List.mem_map.2 ⟨_, he, rfl⟩)
  have m2 : ∀ n ls, (n, ls) ∈ Lp → ls.variant ∈ g.superstates := fun _ _ he =>
    hg.superstates.mem_iff.2 (List.mem_map.2 ⟨_, he, rfl⟩)
  have n1 := hc.states
  have n2 := hc.superstates
  have f1 := hc.stateFields
  have f2 := hc.supFields
  have h1 := (forall_perm_map hg.handlerArms (Q := fun a => g.CallChecks co g.states a.pat true a.body)).trans <|
    hg.statesMap.mem.forall_iff hd fun mth hm hk v hp =>
      handlerChecks_iff hg hc hd hm hp.1.1.lowered (m1 _ _ hp.2) n1 (f1 _ (m1 _ _ hp.2)) (hu _ (.inl rfl) mth hm hk)
  have h2 := (forall_perm_map hg.supHandlerArms (Q := fun a => g.CallChecks co g.superstates a.pat true a.body)).trans <|
    hg.superstatesMap.mem.forall_iff hd fun mth hm hk v hp =>
      handlerChecks_iff hg hc hd hm hp.1.lowered (m2 _ _ hp.2) n2 (f2 _ (m2 _ _ hp.2)) (hu _ (.inr rfl) mth hm hk)
  have a1 := (forall_perm_map hg.entryArms (Q := fun a => ∀ c ∈ a.body, g.CallChecks co g.states a.pat false c)).trans <|
    hg.statesMap.mem.forall_iff hd fun mth hm hk v hp =>
      actionChecks_iff hg hc hd hp.1.1.lowered (m1 _ _ hp.2) n1 (f1 _ (m1 _ _ hp.2)) (hu _ (.inl rfl) mth hm hk)
        hp.1.1.entry
  have a2 := (forall_perm_map hg.exitArms (Q := fun a => ∀ c ∈ a.body, g.CallChecks co g.states a.pat false c)).trans <|
    hg.statesMap.mem.forall_iff hd fun mth hm hk v hp =>
      actionChecks_iff hg hc hd hp.1.1.lowered (m1 _ _ hp.2) n1 (f1 _ (m1 _ _ hp.2)) (hu _ (.inl rfl) mth hm hk)
        hp.1.1.exit
  have a3 := (forall_perm_map hg.supEntryArms
      (Q := fun a => ∀ c ∈ a.body, g.CallChecks co g.superstates a.pat false c)).trans <|
    hg.superstatesMap.mem.forall_iff hd fun mth hm hk v hp =>
      actionChecks_iff hg hc hd hp.1.lowered (m2 _ _ hp.2) n2 (f2 _ (m2 _ _ hp.2)) (hu _ (.inr rfl) mth hm hk)
        hp.1.entry
  have a4 := (forall_perm_map hg.supExitArms
      (Q := fun a => ∀ c ∈ a.body, g.CallChecks co g.superstates a.pat false c)).trans <|
    hg.superstatesMap.mem.forall_iff hd fun mth hm hk v hp =>
      actionChecks_iff hg hc hd hp.1.lowered (m2 _ _ hp.2) n2 (f2 _ (m2 _ _ hp.2)) (hu _ (.inr rfl) mth hm hk)
        hp.1.exit
  have hs1 := (forall_perm_map hg.superstateArms (Q := fun a => ∀ p ∈ a.body, ∀ x ∈ p.fields, x ∈ a.pat.fields)).1
    hc.superstateFields
  have hs2 := (forall_perm_map hg.supSuperstateArms (Q := fun a => ∀ p ∈ a.body, ∀ x ∈ p.fields, x ∈ a.pat.fields)).1
    hc.supSuperstateFields
  have s1 := (forall_perm_map hg.superstateArms (Q := fun a => ∀ p ∈ a.body, g.ViewChecks co g.states a.pat p)).trans <|
    hg.statesMap.mem.forall_iff hd fun mth hm hk v hp =>
      viewChecks_iff hg hc hd hp.1.1.lowered (m1 _ _ hp.2) n1 (f1 _ (m1 _ _ hp.2)) hp.1.1.superstate (hs1 _ hp.2)
  have s2 := (forall_perm_map hg.supSuperstateArms
      (Q := fun a => ∀ p ∈ a.body, g.ViewChecks co g.superstates a.pat p)).trans <|
    hg.superstatesMap.mem.forall_iff hd fun mth hm hk v hp =>
      viewChecks_iff hg hc hd hp.1.lowered (m2 _ _ hp.2) n2 (f2 _ (m2 _ _ hp.2)) hp.1.superstate (hs2 _ hp.2)
  constructor
  · intro ht
    refine ⟨?_, ?_, ?_⟩
    · rintro kind (rfl | rfl)
      · exact h1.1 ht.handler
      · exact h2.1 ht.supHandler
    · rintro kind (rfl | rfl) mth hm am ham hk key (rfl | rfl) hl
      · exact a1.1 ht.entry mth hm (link_has hl) am ham hk hl
      · exact a2.1 ht.exit mth hm (link_has hl) am ham hk hl
      · exact a3.1 ht.supEntry mth hm (link_has hl) am ham hk hl
      · exact a4.1 ht.supExit mth hm (link_has hl) am ham hk hl
    · rintro kind (rfl | rfl) mth hm pm hpm hk hl
      · exact s1.1 ht.superstate mth hm (link_has hl) pm hpm hk hl
      · exact s2.1 ht.supSuperstate mth hm (link_has hl) pm hpm hk hl
  · intro hw
    refine ⟨h1.2 (hw.handlers _ (.inl rfl)), ?_, ?_, ?_, h2.2 (hw.handlers _ (.inr rfl)), ?_, ?_, ?_⟩
    · exact a1.2 fun mth hm hk am ham hk' hl => hw.actions _ (.inl rfl) mth hm am ham hk' _ (.inl rfl) hl
    · exact a2.2 fun mth hm hk am ham hk' hl => hw.actions _ (.inl rfl) mth hm am ham hk' _ (.inr rfl) hl
    · exact s1.2 fun mth hm hk pm hpm hk' hl => hw.superstates _ (.inl rfl) mth hm pm hpm hk' hl
    · exact a3.2 fun mth hm hk am ham hk' hl => hw.actions _ (.inr rfl) mth hm am ham hk' _ (.inl rfl) hl
    · exact a4.2 fun mth hm hk am ham hk' hl => hw.actions _ (.inr rfl) mth hm am ham hk' _ (.inr rfl) hl
    · exact s2.2 fun mth hm hk pm hpm hk' hl => hw.superstates _ (.inr rfl) mth hm pm hpm hk' hl

end Statig.Macro
