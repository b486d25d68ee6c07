import Verif.Proofs.Macro.Lower
/-!
# What the macro generates, in terms of the declaration
-/
namespace Statig.Macro

/-! ## Mode and types -/

/-- What the loops that look for types and async functions compute. -/
structure FoundInfo (start : Found) (l : List (Ident × State)) (acc : Found) : Prop where
  mode : acc.mode = .awaitable ↔ start.mode = .awaitable ∨ ∃ e ∈ l, e.2.isAsync = true

theorem foundInfo {sm : StateMachine} {start acc : Found} {l : List (Ident × State)}
    (h : l.foldlM (findTypes sm) start = .ok acc) : FoundInfo start l acc := by
  refine foldlM_inv' (FoundInfo start) h ⟨by simp⟩ ?_
  intro pre a b b' ⟨h⟩ e
  unfold findTypes at e
  obtain ⟨ty, _, e⟩ := Res.bind_ok e
  obtain ⟨cty, _, e⟩ := Res.bind_ok e
  cases e
  refine ⟨?_⟩
  by_cases ha : a.2.isAsync
  · simp only [ha, ↓reduceIte, true_iff]
    exact .inr ⟨a, by simp, ha⟩
  · simp only [ha, Bool.false_eq_true, ↓reduceIte, h, List.mem_append, List.mem_singleton]
    refine or_congr_right ⟨fun ⟨e, he, h⟩ => ⟨e, .inl he, h⟩, ?_⟩
    rintro ⟨e, he | rfl, h⟩
    · exact ⟨e, he, h⟩
    · exact absurd h ha

theorem foldl_mode (l : List (Ident × Action)) (m : Mode) :
    l.foldl (fun m e => if e.2.isAsync then .awaitable else m) m = .awaitable ↔
      m = .awaitable ∨ ∃ e ∈ l, e.2.isAsync = true := by
  induction l generalizing m with
  | nil => simp
  | cons a l ih =>
    rw [List.foldl_cons, ih]
    by_cases ha : a.2.isAsync <;> simp [ha]

/-- The generic parameter is found in a local storage parameter. -/
def Searched (src : Source) (sm : StateMachine) (kind : Ident) (p : GParam) : Prop :=
  ∃ mth ∈ src.methods, mth.Has kind ∧ ∃ a ∈ mth.inputs, ∃ q, patOf sm a = some q ∧
    p ∈ searchParam sm.generics.params q

/-- What is generated. -/
structure GenInfo (syn : Syn) (src : Source) (g : Gen) (sm : StateMachine) (L : HMap LState) (Lp : HMap LSuperstate) :
    Prop where
  machine : MachineInfo syn src sm
  initial : g.initial = sm.initial
  eventIdent : g.eventIdent = sm.eventIdent
  contextIdent : g.contextIdent = sm.contextIdent
  beforeTransition : g.beforeTransition = sm.beforeTransition
  afterTransition : g.afterTransition = sm.afterTransition
  beforeDispatch : g.beforeDispatch = sm.beforeDispatch
  afterDispatch : g.afterDispatch = sm.afterDispatch
  methods : g.methods = src.methods.map fun mth => (strip sm)^[countAttr "state" (mth.attrs.map (·.path))] mth
  generics : g.generics = sm.generics
  visibility : g.visibility = sm.visibility
  stateIdent : g.stateIdent = sm.stateIdent
  stateDerives : g.stateDerives = sm.stateDerives
  superstateIdent : g.superstateIdent = sm.superstateIdent
  superstateDerives : g.superstateDerives = sm.superstateDerives
  superstateLifetime : g.superstateLifetime = true ↔
    ∃ mth ∈ src.methods, mth.Has "superstate" ∧ ∃ a ∈ mth.inputs, ∃ q, patOf sm a = some q
  stateGenerics : ∃ found : List GParam, g.stateGenerics = sm.generics.params.filter (· ∈ found) ∧
    ∀ p, p ∈ found ↔ Searched src sm "state" p
  superstateGenerics : ∃ found : List GParam, g.superstateGenerics = sm.generics.params.filter (· ∈ found) ++
      (if g.superstateLifetime then [.lifetime "sub" []] else []) ∧
    ∀ p, p ∈ found ↔ Searched src sm "superstate" p
  selfTy : g.selfTy = sm.selfTy
  callPath : g.callPath = sm.path
  callArgs : g.callArgs = turbofish sm.generics
  stateImpl : g.stateImpl = sm.generics
  superstateImpl : g.superstateImpl =
    if g.superstateLifetime then
      ⟨sm.generics.params ++ [.lifetime "sub" []], sm.generics.preds ++ [.type (.path "Self" .nil) ["'sub"]]⟩
    else sm.generics
  mode : g.mode = .awaitable ↔
    ∃ mth ∈ src.methods, mth.isAsync = true ∧ (mth.Has "state" ∨ mth.Has "superstate" ∨ mth.Has "action")
  statesMap : LoweredMap L "state" src.methods (fun mth ls =>
    Described syn src "state" mth ls.variant ls.pat ls.handlerCall ls.entryActionCall ls.exitActionCall
      ls.superstatePat ∧ Constructs syn sm mth ls)
  superstatesMap : LoweredMap Lp "superstate" src.methods (fun mth ls =>
    Described syn src "superstate" mth ls.variant ls.pat ls.handlerCall ls.entryActionCall ls.exitActionCall
      ls.superstatePat)
  states : g.states.Perm (L.map fun e => e.2.variant)
  constructors : g.constructors.Perm (L.map fun e => e.2.constructor)
  handlerArms : g.handlerArms.Perm (L.map fun e => ⟨e.2.pat, e.2.handlerCall⟩)
  entryArms : g.entryArms.Perm (L.map fun e => ⟨e.2.pat, e.2.entryActionCall⟩)
  exitArms : g.exitArms.Perm (L.map fun e => ⟨e.2.pat, e.2.exitActionCall⟩)
  superstateArms : g.superstateArms.Perm (L.map fun e => ⟨e.2.pat, e.2.superstatePat⟩)
  superstates : g.superstates.Perm (Lp.map fun e => e.2.variant)
  supHandlerArms : g.supHandlerArms.Perm (Lp.map fun e => ⟨e.2.pat, e.2.handlerCall⟩)
  supEntryArms : g.supEntryArms.Perm (Lp.map fun e => ⟨e.2.pat, e.2.entryActionCall⟩)
  supExitArms : g.supExitArms.Perm (Lp.map fun e => ⟨e.2.pat, e.2.exitActionCall⟩)
  supSuperstateArms : g.supSuperstateArms.Perm (Lp.map fun e => ⟨e.2.pat, e.2.superstatePat⟩)

theorem lower_mode {syn : Syn} {ord : Order} {src : Source} (hd : src.Distinct) {sm : StateMachine} {model : Model}
    {ir : Ir} (hmodel : ModelInfo syn sm src.methods model) (h : lower syn ord model = .ok ir) :
    ir.mode = .awaitable ↔
      ∃ mth ∈ src.methods, mth.isAsync = true ∧ (mth.Has "state" ∨ mth.Has "superstate" ∨ mth.Has "action") := by
  unfold lower at h
  obtain ⟨states, hstates, h⟩ := Res.bind_ok h
  obtain ⟨sups, hsups, h⟩ := Res.bind_ok h
  obtain ⟨actions, hactions, h⟩ := Res.bind_ok h
  obtain ⟨states', hstates', h⟩ := Res.bind_ok h
  obtain ⟨sups', hsups', h⟩ := Res.bind_ok h
  obtain ⟨found, hf, h⟩ := Res.bind_ok h
  obtain ⟨found', hf', h⟩ := Res.bind_ok h
  obtain ⟨gen, hgen, h⟩ := Res.bind_ok h
  cases h
  simp only
  rw [foldl_mode, (foundInfo hf').mode, (foundInfo hf).mode]
  simp only [(ord.perm_perm _ _).mem_iff, reduceCtorEq, false_or]
  constructor
  · rintro ((⟨⟨n, st⟩, he, ha⟩ | ⟨⟨n, st⟩, he, ha⟩) | ⟨⟨n, st⟩, he, ha⟩)
    · obtain ⟨mth, hm, _, hk, hi⟩ := hmodel.states.sound n st he
      exact ⟨mth, hm, hi.info.isAsync ▸ ha, .inl hk⟩
    · obtain ⟨mth, hm, _, hk, hi⟩ := hmodel.superstates.sound n st he
      exact ⟨mth, hm, hi.1.isAsync ▸ ha, .inr (.inl hk)⟩
    · obtain ⟨mth, hm, _, hk, hi⟩ := hmodel.actions.sound n st he
      exact ⟨mth, hm, hi.1.isAsync ▸ ha, .inr (.inr hk)⟩
  · rintro ⟨mth, hm, ha, hk | hk | hk⟩
    · obtain ⟨st, hst⟩ := hmodel.states.complete mth hm hk
      obtain ⟨mth', hm', hn', _, hi⟩ := hmodel.states.sound _ _ hst
      cases hd.eq hm' hm hn'
      exact .inl (.inl ⟨_, hst, hi.info.isAsync.trans ha⟩)
    · obtain ⟨st, hst⟩ := hmodel.superstates.complete mth hm hk
      obtain ⟨mth', hm', hn', _, hi⟩ := hmodel.superstates.sound _ _ hst
      cases hd.eq hm' hm hn'
      exact .inl (.inr ⟨_, hst, hi.1.isAsync.trans ha⟩)
    · obtain ⟨st, hst⟩ := hmodel.actions.complete mth hm hk
      obtain ⟨mth', hm', hn', _, hi⟩ := hmodel.actions.sound _ _ hst
      cases hd.eq hm' hm hn'
      exact .inr ⟨_, hst, hi.1.isAsync.trans ha⟩

/-- The generic parameters stay in order. -/
theorem mapGenerics_params {generics : Generics} {r : List (GParam × List WherePred)}
    (h : mapGenerics generics = .ok r) : r.map (·.1) = generics.params := by
  have := mapM_ok h
  unfold mapGenerics at h
  clear h
  revert this
  generalize generics.params = ps
  intro h
  induction h with
  | nil => rfl
  | cons hab _ ih =>
    obtain ⟨_, _, e⟩ := Res.bind_ok hab
    cases e
    simp [ih]

/-- Something found in the parameters of the states or superstates. -/
theorem Collected.search {V : Type} {sm : StateMachine} {src : Source} (hd : src.Distinct) {m : HMap V} {kind : Ident}
    {P : Method → V → Prop} (hm : Collected m kind src.methods P) {inputs : V → List PatType}
    (hP : ∀ mth v, P mth v → inputs v = mth.inputs.filterMap (patOf sm)) (Q : PatType → Prop) :
    (∃ e ∈ m, ∃ q ∈ inputs e.2, Q q) ↔
      ∃ mth ∈ src.methods, mth.Has kind ∧ ∃ a ∈ mth.inputs, ∃ q, patOf sm a = some q ∧ Q q := by
  constructor
  · rintro ⟨⟨n, v⟩, he, q, hq, hQ⟩
    obtain ⟨mth, hm', _, hk, hp⟩ := hm.sound n v he
    rw [hP mth v hp] at hq
    obtain ⟨a, ha, e⟩ := List.mem_filterMap.1 hq
    exact ⟨mth, hm', hk, a, ha, q, e, hQ⟩
  · rintro ⟨mth, hm', hk, a, ha, q, e, hQ⟩
    obtain ⟨v, hv⟩ := hm.complete mth hm' hk
    obtain ⟨mth', hm'', hn, _, hp⟩ := hm.sound _ _ hv
    cases hd.eq hm'' hm' hn
    refine ⟨_, hv, q, ?_, hQ⟩
    rw [hP _ v hp]
    exact List.mem_filterMap.2 ⟨a, ha, e⟩

theorem lower_generics {syn : Syn} {ord : Order} {src : Source} (hd : src.Distinct) {sm : StateMachine} {model : Model}
    {ir : Ir} (hmodel : ModelInfo syn sm src.methods model) (h : lower syn ord model = .ok ir) :
    (ir.superstateLifetime = true ↔
      ∃ mth ∈ src.methods, mth.Has "superstate" ∧ ∃ a ∈ mth.inputs, ∃ q, patOf sm a = some q) ∧
    (∃ found : List GParam, ir.stateGenerics = sm.generics.params.filter (· ∈ found) ∧
      ∀ p, p ∈ found ↔ Searched src sm "state" p) ∧
    ∃ found : List GParam, ir.superstateGenerics = sm.generics.params.filter (· ∈ found) ++
        (if ir.superstateLifetime then [.lifetime "sub" []] else []) ∧
      ∀ p, p ∈ found ↔ Searched src sm "superstate" p := by
  unfold lower at h
  obtain ⟨states, hstates, h⟩ := Res.bind_ok h
  obtain ⟨sups, hsups, h⟩ := Res.bind_ok h
  obtain ⟨actions, hactions, h⟩ := Res.bind_ok h
  obtain ⟨states', hstates', h⟩ := Res.bind_ok h
  obtain ⟨sups', hsups', h⟩ := Res.bind_ok h
  obtain ⟨found, hf, h⟩ := Res.bind_ok h
  obtain ⟨found', hf', h⟩ := Res.bind_ok h
  obtain ⟨gen, hgen, h⟩ := Res.bind_ok h
  cases h
  have hg := mapGenerics_params hgen
  have hsm := hmodel.stateMachine
  have s1 := Collected.search hd hmodel.states (sm := sm) (inputs := State.stateInputs) fun mth v h => h.info.stateInputs
  have s2 := Collected.search hd hmodel.superstates (sm := sm) (inputs := State.stateInputs) fun mth v h => h.1.stateInputs
  refine ⟨?_, ⟨_, by simp only [hg, hsm]; rfl, fun p => ?_⟩, ⟨_, by simp only [hg, hsm]; rfl, fun p => ?_⟩⟩
  · have := s2 fun _ => True
    simp only [and_true] at this
    rw [← this]
    simp only [List.any_eq_true, Bool.not_eq_true', List.isEmpty_eq_false_iff_exists_mem]
  · have := s1 fun q => p ∈ searchParam sm.generics.params q
    unfold Searched
    rw [← this]
    simp only [List.mem_flatMap, (ord.perm_perm _ _).mem_iff]
  · have := s2 fun q => p ∈ searchParam sm.generics.params q
    unfold Searched
    rw [← this]
    simp only [List.mem_flatMap, (ord.perm_perm _ _).mem_iff]

theorem lower_impls {syn : Syn} {ord : Order} {model : Model} {ir : Ir} (h : lower syn ord model = .ok ir) :
    ir.turbofish = turbofish model.stateMachine.generics ∧ ir.stateImplGenerics = model.stateMachine.generics ∧
    ir.superstateImplGenerics =
      if ir.superstateLifetime then
        ⟨model.stateMachine.generics.params ++ [.lifetime "sub" []],
          model.stateMachine.generics.preds ++ [.type (.path "Self" .nil) ["'sub"]]⟩
      else model.stateMachine.generics := by
  unfold lower at h
  obtain ⟨states, hstates, h⟩ := Res.bind_ok h
  obtain ⟨sups, hsups, h⟩ := Res.bind_ok h
  obtain ⟨actions, hactions, h⟩ := Res.bind_ok h
  obtain ⟨states', hstates', h⟩ := Res.bind_ok h
  obtain ⟨sups', hsups', h⟩ := Res.bind_ok h
  obtain ⟨found, hf, h⟩ := Res.bind_ok h
  obtain ⟨found', hf', h⟩ := Res.bind_ok h
  obtain ⟨gen, hgen, h⟩ := Res.bind_ok h
  cases h
  exact ⟨rfl, rfl, rfl⟩

theorem genInfo {syn : Syn} {ord : Order} {src : Source} (hd : src.Distinct) {g : Gen}
    (h : expand syn ord src = .ok g) : ∃ sm L Lp, GenInfo syn src g sm L Lp := by
  unfold expand at h
  obtain ⟨model, hmodel, h⟩ := Res.bind_ok h
  obtain ⟨ir, hir, h⟩ := Res.bind_ok h
  cases h
  obtain ⟨sm, hm, hmi⟩ := modelInfo hmodel
  have hi := irInfo hd hm hmi hir
  have hmode := lower_mode hd hmi hir
  have p : ∀ n, (ord.perm n ir.states).Perm ir.states := fun n => ord.perm_perm n _
  have q : ∀ n, (ord.perm n ir.superstates).Perm ir.superstates := fun n => ord.perm_perm n _
  obtain ⟨hl, hg1, hg2⟩ := lower_generics hd hmi hir
  obtain ⟨ht, hi1, hi2⟩ := lower_impls hir
  rw [hmi.stateMachine] at ht hi1 hi2
  refine ⟨sm, ir.states, ir.superstates, hm, ?_, ?_, ?_, ?_, ?_, ?_, ?_, ?_, ?_, ?_, ?_, ?_, ?_, ?_, hl, hg1, hg2,
    ?_, ?_, ht, hi1, hi2, hmode, hi.states, hi.superstates,
    (p 8).map _, (p 9).map _, ?_, ?_, ?_, ?_, (q 12).map _, ?_, ?_, ?_, ?_⟩
  iterate 7 simp [codegen, hi.stateMachine]
  · simp [codegen, hi.methods, hmi.methods]
  iterate 8 simp [codegen, hi.stateMachine]
  all_goals
    simp only [codegen, List.map_map]
    first
      | exact (p 10).map _
      | exact (q 11).map _

theorem GenInfo.distinct {syn : Syn} {src : Source} {g : Gen} {sm : StateMachine} {L : HMap LState}
    {Lp : HMap LSuperstate} (h : GenInfo syn src g sm L Lp) : g.methods.map (·.name) = src.methods.map (·.name) := by
  rw [h.methods, List.map_map]
  apply List.map_congr_left
  intro m _
  exact strips_name _

theorem expand_methods {syn : Syn} {ord : Order} {src : Source} {g : Gen} (h : expand syn ord src = .ok g) :
    g.methods.map (·.name) = src.methods.map (·.name) := by
  unfold expand at h
  obtain ⟨model, hmodel, h⟩ := Res.bind_ok h
  obtain ⟨ir, hir, h⟩ := Res.bind_ok h
  cases h
  obtain ⟨sm, hm, hmi⟩ := modelInfo hmodel
  have : ir.methods = model.methods := by
    unfold lower at hir
    obtain ⟨states, hstates, h⟩ := Res.bind_ok hir
    obtain ⟨sups, hsups, h⟩ := Res.bind_ok h
    obtain ⟨actions, hactions, h⟩ := Res.bind_ok h
    obtain ⟨states', hstates', h⟩ := Res.bind_ok h
    obtain ⟨sups', hsups', h⟩ := Res.bind_ok h
    obtain ⟨found, hf, h⟩ := Res.bind_ok h
    obtain ⟨found', hf', h⟩ := Res.bind_ok h
    obtain ⟨gen, hgen, h⟩ := Res.bind_ok h
    cases h
    rfl
  simp only [codegen]
  rw [this, hmi.methods, List.map_map]
  apply List.map_congr_left
  intro m _
  exact strips_name _

/-- Generated code that compiles comes from an impl block with distinct method names. -/
theorem Gen.Compiles.distinct {syn : Syn} {ord : Order} {src : Source} {g : Gen} (hc : g.Compiles)
    (h : expand syn ord src = .ok g) : src.Distinct := by
  unfold Source.Distinct
  rw [← expand_methods h]
  exact hc.methods

/-- Which methods are async. -/
theorem GenInfo.isAsync {syn : Syn} {src : Source} {g : Gen} {sm : StateMachine} {L : HMap LState}
    {Lp : HMap LSuperstate} (h : GenInfo syn src g sm L Lp) (hd : src.Distinct) {mth : Method}
    (hm : mth ∈ src.methods) : g.iface.isAsync mth.name = mth.isAsync := by
  have hnd := hd
  unfold Source.Distinct at hnd
  simp only [Gen.iface, h.methods]
  generalize src.methods = ms at hm hnd
  induction ms with
  | nil => cases hm
  | cons a ms ih =>
    simp only [List.map_cons, List.find?_cons]
    rw [strips_name]
    simp only [List.map_cons, List.nodup_cons] at hnd
    rcases List.mem_cons.1 hm with rfl | hm
    · simp [strips_isAsync]
    · have : (a.name == mth.name) = false := by
        simp only [beq_eq_false_iff_ne]
        intro e
        exact hnd.1 (List.mem_map.2 ⟨mth, hm, e.symm⟩)
      rw [this]
      exact ih hm hnd.2

/-! ## Arms -/

theorem find_of_nodup {α : Type} {key : α → Ident} {l : List α} (hn : (l.map key).Nodup) (k : Ident) (a : α) :
    l.find? (fun x => key x == k) = some a ↔ a ∈ l ∧ key a = k := by
  induction l with
  | nil => simp
  | cons b l ih =>
    simp only [List.map_cons, List.nodup_cons] at hn
    rw [List.find?_cons]
    by_cases hb : key b = k
    · simp only [hb, beq_self_eq_true, Option.some.injEq, List.mem_cons]
      constructor
      · rintro rfl
        exact ⟨.inl rfl, hb⟩
      · rintro ⟨rfl | ha, hk⟩
        · rfl
        · exact absurd (List.mem_map.2 ⟨a, ha, hk.trans hb.symm⟩) hn.1
    · have : (key b == k) = false := by simpa using hb
      rw [this]
      simp only [ih hn.2, List.mem_cons]
      constructor
      · exact fun ⟨h1, h2⟩ => ⟨.inr h1, h2⟩
      · rintro ⟨rfl | ha, hk⟩
        · exact absurd hk hb
        · exact ⟨ha, hk⟩

theorem find_perm {α : Type} {key : α → Ident} {l l' : List α} (hp : l.Perm l') (hn : (l.map key).Nodup) (k : Ident) :
    l.find? (fun x => key x == k) = l'.find? (fun x => key x == k) := by
  have hn' : (l'.map key).Nodup := (hp.map key).nodup_iff.1 hn
  apply Option.ext
  intro a
  rw [find_of_nodup hn, find_of_nodup hn', hp.mem_iff]

theorem find_map {α β : Type} {key : α → Ident} {key' : β → Ident} {f : α → β} {l : List α}
    (h : ∀ a ∈ l, key' (f a) = key a) (k : Ident) :
    (l.map f).find? (fun x => key' x == k) = (l.find? (fun x => key x == k)).map f := by
  induction l with
  | nil => rfl
  | cons a l ih =>
    rw [List.map_cons, List.find?_cons, List.find?_cons, h a (by simp)]
    cases key a == k
    · exact ih fun b hb => h b (by simp [hb])
    · rfl

/-- The lowered state of a variant. -/
def stateOf (L : HMap LState) (v : Ident) : Option LState :=
  (L.find? fun e => e.2.variant.name == v).map (·.2)

/-- The lowered superstate of a variant. -/
def supOf (L : HMap LSuperstate) (v : Ident) : Option LSuperstate :=
  (L.find? fun e => e.2.variant.name == v).map (·.2)

theorem armOf_map {β B : Type} {L : HMap β} {arms : List (Arm B)} {variant : β → Variant} {pat : β → VariantPat}
    {body : β → B} (hp : arms.Perm (L.map fun e => ⟨pat e.2, body e.2⟩))
    (hn : (L.map fun e => (variant e.2).name).Nodup) (hv : ∀ e ∈ L, (pat e.2).variant = (variant e.2).name) (v : Ident) :
    armOf arms v = ((L.find? fun e => (variant e.2).name == v).map (·.2)).map fun ls => ⟨pat ls, body ls⟩ := by
  have hn' : ((L.map fun e => (⟨pat e.2, body e.2⟩ : Arm B)).map (fun a => a.pat.variant)).Nodup := by
    rw [List.map_map]
    have : List.map ((fun a : Arm B => a.pat.variant) ∘ fun e : Ident × β => ⟨pat e.2, body e.2⟩) L =
        L.map fun e => (variant e.2).name := List.map_congr_left fun e he => hv e he
    rw [this]
    exact hn
  unfold armOf
  rw [find_perm hp ((hp.map _).nodup_iff.2 hn')]
  rw [find_map (key := fun e : Ident × β => (variant e.2).name) (key' := fun a : Arm B => a.pat.variant)
    (f := fun e => ⟨pat e.2, body e.2⟩) (fun e he => hv e he), Option.map_map]
  rfl

theorem fieldsOf_map {β : Type} {L : HMap β} {vs : List Variant} {variant : β → Variant}
    (hp : vs.Perm (L.map fun e => variant e.2)) (hn : (L.map fun e => (variant e.2).name).Nodup) (v : Ident) :
    fieldsOf vs v = ((L.find? fun e => (variant e.2).name == v).map (·.2)).map
      fun ls => (variant ls).fields.map (·.name) := by
  have hn' : ((L.map fun e => variant e.2).map (·.name)).Nodup := by
    rw [List.map_map]
    exact hn
  unfold fieldsOf
  rw [find_perm hp ((hp.map _).nodup_iff.2 hn')]
  rw [find_map (key := fun e : Ident × β => (variant e.2).name) (key' := fun a : Variant => a.name)
    (f := fun e => variant e.2) (fun e he => rfl), Option.map_map, Option.map_map]
  rfl

section arms
variable {syn : Syn} {src : Source} {g : Gen} {sm : StateMachine} {L : HMap LState} {Lp : HMap LSuperstate}

theorem GenInfo.nodup (h : GenInfo syn src g sm L Lp) (hc : g.Compiles) :
    (L.map fun e => e.2.variant.name).Nodup ∧ (Lp.map fun e => e.2.variant.name).Nodup := by
  have h1 := hc.states
  have h2 := hc.superstates
  rw [(h.states.map _).nodup_iff, List.map_map] at h1
  rw [(h.superstates.map _).nodup_iff, List.map_map] at h2
  exact ⟨h1, h2⟩

theorem GenInfo.pats (h : GenInfo syn src g sm L Lp) : ∀ e ∈ L, e.2.pat.variant = e.2.variant.name := by
  rintro ⟨n, ls⟩ he
  obtain ⟨mth, _, _, _, hd, _⟩ := h.statesMap.sound n ls he
  exact hd.lowered.patVariant.trans hd.lowered.variantName.symm

theorem GenInfo.supPats (h : GenInfo syn src g sm L Lp) : ∀ e ∈ Lp, e.2.pat.variant = e.2.variant.name := by
  rintro ⟨n, ls⟩ he
  obtain ⟨mth, _, _, _, hd⟩ := h.superstatesMap.sound n ls he
  exact hd.lowered.patVariant.trans hd.lowered.variantName.symm

/-- The interface, by lowered states and superstates. -/
theorem GenInfo.iface (h : GenInfo syn src g sm L Lp) (hc : g.Compiles) :
    g.iface =
      { mode := g.mode
        initial := sm.initial
        eventIdent := sm.eventIdent
        contextIdent := sm.contextIdent
        beforeTransition := sm.beforeTransition
        afterTransition := sm.afterTransition
        beforeDispatch := sm.beforeDispatch
        afterDispatch := sm.afterDispatch
        isAsync := g.iface.isAsync
        stateFields := fun v => (stateOf L v).map fun ls => ls.variant.fields.map (·.name)
        supFields := fun v => (supOf Lp v).map fun ls => ls.variant.fields.map (·.name)
        handler := fun v => (stateOf L v).map fun ls => ⟨ls.pat, ls.handlerCall⟩
        entry := fun v => (stateOf L v).map fun ls => ⟨ls.pat, ls.entryActionCall⟩
        exit := fun v => (stateOf L v).map fun ls => ⟨ls.pat, ls.exitActionCall⟩
        superstate := fun v => (stateOf L v).map fun ls => ⟨ls.pat, ls.superstatePat⟩
        supHandler := fun v => (supOf Lp v).map fun ls => ⟨ls.pat, ls.handlerCall⟩
        supEntry := fun v => (supOf Lp v).map fun ls => ⟨ls.pat, ls.entryActionCall⟩
        supExit := fun v => (supOf Lp v).map fun ls => ⟨ls.pat, ls.exitActionCall⟩
        supSuperstate := fun v => (supOf Lp v).map fun ls => ⟨ls.pat, ls.superstatePat⟩ } := by
  obtain ⟨hn, hn'⟩ := h.nodup hc
  unfold Gen.iface
  simp only [Iface.mk.injEq, true_and]
  refine ⟨h.initial, h.eventIdent, h.contextIdent, h.beforeTransition, h.afterTransition, h.beforeDispatch,
    h.afterDispatch, ?_, ?_, ?_, ?_, ?_, ?_, ?_, ?_, ?_, ?_⟩
  · exact funext fun v => fieldsOf_map h.states hn v
  · exact funext fun v => fieldsOf_map h.superstates hn' v
  · exact funext fun v => armOf_map h.handlerArms hn h.pats v
  · exact funext fun v => armOf_map h.entryArms hn h.pats v
  · exact funext fun v => armOf_map h.exitArms hn h.pats v
  · exact funext fun v => armOf_map h.superstateArms hn h.pats v
  · exact funext fun v => armOf_map h.supHandlerArms hn' h.supPats v
  · exact funext fun v => armOf_map h.supEntryArms hn' h.supPats v
  · exact funext fun v => armOf_map h.supExitArms hn' h.supPats v
  · exact funext fun v => armOf_map h.supSuperstateArms hn' h.supPats v

theorem GenInfo.stateOf (h : GenInfo syn src g sm L Lp) (hc : g.Compiles) {mth : Method} (hm : mth ∈ src.methods)
    (hk : mth.Has "state") : ∃ ls, Macro.stateOf L (variantName syn mth.name) = some ls ∧ (mth.name, ls) ∈ L ∧
      Described syn src "state" mth ls.variant ls.pat ls.handlerCall ls.entryActionCall ls.exitActionCall
        ls.superstatePat ∧ Constructs syn sm mth ls := by
  obtain ⟨ls, hls⟩ := h.statesMap.complete mth hm hk
  obtain ⟨mth', hm', hn', _, hd⟩ := h.statesMap.sound _ _ hls
  have hdist : src.Distinct := by
    unfold Source.Distinct
    rw [← h.distinct]
    exact hc.methods
  cases hdist.eq hm' hm hn'
  refine ⟨ls, ?_, hls, hd⟩
  unfold Macro.stateOf
  rw [(find_of_nodup (key := fun e : Ident × LState => e.2.variant.name) (h.nodup hc).1 _ (mth.name, ls)).2
    ⟨hls, hd.1.lowered.variantName⟩]
  rfl

theorem GenInfo.supOf (h : GenInfo syn src g sm L Lp) (hc : g.Compiles) {mth : Method} (hm : mth ∈ src.methods)
    (hk : mth.Has "superstate") : ∃ ls, Macro.supOf Lp (variantName syn mth.name) = some ls ∧ (mth.name, ls) ∈ Lp ∧
      Described syn src "superstate" mth ls.variant ls.pat ls.handlerCall ls.entryActionCall ls.exitActionCall
        ls.superstatePat := by
  obtain ⟨ls, hls⟩ := h.superstatesMap.complete mth hm hk
  obtain ⟨mth', hm', hn', _, hd⟩ := h.superstatesMap.sound _ _ hls
  have hdist : src.Distinct := by
    unfold Source.Distinct
    rw [← h.distinct]
    exact hc.methods
  cases hdist.eq hm' hm hn'
  refine ⟨ls, ?_, hls, hd⟩
  unfold Macro.supOf
  rw [(find_of_nodup (key := fun e : Ident × LSuperstate => e.2.variant.name) (h.nodup hc).2 _ (mth.name, ls)).2
    ⟨hls, hd.lowered.variantName⟩]
  rfl

theorem GenInfo.of_stateOf (h : GenInfo syn src g sm L Lp) (hc : g.Compiles) {v : Ident} {ls : LState}
    (e : Macro.stateOf L v = some ls) : ∃ mth ∈ src.methods, mth.Has "state" ∧ v = variantName syn mth.name ∧
      (mth.name, ls) ∈ L ∧
      Described syn src "state" mth ls.variant ls.pat ls.handlerCall ls.entryActionCall ls.exitActionCall
        ls.superstatePat := by
  unfold Macro.stateOf at e
  obtain ⟨⟨n, ls'⟩, hf, e⟩ := Option.map_eq_some_iff.1 e
  cases e
  obtain ⟨hmem, hv⟩ := (find_of_nodup (key := fun e : Ident × LState => e.2.variant.name) (h.nodup hc).1 _ _).1 hf
  obtain ⟨mth, hm, hn, hk, hd, _⟩ := h.statesMap.sound _ _ hmem
  exact ⟨mth, hm, hk, by rw [← hv]; exact hd.lowered.variantName, hn ▸ hmem, hd⟩

theorem GenInfo.of_supOf (h : GenInfo syn src g sm L Lp) (hc : g.Compiles) {v : Ident} {ls : LSuperstate}
    (e : Macro.supOf Lp v = some ls) : ∃ mth ∈ src.methods, mth.Has "superstate" ∧ v = variantName syn mth.name ∧
      (mth.name, ls) ∈ Lp ∧
      Described syn src "superstate" mth ls.variant ls.pat ls.handlerCall ls.entryActionCall ls.exitActionCall
        ls.superstatePat := by
  unfold Macro.supOf at e
  obtain ⟨⟨n, ls'⟩, hf, e⟩ := Option.map_eq_some_iff.1 e
  cases e
  obtain ⟨hmem, hv⟩ := (find_of_nodup (key := fun e : Ident × LSuperstate => e.2.variant.name) (h.nodup hc).2 _ _).1 hf
  obtain ⟨mth, hm, hn, hk, hd⟩ := h.superstatesMap.sound _ _ hmem
  exact ⟨mth, hm, hk, by rw [← hv]; exact hd.lowered.variantName, hn ▸ hmem, hd⟩

end arms
end Statig.Macro
