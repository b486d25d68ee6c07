import Verif.Proofs.Macro.Reorder
import Verif.Proofs.Macro.Accept
import Verif.Spec.MacroPermute
/-!
# The order of the methods of an impl block
-/
namespace Statig.Macro
variable {syn : Syn} {sm : StateMachine}

theorem insert_append {V : Type} {m r : HMap V} {k : Ident} (h : k ∉ m.map (·.1)) (v : V) :
    HMap.insert (m ++ r) k v = m ++ HMap.insert r k v := by
  have h1 : m.any (·.1 == k) = false := by
    rw [List.any_eq_false]
    intro e he hk
    exact h (List.mem_map.2 ⟨e, he, by simpa using hk⟩)
  have h2 : m.map (fun p => if p.1 == k then (k, v) else p) = m := by
    refine (List.map_congr_left fun e he => ?_).trans (List.map_id _)
    rw [if_neg]
    · rfl
    · intro hk
      exact h (List.mem_map.2 ⟨e, he, by simpa using hk⟩)
  unfold HMap.insert
  rw [List.any_append, h1, Bool.false_or]
  split
  · rw [List.map_append, h2]
  · rw [List.append_assoc]

/-- The maps with those of another on top. -/
def Maps.after (acc : Model) (r : Maps) : Maps :=
  ⟨r.method, acc.states ++ r.states, acc.superstates ++ r.superstates, acc.actions ++ r.actions⟩

/-- No entry is called `n`. -/
structure Model.Fresh (acc : Model) (n : Ident) : Prop where
  states : n ∉ acc.states.map (·.1)
  superstates : n ∉ acc.superstates.map (·.1)
  actions : n ∉ acc.actions.map (·.1)

theorem analyzeState_name {mth mth' : Method} {st : State} (h : analyzeState syn sm mth = .ok (st, mth')) :
    st.handlerName = mth.name ∧ mth'.name = mth.name := by
  unfold analyzeState at h
  split at h
  · cases h
  · obtain ⟨a, _, h⟩ := Res.bind_ok h
    obtain ⟨b, _, h⟩ := Res.bind_ok h
    cases h
    exact ⟨rfl, rfl⟩

theorem analyzeSuperstate_name {mth : Method} {st : State} (h : analyzeSuperstate syn sm mth = .ok st) :
    st.handlerName = mth.name := by
  unfold analyzeSuperstate at h
  split at h
  · cases h
  · obtain ⟨a, _, h⟩ := Res.bind_ok h
    obtain ⟨b, _, h⟩ := Res.bind_ok h
    cases h
    rfl

theorem analyzeAction_name {mth : Method} {a : Action} (h : analyzeAction mth = .ok a) : a.handlerName = mth.name := by
  unfold analyzeAction at h
  split at h
  · cases h
  · cases h
    rfl

/-- What an attribute adds does not depend on the other methods. -/
theorem analyzeAttr_after {acc : Model} {r : Maps} (hf : acc.Fresh r.method.name) (path : Ident) :
    analyzeAttr syn sm (r.after acc) path = (analyzeAttr syn sm r path).map (Maps.after acc) ∧
      ∀ r', analyzeAttr syn sm r path = .ok r' → r'.method.name = r.method.name := by
  unfold analyzeAttr
  split
  · show (analyzeState syn sm r.method >>= _) = Except.map _ (analyzeState syn sm r.method >>= _) ∧ _
    cases h : analyzeState syn sm r.method with
    | error e => exact ⟨rfl, fun _ h => by cases h⟩
    | ok x =>
      obtain ⟨st, mth⟩ := x
      obtain ⟨h1, h2⟩ := analyzeState_name h
      constructor
      · show Except.ok _ = Except.ok _
        simp only [Maps.after, Except.ok.injEq, Maps.mk.injEq, and_self, and_true, true_and]
        exact insert_append (h1 ▸ hf.states) _
      · intro r' e
        cases e
        exact h2
  · split
    · show (analyzeSuperstate syn sm r.method >>= _) = Except.map _ (analyzeSuperstate syn sm r.method >>= _) ∧ _
      cases h : analyzeSuperstate syn sm r.method with
      | error e => exact ⟨rfl, fun _ h => by cases h⟩
      | ok st =>
        constructor
        · show Except.ok _ = Except.ok _
          simp only [Maps.after, Except.ok.injEq, Maps.mk.injEq, and_self, and_true, true_and]
          exact insert_append (analyzeSuperstate_name h ▸ hf.superstates) _
        · intro r' e
          cases e
          rfl
    · split
      · show (analyzeAction r.method >>= _) = Except.map _ (analyzeAction r.method >>= _) ∧ _
        cases h : analyzeAction r.method with
        | error e => exact ⟨rfl, fun _ h => by cases h⟩
        | ok st =>
          constructor
          · show Except.ok _ = Except.ok _
            simp only [Maps.after, Except.ok.injEq, Maps.mk.injEq, true_and]
            exact insert_append (analyzeAction_name h ▸ hf.actions) _
          · intro r' e
            cases e
            rfl
      · exact ⟨rfl, fun r' e => by cases e; rfl⟩

theorem analyzeAttrs_after {acc : Model} (paths : List Ident) : ∀ {r : Maps}, acc.Fresh r.method.name →
    paths.foldlM (analyzeAttr syn sm) (r.after acc) = (paths.foldlM (analyzeAttr syn sm) r).map (Maps.after acc) := by
  induction paths with
  | nil => intro r _; rfl
  | cons p paths ih =>
    intro r hf
    obtain ⟨h1, h2⟩ := analyzeAttr_after (syn := syn) (sm := sm) hf p
    rw [List.foldlM_cons, List.foldlM_cons, h1]
    cases h : analyzeAttr syn sm r p with
    | error e => rfl
    | ok r' => exact ih ((h2 r' h).symm ▸ hf)

/-- What a method adds to the model. -/
def contribution (syn : Syn) (sm : StateMachine) (mth : Method) : Res Maps :=
  (mth.attrs.map (·.path)).foldlM (analyzeAttr syn sm) ⟨mth, [], [], []⟩

/-- All that is added is named after the method. -/
structure Maps.Named (n : Ident) (r : Maps) : Prop where
  name : r.method.name = n
  states : ∀ e ∈ r.states, e.1 = n
  superstates : ∀ e ∈ r.superstates, e.1 = n
  actions : ∀ e ∈ r.actions, e.1 = n

theorem insert_named {V : Type} {m : HMap V} {n : Ident} (h : ∀ e ∈ m, e.1 = n) (v : V) :
    ∀ e ∈ HMap.insert m n v, e.1 = n := by
  intro e he
  unfold HMap.insert at he
  split at he
  · obtain ⟨e', he', rfl⟩ := List.mem_map.1 he
    split
    · rfl
    · exact h _ he'
  · rcases List.mem_append.1 he with he | he
    · exact h e he
    · rw [List.mem_singleton] at he
      rw [he]

theorem contribution_named {mth : Method} {r : Maps} (h : contribution syn sm mth = .ok r) : r.Named mth.name := by
  unfold contribution at h
  refine foldlM_inv' (fun _ r => Maps.Named mth.name r) h ⟨rfl, by simp, by simp, by simp⟩ ?_
  intro _ p b b' hb hp
  unfold analyzeAttr at hp
  split at hp
  · obtain ⟨⟨st, m'⟩, hs, hp⟩ := Res.bind_ok hp
    cases hp
    obtain ⟨h1, h2⟩ := analyzeState_name hs
    refine ⟨h2.trans hb.name, ?_, hb.superstates, hb.actions⟩
    rw [h1, hb.name]
    exact insert_named hb.states _
  · split at hp
    · obtain ⟨st, hs, hp⟩ := Res.bind_ok hp
      cases hp
      refine ⟨hb.name, hb.states, ?_, hb.actions⟩
      rw [analyzeSuperstate_name hs, hb.name]
      exact insert_named hb.superstates _
    · split at hp
      · obtain ⟨st, hs, hp⟩ := Res.bind_ok hp
        cases hp
        refine ⟨hb.name, hb.states, hb.superstates, ?_⟩
        rw [analyzeAction_name hs, hb.name]
        exact insert_named hb.actions _
      · cases hp
        exact hb

/-- The model with what methods add. -/
def Model.with (acc : Model) (rs : List Maps) : Model where
  methods := acc.methods ++ rs.map (·.method)
  stateMachine := acc.stateMachine
  states := acc.states ++ rs.flatMap (·.states)
  superstates := acc.superstates ++ rs.flatMap (·.superstates)
  actions := acc.actions ++ rs.flatMap (·.actions)

theorem analyzeMethod_eq {acc : Model} {mth : Method} (hf : acc.Fresh mth.name) :
    analyzeMethod syn sm acc mth = (contribution syn sm mth).map fun r => acc.with [r] := by
  have h := analyzeAttrs_after (syn := syn) (sm := sm) (acc := acc) (mth.attrs.map (·.path))
    (r := ⟨mth, [], [], []⟩) hf
  unfold analyzeMethod contribution
  simp only [Maps.after, List.append_nil] at h
  rw [h]
  cases List.foldlM (analyzeAttr syn sm) (⟨mth, [], [], []⟩ : Maps) (mth.attrs.map (·.path)) with
  | error e => rfl
  | ok r =>
    show Except.ok _ = Except.ok _
    simp [Model.with, Maps.after]

theorem Model.Fresh.with {acc : Model} {r : Maps} {n : Ident} (hf : acc.Fresh n) {n' : Ident} (hr : r.Named n') (hn : n ≠ n') :
    (acc.with [r]).Fresh n := by
  constructor
  · simp only [Model.with, List.flatMap_cons, List.flatMap_nil, List.append_nil, List.map_append, List.mem_append, not_or]
    refine ⟨hf.states, fun h => ?_⟩
    obtain ⟨e, he, rfl⟩ := List.mem_map.1 h
    exact hn (hr.states e he)
  · simp only [Model.with, List.flatMap_cons, List.flatMap_nil, List.append_nil, List.map_append, List.mem_append, not_or]
    refine ⟨hf.superstates, fun h => ?_⟩
    obtain ⟨e, he, rfl⟩ := List.mem_map.1 h
    exact hn (hr.superstates e he)
  · simp only [Model.with, List.flatMap_cons, List.flatMap_nil, List.append_nil, List.map_append, List.mem_append, not_or]
    refine ⟨hf.actions, fun h => ?_⟩
    obtain ⟨e, he, rfl⟩ := List.mem_map.1 h
    exact hn (hr.actions e he)

theorem analyzeMethods_eq (methods : List Method) : ∀ {acc : Model}, (methods.map (·.name)).Nodup →
    (∀ mth ∈ methods, acc.Fresh mth.name) →
    methods.foldlM (analyzeMethod syn sm) acc = (methods.mapM (contribution syn sm)).map acc.with := by
  induction methods with
  | nil =>
    intro acc _ _
    show Except.ok _ = Except.ok _
    simp [Model.with]
  | cons mth methods ih =>
    intro acc hn hf
    rw [List.map_cons, List.nodup_cons] at hn
    rw [List.foldlM_cons, List.mapM_cons, analyzeMethod_eq (hf _ List.mem_cons_self)]
    cases h : contribution syn sm mth with
    | error e => rfl
    | ok r =>
      show List.foldlM (analyzeMethod syn sm) (acc.with [r]) methods = _
      rw [ih hn.2]
      · show _ = Except.map acc.with (List.mapM (contribution syn sm) methods >>= _)
        cases List.mapM (contribution syn sm) methods with
        | error e => rfl
        | ok rs =>
          show Except.ok _ = Except.ok _
          simp [Model.with]
      · intro m' hm'
        exact (hf m' (List.mem_cons_of_mem _ hm')).with (contribution_named h) fun e =>
          hn.1 (e ▸ List.mem_map.2 ⟨m', hm', rfl⟩)

/-- The same methods in another order give the same model, up to the order of its entries. -/
theorem analyze_reordered {selfTy : Ty} {generics : Generics} {args : List Setting} {methods methods' : List Method}
    {model : Model} (hn : (methods.map (·.name)).Nodup) (hp : methods.Perm methods')
    (h : analyze syn selfTy generics args methods = .ok model) :
    ∃ model', analyze syn selfTy generics args methods' = .ok model' ∧ model.Reordered model' ∧
      model.methods.Perm model'.methods := by
  unfold analyze at h
  obtain ⟨sm, hs, h⟩ := Res.bind_ok h
  have hf : ∀ mth ∈ methods, (⟨[], sm, [], [], []⟩ : Model).Fresh mth.name := fun _ _ => ⟨by simp, by simp, by simp⟩
  have hf' : ∀ mth ∈ methods', (⟨[], sm, [], [], []⟩ : Model).Fresh mth.name := fun _ _ => ⟨by simp, by simp, by simp⟩
  rw [analyzeMethods_eq methods hn hf] at h
  cases hr : methods.mapM (contribution syn sm) with
  | error e => rw [hr] at h; cases h
  | ok rs =>
    rw [hr] at h
    cases h
    obtain ⟨rs', hr', hp'⟩ := mapM_perm hp hr
    refine ⟨Model.with ⟨[], sm, [], [], []⟩ rs', Res.bind_of hs
      ((analyzeMethods_eq methods' ((hp.map _).nodup_iff.1 hn) hf').trans ?_), ?_⟩
    · rw [hr']
      rfl
    · refine ⟨⟨rfl, ?_, ?_, ?_⟩, ?_⟩
      · exact (hp'.flatMap_right _).append_left _
      · exact (hp'.flatMap_right _).append_left _
      · exact (hp'.flatMap_right _).append_left _
      · exact (hp'.map _).append_left _

/-! ## The order of the arguments -/

theorem perm_short {α : Type} {l l' : List α} (hp : l.Perm l') (h : l.length ≤ 1) : l' = l := by
  match l, h with
  | [], _ => exact hp.symm.eq_nil
  | [a], _ => exact List.perm_singleton.1 hp.symm

theorem short_of_nodup {args : List Setting} (hn : (args.map (·.key)).Nodup) (key : Ident) :
    (args.filter fun a => a.key = key).length ≤ 1 := by
  induction args with
  | nil => simp
  | cons a l ih =>
    rw [List.map_cons, List.nodup_cons] at hn
    rw [List.filter_cons]
    split
    · rename_i hk
      have : l.filter (fun a => a.key = key) = [] := by
        rw [List.filter_eq_nil_iff]
        intro b hb e
        exact hn.1 (List.mem_map.2 ⟨b, hb, (of_decide_eq_true e).trans (of_decide_eq_true hk).symm⟩)
      simp [this]
    · exact ih hn.2

theorem filter_key {args args' : List Setting} (hp : args.Perm args') (hn : (args.map (·.key)).Nodup) (key : Ident) :
    args'.filter (fun a => a.key = key) = args.filter fun a => a.key = key :=
  perm_short (hp.filter _) (short_of_nodup hn key)

theorem filterMap_key {α : Type} {args args' : List Setting} (hp : args.Perm args') (hn : (args.map (·.key)).Nodup)
    (key : Ident) (f : Setting → Option α) (hf : ∀ a, a.key ≠ key → f a = none) : args'.filterMap f = args.filterMap f := by
  have key' : ∀ l : List Setting, l.filterMap f = (l.filter fun a => a.key = key).filterMap f := by
    intro l
    induction l with
    | nil => rfl
    | cons a l ih =>
      rw [List.filter_cons]
      by_cases h : a.key = key
      · simp [h, List.filterMap_cons, ih]
      · simp [h, hf a h, ih]
  rw [key' args', filter_key hp hn, ← key' args]

theorem Source.Rearranged.setting {src src' : Source} (h : src.Rearranged src') (key : Ident) :
    src'.setting key = src.setting key := by
  unfold Source.setting
  rw [filterMap_key h.args h.keys key]
  intro a ha
  cases a.value <;> simp [ha]

theorem Source.Rearranged.enumItems {src src' : Source} (h : src.Rearranged src') (key : Ident) :
    src'.enumItems key = src.enumItems key := by
  unfold Source.enumItems
  rw [filterMap_key h.args h.keys key]
  intro a ha
  rcases a.value with _ | _ | (_ | _) | _ <;> simp [ha]

theorem Source.Rearranged.enumValid {src src' : Source} (h : src.Rearranged src') (key : Ident) :
    src.EnumValid syn key ↔ src'.EnumValid syn key := by
  unfold Source.EnumValid
  rw [filter_key h.args h.keys key]

theorem Source.Rearranged.analyze {src src' : Source} (h : src.Rearranged src') {sm : StateMachine}
    (hs : analyzeStateMachine syn src.selfTy src.generics src.args = .ok sm) :
    analyzeStateMachine syn src.selfTy src.generics src'.args = .ok sm := by
  obtain ⟨h1, h2, h3, h4, h5⟩ := analyzeStateMachine_isOk.1 ⟨sm, hs⟩
  obtain ⟨sm', hs'⟩ := (analyzeStateMachine_isOk (syn := syn) (src := src')).2 ⟨h.selfTy ▸ h1,
    fun a ha => h2 a (h.args.mem_iff.2 ha), h3.imp fun a ha => ⟨h.args.mem_iff.1 ha.1, ha.2⟩, (h.enumValid _).1 h4,
    (h.enumValid _).1 h5⟩
  obtain ⟨a1, a2, a3, a4, a5, a6, a7, a8, a9, a10, ⟨n, args, a11, a12⟩, a13, a14, a15, a16⟩ := machineInfo hs
  obtain ⟨b1, b2, b3, b4, b5, b6, b7, b8, b9, b10, ⟨n', args', b11, b12⟩, b13, b14, b15, b16⟩ := machineInfo hs'
  rw [h.selfTy, h.generics] at hs'
  rw [hs']
  have e1 : src'.eventIdent = src.eventIdent := by unfold Source.eventIdent; rw [h.setting]
  have e2 : src'.contextIdent = src.contextIdent := by unfold Source.contextIdent; rw [h.setting]
  have e3 : ∀ k, src'.enumName k = src.enumName k := fun k => by unfold Source.enumName; rw [h.enumItems]
  have e4 : ∀ k, src'.enumDerives k = src.enumDerives k := fun k => by unfold Source.enumDerives; rw [h.enumItems]
  rw [h.setting, a1] at b1
  rw [h.selfTy, a11] at b11
  cases b11
  cases sm
  cases sm'
  simp only [StateMachine.mk.injEq, Except.ok.injEq] at *
  refine ⟨?_, ?_, ?_, ?_, ?_, ?_, ?_, ?_, ?_, ?_, ?_, ?_, ?_, ?_, ?_⟩
  · rw [b10, a10, h.selfTy]
  · rw [b12, a12]
  · rw [b9, a9, h.generics]
  · exact (Option.some.inj b1).symm
  · rw [b13, a13, e3]
  · rw [b14, a14, e4]
  · rw [b15, a15, e3]
  · rw [b16, a16, e4]
  · rw [b2, a2, e1]
  · rw [b3, a3, e2]
  · rw [b4, a4, h.setting]
  · rw [b5, a5, h.setting]
  · rw [b6, a6, h.setting]
  · rw [b7, a7, h.setting]
  · rw [b8, a8, h.setting]

end Statig.Macro
