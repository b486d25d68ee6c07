import Mathlib.Logic.Function.Iterate
import Mathlib.Data.List.Induction
import Verif.Spec.Macro
import Verif.Proofs.Macro.Lists
/-!
# What `analyze` finds in a declaration
-/
namespace Statig.Macro

/-! ## Settings -/

/-- The literal value of a setting. -/
theorem requireSetting_ok {ok : String → Bool} {msg : String} {v : SettingValue} {s : String}
    (h : requireSetting ok msg v = .ok s) : v = .lit s ∧ ok s = true := by
  unfold requireSetting at h
  split at h
  · split at h
    · rename_i h'
      cases h
      exact ⟨rfl, h'⟩
    · cases h
  · cases h
  · cases h

theorem requireLit_ok {ok : String → Bool} {msg : String} {v : MetaValue} {s : String}
    (h : requireLit ok msg v = .ok s) : v = .lit s ∧ ok s = true := by
  unfold requireLit at h
  split at h
  · split at h
    · rename_i h'
      cases h
      exact ⟨rfl, h'⟩
    · cases h
  · cases h
  · cases h

/-- `Source.setting` of a list of arguments. -/
def settingOf (args : List Setting) (key : Ident) : Option String :=
  (args.filterMap fun a =>
    match a.value with
    | .lit s => if a.key = key then some s else none
    | _ => none).getLast?

theorem settingOf_append (args : List Setting) (key : Ident) (a : Setting) :
    settingOf (args ++ [a]) key =
      if a.key = key then
        match a.value with
        | .lit s => some s
        | _ => settingOf args key
      else settingOf args key := by
  unfold settingOf
  rw [List.filterMap_append]
  by_cases hk : a.key = key <;> cases hv : a.value <;> simp [hv, hk]

/-- The last `key(..)` among the arguments. -/
def listOf (args : List Setting) (key : Ident) : Option (List EnumMeta) :=
  ((args.filterMap fun a =>
    match a.value with
    | .list l => if a.key = key then some l else none
    | _ => none).getLast?).getD (some [])

theorem listOf_append (args : List Setting) (key : Ident) (a : Setting) :
    listOf (args ++ [a]) key =
      if a.key = key then
        match a.value with
        | .list l => l
        | _ => listOf args key
      else listOf args key := by
  unfold listOf
  rw [List.filterMap_append]
  by_cases hk : a.key = key <;> cases hv : a.value <;> simp [hv, hk]

theorem listOf_ok {args : List Setting} {key : Ident} {l : List EnumMeta} (h : listOf args key = some l) :
    ((args.filterMap fun a =>
      match a.value with
      | .list (some l) => if a.key = key then some l else none
      | _ => none).getLast?).getD [] = l := by
  induction args using List.reverseRecOn with
  | nil =>
    cases h
    rfl
  | append_singleton args a ih =>
    rw [listOf_append] at h
    rw [List.filterMap_append]
    by_cases hk : a.key = key
    · rw [if_pos hk] at h
      cases hv : a.value with
      | list l' =>
        rw [hv] at h
        simp only at h
        subst h
        simp [hv, hk]
      | lit s =>
        rw [hv] at h
        simpa [hv] using ih h
      | notString =>
        rw [hv] at h
        simpa [hv] using ih h
      | other =>
        rw [hv] at h
        simpa [hv] using ih h
    · rw [if_neg hk] at h
      have : List.filterMap (fun a : Setting =>
          match a.value with
          | .list (some l) => if a.key = key then some l else none
          | _ => none) [a] = [] := by
        rcases hv : a.value with s | _ | (_ | l) | _ <;> simp [hv, hk]
      rw [this, List.append_nil]
      exact ih h

/-- What the first loop of `analyze_state_machine` computes. -/
structure SettingsInfo (args : List Setting) (s : Settings) : Prop where
  initial : s.initial = settingOf args "initial"
  eventIdent : s.eventIdent = (settingOf args "event_identifier").getD "event"
  contextIdent : s.contextIdent = (settingOf args "context_identifier").getD "context"
  visibility : s.visibility = (settingOf args "visibility").getD "pub"
  beforeTransition : s.beforeTransition = settingOf args "before_transition"
  afterTransition : s.afterTransition = settingOf args "after_transition"
  beforeDispatch : s.beforeDispatch = settingOf args "before_dispatch"
  afterDispatch : s.afterDispatch = settingOf args "after_dispatch"
  stateMeta : s.stateMeta = listOf args "state"
  superstateMeta : s.superstateMeta = listOf args "superstate"

theorem settingsInfo_step {syn : Syn} {pre : List Setting} {a : Setting} {s s' : Settings}
    (h : SettingsInfo pre s) (e : analyzeSetting syn s a = .ok s') : SettingsInfo (pre ++ [a]) s' := by
  obtain ⟨h1, h2, h3, h4, h5, h6, h7, h8, h9, h10⟩ := h
  unfold analyzeSetting at e
  iterate 8
    split at e
    · rename_i hk
      obtain ⟨v, hv, e⟩ := Res.bind_ok e
      cases e
      have hv := (requireSetting_ok hv).1
      constructor <;> simp [settingOf_append, listOf_append, *]
  split at e
  · rename_i hk
    split at e
    · cases e
      constructor <;> simp [settingOf_append, listOf_append, *]
    · cases e
  split at e
  · rename_i hk
    split at e
    · cases e
      constructor <;> simp [settingOf_append, listOf_append, *]
    · cases e
  cases e

/-- What the second and third loop of `analyze_state_machine` compute. -/
theorem analyzeEnum_ok {syn : Syn} {msgs : EnumMsgs} {dflt : Ident} {l : List EnumMeta} {r : Ident × List Ident}
    (h : l.foldlM (analyzeEnum syn msgs) (dflt, []) = .ok r) :
    r.1 = ((l.filterMap fun
      | .name (.lit s) => some s
      | _ => none).getLast?).getD dflt ∧
    r.2 = l.flatMap fun
      | .derive (some l) => l
      | _ => [] := by
  refine foldlM_inv' (fun l r => r.1 = ((l.filterMap fun
      | EnumMeta.name (.lit s) => some s
      | _ => none).getLast?).getD dflt ∧
    r.2 = l.flatMap fun
      | .derive (some l) => l
      | _ => []) h ⟨rfl, rfl⟩ ?_
  intro pre a b b' ⟨h1, h2⟩ e
  unfold analyzeEnum at e
  split at e
  · obtain ⟨i, hi, e⟩ := Res.bind_ok e
    cases e
    obtain ⟨rfl, _⟩ := requireLit_ok hi
    simp [h2]
  · cases e
    simp [h1, h2]
  · cases e
  · cases e

/-- What `analyze_state_machine` computes. -/
structure MachineInfo (syn : Syn) (src : Source) (sm : StateMachine) : Prop where
  initial : src.setting "initial" = some sm.initial
  eventIdent : sm.eventIdent = src.eventIdent
  contextIdent : sm.contextIdent = src.contextIdent
  visibility : sm.visibility = (src.setting "visibility").getD "pub"
  beforeTransition : sm.beforeTransition = src.setting "before_transition"
  afterTransition : sm.afterTransition = src.setting "after_transition"
  beforeDispatch : sm.beforeDispatch = src.setting "before_dispatch"
  afterDispatch : sm.afterDispatch = src.setting "after_dispatch"
  generics : sm.generics = src.generics
  selfTy : sm.selfTy = src.selfTy
  path : ∃ n args, src.selfTy = .path n args ∧ sm.path = args.segments ++ [n]
  stateIdent : sm.stateIdent = (src.enumName "state").getD "State"
  stateDerives : sm.stateDerives = src.enumDerives "state"
  superstateIdent : sm.superstateIdent = (src.enumName "superstate").getD "Superstate"
  superstateDerives : sm.superstateDerives = src.enumDerives "superstate"

theorem machineInfo {syn : Syn} {src : Source} {sm : StateMachine}
    (h : analyzeStateMachine syn src.selfTy src.generics src.args = .ok sm) : MachineInfo syn src sm := by
  unfold analyzeStateMachine at h
  obtain ⟨path, hpath, h⟩ := Res.bind_ok h
  obtain ⟨s, hs, h⟩ := Res.bind_ok h
  have hi : SettingsInfo src.args s := foldlM_inv' SettingsInfo hs
    (by constructor <;> rfl) (fun pre a b b' h e => settingsInfo_step h e)
  split at h
  · cases h
  · rename_i i he
    split at h
    · cases h
    · rename_i l hl
      obtain ⟨⟨a, b⟩, hab, h⟩ := Res.bind_ok h
      simp only at h
      split at h
      · cases h
      · rename_i l' hl'
        obtain ⟨⟨a', b'⟩, hab', h⟩ := Res.bind_ok h
        cases h
        obtain ⟨h1, h2, h3, h4, h5, h6, h7, h8, h9, h10⟩ := hi
        rw [he] at h1
        have k : src.enumItems "state" = l := listOf_ok (h9.symm.trans hl)
        have k' : src.enumItems "superstate" = l' := listOf_ok (h10.symm.trans hl')
        obtain ⟨e1, e2⟩ := analyzeEnum_ok hab
        obtain ⟨e3, e4⟩ := analyzeEnum_ok hab'
        rw [← k] at e1 e2
        rw [← k'] at e3 e4
        exact ⟨h1.symm, h2, h3, h4, h5, h6, h7, h8, rfl, rfl,
          by cases ht : src.selfTy <;> rw [ht] at hpath <;> cases hpath; exact ⟨_, _, rfl, rfl⟩, e1, e2, e3, e4⟩

/-! ## Parameters -/

/-- The parameter stands for local storage. -/
def patOf (sm : StateMachine) : FnArg → Option PatType
  | .receiver _ => none
  | .typed _ pat ty =>
    match pat with
    | .ident i => if sm.eventIdent = i ∨ sm.contextIdent = i then none else some ⟨pat, ty⟩
    | .reference => some ⟨pat, ty⟩
    | .unsupported _ => none

/-- The default declared by a parameter that stands for local storage. -/
def defaultOf (sm : StateMachine) : FnArg → Option LocalStorageDefault
  | .typed attrs (.ident i) _ =>
    if sm.eventIdent = i ∨ sm.contextIdent = i then none
    else
      match attrs.find? ArgAttr.isDefault with
      | some .default => some (.empty i)
      | some (.defaultValue (some e)) => some (.value i e)
      | _ => none
  | _ => none

/-- The last event parameter. -/
def eventArgOf (ident : Ident) (l : List FnArg) : Option PatType :=
  (l.filterMap fun
    | .typed _ (.ident i) ty => if ident = i then some ⟨.ident i, ty⟩ else none
    | _ => none).getLast?

theorem eventArgOf_append (ident : Ident) (l : List FnArg) (a : FnArg) :
    eventArgOf ident (l ++ [a]) =
      match a with
      | .typed _ (.ident i) ty => if ident = i then some ⟨.ident i, ty⟩ else eventArgOf ident l
      | _ => eventArgOf ident l := by
  unfold eventArgOf
  rw [List.filterMap_append]
  cases a with
  | receiver => simp
  | typed attrs pat ty =>
    cases pat with
    | ident i => by_cases h : ident = i <;> simp [h]
    | reference => simp
    | unsupported => simp

/-- What the loops over the parameters compute. -/
structure InputsInfo (sm : StateMachine) (l : List FnArg) (acc : Inputs) : Prop where
  stateInputs : acc.stateInputs = l.filterMap (patOf sm)
  eventArg : acc.eventArg = eventArgOf sm.eventIdent l
  contextArg : sm.eventIdent ≠ sm.contextIdent → acc.contextArg = eventArgOf sm.contextIdent l

theorem inputsInfo_state_step {sm : StateMachine} {pre : List FnArg} {a : FnArg} {b b' : Inputs}
    (h : InputsInfo sm pre b ∧ b.localStorageDefault = pre.filterMap (defaultOf sm))
    (e : analyzeStateInput sm b a = .ok b') :
    InputsInfo sm (pre ++ [a]) b' ∧ b'.localStorageDefault = (pre ++ [a]).filterMap (defaultOf sm) := by
  obtain ⟨⟨h1, h2, h3⟩, h4⟩ := h
  unfold analyzeStateInput at e
  split at e
  · cases e
    refine ⟨⟨?_, ?_, ?_⟩, ?_⟩ <;> simp [patOf, defaultOf, eventArgOf_append, List.filterMap_append, *]
    exact h3
  · split at e
    · rename_i i
      split at e
      · rename_i hi
        cases e
        refine ⟨⟨?_, ?_, fun hne => ?_⟩, ?_⟩
        · simp [patOf, hi, h1]
        · simp [eventArgOf_append, hi]
        · have : ¬ sm.contextIdent = i := fun h => hne (hi.trans h.symm)
          simp [eventArgOf_append, this, h3 hne]
        · simp [defaultOf, hi, h4]
      split at e
      · rename_i hi' hi
        cases e
        refine ⟨⟨?_, ?_, fun hne => ?_⟩, ?_⟩
        · simp [patOf, hi, h1]
        · simp [eventArgOf_append, hi', h2]
        · simp [eventArgOf_append, hi]
        · simp [defaultOf, hi, h4]
      · rename_i hi' hi
        split at e
        · rename_i attr ha
          obtain ⟨d, hd, e⟩ := Res.bind_ok e
          cases e
          refine ⟨⟨?_, ?_, fun hne => ?_⟩, ?_⟩
          · simp [patOf, hi, hi', h1]
          · simp [eventArgOf_append, hi', h2]
          · simp [eventArgOf_append, hi, h3 hne]
          · cases attr with
            | default => cases hd; simp [defaultOf, hi, hi', h4, ha]
            | defaultValue v =>
              cases v with
              | none => cases hd
              | some v => cases hd; simp [defaultOf, hi, hi', h4, ha]
            | defaultNotString => cases hd
            | defaultMalformed => cases hd
            | other => cases hd
        · rename_i ha
          cases e
          refine ⟨⟨?_, ?_, fun hne => ?_⟩, ?_⟩
          · simp [patOf, hi, hi', h1]
          · simp [eventArgOf_append, hi', h2]
          · simp [eventArgOf_append, hi, h3 hne]
          · simp [defaultOf, hi, hi', h4, ha]
    · cases e
      refine ⟨⟨?_, ?_, fun hne => ?_⟩, ?_⟩
      · simp [patOf, h1]
      · simp [eventArgOf_append, h2]
      · simp [eventArgOf_append, h3 hne]
      · simp [defaultOf, h4]
    · cases e

theorem inputsInfo_superstate_step {sm : StateMachine} {pre : List FnArg} {a : FnArg} {b b' : Inputs}
    (h : InputsInfo sm pre b) (e : analyzeSuperstateInput sm b a = .ok b') : InputsInfo sm (pre ++ [a]) b' := by
  obtain ⟨h1, h2, h3⟩ := h
  unfold analyzeSuperstateInput at e
  split at e
  · cases e
    refine ⟨?_, ?_, ?_⟩ <;> simp [patOf, eventArgOf_append, List.filterMap_append, *]
    exact h3
  · split at e
    · rename_i i
      split at e
      · rename_i hi
        cases e
        refine ⟨?_, ?_, fun hne => ?_⟩
        · simp [patOf, hi, h1]
        · simp [eventArgOf_append, hi]
        · have : ¬ sm.contextIdent = i := fun h => hne (hi.trans h.symm)
          simp [eventArgOf_append, this, h3 hne]
      split at e
      · rename_i hi' hi
        cases e
        refine ⟨?_, ?_, fun hne => ?_⟩
        · simp [patOf, hi, h1]
        · simp [eventArgOf_append, hi', h2]
        · simp [eventArgOf_append, hi]
      · rename_i hi' hi
        cases e
        refine ⟨?_, ?_, fun hne => ?_⟩
        · simp [patOf, hi, hi', h1]
        · simp [eventArgOf_append, hi', h2]
        · simp [eventArgOf_append, hi, h3 hne]
    · cases e
      refine ⟨?_, ?_, fun hne => ?_⟩
      · simp [patOf, h1]
      · simp [eventArgOf_append, h2]
      · simp [eventArgOf_append, h3 hne]
    · cases e

/-! ## Links -/

/-- `Method.link` of a list of metas. -/
def linkOf (l : List Meta) (key : Ident) : Option Ident :=
  (l.filterMap fun m =>
    match m.value with
    | .lit s => if m.key = key then some s else none
    | _ => none).getLast?

theorem linkOf_append (l : List Meta) (key : Ident) (a : Meta) :
    linkOf (l ++ [a]) key =
      if a.key = key then
        match a.value with
        | .lit s => some s
        | _ => linkOf l key
      else linkOf l key := by
  unfold linkOf
  rw [List.filterMap_append]
  by_cases hk : a.key = key <;> cases hv : a.value <;> simp [hv, hk]

/-- `Method.storageFields` of a list of metas. -/
def storageOf (l : List Meta) : List Field :=
  l.flatMap fun m =>
    match m.value with
    | .fields l => if m.key = "local_storage" then l.filterMap id else []
    | _ => []

theorem getMeta_eq (mth : Method) (kind : Ident) : getMeta mth.attrs kind = mth.metas kind := by
  unfold getMeta Method.metas
  induction mth.attrs with
  | nil => rfl
  | cons a l ih =>
    by_cases h : a.path = kind
    · cases ha : a.metas <;> simp [h, ha, ih, List.flatMap_cons]
    · simp [h, ih, List.flatMap_cons]

theorem analyzeFields_ok : ∀ {l : List (Option Field)} {fs : List Field}, analyzeFields l = .ok fs →
    fs = l.filterMap id
  | [], fs, h => by
    cases h
    rfl
  | some f :: l, fs, h => by
    obtain ⟨gs, hg, h⟩ := Res.bind_ok h
    cases h
    exact congrArg (f :: ·) (analyzeFields_ok hg)
  | none :: l, fs, h => by cases h

/-- What the loops over the metas compute. -/
structure LinksInfo (l : List Meta) (acc : Links) : Prop where
  superstate : acc.superstate = linkOf l "superstate"
  entryAction : acc.entryAction = linkOf l "entry_action"
  exitAction : acc.exitAction = linkOf l "exit_action"
  localStorage : acc.localStorage = storageOf l

theorem linksInfo_step {syn : Syn} {pre : List Meta} {a : Meta} {b b' : Links}
    (h : LinksInfo pre b) (e : analyzeMeta syn b a = .ok b') : LinksInfo (pre ++ [a]) b' := by
  obtain ⟨h1, h2, h3, h4⟩ := h
  unfold analyzeMeta at e
  iterate 3
    split at e
    · rename_i hk
      obtain ⟨v, hv, e⟩ := Res.bind_ok e
      cases e
      have hv := (requireLit_ok hv).1
      constructor <;> simp [linkOf_append, storageOf, *]
  split at e
  · rename_i hk
    split at e
    · rename_i l hv
      obtain ⟨fs, hfs, e⟩ := Res.bind_ok e
      cases e
      constructor <;> simp [linkOf_append, storageOf, analyzeFields_ok hfs, *]
    · cases e
  · rename_i k1 k2 k3 k4
    cases e
    constructor
    · simp [linkOf_append, k1, h1]
    · simp [linkOf_append, k2, h2]
    · simp [linkOf_append, k3, h3]
    · rw [h4]
      unfold storageOf
      rw [List.flatMap_append]
      cases hv : a.value <;> simp [k4, hv]

/-! ## Handlers -/

/-- What `analyze_state` does to the method. -/
def strip (sm : StateMachine) (mth : Method) : Method := { mth with inputs := mth.inputs.map (stripDefault sm) }

theorem patOf_strip (sm : StateMachine) (a : FnArg) : patOf sm (stripDefault sm a) = patOf sm a := by
  cases a with
  | receiver => rfl
  | typed attrs pat ty =>
    cases pat with
    | ident i =>
      by_cases h : sm.eventIdent = i ∨ sm.contextIdent = i <;> simp only [stripDefault, h, ↓reduceIte] <;> rfl
    | reference => rfl
    | unsupported => rfl

theorem fnArgToIdent_strip (sm : StateMachine) (a : FnArg) : fnArgToIdent (stripDefault sm a) = fnArgToIdent a := by
  cases a with
  | receiver => rfl
  | typed attrs pat ty =>
    cases pat with
    | ident i =>
      by_cases h : sm.eventIdent = i ∨ sm.contextIdent = i <;> simp only [stripDefault, h, ↓reduceIte] <;> rfl
    | reference => rfl
    | unsupported => rfl

theorem eventArgOf_strip (sm : StateMachine) (ident : Ident) (l : List FnArg) :
    eventArgOf ident (l.map (stripDefault sm)) = eventArgOf ident l := by
  unfold eventArgOf
  rw [List.filterMap_map]
  congr 2
  funext a
  cases a with
  | receiver => rfl
  | typed attrs pat ty =>
    cases pat with
    | ident i =>
      by_cases h : sm.eventIdent = i ∨ sm.contextIdent = i <;>
        simp only [Function.comp_apply, stripDefault, h, ↓reduceIte]
    | reference => rfl
    | unsupported => rfl

/-- What a state or superstate found by `analyze` has to do with the method it comes from, apart from defaults. -/
structure HandlerInfo (sm : StateMachine) (kind : Ident) (mth : Method) (st : State) : Prop where
  name : st.handlerName = mth.name
  superstate : st.superstate = mth.link kind "superstate"
  entryAction : st.entryAction = mth.link kind "entry_action"
  exitAction : st.exitAction = mth.link kind "exit_action"
  localStorage : st.localStorage = mth.storageFields kind
  inputs : st.inputs.map fnArgToIdent = mth.inputs.map fnArgToIdent
  stateInputs : st.stateInputs = mth.inputs.filterMap (patOf sm)
  eventArg : st.eventArg = eventArgOf sm.eventIdent mth.inputs
  contextArg : sm.eventIdent ≠ sm.contextIdent → st.contextArg = eventArgOf sm.contextIdent mth.inputs
  isAsync : st.isAsync = mth.isAsync

theorem HandlerInfo.of_strip {sm : StateMachine} {kind : Ident} {mth : Method} {st : State}
    (h : HandlerInfo sm kind (strip sm mth) st) : HandlerInfo sm kind mth st := by
  obtain ⟨h1, h2, h3, h4, h5, h6, h7, h8, h9, h10⟩ := h
  refine ⟨h1, h2, h3, h4, h5, ?_, ?_, ?_, ?_, h10⟩
  · rw [h6]
    simp only [strip, List.map_map]
    apply List.map_congr_left
    intro a _
    exact fnArgToIdent_strip sm a
  · rw [h7]
    simp only [strip, List.filterMap_map]
    congr 1
    funext a
    exact patOf_strip sm a
  · rw [h8]
    exact eventArgOf_strip sm _ _
  · intro hne
    rw [h9 hne]
    exact eventArgOf_strip sm _ _

theorem HandlerInfo.of_strips {sm : StateMachine} {kind : Ident} {mth : Method} {st : State} :
    ∀ k, HandlerInfo sm kind ((strip sm)^[k] mth) st → HandlerInfo sm kind mth st
  | 0, h => h
  | k + 1, h => (of_strips k (mth := strip sm mth) h).of_strip

theorem strips_name {sm : StateMachine} {mth : Method} : ∀ k, ((strip sm)^[k] mth).name = mth.name
  | 0 => rfl
  | k + 1 => strips_name (mth := strip sm mth) k

theorem strips_attrs {sm : StateMachine} {mth : Method} : ∀ k, ((strip sm)^[k] mth).attrs = mth.attrs
  | 0 => rfl
  | k + 1 => strips_attrs (mth := strip sm mth) k

theorem strips_isAsync {sm : StateMachine} {mth : Method} : ∀ k, ((strip sm)^[k] mth).isAsync = mth.isAsync
  | 0 => rfl
  | k + 1 => strips_isAsync (mth := strip sm mth) k

theorem strips_generic {sm : StateMachine} {mth : Method} : ∀ k, ((strip sm)^[k] mth).generic = mth.generic
  | 0 => rfl
  | k + 1 => strips_generic (mth := strip sm mth) k

theorem strips_inputs {sm : StateMachine} {mth : Method} :
    ∀ k, ((strip sm)^[k] mth).inputs.map fnArgToIdent = mth.inputs.map fnArgToIdent
  | 0 => rfl
  | k + 1 => by
    refine (strips_inputs (mth := strip sm mth) k).trans ?_
    simp only [strip, List.map_map]
    apply List.map_congr_left
    intro a _
    exact fnArgToIdent_strip sm a

theorem linksInfo {syn : Syn} {mth : Method} {kind : Ident} {links : Links}
    (h : (getMeta mth.attrs kind).foldlM (analyzeMeta syn) {} = .ok links) : LinksInfo (mth.metas kind) links := by
  rw [getMeta_eq] at h
  exact foldlM_inv' LinksInfo h ⟨rfl, rfl, rfl, rfl⟩ (fun pre a b b' h e => linksInfo_step h e)

theorem analyzeState_ok {syn : Syn} {sm : StateMachine} {mth mth' : Method} {st : State}
    (h : analyzeState syn sm mth = .ok (st, mth')) :
    mth' = strip sm mth ∧ HandlerInfo sm "state" mth st ∧
      st.localStorageDefault = mth.inputs.filterMap (defaultOf sm) := by
  unfold analyzeState at h
  split at h
  · cases h
  · obtain ⟨inputs, hi, h⟩ := Res.bind_ok h
    obtain ⟨links, hl, h⟩ := Res.bind_ok h
    cases h
    have hi := foldlM_inv'
      (fun l (acc : Inputs) => InputsInfo sm l acc ∧ acc.localStorageDefault = l.filterMap (defaultOf sm)) hi
      ⟨⟨rfl, rfl, fun _ => rfl⟩, rfl⟩ (fun pre a b b' h e => inputsInfo_state_step h e)
    have hl := linksInfo hl
    exact ⟨rfl, ⟨rfl, hl.superstate, hl.entryAction, hl.exitAction, hl.localStorage, rfl,
      hi.1.stateInputs, hi.1.eventArg, hi.1.contextArg, rfl⟩, hi.2⟩

theorem analyzeSuperstate_ok {syn : Syn} {sm : StateMachine} {mth : Method} {st : State}
    (h : analyzeSuperstate syn sm mth = .ok st) : HandlerInfo sm "superstate" mth st := by
  unfold analyzeSuperstate at h
  split at h
  · cases h
  · obtain ⟨inputs, hi, h⟩ := Res.bind_ok h
    obtain ⟨links, hl, h⟩ := Res.bind_ok h
    cases h
    have hi := foldlM_inv' (InputsInfo sm) hi ⟨rfl, rfl, fun _ => rfl⟩
      (fun pre a b b' h e => inputsInfo_superstate_step h e)
    have hl := linksInfo hl
    exact ⟨rfl, hl.superstate, hl.entryAction, hl.exitAction, hl.localStorage, rfl,
      hi.stateInputs, hi.eventArg, hi.contextArg, rfl⟩

/-- What an action found by `analyze` has to do with the method it comes from. -/
structure ActionInfo (mth : Method) (a : Action) : Prop where
  name : a.handlerName = mth.name
  inputs : a.inputs.map fnArgToIdent = mth.inputs.map fnArgToIdent
  isAsync : a.isAsync = mth.isAsync

theorem analyzeAction_ok {mth : Method} {a : Action} (h : analyzeAction mth = .ok a) : ActionInfo mth a := by
  unfold analyzeAction at h
  split at h <;> cases h
  exact ⟨rfl, rfl, rfl⟩

/-! ## The loops over attributes and methods -/

/-- A map after some attributes of the method were looked at: unchanged, or with an entry for the method. -/
def Updated {V : Type} (m m' : HMap V) (name : Ident) (found : Prop) (P : V → Prop) : Prop :=
  (¬ found ∧ m' = m) ∨ (found ∧ ∃ m₀ v, P v ∧ m' = HMap.insert m₀ name v ∧
    ((m.map (·.1)).Nodup → (m₀.map (·.1)).Nodup) ∧ ∀ n, n ≠ name → ∀ w, (n, w) ∈ m₀ ↔ (n, w) ∈ m)

theorem Updated.insert {V : Type} {m m' : HMap V} {name : Ident} {found found' : Prop} {P P' : V → Prop}
    (h : Updated m m' name found P) (v : V) (hv : P' v) (hf : found') :
    Updated m (HMap.insert m' name v) name found' P' := by
  rcases h with ⟨_, rfl⟩ | ⟨_, m₀, w, _, rfl, h1, h2⟩
  · exact .inr ⟨hf, m', v, hv, rfl, id, fun _ _ _ => Iff.rfl⟩
  · refine .inr ⟨hf, _, v, hv, rfl, fun h => HMap.keys_insert _ _ _ (h1 h), fun n hn u => ?_⟩
    rw [HMap.mem_insert]
    simp [hn, h2 n hn]

/-- How often an attribute occurs. -/
abbrev countAttr (kind : Ident) (paths : List Ident) : Nat := paths.count kind

/-- What a state comes from: the method, with the defaults removed that were already used. -/
structure FromState (syn : Syn) (sm : StateMachine) (paths : List Ident) (mth : Method) (st : State) : Prop where
  info : HandlerInfo sm "state" mth st
  defaults : st.localStorageDefault =
    (((strip sm)^[countAttr "state" paths - 1] mth).inputs).filterMap (defaultOf sm)
  generic : mth.generic = false

/-- What the loop over attributes computes. -/
structure MapsInfo (syn : Syn) (sm : StateMachine) (mth : Method) (before : Model) (paths : List Ident)
    (acc : Maps) : Prop where
  method : acc.method = (strip sm)^[countAttr "state" paths] mth
  states : Updated before.states acc.states mth.name ("state" ∈ paths) (FromState syn sm paths mth)
  superstates : Updated before.superstates acc.superstates mth.name ("superstate" ∈ paths)
    (fun st => HandlerInfo sm "superstate" mth st ∧ mth.generic = false)
  actions : Updated before.actions acc.actions mth.name ("action" ∈ paths)
    (fun a => ActionInfo mth a ∧ mth.generic = false)

theorem Updated.congr {V : Type} {m m' : HMap V} {name : Ident} {found found' : Prop} {P P' : V → Prop}
    (h : Updated m m' name found P) (hf : found ↔ found') (hP : ∀ v, P v → P' v) :
    Updated m m' name found' P' := by
  rcases h with ⟨h, e⟩ | ⟨h, m₀, v, hv, h'⟩
  · exact .inl ⟨fun h' => h (hf.2 h'), e⟩
  · exact .inr ⟨hf.1 h, m₀, v, hP v hv, h'⟩

theorem mapsInfo_step {syn : Syn} {sm : StateMachine} {mth : Method} {before : Model} {pre : List Ident}
    {a : Ident} {b b' : Maps} (h : MapsInfo syn sm mth before pre b) (e : analyzeAttr syn sm b a = .ok b') :
    MapsInfo syn sm mth before (pre ++ [a]) b' := by
  obtain ⟨h1, h2, h3, h4⟩ := h
  unfold analyzeAttr at e
  split at e
  · rename_i ha
    subst ha
    obtain ⟨⟨st, m'⟩, hs, e⟩ := Res.bind_ok e
    cases e
    have hg : mth.generic = false := by
      by_cases hg : b.method.generic
      · unfold analyzeState at hs
        rw [if_pos hg] at hs
        cases hs
      · rw [h1, strips_generic] at hg
        simpa using hg
    obtain ⟨hm, hi, hd⟩ := analyzeState_ok hs
    rw [h1] at hm hi hd
    refine ⟨?_, ?_, ?_, ?_⟩
    · rw [hm]
      simp only [countAttr, List.count_append, List.count_singleton_self, Function.iterate_succ_apply']
    · have hn : st.handlerName = mth.name := hi.name.trans (strips_name _)
      simp only [hn]
      exact h2.insert st ⟨hi.of_strips, by simpa [countAttr] using hd, hg⟩ (by simp)
    · exact h3.congr (by simp) fun _ h => h
    · exact h4.congr (by simp) fun _ h => h
  split at e
  · rename_i ha
    subst ha
    obtain ⟨st, hs, e⟩ := Res.bind_ok e
    cases e
    have hg : mth.generic = false := by
      by_cases hg : b.method.generic
      · unfold analyzeSuperstate at hs
        rw [if_pos hg] at hs
        cases hs
      · rw [h1, strips_generic] at hg
        simpa using hg
    have hi := analyzeSuperstate_ok hs
    rw [h1] at hi
    refine ⟨?_, ?_, ?_, ?_⟩
    · simp [countAttr, h1]
    · exact h2.congr (by simp) fun _ h => ⟨h.info, by simpa [countAttr] using h.defaults, h.generic⟩
    · have hn : st.handlerName = mth.name := hi.name.trans (strips_name _)
      simp only [hn]
      exact h3.insert st ⟨hi.of_strips, hg⟩ (by simp)
    · exact h4.congr (by simp) fun _ h => h
  split at e
  · rename_i ha
    subst ha
    obtain ⟨st, hs, e⟩ := Res.bind_ok e
    cases e
    have hg : mth.generic = false := by
      by_cases hg : b.method.generic
      · unfold analyzeAction at hs
        rw [if_pos hg] at hs
        cases hs
      · rw [h1, strips_generic] at hg
        simpa using hg
    have hi := analyzeAction_ok hs
    rw [h1] at hi
    refine ⟨?_, ?_, ?_, ?_⟩
    · simp [countAttr, h1]
    · exact h2.congr (by simp) fun _ h => ⟨h.info, by simpa [countAttr] using h.defaults, h.generic⟩
    · exact h3.congr (by simp) fun _ h => h
    · have hn : st.handlerName = mth.name := hi.name.trans (strips_name _)
      simp only [hn]
      exact h4.insert st ⟨⟨hn, hi.inputs.trans (strips_inputs _), hi.isAsync.trans (strips_isAsync _)⟩, hg⟩ (by simp)
  · rename_i k1 k2 k3
    cases e
    refine ⟨?_, ?_, ?_, ?_⟩
    · simp [countAttr, h1, k1]
    · exact h2.congr (by simp [Ne.symm k1]) fun _ h =>
        ⟨h.info, by simpa [countAttr, List.count_singleton, k1] using h.defaults, h.generic⟩
    · exact h3.congr (by simp [Ne.symm k2]) fun _ h => h
    · exact h4.congr (by simp [Ne.symm k3]) fun _ h => h

/-- A map after some methods were looked at: every entry comes from a method, and every method with the attribute
has an entry. -/
structure Collected {V : Type} (m : HMap V) (kind : Ident) (methods : List Method) (P : Method → V → Prop) : Prop where
  keys : (m.map (·.1)).Nodup
  sound : ∀ n v, (n, v) ∈ m → ∃ mth ∈ methods, mth.name = n ∧ mth.Has kind ∧ P mth v
  complete : ∀ mth ∈ methods, mth.Has kind → ∃ v, (mth.name, v) ∈ m

theorem mem_paths {mth : Method} {kind : Ident} : kind ∈ mth.attrs.map (·.path) ↔ mth.Has kind := by
  simp [Method.Has]

theorem Collected.step {V : Type} {m m' : HMap V} {kind : Ident} {methods : List Method} {P : Method → V → Prop}
    {mth : Method} (h : Collected m kind methods P)
    (hu : Updated m m' mth.name (kind ∈ mth.attrs.map (·.path)) (P mth)) :
    Collected m' kind (methods ++ [mth]) P := by
  obtain ⟨h1, h2, h3⟩ := h
  rcases hu with ⟨hn, rfl⟩ | ⟨hf, m₀, v, hv, rfl, hk, hm⟩
  · refine ⟨h1, fun n v hv => ?_, fun x hx hk => ?_⟩
    · obtain ⟨x, hx, h⟩ := h2 n v hv
      exact ⟨x, by simp [hx], h⟩
    · rcases List.mem_append.1 hx with hx | hx
      · exact h3 x hx hk
      · rw [List.mem_singleton] at hx
        subst hx
        exact absurd (mem_paths.2 hk) hn
  · refine ⟨HMap.keys_insert _ _ _ (hk h1), fun n w hw => ?_, fun x hx hk => ?_⟩
    · rcases (HMap.mem_insert _ _ _ _ _).1 hw with ⟨rfl, rfl⟩ | ⟨hne, hw⟩
      · exact ⟨mth, by simp, rfl, mem_paths.1 hf, hv⟩
      · obtain ⟨x, hx, h⟩ := h2 n w ((hm n hne w).1 hw)
        exact ⟨x, by simp [hx], h⟩
    · by_cases hn : x.name = mth.name
      · exact ⟨v, (HMap.mem_insert _ _ _ _ _).2 (.inl ⟨hn, rfl⟩)⟩
      · rcases List.mem_append.1 hx with hx | hx
        · obtain ⟨w, hw⟩ := h3 x hx hk
          exact ⟨w, (HMap.mem_insert _ _ _ _ _).2 (.inr ⟨hn, (hm _ hn w).2 hw⟩)⟩
        · rw [List.mem_singleton] at hx
          exact absurd (hx ▸ rfl) hn

/-- What `analyze` computes. -/
structure ModelInfo (syn : Syn) (sm : StateMachine) (ms : List Method) (model : Model) : Prop where
  stateMachine : model.stateMachine = sm
  methods : model.methods = ms.map fun mth => (strip sm)^[countAttr "state" (mth.attrs.map (·.path))] mth
  states : Collected model.states "state" ms
    (fun mth st => FromState syn sm (mth.attrs.map (·.path)) mth st)
  superstates : Collected model.superstates "superstate" ms
    (fun mth st => HandlerInfo sm "superstate" mth st ∧ mth.generic = false)
  actions : Collected model.actions "action" ms (fun mth a => ActionInfo mth a ∧ mth.generic = false)

theorem modelInfo_step {syn : Syn} {sm : StateMachine} {pre : List Method} {a : Method} {b b' : Model}
    (h : ModelInfo syn sm pre b) (e : analyzeMethod syn sm b a = .ok b') : ModelInfo syn sm (pre ++ [a]) b' := by
  obtain ⟨h1, h2, h3, h4, h5⟩ := h
  unfold analyzeMethod at e
  obtain ⟨maps, hm, e⟩ := Res.bind_ok e
  cases e
  have hi := foldlM_inv' (MapsInfo syn sm a b) hm
    ⟨rfl, .inl ⟨by simp, rfl⟩, .inl ⟨by simp, rfl⟩, .inl ⟨by simp, rfl⟩⟩ (fun pre a b b' h e => mapsInfo_step h e)
  exact ⟨h1, by simp [h2, hi.method], h3.step hi.states, h4.step hi.superstates, h5.step hi.actions⟩

theorem modelInfo {syn : Syn} {src : Source} {model : Model} (h : analyze syn src.selfTy src.generics src.args src.methods = .ok model) :
    ∃ sm, MachineInfo syn src sm ∧ ModelInfo syn sm src.methods model := by
  unfold analyze at h
  obtain ⟨sm, hs, h⟩ := Res.bind_ok h
  refine ⟨sm, machineInfo hs, ?_⟩
  refine foldlM_inv' (ModelInfo syn sm) h ⟨rfl, rfl, ?_, ?_, ?_⟩ (fun pre a b b' h e => modelInfo_step h e) <;>
    exact ⟨by simp, by simp, by simp⟩

end Statig.Macro
