import Verif.Proofs.Macro.Reorder
/-!
# Which declarations are accepted
-/
namespace Statig.Macro

theorem Res.isOk_bind {ε α β : Type} {x : Except ε α} {f : α → Except ε β} :
    (∃ b, (x >>= f) = .ok b) ↔ ∃ a, x = .ok a ∧ ∃ b, f a = .ok b := by
  constructor
  · rintro ⟨b, h⟩
    obtain ⟨a, ha, h⟩ := Res.bind_ok h
    exact ⟨a, ha, b, h⟩
  · rintro ⟨a, ha, b, h⟩
    exact ⟨b, Res.bind_of ha h⟩

/-- A loop succeeds iff every round does, if an invariant determines which rounds do. -/
theorem foldlM_isOk_inv {ε α β : Type} {f : β → α → Except ε β} {I : List α → β → Prop} {P : α → Prop} :
    ∀ (l pre : List α) (b : β), I pre b →
      (∀ pre a b b', I pre b → f b a = .ok b' → I (pre ++ [a]) b') →
      (∀ pre' a post, pre ++ l = pre' ++ a :: post → ∀ b, I pre' b → ((∃ b', f b a = .ok b') ↔ P a)) →
      ((∃ b', l.foldlM f b = .ok b') ↔ ∀ a ∈ l, P a)
  | [], pre, b, _, _, _ => by simp [pure, Except.pure]
  | a :: l, pre, b, hb, step, h => by
    rw [List.foldlM_cons, Res.isOk_bind, List.forall_mem_cons, ← h pre a l rfl b hb]
    constructor
    · rintro ⟨b', hb', hl⟩
      exact ⟨⟨b', hb'⟩, (foldlM_isOk_inv l (pre ++ [a]) b' (step _ _ _ _ hb hb') step (by simpa using h)).1 hl⟩
    · rintro ⟨⟨b', hb'⟩, hl⟩
      exact ⟨b', hb', (foldlM_isOk_inv l (pre ++ [a]) b' (step _ _ _ _ hb hb') step (by simpa using h)).2 hl⟩

theorem foldlM_isOk {ε α β : Type} {f : β → α → Except ε β} {P : α → Prop}
    (h : ∀ b a, (∃ b', f b a = .ok b') ↔ P a) {l : List α} {b : β} :
    (∃ b', l.foldlM f b = .ok b') ↔ ∀ a ∈ l, P a :=
  foldlM_isOk_inv (I := fun _ _ => True) l [] b trivial (fun _ _ _ _ _ _ => trivial) fun _ a _ _ b _ => h b a

/-! ## Settings -/

theorem requireSetting_isOk {ok : String → Bool} {msg : String} {v : SettingValue} :
    (∃ s, requireSetting ok msg v = .ok s) ↔ ∃ s, v = .lit s ∧ ok s := by
  unfold requireSetting
  cases v with
  | lit s => by_cases h : ok s <;> simp [h]
  | list => simp
  | notString => simp
  | other => simp

theorem requireLit_isOk {ok : String → Bool} {msg : String} {v : MetaValue} :
    (∃ s, requireLit ok msg v = .ok s) ↔ ∃ s, v = .lit s ∧ ok s := by
  unfold requireLit
  cases v with
  | lit s => by_cases h : ok s <;> simp [h]
  | fields => simp
  | notString => simp
  | other => simp

theorem analyzeSetting_isOk {syn : Syn} {s : Settings} {a : Setting} :
    (∃ s', analyzeSetting syn s a = .ok s') ↔ a.Valid syn := by
  unfold analyzeSetting Setting.Valid
  by_cases h0 : a.key = "initial"
  · rw [if_pos h0, Res.isOk_bind]
    simp [h0, requireSetting_isOk]
  rw [if_neg h0]
  by_cases h1 : a.key = "event_identifier"
  · rw [if_pos h1, Res.isOk_bind]
    simp [h1, requireSetting_isOk]
  rw [if_neg h1]
  by_cases h2 : a.key = "context_identifier"
  · rw [if_pos h2, Res.isOk_bind]
    simp [h2, requireSetting_isOk]
  rw [if_neg h2]
  by_cases h3 : a.key = "before_transition"
  · rw [if_pos h3, Res.isOk_bind]
    simp [h3, requireSetting_isOk]
  rw [if_neg h3]
  by_cases h4 : a.key = "after_transition"
  · rw [if_pos h4, Res.isOk_bind]
    simp [h4, requireSetting_isOk]
  rw [if_neg h4]
  by_cases h5 : a.key = "before_dispatch"
  · rw [if_pos h5, Res.isOk_bind]
    simp [h5, requireSetting_isOk]
  rw [if_neg h5]
  by_cases h6 : a.key = "after_dispatch"
  · rw [if_pos h6, Res.isOk_bind]
    simp [h6, requireSetting_isOk]
  rw [if_neg h6]
  by_cases h7 : a.key = "visibility"
  · rw [if_pos h7, Res.isOk_bind]
    simp [h7, requireSetting_isOk]
  rw [if_neg h7]
  by_cases h8 : a.key = "state"
  · rw [if_pos h8]
    cases hv : a.value <;> simp [h8]
  rw [if_neg h8]
  by_cases h9 : a.key = "superstate"
  · rw [if_pos h9]
    cases hv : a.value <;> simp [h9]
  rw [if_neg h9]
  simp [h0, h1, h2, h3, h4, h5, h6, h7, h8, h9]

theorem analyzeEnum_isOk {syn : Syn} {msgs : EnumMsgs} {acc : Ident × List Ident} {m : EnumMeta} :
    (∃ r, analyzeEnum syn msgs acc m = .ok r) ↔ m.Valid syn := by
  unfold analyzeEnum EnumMeta.Valid
  cases m with
  | name v =>
    simp only
    rw [Res.isOk_bind]
    simp [requireLit_isOk]
  | derive p => cases p <;> simp
  | unknown => simp

/-- With valid settings, the last `key(..)` is the last setting with that key. -/
theorem listOf_last {syn : Syn} {args : List Setting} (h : ∀ a ∈ args, a.Valid syn) {key : Ident}
    (hk : key = "state" ∨ key = "superstate") :
    (∃ ms, listOf args key = some ms ∧ ∀ m ∈ ms, m.Valid syn) ↔
      ∀ l, ((args.filter fun a => a.key = key).getLast?).map (·.value) = some (.list l) →
        ∃ ms, l = some ms ∧ ∀ m ∈ ms, m.Valid syn := by
  induction args using List.reverseRecOn with
  | nil => simp [listOf]
  | append_singleton args a ih =>
    rw [listOf_append, List.filter_append]
    by_cases ha : a.key = key
    · have hv : ∃ l, a.value = .list l := by
        have := h a (by simp)
        unfold Setting.Valid at this
        rw [ha] at this
        rcases hk with rfl | rfl <;> simpa using this
      obtain ⟨l, hv⟩ := hv
      simp [ha, hv]
    · simp only [ha, ↓reduceIte, decide_false, Bool.false_eq_true, not_false_eq_true, List.filter_cons_of_neg,
        List.filter_nil, List.append_nil]
      exact ih fun a ha => h a (by simp [ha])

theorem settingOf_isSome {syn : Syn} {args : List Setting} (h : ∀ a ∈ args, a.Valid syn) :
    (settingOf args "initial").isSome ↔ ∃ a ∈ args, a.key = "initial" := by
  unfold settingOf
  rw [List.getLast?_isSome, ne_eq, List.filterMap_eq_nil_iff]
  simp only [not_forall]
  constructor
  · rintro ⟨a, ha, hn⟩
    refine ⟨a, ha, ?_⟩
    by_contra hk
    apply hn
    cases a.value <;> simp [hk]
  · rintro ⟨a, ha, hk⟩
    refine ⟨a, ha, ?_⟩
    have := h a ha
    unfold Setting.Valid at this
    rw [hk] at this
    simp only [true_and, String.reduceEq, false_and, or_false] at this
    obtain ⟨s, hs, _⟩ := this
    simp [hs, hk]

theorem analyzeStateMachine_isOk {syn : Syn} {src : Source} :
    (∃ sm, analyzeStateMachine syn src.selfTy src.generics src.args = .ok sm) ↔
      (∃ n args, src.selfTy = .path n args) ∧ (∀ a ∈ src.args, a.Valid syn) ∧ (∃ a ∈ src.args, a.key = "initial") ∧
        src.EnumValid syn "state" ∧ src.EnumValid syn "superstate" := by
  unfold analyzeStateMachine
  rw [Res.isOk_bind]
  have hpath : (∃ n args, src.selfTy = .path n args) ↔ ∃ p, getSharedStoragePath src.selfTy = .ok p := by
    cases src.selfTy <;> simp [getSharedStoragePath]
  rw [hpath, ← exists_and_right]
  refine exists_congr fun p => and_congr_right fun _ => ?_
  rw [Res.isOk_bind]
  have h0 := foldlM_isOk (f := analyzeSetting syn) (l := src.args) (b := {}) fun b a => analyzeSetting_isOk
  constructor
  · rintro ⟨s, hs, sm, h⟩
    have hv := h0.1 ⟨s, hs⟩
    have hi : SettingsInfo src.args s := foldlM_inv' SettingsInfo hs
      (by constructor <;> rfl) (fun pre a b b' h e => settingsInfo_step h e)
    split at h
    · cases h
    · rename_i i he
      split at h
      · cases h
      · rename_i l hl
        obtain ⟨⟨a, b⟩, hab, h⟩ := Res.bind_ok h
        simp only at h
        split at h
        · cases h
        · rename_i l' hl'
          obtain ⟨⟨a', b'⟩, hab', h⟩ := Res.bind_ok h
          refine ⟨hv, (settingOf_isSome hv).1 ?_, ?_, ?_⟩
          · rw [← hi.initial, he]
            rfl
          · refine (listOf_last hv (.inl rfl)).1 ⟨l, hi.stateMeta ▸ hl, ?_⟩
            exact (foldlM_isOk (f := analyzeEnum syn _) fun b a => analyzeEnum_isOk).1 ⟨_, hab⟩
          · refine (listOf_last hv (.inr rfl)).1 ⟨l', hi.superstateMeta ▸ hl', ?_⟩
            exact (foldlM_isOk (f := analyzeEnum syn _) fun b a => analyzeEnum_isOk).1 ⟨_, hab'⟩
  · rintro ⟨hv, h1, h2, h3⟩
    obtain ⟨s, hs⟩ := h0.2 hv
    have hi : SettingsInfo src.args s := foldlM_inv' SettingsInfo hs
      (by constructor <;> rfl) (fun pre a b b' h e => settingsInfo_step h e)
    refine ⟨s, hs, ?_⟩
    have h1 := (settingOf_isSome hv).2 h1
    rw [← hi.initial, Option.isSome_iff_exists] at h1
    obtain ⟨i, he⟩ := h1
    obtain ⟨l, hl, hlv⟩ := (listOf_last hv (.inl rfl)).2 h2
    obtain ⟨l', hl', hlv'⟩ := (listOf_last hv (.inr rfl)).2 h3
    rw [← hi.stateMeta] at hl
    rw [← hi.superstateMeta] at hl'
    obtain ⟨r, hr⟩ := (foldlM_isOk (f := analyzeEnum syn _) (b := ("State", [])) fun b a => analyzeEnum_isOk).2 hlv
    obtain ⟨r', hr'⟩ := (foldlM_isOk (f := analyzeEnum syn _) (b := ("Superstate", [])) fun b a => analyzeEnum_isOk).2 hlv'
    rw [he, hl, hl']
    exact ⟨_, Res.bind_of hr (Res.bind_of hr' rfl)⟩

/-! ## Handlers -/

/-- A round of the loop over the parameters of a state handler succeeds. -/
def StateInputOk (sm : StateMachine) : FnArg → Prop
  | .receiver _ => True
  | .typed attrs pat _ => (∀ k, pat ≠ .unsupported k) ∧
    ∀ i, pat = .ident i → sm.eventIdent ≠ i → sm.contextIdent ≠ i →
      ∀ a, attrs.find? ArgAttr.isDefault = some a → a = .default ∨ ∃ e, a = .defaultValue (some e)

/-- A round of the loop over the parameters of a superstate handler succeeds. -/
def SuperstateInputOk : FnArg → Prop
  | .receiver _ => True
  | .typed _ pat _ => (∀ k, pat ≠ .unsupported k)

theorem analyzeLocalStorageDefault_isOk {i : Ident} {a : ArgAttr} :
    (∃ d, analyzeLocalStorageDefault i a = .ok d) ↔ a = .default ∨ ∃ e, a = .defaultValue (some e) := by
  rcases a with _ | (_ | e) | _ | _ <;> simp [analyzeLocalStorageDefault]

theorem analyzeStateInput_isOk {sm : StateMachine} {acc : Inputs} {a : FnArg} :
    (∃ r, analyzeStateInput sm acc a = .ok r) ↔ StateInputOk sm a := by
  cases a with
  | receiver => simp [analyzeStateInput, StateInputOk]
  | typed attrs pat ty =>
    cases pat with
    | reference => simp [analyzeStateInput, StateInputOk]
    | unsupported => simp [analyzeStateInput, StateInputOk]
    | ident i =>
      simp only [analyzeStateInput, StateInputOk]
      by_cases h1 : sm.eventIdent = i
      · simp [h1]
      by_cases h2 : sm.contextIdent = i
      · simp [h1, h2]
      simp only [h1, h2, ↓reduceIte]
      cases hf : attrs.find? ArgAttr.isDefault with
      | none => simp
      | some d =>
        simp only
        rw [Res.isOk_bind]
        simp only [Except.ok.injEq, exists_eq', and_true, analyzeLocalStorageDefault_isOk]
        constructor
        · intro h
          refine ⟨by simp, fun _ _ _ _ a ha => ?_⟩
          cases ha
          exact h
        · intro h
          exact h.2 i rfl h1 h2 d rfl

theorem analyzeSuperstateInput_isOk {sm : StateMachine} {acc : Inputs} {a : FnArg} :
    (∃ r, analyzeSuperstateInput sm acc a = .ok r) ↔ SuperstateInputOk a := by
  cases a with
  | receiver => simp [analyzeSuperstateInput, SuperstateInputOk]
  | typed attrs pat ty =>
    cases pat with
    | reference => simp [analyzeSuperstateInput, SuperstateInputOk]
    | unsupported => simp [analyzeSuperstateInput, SuperstateInputOk]
    | ident i =>
      simp only [analyzeSuperstateInput, SuperstateInputOk]
      by_cases h1 : sm.eventIdent = i
      · simp [h1]
      by_cases h2 : sm.contextIdent = i <;> simp [h1, h2]

theorem analyzeFields_isOk : ∀ {l : List (Option Field)}, (∃ fs, analyzeFields l = .ok fs) ↔ none ∉ l
  | [] => by simp [analyzeFields]
  | some f :: l => by
    rw [analyzeFields, Res.isOk_bind]
    simp [analyzeFields_isOk]
  | none :: l => by simp [analyzeFields]

theorem analyzeMeta_isOk {syn : Syn} {acc : Links} {m : Meta} :
    (∃ r, analyzeMeta syn acc m = .ok r) ↔ m.Valid syn := by
  unfold analyzeMeta Meta.Valid
  by_cases h0 : m.key = "superstate"
  · rw [if_pos h0, Res.isOk_bind]
    simp [h0, requireLit_isOk]
  rw [if_neg h0]
  by_cases h1 : m.key = "entry_action"
  · rw [if_pos h1, Res.isOk_bind]
    simp [h1, requireLit_isOk]
  rw [if_neg h1]
  by_cases h2 : m.key = "exit_action"
  · rw [if_pos h2, Res.isOk_bind]
    simp [h2, requireLit_isOk]
  rw [if_neg h2]
  by_cases h3 : m.key = "local_storage"
  · rw [if_pos h3]
    cases hv : m.value with
    | lit => simp [h3]
    | notString => simp [h3]
    | other => simp [h3]
    | fields l =>
      simp only
      rw [Res.isOk_bind]
      simp [h3, analyzeFields_isOk]
  rw [if_neg h3]
  simp [h0, h1, h2, h3]

theorem analyzeState_isOk {syn : Syn} {sm : StateMachine} {mth : Method} :
    (∃ r, analyzeState syn sm mth = .ok r) ↔ mth.generic = false ∧ (∀ a ∈ mth.inputs, StateInputOk sm a) ∧
      ∀ m ∈ mth.metas "state", m.Valid syn := by
  unfold analyzeState
  by_cases hg : mth.generic
  · simp [hg]
  rw [if_neg hg, Res.isOk_bind, ← foldlM_isOk (f := analyzeStateInput sm) (b := {}) fun b a => analyzeStateInput_isOk,
    ← foldlM_isOk (f := analyzeMeta syn) (b := {}) fun b a => analyzeMeta_isOk, getMeta_eq]
  simp only [Res.isOk_bind, Except.ok.injEq, exists_eq', and_true, hg, true_and, exists_and_right]

theorem analyzeSuperstate_isOk {syn : Syn} {sm : StateMachine} {mth : Method} :
    (∃ r, analyzeSuperstate syn sm mth = .ok r) ↔ mth.generic = false ∧ (∀ a ∈ mth.inputs, SuperstateInputOk a) ∧
      ∀ m ∈ mth.metas "superstate", m.Valid syn := by
  unfold analyzeSuperstate
  by_cases hg : mth.generic
  · simp [hg]
  rw [if_neg hg, Res.isOk_bind,
    ← foldlM_isOk (f := analyzeSuperstateInput sm) (b := {}) fun b a => analyzeSuperstateInput_isOk,
    ← foldlM_isOk (f := analyzeMeta syn) (b := {}) fun b a => analyzeMeta_isOk, getMeta_eq]
  simp only [Res.isOk_bind, Except.ok.injEq, exists_eq', and_true, hg, true_and, exists_and_right]

theorem analyzeAction_isOk {mth : Method} : (∃ r, analyzeAction mth = .ok r) ↔ mth.generic = false := by
  unfold analyzeAction
  by_cases hg : mth.generic <;> simp [hg]

/-- What the analysis demands of a method for an attribute. -/
def AttrOk (syn : Syn) (sm : StateMachine) (mth : Method) (path : Ident) : Prop :=
  (path = "state" ∨ path = "superstate" ∨ path = "action" → mth.generic = false) ∧
  (path = "state" → ∀ a ∈ mth.inputs, StateInputOk sm a) ∧
  (path = "superstate" → ∀ a ∈ mth.inputs, SuperstateInputOk a) ∧
  (path = "state" ∨ path = "superstate" → ∀ m ∈ mth.metas path, m.Valid syn)

theorem superstateInput_strip {sm : StateMachine} {a : FnArg} :
    SuperstateInputOk (stripDefault sm a) ↔ SuperstateInputOk a := by
  cases a with
  | receiver => rfl
  | typed attrs pat ty =>
    cases pat with
    | ident i =>
      simp only [stripDefault]
      split <;> simp [SuperstateInputOk]
    | reference => rfl
    | unsupported => rfl

theorem superstateInput_strips {sm : StateMachine} {mth : Method} : ∀ k,
    (∀ a ∈ ((strip sm)^[k] mth).inputs, SuperstateInputOk a) ↔ ∀ a ∈ mth.inputs, SuperstateInputOk a
  | 0 => Iff.rfl
  | k + 1 => by
    refine (superstateInput_strips (mth := strip sm mth) k).trans ?_
    simp only [strip, List.forall_mem_map]
    exact forall₂_congr fun a _ => superstateInput_strip

theorem strips_metas {sm : StateMachine} {mth : Method} {kind : Ident} (k : Nat) :
    ((strip sm)^[k] mth).metas kind = mth.metas kind := by
  unfold Method.metas
  rw [strips_attrs]

theorem analyzeMethod_isOk {syn : Syn} {sm : StateMachine} {acc : Model} {mth : Method}
    (h1 : countAttr "state" (mth.attrs.map (·.path)) ≤ 1) :
    (∃ r, analyzeMethod syn sm acc mth = .ok r) ↔ ∀ path ∈ mth.attrs.map (·.path), AttrOk syn sm mth path := by
  unfold analyzeMethod
  rw [Res.isOk_bind]
  simp only [Except.ok.injEq, exists_eq', and_true]
  refine foldlM_isOk_inv (I := MapsInfo syn sm mth acc) _ [] _
    ⟨rfl, .inl ⟨by simp, rfl⟩, .inl ⟨by simp, rfl⟩, .inl ⟨by simp, rfl⟩⟩
    (fun pre a b b' h e => mapsInfo_step h e) ?_
  intro pre a post hl b hb
  rw [List.nil_append] at hl
  unfold analyzeAttr AttrOk
  by_cases ha : a = "state"
  · subst ha
    have : countAttr "state" pre = 0 := by
      rw [hl] at h1
      simp only [countAttr, List.count_append, List.count_cons_self] at h1 ⊢
      omega
    have hm : b.method = mth := by rw [hb.method, this]; rfl
    rw [if_pos rfl, Res.isOk_bind]
    simp only [Except.ok.injEq, exists_eq', and_true, hm, Prod.exists]
    rw [← Prod.exists (p := fun r => analyzeState syn sm mth = .ok r), analyzeState_isOk]
    simp
  rw [if_neg ha]
  by_cases ha' : a = "superstate"
  · subst ha'
    rw [if_pos rfl, Res.isOk_bind]
    simp only [Except.ok.injEq, exists_eq', and_true, analyzeSuperstate_isOk, hb.method, strips_generic,
      superstateInput_strips, strips_metas]
    simp
  rw [if_neg ha']
  by_cases ha'' : a = "action"
  · subst ha''
    rw [if_pos rfl, Res.isOk_bind]
    simp only [Except.ok.injEq, exists_eq', and_true, analyzeAction_isOk, hb.method, strips_generic]
    simp
  rw [if_neg ha'']
  simp [ha, ha', ha'']

theorem analyze_isOk {syn : Syn} {src : Source} {sm : StateMachine}
    (hs : analyzeStateMachine syn src.selfTy src.generics src.args = .ok sm)
    (h1 : ∀ mth ∈ src.methods, countAttr "state" (mth.attrs.map (·.path)) ≤ 1) :
    (∃ model, analyze syn src.selfTy src.generics src.args src.methods = .ok model) ↔
      ∀ mth ∈ src.methods, ∀ path ∈ mth.attrs.map (·.path), AttrOk syn sm mth path := by
  unfold analyze
  rw [Res.isOk_bind]
  constructor
  · rintro ⟨sm', hs', h⟩
    rw [hs] at hs'
    cases hs'
    refine (foldlM_isOk_inv (I := fun _ _ => True) src.methods [] _ trivial (fun _ _ _ _ _ _ => trivial) ?_).1 h
    intro pre a post hl b _
    exact analyzeMethod_isOk (h1 a (by rw [← List.nil_append src.methods, hl]; simp))
  · intro h
    refine ⟨sm, hs, ?_⟩
    refine (foldlM_isOk_inv (I := fun _ _ => True) src.methods [] _ trivial (fun _ _ _ _ _ _ => trivial) ?_).2 h
    intro pre a post hl b _
    exact analyzeMethod_isOk (h1 a (by rw [← List.nil_append src.methods, hl]; simp))

/-! ## Lowering -/

theorem pascal_isOk {syn : Syn} {n : Ident} : (∃ v, pascal syn n = .ok v) ↔ syn.identNew (variantName syn n) := by
  unfold pascal
  simp only [pascalChars_eq]
  change (∃ v, (if syn.identNew (variantName syn n) = true then Except.ok (variantName syn n) else _) = _) ↔ _
  split <;> simp [*]

/-- The type is a reference. -/
def IsRef (ty : Ty) : Prop := ∃ l m t, ty = .ref l m t

theorem fnArgToStateField_isOk {p : PatType} :
    (∃ f, fnArgToStateField p = .ok f) ↔ IsRef p.ty ∧ ∃ i, p.pat = .ident i := by
  unfold fnArgToStateField IsRef
  rcases p with ⟨_ | _ | _, _ | _ | _⟩ <;> simp

theorem fnArgToSuperstateField_isOk {p : PatType} :
    (∃ f, fnArgToSuperstateField p = .ok f) ↔ IsRef p.ty ∧ ∃ i, p.pat = .ident i := by
  unfold fnArgToSuperstateField IsRef
  rcases p with ⟨_ | _ | _, _ | _ | _⟩ <;> simp

/-- The parameter is the receiver or has an identifier as pattern. -/
def IdentArg : FnArg → Prop
  | .receiver _ => True
  | .typed _ pat _ => ∃ i, pat = .ident i

theorem fnArgToIdent_isOk {a : FnArg} : (∃ i, fnArgToIdent a = .ok i) ↔ IdentArg a := by
  unfold fnArgToIdent IdentArg
  rcases a with _ | ⟨_, _ | _ | _, _⟩ <;> simp

theorem lowerState_isOk {syn : Syn} {st : State} : (∃ ls, lowerState syn st = .ok ls) ↔
    syn.identNew (variantName syn st.handlerName) ∧
      (∀ p ∈ st.stateInputs, IsRef p.ty ∧ ∃ i, p.pat = .ident i) ∧ ∃ is, st.inputs.mapM fnArgToIdent = .ok is := by
  unfold lowerState
  simp only [Res.isOk_bind, Except.ok.injEq, exists_eq', and_true, exists_and_right, pascal_isOk, mapM_isOk,
    fnArgToStateField_isOk]

theorem lowerSuperstate_isOk {syn : Syn} {st : State} : (∃ ls, lowerSuperstate syn st = .ok ls) ↔
    syn.identNew (variantName syn st.handlerName) ∧
      (∀ p ∈ st.stateInputs, IsRef p.ty ∧ ∃ i, p.pat = .ident i) ∧ ∃ is, st.inputs.mapM fnArgToIdent = .ok is := by
  unfold lowerSuperstate
  simp only [Res.isOk_bind, Except.ok.injEq, exists_eq', and_true, exists_and_right, pascal_isOk, mapM_isOk,
    fnArgToSuperstateField_isOk]

theorem lowerAction_isOk {a : Action} : (∃ c, lowerAction a = .ok c) ↔ ∃ is, a.inputs.mapM fnArgToIdent = .ok is := by
  unfold lowerAction
  simp only [Res.isOk_bind, Except.ok.injEq, exists_eq', and_true]

theorem resolveLink_isOk {V : Type} {m : HMap V} {msg : String} {link : Option Ident} :
    (∃ r, resolveLink m msg link = .ok r) ↔ ∀ i, link = some i → ∃ v, HMap.get m i = some v := by
  unfold resolveLink
  cases link with
  | none => simp
  | some i => cases h : HMap.get m i <;> simp [h]

theorem linkState_isOk {model : Model} {sups : HMap LSuperstate} {actions : HMap FnCall} {e : Ident × LState} :
    (∃ r, linkState model sups actions e = .ok r) ↔
      (∀ i, (HMap.get model.states e.1).bind (·.superstate) = some i → ∃ v, HMap.get sups i = some v) ∧
      (∀ i, (HMap.get model.states e.1).bind (·.entryAction) = some i → ∃ v, HMap.get actions i = some v) ∧
      (∀ i, (HMap.get model.states e.1).bind (·.exitAction) = some i → ∃ v, HMap.get actions i = some v) := by
  unfold linkState
  simp only [Res.isOk_bind, Except.ok.injEq, exists_eq', and_true, exists_and_right, resolveLink_isOk]

theorem linkSuperstate_isOk {model : Model} {sups : HMap LSuperstate} {actions : HMap FnCall}
    {e : Ident × LSuperstate} :
    (∃ r, linkSuperstate model sups actions e = .ok r) ↔
      (∀ i, (HMap.get model.superstates e.1).bind (·.superstate) = some i → ∃ v, HMap.get sups i = some v) ∧
      (∀ i, (HMap.get model.superstates e.1).bind (·.entryAction) = some i → ∃ v, HMap.get actions i = some v) ∧
      (∀ i, (HMap.get model.superstates e.1).bind (·.exitAction) = some i → ∃ v, HMap.get actions i = some v) := by
  unfold linkSuperstate
  simp only [Res.isOk_bind, Except.ok.injEq, exists_eq', and_true, exists_and_right, resolveLink_isOk]

theorem predicateBoundedToParam_isOk {w : WherePred} {p : GParam} :
    (∃ b, predicateBoundedToParam w p = .ok b) ↔
      ∀ n bounds t bounds', p = .type n bounds → w = .type t bounds' → ∃ m args, t = .path m args := by
  unfold predicateBoundedToParam
  cases w with
  | lifetime => cases p <;> simp
  | type t bs =>
    cases p with
    | lifetime => simp
    | const => simp
    | type n b =>
      simp only [Res.isOk_bind]
      cases t with
      | ref => simp [getGenericArgumentIdent]
      | compound => simp [getGenericArgumentIdent]
      | path m args =>
        simp only [getGenericArgumentIdent, Except.ok.injEq, exists_eq', exists_eq_left', true_iff]
        rintro _ _ _ _ _ h
        cases h
        exact ⟨_, _, rfl⟩

theorem mapGenerics_isOk {generics : Generics} : (∃ r, mapGenerics generics = .ok r) ↔
    ∀ n bounds, .type n bounds ∈ generics.params → ∀ t bounds', .type t bounds' ∈ generics.preds →
      ∃ m args, t = .path m args := by
  unfold mapGenerics
  simp only [mapM_isOk, Res.isOk_bind, Except.ok.injEq, exists_eq', and_true]
  have e : ∀ param, (∃ r, (generics.preds.foldlM (init := []) fun predicates predicate => do
      let bounded ← predicateBoundedToParam predicate param
      Except.ok (if bounded then predicates ++ [predicate] else predicates)) = Except.ok r) ↔
      ∀ w ∈ generics.preds, ∃ b, predicateBoundedToParam w param = .ok b := fun param =>
    foldlM_isOk fun b a => by simp only [Res.isOk_bind, Except.ok.injEq, exists_eq', and_true]
  simp only [e, predicateBoundedToParam_isOk]
  constructor
  · intro h n b hp t b' ht
    exact h _ hp _ ht n b t b' rfl rfl
  · rintro h p hp w hw n b t b' rfl rfl
    exact h n b hp t b' hw

/-- Statements about all entries of a map are statements about all methods. -/
theorem Collected.forall_iff {V : Type} {src : Source} (hd : src.Distinct) {m : HMap V} {kind : Ident}
    {P : Method → V → Prop} (hm : Collected m kind src.methods P) {Q : Ident × V → Prop} {R : Method → Prop}
    (h : ∀ mth ∈ src.methods, ∀ v, (mth.name, v) ∈ m → P mth v → (Q (mth.name, v) ↔ R mth)) :
    (∀ e ∈ m, Q e) ↔ ∀ mth ∈ src.methods, mth.Has kind → R mth := by
  constructor
  · intro hQ mth hmth hk
    obtain ⟨v, hv⟩ := hm.complete mth hmth hk
    obtain ⟨mth', hm', hn, _, hp⟩ := hm.sound _ _ hv
    cases hd.eq hm' hmth hn
    exact (h _ hm' v hv hp).1 (hQ _ hv)
  · rintro hR ⟨n, v⟩ he
    obtain ⟨mth, hmth, rfl, hk, hp⟩ := hm.sound n v he
    exact (h mth hmth v he hp).2 (hR mth hmth hk)

/-- A key is in a map iff there is a method of that name with the attribute. -/
theorem Collected.get_iff {V : Type} {methods : List Method} {m : HMap V} {kind : Ident}
    {P : Method → V → Prop} (hm : Collected m kind methods P) {i : Ident} :
    (∃ v, HMap.get m i = some v) ↔ ∃ mth ∈ methods, mth.name = i ∧ mth.Has kind := by
  constructor
  · rintro ⟨v, hv⟩
    obtain ⟨mth, hmth, hn, hk, _⟩ := hm.sound _ _ ((HMap.get_iff hm.keys i v).1 hv)
    exact ⟨mth, hmth, hn, hk⟩
  · rintro ⟨mth, hmth, rfl, hk⟩
    obtain ⟨v, hv⟩ := hm.complete mth hmth hk
    exact ⟨v, (HMap.get_iff hm.keys _ v).2 hv⟩

theorem mapM_get {V W : Type} {m m' : HMap V} {r : HMap W} {f : Ident × V → Res (Ident × W)} (hp : m'.Perm m)
    (h : m'.mapM f = .ok r) (hf : ∀ e r, f e = .ok r → r.1 = e.1) (hn : (m.map (·.1)).Nodup) (i : Ident) :
    (∃ v, HMap.get r i = some v) ↔ ∃ v, HMap.get m i = some v := by
  have hk := mapM_keys h hf
  have hn' : (r.map (·.1)).Nodup := by
    rw [hk]
    exact (hp.map _).nodup_iff.2 hn
  have e : ∀ {X : Type} {m : HMap X}, (m.map (·.1)).Nodup → ((∃ v, HMap.get m i = some v) ↔ i ∈ m.map (·.1)) := by
    intro X m hn
    simp only [HMap.get_iff hn, List.mem_map, Prod.exists, exists_and_right, exists_eq_right]
  rw [e hn', e hn, hk, (hp.map _).mem_iff]

/-- What lowering demands of the links of a method. -/
def LinksOk (src : Source) (kind : Ident) (mth : Method) : Prop :=
  (∀ p, mth.link kind "superstate" = some p → ∃ pm ∈ src.methods, pm.name = p ∧ pm.Has "superstate") ∧
  (∀ a, mth.link kind "entry_action" = some a → ∃ am ∈ src.methods, am.name = a ∧ am.Has "action") ∧
  ∀ a, mth.link kind "exit_action" = some a → ∃ am ∈ src.methods, am.name = a ∧ am.Has "action"

/-- What lowering demands of the parameters of a method. -/
def ArgsOk (sm : StateMachine) (mth : Method) : Prop :=
  (∀ p ∈ mth.inputs.filterMap (patOf sm), IsRef p.ty ∧ ∃ i, p.pat = .ident i) ∧
  (∀ a ∈ mth.inputs, IdentArg a) ∧
  RefArg sm.eventIdent (eventArgOf sm.eventIdent mth.inputs) ∧
  RefArg sm.contextIdent (eventArgOf sm.contextIdent mth.inputs)

/-- What lowering demands. -/
structure LowerOk (syn : Syn) (src : Source) (sm : StateMachine) : Prop where
  args : ∀ mth ∈ src.methods, mth.Has "state" ∨ mth.Has "superstate" → ArgsOk sm mth
  names : ∀ mth ∈ src.methods, mth.Has "state" ∨ mth.Has "superstate" → syn.identNew (variantName syn mth.name)
  actionArgs : ∀ mth ∈ src.methods, mth.Has "action" → ∀ a ∈ mth.inputs, IdentArg a
  links : ∀ mth ∈ src.methods, ∀ kind, kind = "state" ∨ kind = "superstate" → mth.Has kind → LinksOk src kind mth
  generics : ∀ n bounds, .type n bounds ∈ src.generics.params → ∀ t bounds', .type t bounds' ∈ src.generics.preds →
    ∃ m args, t = .path m args

theorem lower_isOk {syn : Syn} {ord : Order} {src : Source} (hd : src.Distinct) {sm : StateMachine} {model : Model}
    (hg : sm.generics = src.generics) (hne : sm.eventIdent ≠ sm.contextIdent)
    (hmodel : ModelInfo syn sm src.methods model) :
    (∃ ir, lower syn ord model = .ok ir) ↔ LowerOk syn src sm := by
  have p : ∀ {α : Type} (n : Nat) (l : List α) (P : α → Prop), (∀ e ∈ ord.perm n l, P e) ↔ ∀ e ∈ l, P e :=
    fun n l P => forall_congr' fun e => by rw [(ord.perm_perm n l).mem_iff]
  have hins : ∀ {mth : Method} {l : List FnArg}, l.map fnArgToIdent = mth.inputs.map fnArgToIdent →
      ((∀ a ∈ l, ∃ b, fnArgToIdent a = .ok b) ↔ ∀ a ∈ mth.inputs, IdentArg a) := by
    intro mth l h
    rw [← mapM_isOk, mapM_congr_map h]
    simp only [mapM_isOk, fnArgToIdent_isOk]
  -- The conditions of the steps.
  have c0 : (∃ r, ((ord.perm 0 model.states).mapM fun e => do
      let s ← lowerState syn e.2
      Except.ok (e.1, s)) = Except.ok r) ↔ ∀ mth ∈ src.methods, mth.Has "state" →
        syn.identNew (variantName syn mth.name) ∧
        (∀ p ∈ mth.inputs.filterMap (patOf sm), IsRef p.ty ∧ ∃ i, p.pat = .ident i) ∧ ∀ a ∈ mth.inputs, IdentArg a := by
    simp only [mapM_isOk, Res.isOk_bind, Except.ok.injEq, exists_eq', and_true, lowerState_isOk]
    rw [p 0 model.states fun e => _]
    refine hmodel.states.forall_iff hd fun mth hm st hst hP => ?_
    simp only [hP.info.name, hP.info.stateInputs]
    rw [hins hP.info.inputs]
  have c1 : (∃ r, ((ord.perm 1 model.superstates).mapM fun e => do
      let s ← lowerSuperstate syn e.2
      Except.ok (e.1, s)) = Except.ok r) ↔ ∀ mth ∈ src.methods, mth.Has "superstate" →
        syn.identNew (variantName syn mth.name) ∧
        (∀ p ∈ mth.inputs.filterMap (patOf sm), IsRef p.ty ∧ ∃ i, p.pat = .ident i) ∧ ∀ a ∈ mth.inputs, IdentArg a := by
    simp only [mapM_isOk, Res.isOk_bind, Except.ok.injEq, exists_eq', and_true, lowerSuperstate_isOk]
    rw [p 1 model.superstates fun e => _]
    refine hmodel.superstates.forall_iff hd fun mth hm st hst hP => ?_
    simp only [hP.1.name, hP.1.stateInputs]
    rw [hins hP.1.inputs]
  have c2 : (∃ r, ((ord.perm 2 model.actions).mapM fun e => do
      let a ← lowerAction e.2
      Except.ok (e.1, a)) = Except.ok r) ↔ ∀ mth ∈ src.methods, mth.Has "action" → ∀ a ∈ mth.inputs, IdentArg a := by
    simp only [mapM_isOk, Res.isOk_bind, Except.ok.injEq, exists_eq', and_true, lowerAction_isOk]
    rw [p 2 model.actions fun e => _]
    refine hmodel.actions.forall_iff hd fun mth hm st hst hP => ?_
    exact hins hP.1.inputs
  have c5 : ∀ acc, (∃ r, (ord.perm 5 model.states).foldlM (findTypes model.stateMachine) acc = .ok r) ↔
      ∀ mth ∈ src.methods, mth.Has "state" → RefArg sm.eventIdent (eventArgOf sm.eventIdent mth.inputs) ∧
        RefArg sm.contextIdent (eventArgOf sm.contextIdent mth.inputs) := by
    intro acc
    rw [foldlM_findTypes, p 5 model.states fun e => _, hmodel.stateMachine]
    refine hmodel.states.forall_iff hd fun mth hm st hst hP => ?_
    rw [hP.info.eventArg, hP.info.contextArg hne]
  have c6 : ∀ acc, (∃ r, (ord.perm 6 model.superstates).foldlM (findTypes model.stateMachine) acc = .ok r) ↔
      ∀ mth ∈ src.methods, mth.Has "superstate" → RefArg sm.eventIdent (eventArgOf sm.eventIdent mth.inputs) ∧
        RefArg sm.contextIdent (eventArgOf sm.contextIdent mth.inputs) := by
    intro acc
    rw [foldlM_findTypes, p 6 model.superstates fun e => _, hmodel.stateMachine]
    refine hmodel.superstates.forall_iff hd fun mth hm st hst hP => ?_
    rw [hP.1.eventArg, hP.1.contextArg hne]
  have c8 : (∃ r, mapGenerics model.stateMachine.generics = .ok r) ↔
      ∀ n bounds, .type n bounds ∈ src.generics.params → ∀ t bounds', .type t bounds' ∈ src.generics.preds →
        ∃ m args, t = .path m args := by
    rw [mapGenerics_isOk, hmodel.stateMachine, hg]
  have key : ∀ {X Y : Type} (g : X → Res Y) (e : Ident × X) (r : Ident × Y),
      (do let s ← g e.2; Except.ok (e.1, s)) = Except.ok r → r.1 = e.1 := by
    intro X Y g e r he
    obtain ⟨_, _, he⟩ := Res.bind_ok he
    cases he
    rfl
  -- The links, given lowered superstates and actions.
  have c3 : ∀ states sups actions,
      ((ord.perm 0 model.states).mapM fun e => do
        let s ← lowerState syn e.2
        Except.ok (e.1, s)) = Except.ok states →
      ((ord.perm 1 model.superstates).mapM fun e => do
        let s ← lowerSuperstate syn e.2
        Except.ok (e.1, s)) = Except.ok sups →
      ((ord.perm 2 model.actions).mapM fun e => do
        let a ← lowerAction e.2
        Except.ok (e.1, a)) = Except.ok actions →
      ((∃ r, (ord.perm 3 states).mapM (linkState model sups actions) = .ok r) ↔
        ∀ mth ∈ src.methods, mth.Has "state" → LinksOk src "state" mth) := by
    intro states sups actions h0 h1 h2
    rw [mapM_isOk, p 3 states fun e => _]
    have hs := mapM_get (ord.perm_perm 1 _) h1 (key _) hmodel.superstates.keys
    have ha := mapM_get (ord.perm_perm 2 _) h2 (key _) hmodel.actions.keys
    simp only [linkState_isOk, hs, ha, hmodel.superstates.get_iff, hmodel.actions.get_iff]
    have hks := mapM_keys h0 (key _)
    refine Iff.trans ?_ (hmodel.states.forall_iff hd (R := LinksOk src "state")
      (Q := fun e => (∀ i, (HMap.get model.states e.1).bind (·.superstate) = some i →
          ∃ mth ∈ src.methods, mth.name = i ∧ mth.Has "superstate") ∧
        (∀ i, (HMap.get model.states e.1).bind (·.entryAction) = some i →
          ∃ mth ∈ src.methods, mth.name = i ∧ mth.Has "action") ∧
        (∀ i, (HMap.get model.states e.1).bind (·.exitAction) = some i →
          ∃ mth ∈ src.methods, mth.name = i ∧ mth.Has "action")) fun mth hm st hst hP => ?_)
    · have hmem : ∀ n, n ∈ states.map (·.1) ↔ n ∈ model.states.map (·.1) := by
        intro n
        rw [hks, ((ord.perm_perm 0 _).map _).mem_iff]
      constructor
      · rintro h ⟨n, st⟩ he
        obtain ⟨⟨n', ls⟩, he', hn⟩ := List.mem_map.1 ((hmem n).2 (List.mem_map.2 ⟨_, he, rfl⟩))
        cases hn
        exact h _ he'
      · rintro h ⟨n, st⟩ he
        obtain ⟨⟨n', ls⟩, he', hn⟩ := List.mem_map.1 ((hmem n).1 (List.mem_map.2 ⟨_, he, rfl⟩))
        cases hn
        exact h _ he'
    · have := (HMap.get_iff hmodel.states.keys mth.name st).2 hst
      simp only [this, Option.bind_some, hP.info.superstate, hP.info.entryAction, hP.info.exitAction]
      rfl
  have c4 : ∀ sups actions,
      ((ord.perm 1 model.superstates).mapM fun e => do
        let s ← lowerSuperstate syn e.2
        Except.ok (e.1, s)) = Except.ok sups →
      ((ord.perm 2 model.actions).mapM fun e => do
        let a ← lowerAction e.2
        Except.ok (e.1, a)) = Except.ok actions →
      ((∃ r, (ord.perm 4 sups).mapM (linkSuperstate model sups actions) = .ok r) ↔
        ∀ mth ∈ src.methods, mth.Has "superstate" → LinksOk src "superstate" mth) := by
    intro sups actions h1 h2
    rw [mapM_isOk, p 4 sups fun e => _]
    have hs := mapM_get (ord.perm_perm 1 _) h1 (key _) hmodel.superstates.keys
    have ha := mapM_get (ord.perm_perm 2 _) h2 (key _) hmodel.actions.keys
    simp only [linkSuperstate_isOk, hs, ha, hmodel.superstates.get_iff, hmodel.actions.get_iff]
    have hks := mapM_keys h1 (key _)
    refine Iff.trans ?_ (hmodel.superstates.forall_iff hd (R := LinksOk src "superstate")
      (Q := fun e => (∀ i, (HMap.get model.superstates e.1).bind (·.superstate) = some i →
          ∃ mth ∈ src.methods, mth.name = i ∧ mth.Has "superstate") ∧
        (∀ i, (HMap.get model.superstates e.1).bind (·.entryAction) = some i →
          ∃ mth ∈ src.methods, mth.name = i ∧ mth.Has "action") ∧
        (∀ i, (HMap.get model.superstates e.1).bind (·.exitAction) = some i →
          ∃ mth ∈ src.methods, mth.name = i ∧ mth.Has "action")) fun mth hm st hst hP => ?_)
    · have hmem : ∀ n, n ∈ sups.map (·.1) ↔ n ∈ model.superstates.map (·.1) := by
        intro n
        rw [hks, ((ord.perm_perm 1 _).map _).mem_iff]
      constructor
      · rintro h ⟨n, st⟩ he
        obtain ⟨⟨n', ls⟩, he', hn⟩ := List.mem_map.1 ((hmem n).2 (List.mem_map.2 ⟨_, he, rfl⟩))
        cases hn
        exact h _ he'
      · rintro h ⟨n, st⟩ he
        obtain ⟨⟨n', ls⟩, he', hn⟩ := List.mem_map.1 ((hmem n).1 (List.mem_map.2 ⟨_, he, rfl⟩))
        cases hn
        exact h _ he'
    · have := (HMap.get_iff hmodel.superstates.keys mth.name st).2 hst
      simp only [this, Option.bind_some, hP.1.superstate, hP.1.entryAction, hP.1.exitAction]
      rfl
  unfold lower
  constructor
  · rintro ⟨ir, h⟩
    obtain ⟨states, hstates, h⟩ := Res.bind_ok h
    obtain ⟨sups, hsups, h⟩ := Res.bind_ok h
    obtain ⟨actions, hactions, h⟩ := Res.bind_ok h
    obtain ⟨states', hstates', h⟩ := Res.bind_ok h
    obtain ⟨sups', hsups', h⟩ := Res.bind_ok h
    obtain ⟨found, hf, h⟩ := Res.bind_ok h
    obtain ⟨found', hf', h⟩ := Res.bind_ok h
    obtain ⟨gen, hgen, h⟩ := Res.bind_ok h
    have d0 := c0.1 ⟨_, hstates⟩
    have d1 := c1.1 ⟨_, hsups⟩
    have d5 := (c5 _).1 ⟨_, hf⟩
    have d6 := (c6 _).1 ⟨_, hf'⟩
    refine ⟨fun mth hm hk => ?_, fun mth hm hk => ?_, c2.1 ⟨_, hactions⟩, ?_, c8.1 ⟨_, hgen⟩⟩
    · rcases hk with hk | hk
      · obtain ⟨_, h1, h2⟩ := d0 mth hm hk
        exact ⟨h1, h2, d5 mth hm hk⟩
      · obtain ⟨_, h1, h2⟩ := d1 mth hm hk
        exact ⟨h1, h2, d6 mth hm hk⟩
    · rcases hk with hk | hk
      · exact (d0 mth hm hk).1
      · exact (d1 mth hm hk).1
    · rintro mth hm kind (rfl | rfl) hk
      · exact (c3 _ _ _ hstates hsups hactions).1 ⟨_, hstates'⟩ mth hm hk
      · exact (c4 _ _ hsups hactions).1 ⟨_, hsups'⟩ mth hm hk
  · rintro ⟨h1, h2, h3, h4, h5⟩
    obtain ⟨states, hstates⟩ := c0.2 fun mth hm hk =>
      ⟨h2 mth hm (.inl hk), (h1 mth hm (.inl hk)).1, (h1 mth hm (.inl hk)).2.1⟩
    obtain ⟨sups, hsups⟩ := c1.2 fun mth hm hk =>
      ⟨h2 mth hm (.inr hk), (h1 mth hm (.inr hk)).1, (h1 mth hm (.inr hk)).2.1⟩
    obtain ⟨actions, hactions⟩ := c2.2 h3
    obtain ⟨states', hstates'⟩ := (c3 _ _ _ hstates hsups hactions).2 fun mth hm hk => h4 mth hm _ (.inl rfl) hk
    obtain ⟨sups', hsups'⟩ := (c4 _ _ hsups hactions).2 fun mth hm hk => h4 mth hm _ (.inr rfl) hk
    obtain ⟨found, hf⟩ := (c5 {}).2 fun mth hm hk => (h1 mth hm (.inl hk)).2.2
    obtain ⟨found', hf'⟩ := (c6 found).2 fun mth hm hk => (h1 mth hm (.inr hk)).2.2
    obtain ⟨gen, hgen⟩ := c8.2 h5
    exact ⟨_, Res.bind_of hstates (Res.bind_of hsups (Res.bind_of hactions (Res.bind_of hstates'
      (Res.bind_of hsups' (Res.bind_of hf (Res.bind_of hf' (Res.bind_of hgen rfl)))))))⟩

/-! ## Together -/

/-- With distinct names of parameters, the event (or context) is checked to be a reference. -/
theorem refArg_iff {ident : Ident} {l : List FnArg} (h : (l.filterMap argName).Nodup) :
    RefArg ident (eventArgOf ident l) ↔ ∀ attrs ty, .typed attrs (.ident ident) ty ∈ l → IsRef ty := by
  induction l using List.reverseRecOn with
  | nil => simp [eventArgOf, RefArg]
  | append_singleton l a ih =>
    rw [List.filterMap_append, List.nodup_append] at h
    obtain ⟨h1, _, h3⟩ := h
    rw [eventArgOf_append]
    simp only [List.mem_append, List.mem_singleton]
    have hnot : ∀ attrs pat ty, a = .typed attrs (.ident pat) ty →
        ∀ attrs' ty', .typed attrs' (.ident pat) ty' ∉ l := by
      rintro attrs pat ty rfl attrs' ty' hm
      exact h3 pat (List.mem_filterMap.2 ⟨_, hm, rfl⟩) pat (by simp [argName]) rfl
    have other : (∀ attrs ty, a ≠ .typed attrs (.ident ident) ty) →
        (RefArg ident (eventArgOf ident l) ↔
          ∀ attrs ty, (.typed attrs (.ident ident) ty ∈ l ∨ .typed attrs (.ident ident) ty = a) → IsRef ty) := by
      intro hne
      rw [ih h1]
      refine forall₂_congr fun attrs ty => ?_
      have : ¬ (FnArg.typed attrs (.ident ident) ty = a) := fun e => hne _ _ e.symm
      simp only [this, or_false]
    cases a with
    | receiver => exact other (by simp)
    | typed attrs pat ty =>
      cases pat with
      | reference => exact other (by simp)
      | unsupported => exact other (by simp)
      | ident i =>
        by_cases hi : ident = i
        · subst hi
          simp only [↓reduceIte]
          have hn := hnot attrs ident ty rfl
          constructor
          · rintro h _ _ (hm | hm)
            · exact absurd hm (hn _ _)
            · cases hm
              cases ty with
              | ref l m t => exact ⟨l, m, t, rfl⟩
              | path => exact absurd rfl h
              | compound => exact absurd rfl h
          · intro h
            obtain ⟨_, _, _, rfl⟩ := h attrs ty (.inr rfl)
            trivial
        · simp only [hi, ↓reduceIte]
          refine other ?_
          rintro _ _ h
          cases h
          exact hi rfl

theorem metas_has {mth : Method} {kind : Ident} {m : Meta} (h : m ∈ mth.metas kind) : mth.Has kind := by
  obtain ⟨a, ha, h⟩ := List.mem_flatMap.1 h
  split at h
  · exact ⟨a, ha, ‹_›⟩
  · cases h

theorem link_has {mth : Method} {kind key p : Ident} (h : mth.link kind key = some p) : mth.Has kind := by
  have := List.mem_of_getLast? h
  obtain ⟨m, hm, _⟩ := List.mem_filterMap.1 this
  exact metas_has hm

/-- The parameters of a handler are as they should be. -/
theorem args_iff {src : Source} {sm : StateMachine} (he : sm.eventIdent = src.eventIdent)
    (hc : sm.contextIdent = src.contextIdent) {mth : Method} (hn : (mth.inputs.filterMap argName).Nodup)
    {kind : Ident} (hk : kind = "state" ∨ kind = "superstate") :
    (∀ a ∈ mth.inputs, src.ArgValid kind a) ↔
      ((kind = "state" → ∀ a ∈ mth.inputs, StateInputOk sm a) ∧
        (kind = "superstate" → ∀ a ∈ mth.inputs, SuperstateInputOk a)) ∧ ArgsOk sm mth := by
  have hdef : ∀ attrs : List ArgAttr, attrs.find? ArgAttr.isDefault = attrs.find? defaultAttr := by
    intro attrs
    congr 1
  constructor
  · intro h
    refine ⟨⟨?_, ?_⟩, ?_, ?_, ?_, ?_⟩
    · rintro rfl a ha
      have := h a ha
      cases a with
      | receiver => trivial
      | typed attrs pat ty =>
        obtain ⟨i, l, m, t, rfl, rfl, hd⟩ := this
        refine ⟨by simp, fun j hj h1 h2 b hb => ?_⟩
        cases hj
        exact hd rfl (by rw [← he]; exact Ne.symm h1) (by rw [← hc]; exact Ne.symm h2) b (hdef _ ▸ hb)
    · rintro rfl a ha
      have := h a ha
      cases a with
      | receiver => trivial
      | typed attrs pat ty =>
        obtain ⟨i, l, m, t, rfl, rfl, hd⟩ := this
        simp [SuperstateInputOk]
    · intro p hp
      obtain ⟨a, ha, hp⟩ := List.mem_filterMap.1 hp
      have := h a ha
      cases a with
      | receiver => cases hp
      | typed attrs pat ty =>
        obtain ⟨i, l, m, t, rfl, rfl, hd⟩ := this
        simp only [patOf] at hp
        split at hp
        · cases hp
        · cases hp
          exact ⟨⟨l, m, t, rfl⟩, i, rfl⟩
    · intro a ha
      have := h a ha
      cases a with
      | receiver => trivial
      | typed attrs pat ty =>
        obtain ⟨i, l, m, t, rfl, rfl, hd⟩ := this
        exact ⟨i, rfl⟩
    · rw [refArg_iff hn]
      intro attrs ty ha
      obtain ⟨i, l, m, t, _, rfl, _⟩ := h _ ha
      exact ⟨l, m, t, rfl⟩
    · rw [refArg_iff hn]
      intro attrs ty ha
      obtain ⟨i, l, m, t, _, rfl, _⟩ := h _ ha
      exact ⟨l, m, t, rfl⟩
  · rintro ⟨⟨h1, h2⟩, h3, h4, h5, h6⟩ a ha
    cases a with
    | receiver => trivial
    | typed attrs pat ty =>
      obtain ⟨i, rfl⟩ := h4 _ ha
      rw [refArg_iff hn] at h5 h6
      have href : IsRef ty := by
        by_cases hi : sm.eventIdent = i
        · exact h5 attrs ty (hi ▸ ha)
        by_cases hi' : sm.contextIdent = i
        · exact h6 attrs ty (hi' ▸ ha)
        exact (h3 ⟨.ident i, ty⟩ (List.mem_filterMap.2 ⟨_, ha, by simp [patOf, hi, hi']⟩)).1
      obtain ⟨l, m, t, rfl⟩ := href
      refine ⟨i, l, m, t, rfl, rfl, fun hk' i1 i2 b hb => ?_⟩
      exact (h1 hk' _ ha).2 i rfl (by rw [he]; exact Ne.symm i1) (by rw [hc]; exact Ne.symm i2) b (hdef _ ▸ hb)

theorem expand_isOk {syn : Syn} {ord : Order} {src : Source} (hd : src.Distinct)
    (h1 : ∀ mth ∈ src.methods, mth.countAttr "state" ≤ 1)
    (hn : ∀ mth ∈ src.methods, (mth.inputs.filterMap argName).Nodup)
    (hne : src.eventIdent ≠ src.contextIdent) :
    (∃ g, expand syn ord src = .ok g) ↔ src.WellFormed syn := by
  have h1' : ∀ mth ∈ src.methods, countAttr "state" (mth.attrs.map (·.path)) ≤ 1 := by
    intro mth hm
    have := h1 mth hm
    unfold Method.countAttr at this
    unfold countAttr
    rw [List.count_eq_countP, List.countP_map, List.countP_eq_length_filter]
    exact this
  have memPath : ∀ {mth : Method} {kind : Ident}, kind ∈ mth.attrs.map (·.path) ↔ mth.Has kind := by
    intro mth kind
    simp [Method.Has]
  have big : (∃ g, expand syn ord src = .ok g) ↔
      ∃ sm, analyzeStateMachine syn src.selfTy src.generics src.args = .ok sm ∧
        (∀ mth ∈ src.methods, ∀ path ∈ mth.attrs.map (·.path), AttrOk syn sm mth path) ∧ LowerOk syn src sm := by
    unfold expand
    constructor
    · rintro ⟨g, h⟩
      obtain ⟨model, hmodel, h⟩ := Res.bind_ok h
      obtain ⟨ir, hir, h⟩ := Res.bind_ok h
      have hmodel' := hmodel
      unfold analyze at hmodel'
      obtain ⟨sm, hs, _⟩ := Res.bind_ok hmodel'
      have hi := machineInfo hs
      obtain ⟨sm', hi', hinfo⟩ := modelInfo hmodel
      have hsm : sm = sm' := by
        have hmodel2 := hmodel
        unfold analyze at hmodel2
        obtain ⟨sm2, hs2, h2⟩ := Res.bind_ok hmodel2
        rw [hs] at hs2
        cases hs2
        rw [← hinfo.stateMachine]
        symm
        refine foldlM_inv' (fun _ (m : Model) => m.stateMachine = sm) h2 rfl (fun pre a b b' hb hstep => ?_)
        unfold analyzeMethod at hstep
        obtain ⟨_, _, hstep⟩ := Res.bind_ok hstep
        cases hstep
        exact hb
      subst hsm
      exact ⟨sm, hs, (analyze_isOk hs h1').1 ⟨_, hmodel⟩,
        (lower_isOk hd hi.generics (by rw [hi.eventIdent, hi.contextIdent]; exact hne) hinfo).1 ⟨_, hir⟩⟩
    · rintro ⟨sm, hs, ha, hl⟩
      obtain ⟨model, hmodel⟩ := (analyze_isOk hs h1').2 ha
      have hi := machineInfo hs
      obtain ⟨sm', hi', hinfo⟩ := modelInfo hmodel
      have hsm : sm = sm' := by
        have hmodel2 := hmodel
        unfold analyze at hmodel2
        obtain ⟨sm2, hs2, h2⟩ := Res.bind_ok hmodel2
        rw [hs] at hs2
        cases hs2
        rw [← hinfo.stateMachine]
        symm
        refine foldlM_inv' (fun _ (m : Model) => m.stateMachine = sm) h2 rfl (fun pre a b b' hb hstep => ?_)
        unfold analyzeMethod at hstep
        obtain ⟨_, _, hstep⟩ := Res.bind_ok hstep
        cases hstep
        exact hb
      subst hsm
      obtain ⟨ir, hir⟩ :=
        (lower_isOk (ord := ord) hd hi.generics (by rw [hi.eventIdent, hi.contextIdent]; exact hne) hinfo).2 hl
      exact ⟨_, Res.bind_of hmodel (Res.bind_of hir rfl)⟩
  rw [big]
  constructor
  · rintro ⟨sm, hs, ha, hl⟩
    have hi := machineInfo hs
    obtain ⟨w0, w1, w2, w3⟩ := analyzeStateMachine_isOk.1 ⟨sm, hs⟩
    have hattr : ∀ mth ∈ src.methods, ∀ kind, mth.Has kind → AttrOk syn sm mth kind :=
      fun mth hm kind hk => ha mth hm kind (memPath.2 hk)
    refine ⟨w0, w1, w2, w3, ?_, ?_, ?_, ?_, hl.names, ?_, ?_, hl.generics⟩
    · rintro mth hm (hk | hk | hk)
      · exact (hattr mth hm _ hk).1 (.inl rfl)
      · exact (hattr mth hm _ hk).1 (.inr (.inl rfl))
      · exact (hattr mth hm _ hk).1 (.inr (.inr rfl))
    · rintro mth hm kind hk m hmm
      exact (hattr mth hm _ (metas_has hmm)).2.2.2 hk m hmm
    · intro mth hm kind hk hh
      have := hattr mth hm kind hh
      refine (args_iff hi.eventIdent hi.contextIdent (hn mth hm) hk).2 ⟨⟨this.2.1, this.2.2.1⟩, hl.args mth hm ?_⟩
      rcases hk with rfl | rfl
      · exact .inl hh
      · exact .inr hh
    · intro mth hm hk attrs pat ty hmem
      exact hl.actionArgs mth hm hk _ hmem
    · intro mth hm kind hk p hp
      exact (hl.links mth hm kind hk (link_has hp)).1 p hp
    · rintro mth hm kind hk key (rfl | rfl) a hp
      · exact (hl.links mth hm kind hk (link_has hp)).2.1 a hp
      · exact (hl.links mth hm kind hk (link_has hp)).2.2 a hp
  · intro w
    obtain ⟨sm, hs⟩ := analyzeStateMachine_isOk.2 ⟨w.selfTy, w.settings, w.initial, w.enums⟩
    have hi := machineInfo hs
    refine ⟨sm, hs, ?_, ?_⟩
    · intro mth hm path hp
      rw [memPath] at hp
      refine ⟨?_, ?_, ?_, fun hk => w.metas mth hm path hk⟩
      · rintro (rfl | rfl | rfl)
        · exact w.generic mth hm (.inl hp)
        · exact w.generic mth hm (.inr (.inl hp))
        · exact w.generic mth hm (.inr (.inr hp))
      · intro hk
        exact ((args_iff hi.eventIdent hi.contextIdent (hn mth hm) (.inl hk)).1 (w.args mth hm path (.inl hk) hp)).1.1 hk
      · intro hk
        exact ((args_iff hi.eventIdent hi.contextIdent (hn mth hm) (.inr hk)).1 (w.args mth hm path (.inr hk) hp)).1.2 hk
    · refine ⟨?_, w.names, ?_, ?_, w.predicates⟩
      · rintro mth hm (hk | hk)
        · exact ((args_iff hi.eventIdent hi.contextIdent (hn mth hm) (.inl rfl)).1 (w.args mth hm _ (.inl rfl) hk)).2
        · exact ((args_iff hi.eventIdent hi.contextIdent (hn mth hm) (.inr rfl)).1 (w.args mth hm _ (.inr rfl) hk)).2
      · intro mth hm hk a ha
        cases a with
        | receiver => trivial
        | typed attrs pat ty => exact w.actionArgs mth hm hk attrs pat ty ha
      · intro mth hm kind hk _
        exact ⟨w.superstates mth hm kind hk, w.actions mth hm kind hk _ (.inl rfl), w.actions mth hm kind hk _ (.inr rfl)⟩

end Statig.Macro
