import Verif.Proofs.Macro.Accept
import Verif.Spec.MacroErrors
/-!
# C83: every error message names a fault of the declaration
-/
namespace Statig.Macro

/-! ## Loops that fail -/

theorem Res.bind_error {ε α β : Type} {x : Except ε α} {f : α → Except ε β} {e : ε} (h : (x >>= f) = .error e) :
    x = .error e ∨ ∃ a, x = .ok a ∧ f a = .error e := by
  cases x with
  | error e' =>
    cases h
    exact .inl rfl
  | ok a => exact .inr ⟨a, rfl, h⟩

theorem foldlM_error {ε α β : Type} {f : β → α → Except ε β} {e : ε} :
    ∀ {l : List α} {b : β}, l.foldlM f b = .error e →
      ∃ pre a post b', l = pre ++ a :: post ∧ pre.foldlM f b = .ok b' ∧ f b' a = .error e
  | [], b, h => by cases h
  | a :: l, b, h => by
    rw [List.foldlM_cons] at h
    rcases Res.bind_error h with h | ⟨b', hb, h⟩
    · exact ⟨[], a, l, b, rfl, rfl, h⟩
    · obtain ⟨pre, a', post, b'', rfl, hp, h⟩ := foldlM_error h
      refine ⟨a :: pre, a', post, b'', rfl, ?_, h⟩
      rw [List.foldlM_cons, hb]
      exact hp

theorem foldlM_error_mem {ε α β : Type} {f : β → α → Except ε β} {e : ε} {l : List α} {b : β}
    (h : l.foldlM f b = .error e) : ∃ a ∈ l, ∃ b', f b' a = .error e := by
  obtain ⟨pre, a, post, b', rfl, _, h⟩ := foldlM_error h
  exact ⟨a, by simp, b', h⟩

theorem mapM_error {ε α β : Type} {f : α → Except ε β} {e : ε} :
    ∀ {l : List α}, l.mapM f = .error e → ∃ a ∈ l, f a = .error e
  | [], h => by cases h
  | a :: l, h => by
    rw [List.mapM_cons] at h
    rcases Res.bind_error h with h | ⟨b, _, h⟩
    · exact ⟨a, by simp, h⟩
    · rcases Res.bind_error h with h | ⟨bs, _, h⟩
      · obtain ⟨a', ha, h⟩ := mapM_error h
        exact ⟨a', by simp [ha], h⟩
      · cases h

/-! ## Settings -/

variable {syn : Syn} {ord : Order} {src : Source} {msg : String}

theorem requireSetting_error {ok : String → Bool} {m : String} {v : SettingValue}
    (h : requireSetting ok m v = .error msg) :
    (∃ s, v = .lit s ∧ ok s = false ∧ msg = m) ∨ (v = .notString ∧ msg = "expected string literal") ∨
      ((∀ s, v ≠ .lit s) ∧ v ≠ .notString ∧ msg = "expected name-value pair") := by
  cases v with
  | lit s =>
    by_cases hs : ok s
    · simp [requireSetting, hs] at h
    · simp only [requireSetting, hs, Bool.false_eq_true, ↓reduceIte, Except.error.injEq] at h
      exact .inl ⟨s, rfl, by simpa using hs, h.symm⟩
  | notString =>
    cases h
    exact .inr (.inl ⟨rfl, rfl⟩)
  | list l =>
    cases h
    exact .inr (.inr ⟨by simp, by simp, rfl⟩)
  | other =>
    cases h
    exact .inr (.inr ⟨by simp, by simp, rfl⟩)

theorem requireLit_error {ok : String → Bool} {m : String} {v : MetaValue} (h : requireLit ok m v = .error msg) :
    (∃ s, v = .lit s ∧ ok s = false ∧ msg = m) ∨ (v = .notString ∧ msg = "expected string literal") ∨
      ((∀ s, v ≠ .lit s) ∧ v ≠ .notString ∧ msg = "expected name-value pair") := by
  cases v with
  | lit s =>
    by_cases hs : ok s
    · simp [requireLit, hs] at h
    · simp only [requireLit, hs, Bool.false_eq_true, ↓reduceIte, Except.error.injEq] at h
      exact .inl ⟨s, rfl, by simpa using hs, h.symm⟩
  | notString =>
    cases h
    exact .inr (.inl ⟨rfl, rfl⟩)
  | fields l =>
    cases h
    exact .inr (.inr ⟨by simp, by simp, rfl⟩)
  | other =>
    cases h
    exact .inr (.inr ⟨by simp, by simp, rfl⟩)

theorem litSetting_error {key : Ident} {ok : String → Bool} {m : String} (hl : LitSetting syn key ok m) {a : Setting}
    (ha : a ∈ src.args) (hk : a.key = key) {f : String → Res Settings} (hf : ∀ s, ∃ r, f s = .ok r)
    (h : (requireSetting ok m a.value >>= f) = .error msg) : src.Fault syn msg := by
  have hs : src.Sets key a.value := ⟨a, ha, hk, rfl⟩
  rcases Res.bind_error h with h | ⟨s, _, h⟩
  · rcases requireSetting_error h with ⟨s, hv, hok, rfl⟩ | ⟨hv, rfl⟩ | ⟨h1, h2, rfl⟩
    · exact .setting hl (hv ▸ hs) hok
    · exact .settingNotString hl (hv ▸ hs)
    · exact .settingNoValue hl hs h1 h2
  · obtain ⟨r, hr⟩ := hf s
    rw [hr] at h
    cases h

theorem analyzeSetting_error {s : Settings} {a : Setting} (ha : a ∈ src.args)
    (h : analyzeSetting syn s a = .error msg) : src.Fault syn msg := by
  unfold analyzeSetting at h
  by_cases h0 : a.key = "initial"
  · rw [if_pos h0] at h
    exact litSetting_error .initial ha h0 (fun _ => ⟨_, rfl⟩) h
  rw [if_neg h0] at h
  by_cases h1 : a.key = "event_identifier"
  · rw [if_pos h1] at h
    exact litSetting_error .event ha h1 (fun _ => ⟨_, rfl⟩) h
  rw [if_neg h1] at h
  by_cases h2 : a.key = "context_identifier"
  · rw [if_pos h2] at h
    exact litSetting_error .context ha h2 (fun _ => ⟨_, rfl⟩) h
  rw [if_neg h2] at h
  by_cases h3 : a.key = "before_transition"
  · rw [if_pos h3] at h
    exact litSetting_error .beforeTransition ha h3 (fun _ => ⟨_, rfl⟩) h
  rw [if_neg h3] at h
  by_cases h4 : a.key = "after_transition"
  · rw [if_pos h4] at h
    exact litSetting_error .afterTransition ha h4 (fun _ => ⟨_, rfl⟩) h
  rw [if_neg h4] at h
  by_cases h5 : a.key = "before_dispatch"
  · rw [if_pos h5] at h
    exact litSetting_error .beforeDispatch ha h5 (fun _ => ⟨_, rfl⟩) h
  rw [if_neg h5] at h
  by_cases h6 : a.key = "after_dispatch"
  · rw [if_pos h6] at h
    exact litSetting_error .afterDispatch ha h6 (fun _ => ⟨_, rfl⟩) h
  rw [if_neg h6] at h
  by_cases h7 : a.key = "visibility"
  · rw [if_pos h7] at h
    exact litSetting_error .visibility ha h7 (fun _ => ⟨_, rfl⟩) h
  rw [if_neg h7] at h
  by_cases h8 : a.key = "state"
  · rw [if_pos h8] at h
    have hs : src.Sets "state" a.value := ⟨a, ha, h8, rfl⟩
    cases hv : a.value with
    | list l =>
      rw [hv] at h
      cases h
    | lit | notString | other =>
      rw [hv] at h hs
      cases h
      exact .stateNoList hs (by simp)
  rw [if_neg h8] at h
  by_cases h9 : a.key = "superstate"
  · rw [if_pos h9] at h
    have hs : src.Sets "superstate" a.value := ⟨a, ha, h9, rfl⟩
    cases hv : a.value with
    | list l =>
      rw [hv] at h
      cases h
    | lit | notString | other =>
      rw [hv] at h hs
      cases h
      exact .superstateNoList hs (by simp)
  rw [if_neg h9] at h
  cases h
  exact .unknownSetting ⟨a, ha, rfl, rfl⟩ (by simp [knownSettings, h0, h1, h2, h3, h4, h5, h6, h7, h8, h9])

/-- The last `key(..)` is the last setting with that key. -/
theorem listOf_lists {args : List Setting} (h : ∀ a ∈ args, a.Valid syn) {key : Ident}
    (hk : key = "state" ∨ key = "superstate") :
    listOf args key = some [] ∨
      ((args.filter fun a => a.key = key).getLast?).map (·.value) = some (.list (listOf args key)) := by
  induction args using List.reverseRecOn with
  | nil => exact .inl rfl
  | append_singleton args a ih =>
    rw [listOf_append, List.filter_append]
    by_cases ha : a.key = key
    · have hv : ∃ l, a.value = .list l := by
        have := h a (by simp)
        unfold Setting.Valid at this
        rw [ha] at this
        rcases hk with rfl | rfl <;> simpa using this
      obtain ⟨l, hv⟩ := hv
      simp [ha, hv]
    · simp only [ha, ↓reduceIte, decide_false, Bool.false_eq_true, not_false_eq_true, List.filter_cons_of_neg,
        List.filter_nil, List.append_nil]
      exact ih fun a ha => h a (by simp [ha])

theorem analyzeStateMachine_error (h : analyzeStateMachine syn src.selfTy src.generics src.args = .error msg) :
    src.Fault syn msg := by
  unfold analyzeStateMachine at h
  rcases Res.bind_error h with h | ⟨path, _, h⟩
  · cases hs : src.selfTy with
    | path n args =>
      rw [hs] at h
      cases h
    | ref | compound =>
      rw [hs] at h
      cases h
      exact .selfTy (by simp [hs])
  rcases Res.bind_error h with h | ⟨s, hs, h⟩
  · obtain ⟨a, ha, s', h⟩ := foldlM_error_mem h
    exact analyzeSetting_error ha h
  have hi : SettingsInfo src.args s := foldlM_inv' SettingsInfo hs
    (by constructor <;> rfl) (fun pre a b b' h e => settingsInfo_step h e)
  have hv : ∀ a ∈ src.args, a.Valid syn := (foldlM_isOk (f := analyzeSetting syn) fun b a => analyzeSetting_isOk).1 ⟨_, hs⟩
  split at h
  · rename_i hn
    cases h
    refine .noInitial ?_
    rintro v ⟨a, ha, hk, -⟩
    have := (settingOf_isSome hv).2 ⟨a, ha, hk⟩
    rw [← hi.initial, hn] at this
    simp at this
  · split at h
    · rename_i hl
      cases h
      rw [hi.stateMeta] at hl
      rcases listOf_lists hv (key := "state") (.inl rfl) with h | h
      · rw [hl] at h
        cases h
      · rw [hl] at h
        exact .stateList h
    · rename_i l hl
      rw [hi.stateMeta] at hl
      have item : ∀ m ∈ l, src.Item "state" m := fun m hm => by
        rcases listOf_lists hv (key := "state") (.inl rfl) with h | h
        · rw [hl] at h
          cases h
          cases hm
        · rw [hl] at h
          exact ⟨l, h, hm⟩
      rcases Res.bind_error h with h | ⟨r, _, h⟩
      · obtain ⟨m, hm, b, h⟩ := foldlM_error_mem h
        have hm := item m hm
        cases m with
        | name v =>
          rcases Res.bind_error h with h | ⟨r, _, h⟩
          · rcases requireLit_error h with ⟨s, rfl, hok, rfl⟩ | ⟨rfl, rfl⟩ | ⟨h1, h2, rfl⟩
            · exact .stateName hm hok
            · exact .enumNameNotString (.inl rfl) hm
            · exact .enumNameNoValue (.inl rfl) hm h1 h2
          · cases h
        | derive p =>
          cases p with
          | some p => cases h
          | none =>
            cases h
            exact .derive (.inl rfl) hm
        | unknown =>
          cases h
          exact .unknownState hm
      · simp only at h
        split at h
        · rename_i hl
          cases h
          rw [hi.superstateMeta] at hl
          rcases listOf_lists hv (key := "superstate") (.inr rfl) with h | h
          · rw [hl] at h
            cases h
          · rw [hl] at h
            exact .superstateList h
        · rename_i l hl
          rw [hi.superstateMeta] at hl
          have item : ∀ m ∈ l, src.Item "superstate" m := fun m hm => by
            rcases listOf_lists hv (key := "superstate") (.inr rfl) with h | h
            · rw [hl] at h
              cases h
              cases hm
            · rw [hl] at h
              exact ⟨l, h, hm⟩
          rcases Res.bind_error h with h | ⟨r, _, h⟩
          · obtain ⟨m, hm, b, h⟩ := foldlM_error_mem h
            have hm := item m hm
            cases m with
            | name v =>
              rcases Res.bind_error h with h | ⟨r, _, h⟩
              · rcases requireLit_error h with ⟨s, rfl, hok, rfl⟩ | ⟨rfl, rfl⟩ | ⟨h1, h2, rfl⟩
                · exact .superstateName hm hok
                · exact .enumNameNotString (.inr rfl) hm
                · exact .enumNameNoValue (.inr rfl) hm h1 h2
              · cases h
            | derive p =>
              cases p with
              | some p => cases h
              | none =>
                cases h
                exact .derive (.inr rfl) hm
            | unknown =>
              cases h
              exact .unknownSuperstate hm
          · cases h

/-! ## Methods -/

theorem phrase_eq (k : PatKind) : k.msg = k.phrase := by cases k <;> rfl

theorem analyzeStateInput_error {sm : StateMachine} (he : sm.eventIdent = src.eventIdent)
    (hc : sm.contextIdent = src.contextIdent) {mth : Method} (hm : mth ∈ src.methods) (hk : mth.Has "state")
    {a : FnArg} (ha : a ∈ mth.inputs) {acc : Inputs} (h : analyzeStateInput sm acc a = .error msg) :
    src.Fault syn msg := by
  cases a with
  | receiver => cases h
  | typed attrs pat ty =>
    have ht : src.Takes "state" attrs pat ty := ⟨mth, hm, hk, ha⟩
    cases pat with
    | reference => cases h
    | unsupported k =>
      cases h
      rw [phrase_eq]
      exact .pattern (.inl rfl) ht
    | ident i =>
      simp only [analyzeStateInput] at h
      split at h
      · cases h
      rename_i h1
      split at h
      · cases h
      rename_i h2
      have hr : ¬ src.Reserved (.ident i) := by
        rw [he] at h1
        rw [hc] at h2
        rintro (e | e) <;> cases e
        · exact h1 rfl
        · exact h2 rfl
      split at h
      · rename_i attr hf
        have hf' : attrs.find? defaultAttr = some attr := by
          rw [← hf]
          congr 1
        rcases Res.bind_error h with h | ⟨_, _, h⟩
        · cases attr with
          | default => cases h
          | defaultValue e =>
            cases e with
            | some e => cases h
            | none =>
              cases h
              exact .default ht hr hf'
          | defaultNotString =>
            cases h
            exact .defaultNotString ht hr hf'
          | defaultMalformed =>
            cases h
            exact .defaultFormat ht hr hf'
          | other t =>
            have := List.find?_some hf'
            cases this
        · cases h
      · cases h

theorem analyzeSuperstateInput_error {sm : StateMachine} {mth : Method} (hm : mth ∈ src.methods)
    (hk : mth.Has "superstate") {a : FnArg} (ha : ∀ attrs pat ty, a = .typed attrs pat ty →
      ∃ attrs, .typed attrs pat ty ∈ mth.inputs) {acc : Inputs} (h : analyzeSuperstateInput sm acc a = .error msg) :
    src.Fault syn msg := by
  cases a with
  | receiver => cases h
  | typed attrs pat ty =>
    obtain ⟨attrs, ha⟩ := ha _ _ _ rfl
    cases pat with
    | reference => cases h
    | unsupported k =>
      cases h
      rw [phrase_eq]
      exact .pattern (.inr rfl) ⟨mth, hm, hk, ha⟩
    | ident i =>
      simp only [analyzeSuperstateInput] at h
      split at h
      · cases h
      split at h <;> cases h

theorem nameMeta_error {kind key : Ident} {m' : String} (hk : handlerKind kind) (hn : NameMeta key m') {mth : Method}
    (hm : mth ∈ src.methods) {m : Meta} (hmm : m ∈ mth.metas kind) (e : m.key = key) {f : String → Res Links}
    (hf : ∀ s, ∃ r, f s = .ok r) (h : (requireLit syn.isIdent m' m.value >>= f) = .error msg) : src.Fault syn msg := by
  have hs : src.Says kind key m.value := ⟨mth, hm, m, hmm, e, rfl⟩
  rcases Res.bind_error h with h | ⟨s, _, h⟩
  · rcases requireLit_error h with ⟨s, hv, hok, rfl⟩ | ⟨hv, rfl⟩ | ⟨h1, h2, rfl⟩
    · exact .link hk hn (hv ▸ hs) hok
    · exact .linkNotString hk hn (hv ▸ hs)
    · exact .linkNoValue hk hn hs h1 h2
  · obtain ⟨r, hr⟩ := hf s
    rw [hr] at h
    cases h

theorem analyzeFields_error : ∀ {l : List (Option Field)}, analyzeFields l = .error msg →
    none ∈ l ∧ msg = "local storage entry must be a named field"
  | [], h => by cases h
  | some f :: l, h => by
    rcases Res.bind_error h with h | ⟨_, _, h⟩
    · obtain ⟨h1, h2⟩ := analyzeFields_error h
      exact ⟨by simp [h1], h2⟩
    · cases h
  | none :: l, h => by
    cases h
    exact ⟨by simp, rfl⟩

theorem analyzeMeta_error {kind : Ident} (hk : handlerKind kind) {mth : Method} (hm : mth ∈ src.methods) {m : Meta}
    (hmm : m ∈ mth.metas kind) {acc : Links} (h : analyzeMeta syn acc m = .error msg) : src.Fault syn msg := by
  unfold analyzeMeta at h
  by_cases h0 : m.key = "superstate"
  · rw [if_pos h0] at h
    exact nameMeta_error hk .superstate hm hmm h0 (fun _ => ⟨_, rfl⟩) h
  rw [if_neg h0] at h
  by_cases h1 : m.key = "entry_action"
  · rw [if_pos h1] at h
    exact nameMeta_error hk .entryAction hm hmm h1 (fun _ => ⟨_, rfl⟩) h
  rw [if_neg h1] at h
  by_cases h2 : m.key = "exit_action"
  · rw [if_pos h2] at h
    exact nameMeta_error hk .exitAction hm hmm h2 (fun _ => ⟨_, rfl⟩) h
  rw [if_neg h2] at h
  by_cases h3 : m.key = "local_storage"
  · rw [if_pos h3] at h
    have hs : src.Says kind "local_storage" m.value := ⟨mth, hm, m, hmm, h3, rfl⟩
    cases hv : m.value with
    | fields l =>
      rw [hv] at h hs
      rcases Res.bind_error h with h | ⟨_, _, h⟩
      · obtain ⟨h1, rfl⟩ := analyzeFields_error h
        exact .storageField hk hs h1
      · cases h
    | lit | notString | other =>
      rw [hv] at h hs
      cases h
      exact .storage hk hs (by simp)
  rw [if_neg h3] at h
  cases h

theorem mem_strips {sm : StateMachine} {pat : Pat} {ty : Ty} : ∀ (k : Nat) {mth : Method} {attrs : List ArgAttr},
    .typed attrs pat ty ∈ ((strip sm)^[k] mth).inputs → ∃ attrs, .typed attrs pat ty ∈ mth.inputs
  | 0, mth, attrs, h => ⟨attrs, h⟩
  | k + 1, mth, attrs, h => by
    obtain ⟨attrs, h⟩ := mem_strips k (mth := strip sm mth) h
    simp only [strip, List.mem_map] at h
    obtain ⟨a, ha, h⟩ := h
    cases a with
    | receiver => cases h
    | typed attrs' pat' ty' =>
      cases pat' with
      | ident i =>
        simp only [stripDefault] at h
        split at h <;> cases h <;> exact ⟨_, ha⟩
      | reference =>
        cases h
        exact ⟨_, ha⟩
      | unsupported k =>
        cases h
        exact ⟨_, ha⟩

theorem analyzeMethod_error {sm : StateMachine} (he : sm.eventIdent = src.eventIdent)
    (hc : sm.contextIdent = src.contextIdent) {mth : Method} (hm : mth ∈ src.methods)
    (h1 : mth.countAttr "state" ≤ 1) {acc : Model} (h : analyzeMethod syn sm acc mth = .error msg) :
    src.Fault syn msg := by
  unfold analyzeMethod at h
  rcases Res.bind_error h with h | ⟨_, _, h⟩
  swap
  · cases h
  obtain ⟨pre, path, post, b, hl, hb, h⟩ := foldlM_error h
  have hi := foldlM_inv' (MapsInfo syn sm mth acc) hb
    ⟨rfl, .inl ⟨by simp, rfl⟩, .inl ⟨by simp, rfl⟩, .inl ⟨by simp, rfl⟩⟩ (fun pre a b b' h e => mapsInfo_step h e)
  have has : mth.Has path := mem_paths.1 (by rw [hl]; simp)
  unfold analyzeAttr at h
  by_cases e0 : path = "state"
  · subst e0
    rw [if_pos rfl] at h
    have hz : countAttr "state" pre = 0 := by
      have e : mth.countAttr "state" = (mth.attrs.map (·.path)).count "state" := by
        unfold Method.countAttr
        rw [List.count, List.countP_map, List.countP_eq_length_filter]
        rfl
      rw [e, hl] at h1
      simp only [List.count_append, List.count_cons_self] at h1
      simp only [countAttr]
      omega
    have hmth : b.method = mth := by rw [hi.method, hz]; rfl
    rw [hmth] at h
    rcases Res.bind_error h with h | ⟨_, _, h⟩
    swap
    · cases h
    unfold analyzeState at h
    split at h
    · rename_i hg
      cases h
      exact .stateGenerics hm has hg
    · rcases Res.bind_error h with h | ⟨_, _, h⟩
      · obtain ⟨a, ha, _, h⟩ := foldlM_error_mem h
        exact analyzeStateInput_error he hc hm has ha h
      · rcases Res.bind_error h with h | ⟨_, _, h⟩
        · rw [getMeta_eq] at h
          obtain ⟨m, hmm, _, h⟩ := foldlM_error_mem h
          exact analyzeMeta_error (.inl rfl) hm hmm h
        · cases h
  rw [if_neg e0] at h
  by_cases e1 : path = "superstate"
  · subst e1
    rw [if_pos rfl] at h
    rcases Res.bind_error h with h | ⟨_, _, h⟩
    swap
    · cases h
    unfold analyzeSuperstate at h
    rw [hi.method] at h
    split at h
    · rename_i hg
      cases h
      rw [strips_generic] at hg
      exact .superstateGenerics hm has hg
    · rcases Res.bind_error h with h | ⟨_, _, h⟩
      · obtain ⟨a, ha, _, h⟩ := foldlM_error_mem h
        exact analyzeSuperstateInput_error hm has (fun attrs pat ty e => mem_strips _ (e ▸ ha)) h
      · rcases Res.bind_error h with h | ⟨_, _, h⟩
        · rw [getMeta_eq] at h
          obtain ⟨m, hmm, _, h⟩ := foldlM_error_mem h
          refine analyzeMeta_error (.inr rfl) hm (m := m) ?_ h
          unfold Method.metas at hmm ⊢
          rwa [strips_attrs] at hmm
        · cases h
  rw [if_neg e1] at h
  by_cases e2 : path = "action"
  · subst e2
    rw [if_pos rfl] at h
    rcases Res.bind_error h with h | ⟨_, _, h⟩
    swap
    · cases h
    unfold analyzeAction at h
    rw [hi.method] at h
    split at h
    · rename_i hg
      cases h
      rw [strips_generic] at hg
      exact .actionGenerics hm has hg
    · cases h
  rw [if_neg e2] at h
  cases h

theorem analyze_error (h1 : ∀ mth ∈ src.methods, mth.countAttr "state" ≤ 1)
    (h : analyze syn src.selfTy src.generics src.args src.methods = .error msg) : src.Fault syn msg := by
  unfold analyze at h
  rcases Res.bind_error h with h | ⟨sm, hs, h⟩
  · exact analyzeStateMachine_error h
  · have hi := machineInfo hs
    obtain ⟨mth, hm, _, h⟩ := foldlM_error_mem h
    exact analyzeMethod_error hi.eventIdent hi.contextIdent hm (h1 mth hm) h

/-! ## Lowering -/

theorem patOf_some {sm : StateMachine} (he : sm.eventIdent = src.eventIdent)
    (hc : sm.contextIdent = src.contextIdent) {a : FnArg} {p : PatType} (h : patOf sm a = some p) :
    (∃ attrs, a = .typed attrs p.pat p.ty) ∧ ¬ src.Reserved p.pat := by
  cases a with
  | receiver => cases h
  | typed attrs pat ty =>
    cases pat with
    | ident i =>
      simp only [patOf] at h
      split at h
      · cases h
      · rename_i hn
        cases h
        refine ⟨⟨_, rfl⟩, ?_⟩
        rw [he, hc] at hn
        rintro (e | e) <;> cases e <;> simp at hn
    | reference =>
      cases h
      exact ⟨⟨_, rfl⟩, by rintro (e | e) <;> cases e⟩
    | unsupported => cases h

theorem stateField_error {kind : Ident} (hk : handlerKind kind) {attrs : List ArgAttr} {p : PatType}
    (ht : src.Takes kind attrs p.pat p.ty) (hr : ¬ src.Reserved p.pat) (h : fnArgToStateField p = .error msg) :
    src.Fault syn msg := by
  obtain ⟨pat, ty⟩ := p
  cases ty with
  | ref l m t =>
    cases pat with
    | ident => cases h
    | reference | unsupported =>
      cases h
      exact .notIdent (.inl hk) ht (by simp)
  | path | compound =>
    cases h
    exact .byValue hk ht hr (by simp [Ty.IsRef])

theorem superstateField_error {kind : Ident} (hk : handlerKind kind) {attrs : List ArgAttr} {p : PatType}
    (ht : src.Takes kind attrs p.pat p.ty) (hr : ¬ src.Reserved p.pat) (h : fnArgToSuperstateField p = .error msg) :
    src.Fault syn msg := by
  obtain ⟨pat, ty⟩ := p
  cases ty with
  | ref l m t =>
    cases pat with
    | ident => cases h
    | reference | unsupported =>
      cases h
      exact .notIdent (.inl hk) ht (by simp)
  | path | compound =>
    cases h
    exact .byValue hk ht hr (by simp [Ty.IsRef])

theorem fnArgToIdents_error {kind : Ident} (hk : handlerKind kind ∨ kind = "action") {mth : Method}
    (hm : mth ∈ src.methods) (has : mth.Has kind) {l : List FnArg}
    (hl : l.map fnArgToIdent = mth.inputs.map fnArgToIdent) (h : l.mapM fnArgToIdent = .error msg) :
    src.Fault syn msg := by
  rw [mapM_congr_map hl] at h
  obtain ⟨a, ha, h⟩ := mapM_error h
  cases a with
  | receiver => cases h
  | typed attrs pat ty =>
    cases pat with
    | ident => cases h
    | reference | unsupported =>
      cases h
      exact .notIdent hk ⟨mth, hm, has, ha⟩ (by simp)

theorem pascal_error {kind : Ident} (hk : handlerKind kind) {mth : Method} (hm : mth ∈ src.methods) (has : mth.Has kind)
    (h : pascal syn mth.name = .error msg) : src.Fault syn msg := by
  have e : syn.identNew (variantName syn mth.name) = false := by
    by_contra hn
    obtain ⟨v, hv⟩ := pascal_isOk.2 (by simpa using hn)
    rw [hv] at h
    cases h
  unfold pascal at h
  simp only at h
  split at h
  · cases h
  · cases h
    exact .variant hk hm has e

theorem lowerState_error {sm : StateMachine} (he : sm.eventIdent = src.eventIdent)
    (hc : sm.contextIdent = src.contextIdent) {mth : Method} (hm : mth ∈ src.methods) (has : mth.Has "state")
    {st : State} (hi : HandlerInfo sm "state" mth st) (h : lowerState syn st = .error msg) : src.Fault syn msg := by
  unfold lowerState at h
  rcases Res.bind_error h with h | ⟨_, _, h⟩
  · rw [hi.name] at h
    exact pascal_error (.inl rfl) hm has h
  rcases Res.bind_error h with h | ⟨_, _, h⟩
  · obtain ⟨p, hp, h⟩ := mapM_error h
    rw [hi.stateInputs, List.mem_filterMap] at hp
    obtain ⟨a, ha, hp⟩ := hp
    obtain ⟨⟨attrs, rfl⟩, hr⟩ := patOf_some he hc hp
    exact stateField_error (.inl rfl) ⟨mth, hm, has, ha⟩ hr h
  rcases Res.bind_error h with h | ⟨_, _, h⟩
  · exact fnArgToIdents_error (.inl (.inl rfl)) hm has hi.inputs h
  · cases h

theorem lowerSuperstate_error {sm : StateMachine} (he : sm.eventIdent = src.eventIdent)
    (hc : sm.contextIdent = src.contextIdent) {mth : Method} (hm : mth ∈ src.methods) (has : mth.Has "superstate")
    {st : State} (hi : HandlerInfo sm "superstate" mth st) (h : lowerSuperstate syn st = .error msg) :
    src.Fault syn msg := by
  unfold lowerSuperstate at h
  rcases Res.bind_error h with h | ⟨_, _, h⟩
  · rw [hi.name] at h
    exact pascal_error (.inr rfl) hm has h
  rcases Res.bind_error h with h | ⟨_, _, h⟩
  · obtain ⟨p, hp, h⟩ := mapM_error h
    rw [hi.stateInputs, List.mem_filterMap] at hp
    obtain ⟨a, ha, hp⟩ := hp
    obtain ⟨⟨attrs, rfl⟩, hr⟩ := patOf_some he hc hp
    exact superstateField_error (.inr rfl) ⟨mth, hm, has, ha⟩ hr h
  rcases Res.bind_error h with h | ⟨_, _, h⟩
  · exact fnArgToIdents_error (.inl (.inr rfl)) hm has hi.inputs h
  · cases h

theorem resolveLink_error {V : Type} {m : HMap V} {m' : String} {link : Option Ident}
    (h : resolveLink m m' link = .error msg) : ∃ i, link = some i ∧ HMap.get m i = none ∧ msg = m' := by
  cases link with
  | none => cases h
  | some i =>
    simp only [resolveLink] at h
    split at h
    · cases h
    · rename_i hn
      cases h
      exact ⟨i, rfl, hn, rfl⟩

theorem findType_error {ident : Ident} {m : String} {l : List FnArg} {acc : Option Ty}
    (h : findType ident m (eventArgOf ident l) acc = .error msg) :
    msg = m ∧ ∃ attrs ty, .typed attrs (.ident ident) ty ∈ l ∧ ¬ ty.IsRef := by
  unfold findType at h
  split at h
  · rename_i i ty hp
    split at h
    · rename_i hi
      subst hi
      have hmem := List.mem_of_getLast? hp
      rw [List.mem_filterMap] at hmem
      obtain ⟨a, ha, e⟩ := hmem
      cases a with
      | receiver => cases e
      | typed attrs pat ty' =>
        cases pat with
        | reference | unsupported => cases e
        | ident j =>
          simp only at e
          split at e
          · rename_i hj
            cases e
            cases ty with
            | ref => cases h
            | path | compound =>
              cases h
              exact ⟨rfl, attrs, _, ha, by simp [Ty.IsRef]⟩
          · cases e
    · cases h
  · cases h

theorem findTypes_error {kind : Ident} (hk : handlerKind kind) {sm : StateMachine} (he : sm.eventIdent = src.eventIdent)
    (hc : sm.contextIdent = src.contextIdent) (hne : src.eventIdent ≠ src.contextIdent) {mth : Method}
    (hm : mth ∈ src.methods) (has : mth.Has kind) {n : Ident} {st : State} (hi : HandlerInfo sm kind mth st)
    {acc : Found} (h : findTypes sm acc (n, st) = .error msg) : src.Fault syn msg := by
  unfold findTypes at h
  simp only at h
  rw [hi.eventArg, hi.contextArg (by rwa [he, hc])] at h
  rcases Res.bind_error h with h | ⟨_, _, h⟩
  · obtain ⟨rfl, attrs, ty, hmem, hr⟩ := findType_error h
    rw [he] at hmem
    exact .event hk ⟨mth, hm, has, hmem⟩ hr
  rcases Res.bind_error h with h | ⟨_, _, h⟩
  · obtain ⟨rfl, attrs, ty, hmem, hr⟩ := findType_error h
    rw [hc] at hmem
    exact .context hk ⟨mth, hm, has, hmem⟩ hr
  · cases h

theorem mapGenerics_error (h : mapGenerics src.generics = .error msg) : src.Fault syn msg := by
  unfold mapGenerics at h
  obtain ⟨p, hp, h⟩ := mapM_error h
  rcases Res.bind_error h with h | ⟨_, _, h⟩
  swap
  · cases h
  obtain ⟨w, hw, _, h⟩ := foldlM_error_mem h
  rcases Res.bind_error h with h | ⟨_, _, h⟩
  swap
  · cases h
  cases w with
  | lifetime l b => cases p <;> cases h
  | type t b =>
    cases p with
    | lifetime | const => cases h
    | type n bounds =>
      rcases Res.bind_error h with h | ⟨_, _, h⟩
      swap
      · cases h
      cases t with
      | path => cases h
      | ref | compound =>
        cases h
        exact .predicate hp hw (by simp)

theorem lower_error (hne : src.eventIdent ≠ src.contextIdent) {sm : StateMachine} {model : Model}
    (hs : MachineInfo syn src sm) (hmodel : ModelInfo syn sm src.methods model)
    (h : lower syn ord model = .error msg) : src.Fault syn msg := by
  unfold lower at h
  rcases Res.bind_error h with h | ⟨states, hst, h⟩
  · obtain ⟨⟨n, st⟩, hmem, h⟩ := mapM_error h
    rw [(ord.perm_perm 0 _).mem_iff] at hmem
    obtain ⟨mth, hm, rfl, has, hP⟩ := hmodel.states.sound _ _ hmem
    rcases Res.bind_error h with h | ⟨_, _, h⟩
    · exact lowerState_error hs.eventIdent hs.contextIdent hm has hP.info h
    · cases h
  rcases Res.bind_error h with h | ⟨sups, hsu, h⟩
  · obtain ⟨⟨n, st⟩, hmem, h⟩ := mapM_error h
    rw [(ord.perm_perm 1 _).mem_iff] at hmem
    obtain ⟨mth, hm, rfl, has, hP⟩ := hmodel.superstates.sound _ _ hmem
    rcases Res.bind_error h with h | ⟨_, _, h⟩
    · exact lowerSuperstate_error hs.eventIdent hs.contextIdent hm has hP.1 h
    · cases h
  rcases Res.bind_error h with h | ⟨actions, hac, h⟩
  · obtain ⟨⟨n, st⟩, hmem, h⟩ := mapM_error h
    rw [(ord.perm_perm 2 _).mem_iff] at hmem
    obtain ⟨mth, hm, rfl, has, hP⟩ := hmodel.actions.sound _ _ hmem
    rcases Res.bind_error h with h | ⟨_, _, h⟩
    · unfold lowerAction at h
      rcases Res.bind_error h with h | ⟨_, _, h⟩
      · exact fnArgToIdents_error (.inr rfl) hm has hP.1.inputs h
      · cases h
    · cases h
  have key : ∀ {V W : Type} {x : Ident × V} {f : V → Res W} {r : Ident × W},
      (do let s ← f x.2; Except.ok (x.1, s)) = Except.ok r → r.1 = x.1 := by
    intro V W x f r h
    obtain ⟨s, _, h⟩ := Res.bind_ok h
    cases h
    rfl
  have noSup : ∀ i, HMap.get sups i = none → ¬ ∃ pm ∈ src.methods, pm.name = i ∧ pm.Has "superstate" := by
    intro i hi hex
    have := (mapM_get (ord.perm_perm 1 _) hsu (fun _ _ => key) hmodel.superstates.keys i).2
      (hmodel.superstates.get_iff.2 hex)
    simp [hi] at this
  have noAct : ∀ i, HMap.get actions i = none → ¬ ∃ pm ∈ src.methods, pm.name = i ∧ pm.Has "action" := by
    intro i hi hex
    have := (mapM_get (ord.perm_perm 2 _) hac (fun _ _ => key) hmodel.actions.keys i).2
      (hmodel.actions.get_iff.2 hex)
    simp [hi] at this
  rcases Res.bind_error h with h | ⟨_, _, h⟩
  · obtain ⟨⟨n, ls⟩, _, h⟩ := mapM_error h
    unfold linkState at h
    simp only at h
    have source : ∀ {g : State → Option Ident} {i : Ident}, (HMap.get model.states n).bind g = some i →
        ∃ st, g st = some i ∧ ∃ mth ∈ src.methods, HandlerInfo sm "state" mth st := by
      intro g i hg
      obtain ⟨st, hst, hg⟩ := Option.bind_eq_some_iff.1 hg
      obtain ⟨mth, hm, _, _, hP⟩ := hmodel.states.sound _ _ ((HMap.get_iff hmodel.states.keys _ _).1 hst)
      exact ⟨st, hg, mth, hm, hP.info⟩
    rcases Res.bind_error h with h | ⟨_, _, h⟩
    · obtain ⟨i, hl, hn, rfl⟩ := resolveLink_error h
      obtain ⟨st, hg, mth, hm, hi⟩ := source hl
      rw [hi.superstate] at hg
      exact .superstate (.inl rfl) ⟨mth, hm, i, hg, noSup i hn⟩
    rcases Res.bind_error h with h | ⟨_, _, h⟩
    · obtain ⟨i, hl, hn, rfl⟩ := resolveLink_error h
      obtain ⟨st, hg, mth, hm, hi⟩ := source hl
      rw [hi.entryAction] at hg
      exact .entryAction ⟨mth, hm, i, hg, noAct i hn⟩
    rcases Res.bind_error h with h | ⟨_, _, h⟩
    · obtain ⟨i, hl, hn, rfl⟩ := resolveLink_error h
      obtain ⟨st, hg, mth, hm, hi⟩ := source hl
      rw [hi.exitAction] at hg
      exact .exitAction ⟨mth, hm, i, hg, noAct i hn⟩
    · cases h
  rcases Res.bind_error h with h | ⟨_, _, h⟩
  · obtain ⟨⟨n, ls⟩, _, h⟩ := mapM_error h
    unfold linkSuperstate at h
    simp only at h
    have source : ∀ {g : State → Option Ident} {i : Ident}, (HMap.get model.superstates n).bind g = some i →
        ∃ st, g st = some i ∧ ∃ mth ∈ src.methods, HandlerInfo sm "superstate" mth st := by
      intro g i hg
      obtain ⟨st, hst, hg⟩ := Option.bind_eq_some_iff.1 hg
      obtain ⟨mth, hm, _, _, hP⟩ := hmodel.superstates.sound _ _ ((HMap.get_iff hmodel.superstates.keys _ _).1 hst)
      exact ⟨st, hg, mth, hm, hP.1⟩
    rcases Res.bind_error h with h | ⟨_, _, h⟩
    · obtain ⟨i, hl, hn, rfl⟩ := resolveLink_error h
      obtain ⟨st, hg, mth, hm, hi⟩ := source hl
      rw [hi.superstate] at hg
      exact .superstate (.inr rfl) ⟨mth, hm, i, hg, noSup i hn⟩
    rcases Res.bind_error h with h | ⟨_, _, h⟩
    · obtain ⟨i, hl, hn, rfl⟩ := resolveLink_error h
      obtain ⟨st, hg, mth, hm, hi⟩ := source hl
      rw [hi.entryAction] at hg
      exact .action (.inl rfl) ⟨mth, hm, i, hg, noAct i hn⟩
    rcases Res.bind_error h with h | ⟨_, _, h⟩
    · obtain ⟨i, hl, hn, rfl⟩ := resolveLink_error h
      obtain ⟨st, hg, mth, hm, hi⟩ := source hl
      rw [hi.exitAction] at hg
      exact .action (.inr rfl) ⟨mth, hm, i, hg, noAct i hn⟩
    · cases h
  rcases Res.bind_error h with h | ⟨_, _, h⟩
  · obtain ⟨⟨n, st⟩, hmem, _, h⟩ := foldlM_error_mem h
    rw [(ord.perm_perm 5 _).mem_iff] at hmem
    obtain ⟨mth, hm, rfl, has, hP⟩ := hmodel.states.sound _ _ hmem
    rw [hmodel.stateMachine] at h
    exact findTypes_error (.inl rfl) hs.eventIdent hs.contextIdent hne hm has hP.info h
  rcases Res.bind_error h with h | ⟨_, _, h⟩
  · obtain ⟨⟨n, st⟩, hmem, _, h⟩ := foldlM_error_mem h
    rw [(ord.perm_perm 6 _).mem_iff] at hmem
    obtain ⟨mth, hm, rfl, has, hP⟩ := hmodel.superstates.sound _ _ hmem
    rw [hmodel.stateMachine] at h
    exact findTypes_error (.inr rfl) hs.eventIdent hs.contextIdent hne hm has hP.1 h
  rcases Res.bind_error h with h | ⟨_, _, h⟩
  · rw [hmodel.stateMachine, hs.generics] at h
    exact mapGenerics_error h
  · cases h

theorem expand_error (h1 : ∀ mth ∈ src.methods, mth.countAttr "state" ≤ 1) (hne : src.eventIdent ≠ src.contextIdent)
    (h : expand syn ord src = .error msg) : src.Fault syn msg := by
  unfold expand at h
  rcases Res.bind_error h with h | ⟨model, hmodel, h⟩
  · exact analyze_error h1 h
  rcases Res.bind_error h with h | ⟨_, _, h⟩
  · obtain ⟨sm, hs, hm⟩ := modelInfo hmodel
    exact lower_error hne hs hm h
  · cases h

/-! ## Faults are reasons for rejection -/

theorem Source.Fault.not_wellFormed (h : src.Fault syn msg) : ¬ src.WellFormed syn := by
  intro w
  have litOk : ∀ {key : Ident} {ok : String → Bool} {m : String}, LitSetting syn key ok m → ∀ {v}, src.Sets key v →
      ∃ s, v = .lit s ∧ ok s = true := by
    rintro key ok m hl v ⟨a, ha, rfl, rfl⟩
    have := w.settings a ha
    unfold Setting.Valid at this
    generalize a.key = k at hl this
    cases hl <;> simpa using this
  have listOk : ∀ {key : Ident}, handlerKind key → ∀ {v}, src.Sets key v → ∃ l, v = .list l := by
    rintro key hk v ⟨a, ha, rfl, rfl⟩
    have := w.settings a ha
    unfold Setting.Valid at this
    rcases hk with hk | hk <;> rw [hk] at this <;> simpa using this
  have enumOk : ∀ {key : Ident}, handlerKind key → src.EnumValid syn key := by
    rintro key (rfl | rfl)
    · exact w.enums.1
    · exact w.enums.2
  have itemOk : ∀ {key : Ident}, handlerKind key → ∀ {m}, src.Item key m → m.Valid syn := by
    rintro key hk m ⟨l, hl, hm⟩
    obtain ⟨ms, e, hms⟩ := enumOk hk _ hl
    cases e
    exact hms m hm
  have metaOk : ∀ {kind key : Ident}, handlerKind kind → ∀ {v}, src.Says kind key v → Meta.Valid syn ⟨key, v⟩ := by
    rintro kind key hk v ⟨mth, hm, m, hmm, rfl, rfl⟩
    exact w.metas mth hm kind hk m hmm
  have nameOk : ∀ {kind key : Ident} {m : String}, handlerKind kind → NameMeta key m → ∀ {v}, src.Says kind key v →
      ∃ s, v = .lit s ∧ syn.isIdent s = true := by
    intro kind key m hk hn v hs
    refine (metaOk hk hs).1 ?_
    cases hn <;> simp
  have argOk : ∀ {kind : Ident} {attrs pat ty}, handlerKind kind → src.Takes kind attrs pat ty →
      src.ArgValid kind (.typed attrs pat ty) := by
    rintro kind attrs pat ty hk ⟨mth, hm, has, ha⟩
    exact w.args mth hm kind hk has _ ha
  have dangle : ∀ {kind key target : Ident}, handlerKind kind →
      (key = "superstate" ∧ target = "superstate") ∨ ((key = "entry_action" ∨ key = "exit_action") ∧ target = "action") →
      ¬ src.Dangling kind key target := by
    rintro kind key target hk (⟨rfl, rfl⟩ | ⟨hkey, rfl⟩) ⟨mth, hm, p, hl, hn⟩
    · exact hn (w.superstates mth hm kind hk p hl)
    · exact hn (w.actions mth hm kind hk key hkey p hl)
  have dflt : ∀ {attrs pat ty a}, src.Takes "state" attrs pat ty → ¬ src.Reserved pat → attrs.find? defaultAttr = some a →
      a = .default ∨ ∃ e, a = .defaultValue (some e) := by
    intro attrs pat ty a ht hr hf
    obtain ⟨i, l, m, t, rfl, rfl, h⟩ := argOk (.inl rfl) ht
    refine h rfl (fun e => hr (.inl ?_)) (fun e => hr (.inr ?_)) a hf <;> rw [e]
  cases h with
  | selfTy h =>
    obtain ⟨n, args, e⟩ := w.selfTy
    exact h n args e
  | setting hl hs hok =>
    obtain ⟨s, e, h⟩ := litOk hl hs
    cases e
    rw [hok] at h
    cases h
  | settingNotString hl hs =>
    obtain ⟨s, e, _⟩ := litOk hl hs
    cases e
  | settingNoValue hl hs h _ =>
    obtain ⟨s, e, _⟩ := litOk hl hs
    exact h s e
  | stateNoList hs h =>
    obtain ⟨l, e⟩ := listOk (.inl rfl) hs
    exact h l e
  | superstateNoList hs h =>
    obtain ⟨l, e⟩ := listOk (.inr rfl) hs
    exact h l e
  | unknownSetting hs h =>
    obtain ⟨a, ha, rfl, rfl⟩ := hs
    apply h
    have := w.settings a ha
    unfold Setting.Valid at this
    unfold knownSettings
    simp only [List.mem_cons, List.not_mem_nil, or_false]
    tauto
  | noInitial h =>
    obtain ⟨a, ha, hk⟩ := w.initial
    exact h _ ⟨a, ha, hk, rfl⟩
  | stateList h =>
    obtain ⟨ms, e, _⟩ := enumOk (.inl rfl) _ h
    cases e
  | superstateList h =>
    obtain ⟨ms, e, _⟩ := enumOk (.inr rfl) _ h
    cases e
  | stateName h hok =>
    obtain ⟨s, e, h⟩ := itemOk (.inl rfl) h
    cases e
    rw [hok] at h
    cases h
  | superstateName h hok =>
    obtain ⟨s, e, h⟩ := itemOk (.inr rfl) h
    cases e
    rw [hok] at h
    cases h
  | enumNameNotString hk h =>
    obtain ⟨s, e, _⟩ := itemOk hk h
    cases e
  | enumNameNoValue hk h hv _ =>
    obtain ⟨s, e, _⟩ := itemOk hk h
    exact hv s e
  | derive hk h => exact itemOk hk h rfl
  | unknownState h => exact itemOk (.inl rfl) h
  | unknownSuperstate h => exact itemOk (.inr rfl) h
  | stateGenerics hm has hg => simp [w.generic _ hm (.inl has)] at hg
  | superstateGenerics hm has hg => simp [w.generic _ hm (.inr (.inl has))] at hg
  | actionGenerics hm has hg => simp [w.generic _ hm (.inr (.inr has))] at hg
  | pattern hk ht =>
    obtain ⟨i, l, m, t, e, _⟩ := argOk hk ht
    cases e
  | default ht hr hf => rcases dflt ht hr hf with e | ⟨_, e⟩ <;> cases e
  | defaultNotString ht hr hf => rcases dflt ht hr hf with e | ⟨_, e⟩ <;> cases e
  | defaultFormat ht hr hf => rcases dflt ht hr hf with e | ⟨_, e⟩ <;> cases e
  | link hk hn hs hok =>
    obtain ⟨s, e, h⟩ := nameOk hk hn hs
    cases e
    rw [hok] at h
    cases h
  | linkNotString hk hn hs =>
    obtain ⟨s, e, _⟩ := nameOk hk hn hs
    cases e
  | linkNoValue hk hn hs h _ =>
    obtain ⟨s, e, _⟩ := nameOk hk hn hs
    exact h s e
  | storage hk hs h =>
    obtain ⟨l, e, _⟩ := (metaOk hk hs).2 rfl
    exact h l e
  | storageField hk hs h =>
    obtain ⟨l, e, hn⟩ := (metaOk hk hs).2 rfl
    cases e
    exact hn h
  | variant hk hm has h =>
    have := w.names _ hm (by rcases hk with rfl | rfl <;> simp [has])
    simp [h] at this
  | byValue hk ht _ h =>
    obtain ⟨i, l, m, t, _, rfl, _⟩ := argOk hk ht
    exact h trivial
  | notIdent hk ht h =>
    rcases hk with hk | rfl
    · obtain ⟨i, l, m, t, e, _⟩ := argOk hk ht
      exact h i e
    · obtain ⟨mth, hm, has, ha⟩ := ht
      obtain ⟨i, e⟩ := w.actionArgs mth hm has _ _ _ ha
      exact h i e
  | superstate hk h => exact dangle hk (.inl ⟨rfl, rfl⟩) h
  | entryAction h => exact dangle (.inl rfl) (.inr ⟨.inl rfl, rfl⟩) h
  | exitAction h => exact dangle (.inl rfl) (.inr ⟨.inr rfl, rfl⟩) h
  | action hkey h => exact dangle (.inr rfl) (.inr ⟨hkey, rfl⟩) h
  | event hk ht h =>
    obtain ⟨i, l, m, t, _, rfl, _⟩ := argOk hk ht
    exact h trivial
  | context hk ht h =>
    obtain ⟨i, l, m, t, _, rfl, _⟩ := argOk hk ht
    exact h trivial
  | predicate hp hw h =>
    obtain ⟨m, args, e⟩ := w.predicates _ _ hp _ _ hw
    exact h m args e

end Statig.Macro
