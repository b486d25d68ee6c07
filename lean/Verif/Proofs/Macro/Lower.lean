import Mathlib.Data.List.Nodup
import Verif.Proofs.Macro.Analyze
/-!
# What `lower` and `codegen` make of a declaration
-/
namespace Statig.Macro

/-! ## Names -/

theorem splitUnderscore_camel (syn : Syn) : ∀ l : List Char, ∃ p ps, splitUnderscore l = p :: ps ∧
    capitalize syn p ++ ps.flatMap (capitalize syn) = camel syn true l ∧
    p ++ ps.flatMap (capitalize syn) = camel syn false l
  | [] => ⟨[], [], rfl, rfl, rfl⟩
  | c :: l => by
    obtain ⟨p, ps, h, h1, h2⟩ := splitUnderscore_camel syn l
    by_cases hc : c = '_'
    · have h0 : capitalize syn [] = [] := rfl
      refine ⟨[], p :: ps, by simp [splitUnderscore, hc, h], ?_, ?_⟩ <;>
        simp [camel, hc, h0, List.flatMap_cons, h1]
    · refine ⟨c :: p, ps, by simp [splitUnderscore, hc, h], ?_, ?_⟩ <;> simp [camel, hc, capitalize, h2]

theorem pascalChars_eq (syn : Syn) (l : List Char) : pascalChars syn l = camel syn true l := by
  obtain ⟨p, ps, h, h1, _⟩ := splitUnderscore_camel syn l
  rw [pascalChars, h, List.flatMap_cons, h1]

theorem pascal_ok {syn : Syn} {n v : Ident} (h : pascal syn n = .ok v) : v = variantName syn n := by
  unfold pascal at h
  simp only at h
  split at h
  · cases h
    rw [pascalChars_eq]
    rfl
  · cases h

/-! ## Fields -/

theorem mergeField_names (fs : List Field) (f : Field) :
    (mergeField fs f).map (·.name) =
      if f.name ∈ fs.map (·.name) then fs.map (·.name) else fs.map (·.name) ++ [f.name] := by
  induction fs with
  | nil => simp [mergeField]
  | cons g fs ih =>
    unfold mergeField
    by_cases hg : g.name = f.name
    · simp [hg]
    · simp only [hg, ↓reduceIte, List.map_cons, ih, List.mem_cons, Ne.symm hg, false_or]
      split <;> simp

theorem foldl_mergeField_names (gs : List Field) : ∀ fs : List Field,
    (gs.foldl mergeField fs).map (·.name) =
      (gs.map (·.name)).foldl (fun l x => if x ∈ l then l else l ++ [x]) (fs.map (·.name)) := by
  induction gs with
  | nil => simp
  | cons g gs ih =>
    intro fs
    rw [List.foldl_cons, ih, mergeField_names]
    rfl

theorem fnArgToStateField_ok' {p : PatType} {f : Field} (h : fnArgToStateField p = .ok f) :
    ∃ l m ty, p = ⟨.ident f.name, .ref l m ty⟩ ∧ f.ty = if "state" = "superstate" then .ref (some "sub") m ty else ty := by
  unfold fnArgToStateField at h
  split at h
  · split at h
    · cases h
      cases p
      simp_all
    · cases h
  · cases h

theorem fnArgToStateField_ok {p : PatType} {f : Field} (h : fnArgToStateField p = .ok f) :
    p.pat = .ident f.name := by
  obtain ⟨l, m, ty, rfl, _⟩ := fnArgToStateField_ok' h
  rfl

theorem fnArgToSuperstateField_ok' {p : PatType} {f : Field} (h : fnArgToSuperstateField p = .ok f) :
    ∃ l m ty, p = ⟨.ident f.name, .ref l m ty⟩ ∧ f.ty = if "superstate" = "superstate" then .ref (some "sub") m ty else ty := by
  unfold fnArgToSuperstateField at h
  split at h
  · split at h
    · cases h
      cases p
      simp_all
    · cases h
  · cases h

theorem fnArgToSuperstateField_ok {p : PatType} {f : Field} (h : fnArgToSuperstateField p = .ok f) :
    p.pat = .ident f.name := by
  obtain ⟨l, m, ty, rfl, _⟩ := fnArgToSuperstateField_ok' h
  rfl

theorem inputFields_names {src : Source} {sm : StateMachine} (he : sm.eventIdent = src.eventIdent)
    (hc : sm.contextIdent = src.contextIdent) {f : PatType → Res Field}
    (hf : ∀ p g, f p = .ok g → p.pat = .ident g.name) :
    ∀ {l : List FnArg} {fs : List Field}, (l.filterMap (patOf sm)).mapM f = .ok fs →
      fs.map (·.name) = l.filterMap src.param
  | [], fs, h => by
    cases h
    rfl
  | a :: l, fs, h => by
    cases hp : patOf sm a with
    | none =>
      rw [List.filterMap_cons, hp] at h
      have := inputFields_names he hc hf h
      have ha : src.param a = none := by
        cases a with
        | receiver => rfl
        | typed attrs pat ty =>
          cases pat with
          | ident i =>
            simp only [patOf, ite_eq_left_iff, reduceCtorEq, imp_false, not_not] at hp
            rw [he, hc] at hp
            simp only [Source.param, ite_eq_left_iff, reduceCtorEq, imp_false, not_not]
            exact hp.imp Eq.symm Eq.symm
          | reference => cases hp
          | unsupported => rfl
      rw [this, List.filterMap_cons, ha]
    | some p =>
      rw [List.filterMap_cons, hp] at h
      simp only [List.mapM_cons] at h
      obtain ⟨g, hg, h⟩ := Res.bind_ok h
      obtain ⟨gs, hgs, h⟩ := Res.bind_ok h
      cases h
      have := inputFields_names he hc hf hgs
      have hpat := hf p g hg
      have ha : src.param a = some g.name := by
        cases a with
        | receiver => cases hp
        | typed attrs pat ty =>
          cases pat with
          | ident i =>
            simp only [patOf] at hp
            split at hp
            · cases hp
            · rename_i hn
              cases hp
              cases hpat
              simp only [Source.param]
              rw [if_neg]
              rw [he, hc] at hn
              exact fun h => hn (h.imp Eq.symm Eq.symm)
          | reference => cases hp; cases hpat
          | unsupported => cases hp
      simp [this, ha]

theorem mapM_congr_map {f : FnArg → Res Ident} {l l' : List FnArg} (h : l.map f = l'.map f) : l.mapM f = l'.mapM f := by
  induction l generalizing l' with
  | nil =>
    cases l' with
    | nil => rfl
    | cons => cases h
  | cons a l ih =>
    cases l' with
    | nil => cases h
    | cons b l' =>
      simp only [List.map_cons, List.cons.injEq] at h
      rw [List.mapM_cons, List.mapM_cons, h.1, ih h.2]

/-! ## Types of fields -/

theorem mergeField_types {T : Ident → Option Ty} (g : Field) : ∀ {fs : List Field}, (fs.map (·.name)).Nodup →
    (∀ f ∈ fs, T f.name = some f.ty) →
    ∀ f ∈ mergeField fs g, (if g.name = f.name then some g.ty else T f.name) = some f.ty
  | [], _, _ => by simp [mergeField]
  | f :: fs, hn, h => by
    simp only [List.map_cons, List.nodup_cons] at hn
    unfold mergeField
    by_cases hf : f.name = g.name
    · simp only [hf, ↓reduceIte, List.mem_cons, forall_eq_or_imp, true_and]
      intro x hx
      have : g.name ≠ x.name := fun e => hn.1 (List.mem_map.2 ⟨x, hx, (hf.trans e).symm⟩)
      rw [if_neg this]
      exact h x (by simp [hx])
    · simp only [hf, ↓reduceIte, List.mem_cons, forall_eq_or_imp]
      refine ⟨?_, mergeField_types g hn.2 fun x hx => h x (by simp [hx])⟩
      rw [if_neg (Ne.symm hf)]
      exact h f (by simp)

theorem mergeField_nodup {fs : List Field} (hn : (fs.map (·.name)).Nodup) (g : Field) :
    ((mergeField fs g).map (·.name)).Nodup := by
  rw [mergeField_names]
  split
  · exact hn
  · rename_i h
    rw [List.nodup_append]
    refine ⟨hn, by simp, ?_⟩
    intro a ha b hb
    rw [List.mem_singleton] at hb
    subst hb
    rintro rfl
    exact h ha

theorem foldl_mergeField_types : ∀ (gs : List Field) {fs : List Field} {T : Ident → Option Ty},
    (fs.map (·.name)).Nodup → (∀ f ∈ fs, T f.name = some f.ty) →
    ∀ f ∈ gs.foldl mergeField fs,
      ((((gs.filter fun g => g.name = f.name).getLast?).map (·.ty)).or (T f.name)) = some f.ty
  | [], fs, T, _, h => by simpa using h
  | g :: gs, fs, T, hn, h => by
    intro f hf
    rw [List.foldl_cons] at hf
    have := foldl_mergeField_types gs (mergeField_nodup hn g)
      (T := fun x => if g.name = x then some g.ty else T x) (mergeField_types g hn h) f hf
    rw [← this]
    by_cases hg : g.name = f.name
    · simp only [hg, decide_true, List.filter_cons_of_pos, List.getLast?_cons, Option.map_some]
      cases (gs.filter fun g => g.name = f.name).getLast? <;> simp
    · simp [hg]

theorem inputFields_types {src : Source} {sm : StateMachine} (he : sm.eventIdent = src.eventIdent)
    (hc : sm.contextIdent = src.contextIdent) {kind : Ident} {f : PatType → Res Field}
    (hf : ∀ p g, f p = .ok g → ∃ l m ty, p = ⟨.ident g.name, .ref l m ty⟩ ∧
      g.ty = if kind = "superstate" then .ref (some "sub") m ty else ty) {mth : Method}
    {fs : List Field} (hn : (mth.inputs.filterMap src.param).Nodup)
    (h : (mth.inputs.filterMap (patOf sm)).mapM f = .ok fs) :
    ∀ g ∈ fs, src.paramTy kind mth g.name = some g.ty := by
  intro g hg
  obtain ⟨p, hp, e⟩ := (mem_mapM h g).1 hg
  obtain ⟨l, m, ty, rfl, hty⟩ := hf p g e
  obtain ⟨a, ha, hpa⟩ := List.mem_filterMap.1 hp
  unfold Source.paramTy
  have ha' : ∃ attrs, a = .typed attrs (.ident g.name) (.ref l m ty) ∧ ¬ (g.name = src.eventIdent ∨ g.name = src.contextIdent) := by
    cases a with
    | receiver => cases hpa
    | typed attrs pat ty' =>
      cases pat with
      | ident i =>
        simp only [patOf] at hpa
        split at hpa
        · cases hpa
        · rename_i hn
          cases hpa
          refine ⟨attrs, rfl, fun h => hn ?_⟩
          rw [he, hc]
          exact h.imp Eq.symm Eq.symm
      | reference => cases hpa
      | unsupported => cases hpa
  obtain ⟨attrs, rfl, hne⟩ := ha'
  rw [not_or] at hne
  clear h hp hpa hg e
  generalize mth.inputs = inputs at hn ha
  induction inputs with
  | nil => cases ha
  | cons b bs ih =>
    rw [List.findSome?_cons]
    rcases List.mem_cons.1 ha with rfl | ha
    · simp [hne, hty]
    · have hb : src.param b ≠ some g.name := by
        intro hb
        rw [List.filterMap_cons, hb] at hn
        refine (List.nodup_cons.1 hn).1 (List.mem_filterMap.2 ⟨_, ha, ?_⟩)
        simp [Source.param, hne]
      have hn' : (bs.filterMap src.param).Nodup := by
        rw [List.filterMap_cons] at hn
        split at hn
        · exact hn
        · exact (List.nodup_cons.1 hn).2
      have := ih hn' ha
      split
      · rename_i v hv
        exfalso
        revert hv
        cases b with
        | receiver => simp
        | typed attrs' pat ty' =>
          cases pat with
          | ident i =>
            cases ty' with
            | ref l' m' t' =>
              simp only
              split
              · rename_i hi
                intro _
                apply hb
                simp [Source.param, hi.1, hne]
              · simp
            | path => simp
            | compound => simp
          | reference => simp
          | unsupported => simp
      · exact this

/-! ## States and superstates -/

/-- What a lowered state or superstate has to do with the method it comes from, before linking. -/
structure Lowered (syn : Syn) (src : Source) (kind : Ident) (mth : Method) (variant : Variant) (pat : VariantPat)
    (handler : FnCall) : Prop where
  variantName : variant.name = variantName syn mth.name
  patVariant : pat.variant = Macro.variantName syn mth.name
  fields : variant.fields.map (·.name) = src.fields kind mth
  patFields : pat.fields = src.fields kind mth
  handlerFn : handler.fn = mth.name
  handlerAwait : handler.await = mth.isAsync
  handlerArgs : mth.inputs.mapM fnArgToIdent = .ok handler.args
  types : (mth.inputs.filterMap src.param).Nodup → ∀ f ∈ variant.fields, src.fieldTy kind mth f.name = some f.ty

theorem lowerState_ok {syn : Syn} {src : Source} {sm : StateMachine} (hm : MachineInfo syn src sm) {mth : Method}
    {st : State} (hi : HandlerInfo sm "state" mth st) {ls : LState} (h : lowerState syn st = .ok ls) :
    Lowered syn src "state" mth ls.variant ls.pat ls.handlerCall ∧
      ls.entryActionCall = none ∧ ls.exitActionCall = none ∧ ls.superstatePat = none ∧
      ls.constructor.name = mth.name ∧ ls.constructor.variant = variantName syn mth.name ∧
      ls.constructor.fields = ls.variant.fields.map (fun f => (f.name, fieldInit st.localStorageDefault f)) ∧
      ls.constructor.args = ls.variant.fields.filter (fun f => fieldInit st.localStorageDefault f = .arg) := by
  unfold lowerState at h
  obtain ⟨v, hv, h⟩ := Res.bind_ok h
  obtain ⟨fs, hfs, h⟩ := Res.bind_ok h
  obtain ⟨as, has, h⟩ := Res.bind_ok h
  cases h
  have hv := pascal_ok hv
  rw [hi.name] at hv
  have hf : (st.localStorage.foldl mergeField fs).map (·.name) = src.fields "state" mth := by
    rw [foldl_mergeField_names, hi.localStorage]
    rw [hi.stateInputs] at hfs
    rw [inputFields_names hm.eventIdent hm.contextIdent (fun p g => fnArgToStateField_ok) hfs]
    rfl
  have ht : (mth.inputs.filterMap src.param).Nodup → ∀ f ∈ st.localStorage.foldl mergeField fs,
      src.fieldTy "state" mth f.name = some f.ty := by
    intro hn
    rw [hi.stateInputs] at hfs
    rw [hi.localStorage]
    refine foldl_mergeField_types _ ?_
      (inputFields_types hm.eventIdent hm.contextIdent (fun p g => fnArgToStateField_ok') hn hfs)
    rw [inputFields_names hm.eventIdent hm.contextIdent (fun p g => fnArgToStateField_ok) hfs]
    exact hn
  rw [mapM_congr_map hi.inputs] at has
  exact ⟨⟨hv, hv, hf, hf, hi.name, hi.isAsync, has, ht⟩, rfl, rfl, rfl, hi.name, hv, rfl, rfl⟩

theorem lowerSuperstate_ok {syn : Syn} {src : Source} {sm : StateMachine} (hm : MachineInfo syn src sm) {mth : Method}
    {st : State} (hi : HandlerInfo sm "superstate" mth st) {ls : LSuperstate} (h : lowerSuperstate syn st = .ok ls) :
    Lowered syn src "superstate" mth ls.variant ls.pat ls.handlerCall ∧
      ls.entryActionCall = none ∧ ls.exitActionCall = none ∧ ls.superstatePat = none := by
  unfold lowerSuperstate at h
  obtain ⟨v, hv, h⟩ := Res.bind_ok h
  obtain ⟨fs, hfs, h⟩ := Res.bind_ok h
  obtain ⟨as, has, h⟩ := Res.bind_ok h
  cases h
  have hv := pascal_ok hv
  rw [hi.name] at hv
  have hf : (st.localStorage.foldl mergeField fs).map (·.name) = src.fields "superstate" mth := by
    rw [foldl_mergeField_names, hi.localStorage]
    rw [hi.stateInputs] at hfs
    rw [inputFields_names hm.eventIdent hm.contextIdent (fun p g => fnArgToSuperstateField_ok) hfs]
    rfl
  have ht : (mth.inputs.filterMap src.param).Nodup → ∀ f ∈ st.localStorage.foldl mergeField fs,
      src.fieldTy "superstate" mth f.name = some f.ty := by
    intro hn
    rw [hi.stateInputs] at hfs
    rw [hi.localStorage]
    refine foldl_mergeField_types _ ?_
      (inputFields_types hm.eventIdent hm.contextIdent (fun p g => fnArgToSuperstateField_ok') hn hfs)
    rw [inputFields_names hm.eventIdent hm.contextIdent (fun p g => fnArgToSuperstateField_ok) hfs]
    exact hn
  rw [mapM_congr_map hi.inputs] at has
  exact ⟨⟨hv, hv, hf, hf, hi.name, hi.isAsync, has, ht⟩, rfl, rfl, rfl⟩

/-- What a call of an action has to do with the method. -/
structure ActionCall (mth : Method) (c : FnCall) : Prop where
  fn : c.fn = mth.name
  await : c.await = mth.isAsync
  args : mth.inputs.mapM fnArgToIdent = .ok c.args

theorem lowerAction_ok {mth : Method} {a : Action} (hi : ActionInfo mth a) {c : FnCall} (h : lowerAction a = .ok c) :
    ActionCall mth c := by
  unfold lowerAction at h
  obtain ⟨as, has, h⟩ := Res.bind_ok h
  cases h
  rw [mapM_congr_map hi.inputs] at has
  exact ⟨hi.name, hi.isAsync, has⟩

/-! ## Linking -/

/-- An action that is named and what is called. -/
def ActionLink (src : Source) (link : Option Ident) (call : Option FnCall) : Prop :=
  match link with
  | none => call = none
  | some a => ∃ mth ∈ src.methods, mth.name = a ∧ mth.Has "action" ∧ ∃ c, call = some c ∧ ActionCall mth c

/-- A superstate that is named and what is constructed. -/
def SupLink (syn : Syn) (src : Source) (link : Option Ident) (target : Option VariantPat) : Prop :=
  match link with
  | none => target = none
  | some p => ∃ mth ∈ src.methods, mth.name = p ∧ mth.Has "superstate" ∧
      target = some ⟨variantName syn p, src.fields "superstate" mth⟩

/-- What is generated for a state or superstate. -/
structure Described (syn : Syn) (src : Source) (kind : Ident) (mth : Method) (variant : Variant) (pat : VariantPat)
    (handler : FnCall) (entry exit : Option FnCall) (superstate : Option VariantPat) : Prop where
  lowered : Lowered syn src kind mth variant pat handler
  entry : ActionLink src (mth.link kind "entry_action") entry
  exit : ActionLink src (mth.link kind "exit_action") exit
  superstate : SupLink syn src (mth.link kind "superstate") superstate

theorem resolveLink_ok {V : Type} {m : HMap V} {msg : String} {link : Option Ident} {r : Option V}
    (h : resolveLink m msg link = .ok r) :
    (link = none ∧ r = none) ∨ ∃ i v, link = some i ∧ r = some v ∧ HMap.get m i = some v := by
  unfold resolveLink at h
  split at h
  · cases h
    exact .inl ⟨rfl, rfl⟩
  · split at h
    · cases h
      exact .inr ⟨_, _, rfl, rfl, by assumption⟩
    · cases h

/-- A hash map of entries that come from methods. -/
structure LoweredMap {V : Type} (m : HMap V) (kind : Ident) (methods : List Method) (P : Method → V → Prop) : Prop where
  keys : (m.map (·.1)).Nodup
  sound : ∀ n v, (n, v) ∈ m → ∃ mth ∈ methods, mth.name = n ∧ mth.Has kind ∧ P mth v
  complete : ∀ mth ∈ methods, mth.Has kind → ∃ v, (mth.name, v) ∈ m

/-- Mapping the entries of a hash map, in any order. -/
theorem LoweredMap.mapM {V W : Type} {m m' : HMap V} {r : HMap W} {kind : Ident} {methods : List Method}
    {P : Method → V → Prop} {Q : Method → W → Prop} {f : Ident × V → Res (Ident × W)}
    (h : LoweredMap m kind methods P) (hp : m'.Perm m) (hr : m'.mapM f = .ok r)
    (hf : ∀ n v r, (n, v) ∈ m → f (n, v) = .ok r → ∃ w, r = (n, w) ∧
      ∀ mth ∈ methods, mth.name = n → mth.Has kind → P mth v → Q mth w) :
    LoweredMap r kind methods Q := by
  obtain ⟨h1, h2, h3⟩ := h
  have hkeys : r.map (·.1) = m'.map (·.1) := by
    have := mapM_ok hr
    have hm : ∀ p ∈ m', p ∈ m := fun p hp' => hp.mem_iff.1 hp'
    clear hr h1 h2 h3 hp
    induction this with
    | nil => rfl
    | cons hab _ ih =>
      rename_i a b l l' _
      obtain ⟨n, v⟩ := a
      obtain ⟨w, rfl, _⟩ := hf n v b (hm _ (by simp)) hab
      simp only [List.map_cons]
      rw [ih fun p hp => hm p (by simp [hp])]
  refine ⟨?_, ?_, ?_⟩
  · rw [hkeys]
    exact (hp.map _).nodup_iff.2 h1
  · intro n w hw
    obtain ⟨⟨n', v⟩, hv, e⟩ := (mem_mapM hr _).1 hw
    have hv := hp.mem_iff.1 hv
    obtain ⟨w', he, hq⟩ := hf n' v _ hv e
    cases he
    obtain ⟨mth, hm, hn, hk, hP⟩ := h2 n v hv
    exact ⟨mth, hm, hn, hk, hq mth hm hn hk hP⟩
  · intro mth hm hk
    obtain ⟨v, hv⟩ := h3 mth hm hk
    have hn : mth.name ∈ r.map (·.1) := by
      rw [hkeys]
      exact List.mem_map.2 ⟨_, hp.mem_iff.2 hv, rfl⟩
    obtain ⟨⟨n, w⟩, hw, rfl⟩ := List.mem_map.1 hn
    exact ⟨w, hw⟩

theorem Collected.lowered {V : Type} {m : HMap V} {kind : Ident} {methods : List Method} {P : Method → V → Prop}
    (h : Collected m kind methods P) : LoweredMap m kind methods P := ⟨h.keys, h.sound, h.complete⟩

/-- With distinct method names, the method an entry comes from is determined by its key. -/
theorem LoweredMap.get {V : Type} {m : HMap V} {kind : Ident} {methods : List Method} {P : Method → V → Prop}
    (h : LoweredMap m kind methods P) {k : Ident} {v : V} (hg : HMap.get m k = some v) :
    ∃ mth ∈ methods, mth.name = k ∧ mth.Has kind ∧ P mth v :=
  h.sound k v ((HMap.get_iff h.keys k v).1 hg)

theorem actionLink_of {src : Source} {actions : HMap FnCall} (ha : LoweredMap actions "action" src.methods ActionCall)
    {msg : String} {link : Option Ident} {r : Option FnCall} (h : resolveLink actions msg link = .ok r) :
    ActionLink src link (r.or none) := by
  rcases resolveLink_ok h with ⟨rfl, rfl⟩ | ⟨i, v, rfl, rfl, hg⟩
  · rfl
  · obtain ⟨mth, hm, hn, hk, hP⟩ := ha.get hg
    exact ⟨mth, hm, hn, hk, v, rfl, hP⟩

theorem supLink_of {syn : Syn} {src : Source} {sups : HMap LSuperstate}
    (hs : LoweredMap sups "superstate" src.methods (fun mth ls => Lowered syn src "superstate" mth ls.variant ls.pat
      ls.handlerCall ∧ ls.entryActionCall = none ∧ ls.exitActionCall = none ∧ ls.superstatePat = none))
    {msg : String} {link : Option Ident} {r : Option LSuperstate} (h : resolveLink sups msg link = .ok r) :
    SupLink syn src link ((r.map (·.pat)).or none) := by
  rcases resolveLink_ok h with ⟨rfl, rfl⟩ | ⟨i, v, rfl, rfl, hg⟩
  · rfl
  · obtain ⟨mth, hm, rfl, hk, hP, _⟩ := hs.get hg
    refine ⟨mth, hm, rfl, hk, ?_⟩
    have h1 := hP.patVariant
    have h2 := hP.patFields
    cases hv : v.pat
    rw [hv] at h1 h2
    simp only at h1 h2
    simp [hv, h1, h2]

/-- Names of methods are distinct, so the entry of a method comes from it. -/
theorem Source.Distinct.eq {src : Source} (h : src.Distinct) {a b : Method} (ha : a ∈ src.methods)
    (hb : b ∈ src.methods) (hn : a.name = b.name) : a = b := List.inj_on_of_nodup_map h ha hb hn

/-- What the constructor of a state does. -/
structure Constructs (syn : Syn) (sm : StateMachine) (mth : Method) (ls : LState) : Prop where
  name : ls.constructor.name = mth.name
  variant : ls.constructor.variant = variantName syn mth.name
  fields : ∃ ds, ds = (((strip sm)^[countAttr "state" (mth.attrs.map (·.path)) - 1] mth).inputs).filterMap (defaultOf sm) ∧
    ls.constructor.fields = ls.variant.fields.map (fun f => (f.name, fieldInit ds f)) ∧
    ls.constructor.args = ls.variant.fields.filter (fun f => fieldInit ds f = .arg)

/-- What `lower` computes. -/
structure IrInfo (syn : Syn) (src : Source) (sm : StateMachine) (mo : Model) (ir : Ir) : Prop where
  machine : MachineInfo syn src sm
  model : ModelInfo syn sm src.methods mo
  stateMachine : ir.stateMachine = sm
  methods : ir.methods = mo.methods
  states : LoweredMap ir.states "state" src.methods (fun mth ls =>
    Described syn src "state" mth ls.variant ls.pat ls.handlerCall ls.entryActionCall ls.exitActionCall
      ls.superstatePat ∧ Constructs syn sm mth ls)
  superstates : LoweredMap ir.superstates "superstate" src.methods (fun mth ls =>
    Described syn src "superstate" mth ls.variant ls.pat ls.handlerCall ls.entryActionCall ls.exitActionCall
      ls.superstatePat)

theorem irInfo {syn : Syn} {ord : Order} {src : Source} (hd : src.Distinct) {sm : StateMachine} {model : Model} {ir : Ir}
    (hm : MachineInfo syn src sm) (hmodel : ModelInfo syn sm src.methods model) (h : lower syn ord model = .ok ir) :
    IrInfo syn src sm model ir := by
  unfold lower at h
  obtain ⟨states, hstates, h⟩ := Res.bind_ok h
  obtain ⟨sups, hsups, h⟩ := Res.bind_ok h
  obtain ⟨actions, hactions, h⟩ := Res.bind_ok h
  obtain ⟨states', hstates', h⟩ := Res.bind_ok h
  obtain ⟨sups', hsups', h⟩ := Res.bind_ok h
  obtain ⟨found, _, h⟩ := Res.bind_ok h
  obtain ⟨found', _, h⟩ := Res.bind_ok h
  obtain ⟨gen, hgen, h⟩ := Res.bind_ok h
  cases h
  have h1 := LoweredMap.mapM hmodel.states.lowered (ord.perm_perm 0 _) hstates
    (Q := fun mth ls => (Lowered syn src "state" mth ls.variant ls.pat ls.handlerCall ∧ Constructs syn sm mth ls) ∧
      ls.entryActionCall = none ∧ ls.exitActionCall = none ∧ ls.superstatePat = none) (by
    intro n st r _ e
    obtain ⟨ls, hls, e⟩ := Res.bind_ok e
    cases e
    refine ⟨ls, rfl, fun mth _ _ _ hP => ?_⟩
    obtain ⟨a, b, c, d, e, f, g, h⟩ := lowerState_ok hm hP.info hls
    exact ⟨⟨a, e, f, _, hP.defaults, g, h⟩, b, c, d⟩)
  have h2 := LoweredMap.mapM hmodel.superstates.lowered (ord.perm_perm 1 _) hsups
    (Q := fun mth ls => Lowered syn src "superstate" mth ls.variant ls.pat ls.handlerCall ∧
      ls.entryActionCall = none ∧ ls.exitActionCall = none ∧ ls.superstatePat = none) (by
    intro n st r _ e
    obtain ⟨ls, hls, e⟩ := Res.bind_ok e
    cases e
    exact ⟨ls, rfl, fun mth _ _ _ hP => lowerSuperstate_ok hm hP.1 hls⟩)
  have h3 := LoweredMap.mapM hmodel.actions.lowered (ord.perm_perm 2 _) hactions
    (Q := fun mth c => ActionCall mth c) (by
    intro n st r _ e
    obtain ⟨ls, hls, e⟩ := Res.bind_ok e
    cases e
    exact ⟨ls, rfl, fun mth _ _ _ hP => lowerAction_ok hP.1 hls⟩)
  refine ⟨hm, hmodel, hmodel.stateMachine, rfl, ?_, ?_⟩
  · refine LoweredMap.mapM h1 (ord.perm_perm 3 _) hstates' ?_
    intro n ls r hmem e
    unfold linkState at e
    obtain ⟨sup, hsup, e⟩ := Res.bind_ok e
    obtain ⟨en, hen, e⟩ := Res.bind_ok e
    obtain ⟨ex, hex, e⟩ := Res.bind_ok e
    cases e
    refine ⟨_, rfl, fun mth hmth hn hk hP => ?_⟩
    obtain ⟨st, hst⟩ := hmodel.states.complete mth hmth hk
    have hget : HMap.get model.states n = some st :=
      (HMap.get_iff hmodel.states.keys n st).2 (hn ▸ hst)
    obtain ⟨mth', hm', hn', _, hi⟩ := hmodel.states.sound _ _ hst
    have : mth' = mth := hd.eq hm' hmth hn'
    subst this
    have hi := hi.info
    simp only [hget, Option.bind_some] at hsup hen hex
    rw [hi.superstate] at hsup
    rw [hi.entryAction] at hen
    rw [hi.exitAction] at hex
    obtain ⟨⟨hl, hc⟩, he1, he2, he3⟩ := hP
    have a1 := actionLink_of h3 hen
    have a2 := actionLink_of h3 hex
    have a3 := supLink_of h2 hsup
    simp only [he1, he2, he3]
    exact ⟨⟨hl, a1, a2, a3⟩, hc.1, hc.2, hc.3⟩
  · refine LoweredMap.mapM h2 (ord.perm_perm 4 _) hsups' ?_
    intro n ls r hmem e
    unfold linkSuperstate at e
    obtain ⟨sup, hsup, e⟩ := Res.bind_ok e
    obtain ⟨en, hen, e⟩ := Res.bind_ok e
    obtain ⟨ex, hex, e⟩ := Res.bind_ok e
    cases e
    refine ⟨_, rfl, fun mth hmth hn hk hP => ?_⟩
    obtain ⟨st, hst⟩ := hmodel.superstates.complete mth hmth hk
    have hget : HMap.get model.superstates n = some st :=
      (HMap.get_iff hmodel.superstates.keys n st).2 (hn ▸ hst)
    obtain ⟨mth', hm', hn', _, hi⟩ := hmodel.superstates.sound _ _ hst
    have : mth' = mth := hd.eq hm' hmth hn'
    subst this
    have hi := hi.1
    simp only [hget, Option.bind_some] at hsup hen hex
    rw [hi.superstate] at hsup
    rw [hi.entryAction] at hen
    rw [hi.exitAction] at hex
    obtain ⟨hl, he1, he2, he3⟩ := hP
    have a1 := actionLink_of h3 hen
    have a2 := actionLink_of h3 hex
    have a3 := supLink_of h2 hsup
    simp only [he1, he2, he3]
    exact ⟨hl, a1, a2, a3⟩

end Statig.Macro
