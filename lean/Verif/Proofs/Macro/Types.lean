import Verif.Proofs.Macro.Gen
/-!
# Parameters left over, generic parameters
-/
namespace Statig.Macro

/-! ## Names of parameters -/

/-- With identifier patterns, what the macro takes for local storage is what the specification does. -/
theorem patOf_iff {src : Source} {sm : StateMachine} (he : sm.eventIdent = src.eventIdent)
    (hc : sm.contextIdent = src.contextIdent) {a : FnArg} {i : Ident} (ha : fnArgToIdent a = .ok i) (q : PatType) :
    patOf sm a = some q ↔ ∃ attrs ty, a = .typed attrs (.ident i) ty ∧ q = ⟨.ident i, ty⟩ ∧
      i ≠ src.eventIdent ∧ i ≠ src.contextIdent := by
  cases a with
  | receiver => simp [patOf]
  | typed attrs pat ty =>
    cases pat with
    | ident j =>
      cases ha
      simp only [patOf, FnArg.typed.injEq, true_and, ↓existsAndEq, he, hc]
      split
      · rename_i h
        simp only [reduceCtorEq, ne_eq, false_iff, not_and, not_not]
        exact fun _ h' => h.elim (fun e => absurd e.symm h') fun e => e.symm
      · rename_i h
        rw [not_or] at h
        simp [eq_comm, h]
        tauto
    | reference => cases ha
    | unsupported => cases ha

theorem param_iff {src : Source} {a : FnArg} {x : Ident} :
    src.param a = some x ↔ ∃ attrs ty, a = .typed attrs (.ident x) ty ∧ x ≠ src.eventIdent ∧ x ≠ src.contextIdent := by
  cases a with
  | receiver => simp [Source.param]
  | typed attrs pat ty =>
    cases pat with
    | ident i =>
      simp only [Source.param, FnArg.typed.injEq, Pat.ident.injEq, true_and, ↓existsAndEq]
      split
      · rename_i h
        simp only [reduceCtorEq, ne_eq, false_iff, not_and, not_not]
        rintro ⟨rfl, _⟩ h'
        exact h.elim (fun e => absurd e h') id
      · rename_i h
        rw [not_or] at h
        simp only [Option.some.injEq, ne_eq]
        constructor
        · rintro rfl
          exact ⟨⟨rfl, trivial⟩, h⟩
        · exact fun h => h.1.1
    | reference => simp [Source.param]
    | unsupported => simp [Source.param]

theorem foldl_prefix {l : List Ident} : ∀ {acc : List Ident},
    ∃ rest, l.foldl (fun l x => if x ∈ l then l else l ++ [x]) acc = acc ++ rest := by
  induction l with
  | nil => exact ⟨[], by simp⟩
  | cons x l ih =>
    intro acc
    rw [List.foldl_cons]
    split
    · exact ih
    · obtain ⟨rest, h⟩ := ih (acc := acc ++ [x])
      exact ⟨x :: rest, by rw [h]; simp⟩

theorem params_nodup {src : Source} {kind : Ident} {mth : Method} (h : (src.fields kind mth).Nodup) :
    (mth.inputs.filterMap src.param).Nodup := by
  unfold Source.fields at h
  obtain ⟨rest, e⟩ := foldl_prefix (l := mth.storage kind) (acc := mth.inputs.filterMap src.param)
  rw [e] at h
  exact (List.nodup_append.1 h).1

/-! ## Attributes -/

theorem removeDefault_other (l : List ArgAttr) : (removeDefault l).filter (fun a => ¬ defaultAttr a) |>.Perm
    (l.filter fun a => ¬ defaultAttr a) := by
  induction l with
  | nil => exact .refl _
  | cons a l ih =>
    unfold removeDefault
    split
    · rename_i h
      have : defaultAttr a = true := by cases a <;> simp_all [ArgAttr.isDefault, defaultAttr]
      simp only [List.filter_append, this, not_true_eq_false, decide_false, Bool.false_eq_true, not_false_eq_true,
        List.filter_cons_of_neg]
      rcases List.eq_nil_or_concat l with rfl | ⟨l', b, rfl⟩
      · simp
      · simp only [List.concat_eq_append, List.getLast?_append, List.getLast?_singleton, Option.some_or,
          Option.toList_some, List.dropLast_concat, List.filter_append]
        exact List.perm_append_comm
    · rw [List.filter_cons, List.filter_cons]
      split
      · exact ih.cons a
      · exact ih

theorem removeDefault_default (l : List ArgAttr) :
    ((removeDefault l).filter defaultAttr).length = (l.filter defaultAttr).length - 1 := by
  induction l with
  | nil => rfl
  | cons a l ih =>
    unfold removeDefault
    have he : defaultAttr a = a.isDefault := by cases a <;> rfl
    split
    · rename_i h
      simp only [List.filter_append, he, h, List.filter_cons_of_pos, List.length_cons, Nat.add_sub_cancel,
        List.length_append]
      rcases List.eq_nil_or_concat l with rfl | ⟨l', b, rfl⟩
      · simp
      · simp only [List.concat_eq_append, List.getLast?_append, List.getLast?_singleton, Option.some_or,
          Option.toList_some, List.dropLast_concat, List.filter_append, List.length_append]
        omega
    · rename_i h
      simp only [Bool.not_eq_true] at h
      simp only [List.filter_cons, he, h, Bool.false_eq_true, ↓reduceIte, ih]

theorem stripDefault_kept {src : Source} {sm : StateMachine} (he : sm.eventIdent = src.eventIdent)
    (hc : sm.contextIdent = src.contextIdent) (a : FnArg) : ∀ k, src.Kept k a ((stripDefault sm)^[k] a)
  | 0 => by
    cases hp : src.param a with
    | none => exact .same hp
    | some x =>
      obtain ⟨attrs, ty, rfl, _⟩ := param_iff.1 hp
      exact .param (by simp [hp]) (.refl _) rfl
  | k + 1 => by
    rw [Function.iterate_succ_apply']
    have ih := stripDefault_kept he hc a k
    generalize (stripDefault sm)^[k] a = b at ih
    cases ih with
    | same h =>
      have : stripDefault sm a = a := by
        cases a with
        | receiver => rfl
        | typed attrs pat ty =>
          cases pat with
          | ident i =>
            simp only [Source.param, ite_eq_left_iff, reduceCtorEq, imp_false, not_not] at h
            simp only [stripDefault, he, hc]
            rw [if_pos (h.imp Eq.symm Eq.symm)]
          | reference => rfl
          | unsupported => rfl
      rw [this]
      exact .same h
    | @param attrs attrs' pat ty h1 h2 h3 =>
      obtain ⟨x, hx⟩ := Option.ne_none_iff_exists'.1 h1
      obtain ⟨_, _, e, hne1, hne2⟩ := param_iff.1 hx
      cases e
      have : stripDefault sm (.typed attrs' (.ident x) ty) = .typed (removeDefault attrs') (.ident x) ty := by
        simp only [stripDefault, he, hc]
        rw [if_neg]
        rintro (h | h)
        · exact hne1 h.symm
        · exact hne2 h.symm
      rw [this]
      refine .param h1 ((removeDefault_other attrs').trans h2) ?_
      rw [removeDefault_default, h3]
      omega

theorem strips_eq (sm : StateMachine) (mth : Method) : ∀ k, (strip sm)^[k] mth =
    { mth with inputs := mth.inputs.map (stripDefault sm)^[k] }
  | 0 => by simp
  | k + 1 => by
    rw [Function.iterate_succ_apply', strips_eq sm mth k]
    simp only [strip, List.map_map, Method.mk.injEq, true_and]
    rw [Function.iterate_succ']

/-! ## Generic parameters -/

mutual
theorem tyIdents_iff {i : Ident} : ∀ {t : Ty}, i ∈ tyIdents t ↔ t.Names i
  | .ref _ _ t => by simpa [tyIdents, Ty.Names] using tyIdents_iff (t := t)
  | .path n args => by simp [tyIdents, Ty.Names, argsIdents_iff (t := args), eq_comm]
  | .compound _ ts => by simpa [tyIdents, Ty.Names] using argsIdents_iff (t := ts)
theorem argsIdents_iff {i : Ident} : ∀ {t : Args}, i ∈ argsIdents t ↔ t.Names i
  | .nil => by simp [argsIdents, Args.Names]
  | .lifetime _ r => by simpa [argsIdents, Args.Names] using argsIdents_iff (t := r)
  | .ty t r => by simp [argsIdents, Args.Names, tyIdents_iff (t := t), argsIdents_iff (t := r)]
  | .ident j r => by simp [argsIdents, Args.Names, argsIdents_iff (t := r), eq_comm]
end

mutual
theorem tyLifetimes_iff {i : Ident} : ∀ {t : Ty}, i ∈ tyLifetimes t ↔ t.HasLifetime i
  | .ref l _ t => by simp [tyLifetimes, Ty.HasLifetime, tyLifetimes_iff (t := t)]
  | .path n args => by simp [tyLifetimes, Ty.HasLifetime, argsLifetimes_iff (t := args)]
  | .compound _ ts => by simpa [tyLifetimes, Ty.HasLifetime] using argsLifetimes_iff (t := ts)
theorem argsLifetimes_iff {i : Ident} : ∀ {t : Args}, i ∈ argsLifetimes t ↔ t.HasLifetime i
  | .nil => by simp [argsLifetimes, Args.HasLifetime]
  | .lifetime _ r => by simp [argsLifetimes, Args.HasLifetime, argsLifetimes_iff (t := r), eq_comm]
  | .ty t r => by simp [argsLifetimes, Args.HasLifetime, tyLifetimes_iff (t := t), argsLifetimes_iff (t := r)]
  | .ident _ r => by simpa [argsLifetimes, Args.HasLifetime] using argsLifetimes_iff (t := r)
end

theorem searchParam_iff {params : List GParam} {p : GParam} (hp : p ∈ params) {i : Ident} {ty : Ty} :
    p ∈ searchParam params ⟨.ident i, ty⟩ ↔
      (p.UsedIn ty ∨ (¬ p.IsLifetime ∧ p.name = i)) ∧ ∀ l bounds, p = .lifetime l bounds → bounds = [] := by
  unfold searchParam
  simp only [List.mem_append, List.mem_flatMap, List.mem_map, patIdents, List.mem_singleton, visitIdent,
    List.mem_filter, hp, true_and, tyIdents_iff, tyLifetimes_iff]
  cases p with
  | lifetime l b =>
    simp only [Bool.false_eq_true, and_false, exists_false, GParam.lifetime.injEq, false_or, GParam.UsedIn,
      GParam.IsLifetime, not_true_eq_false, false_and, or_false]
    constructor
    · rintro ⟨_, h, rfl, rfl⟩
      exact ⟨h, by simp⟩
    · rintro ⟨h, h'⟩
      exact ⟨l, h, rfl, (h' l b ⟨rfl, rfl⟩).symm⟩
  | type n b =>
    simp only [decide_eq_true_eq, reduceCtorEq, and_false, exists_false, or_false, GParam.UsedIn, GParam.IsLifetime,
      not_false_eq_true, true_and, GParam.name, false_imp_iff, implies_true, and_true]
    constructor
    · rintro ⟨_, h | h, rfl⟩
      · exact .inr h
      · exact .inl h
    · rintro (h | rfl)
      · exact ⟨_, .inr h, rfl⟩
      · exact ⟨_, .inl rfl, rfl⟩
  | const n b =>
    simp only [decide_eq_true_eq, reduceCtorEq, and_false, exists_false, or_false, GParam.UsedIn, GParam.IsLifetime,
      not_false_eq_true, true_and, GParam.name, false_imp_iff, implies_true, and_true]
    constructor
    · rintro ⟨_, h | h, rfl⟩
      · exact .inr h
      · exact .inl h
    · rintro (h | rfl)
      · exact ⟨_, .inr h, rfl⟩
      · exact ⟨_, .inl rfl, rfl⟩

section
variable {syn : Syn} {src : Source} {g : Gen} {sm : StateMachine} {L : HMap LState} {Lp : HMap LSuperstate}

/-- Handlers of an accepted declaration have identifiers as patterns. -/
theorem GenInfo.idents (h : GenInfo syn src g sm L Lp) (hd : src.Distinct) {mth : Method} (hm : mth ∈ src.methods)
    (hk : mth.Has "state" ∨ mth.Has "superstate") : ∀ a ∈ mth.inputs, ∃ i, fnArgToIdent a = .ok i := by
  have : ∃ is, mth.inputs.mapM fnArgToIdent = .ok is := by
    rcases hk with hk | hk
    · obtain ⟨ls, hls⟩ := h.statesMap.complete mth hm hk
      obtain ⟨mth', hm', hn', _, hl⟩ := h.statesMap.sound _ _ hls
      cases hd.eq hm' hm hn'
      exact ⟨_, hl.1.lowered.handlerArgs⟩
    · obtain ⟨ls, hls⟩ := h.superstatesMap.complete mth hm hk
      obtain ⟨mth', hm', hn', _, hl⟩ := h.superstatesMap.sound _ _ hls
      cases hd.eq hm' hm hn'
      exact ⟨_, hl.lowered.handlerArgs⟩
  exact mapM_isOk.1 this

theorem GenInfo.searched (h : GenInfo syn src g sm L Lp) (hd : src.Distinct) {kind : Ident}
    (hk : kind = "state" ∨ kind = "superstate") {p : GParam} (hp : p ∈ src.generics.params) :
    Searched src sm kind p ↔ src.Mentions kind p := by
  have he := h.machine.eventIdent
  have hc := h.machine.contextIdent
  unfold Searched Source.Mentions
  rw [h.machine.generics]
  constructor
  · rintro ⟨mth, hm, hh, a, ha, q, hq, hs⟩
    obtain ⟨i, hi⟩ := h.idents hd hm (by rcases hk with rfl | rfl <;> simp [hh]) a ha
    obtain ⟨attrs, ty, rfl, rfl, h1, h2⟩ := (patOf_iff he hc hi q).1 hq
    obtain ⟨h3, h4⟩ := (searchParam_iff hp).1 hs
    exact ⟨mth, hm, hh, attrs, i, ty, ha, h1, h2, h3, h4⟩
  · rintro ⟨mth, hm, hh, attrs, i, ty, ha, h1, h2, h3, h4⟩
    exact ⟨mth, hm, hh, _, ha, _, (patOf_iff he hc rfl _).2 ⟨attrs, ty, rfl, rfl, h1, h2⟩,
      (searchParam_iff hp).2 ⟨h3, h4⟩⟩

end
end Statig.Macro
