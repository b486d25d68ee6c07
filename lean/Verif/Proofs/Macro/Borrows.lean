import Verif.Spec.MacroBorrows
import Verif.Proofs.Macro.Typing
/-!
# When the arguments of generated calls can be borrowed together
-/
namespace Statig.Macro
variable {syn : Syn} {src : Source} {g : Gen} {sm : StateMachine} {L : HMap LState} {Lp : HMap LSuperstate}

theorem namesStorage_iff {a : FnArg} {i : Ident} (h : fnArgToIdent a = .ok i) :
    a.NamesStorage ↔ i = "shared_storage" := by
  cases a with
  | receiver m => cases h; simp [FnArg.NamesStorage]
  | typed attrs pat ty =>
    cases pat with
    | reference => cases h
    | unsupported => cases h
    | ident j => cases h; rfl

/-- Parameters of different names are given the same variable only if both are given the shared storage. -/
theorem callBorrows_iff (h : GenInfo syn src g sm L Lp) (hd : src.Distinct) {am : Method} (hm : am ∈ src.methods)
    (hn : (am.inputs.filterMap argName).Nodup) {c : FnCall} (hfn : c.fn = am.name)
    (hargs : am.inputs.mapM fnArgToIdent = .ok c.args) : g.CallBorrows c ↔ src.AsksOnce am := by
  obtain ⟨f, hf, hty⟩ := h.callee hd hm
  have hF := mapM_ok hargs
  unfold Gen.CallBorrows Source.AsksOnce
  rw [hfn, hf]
  simp only [Option.some.injEq, forall_eq']
  have key : ∀ {inputs : List FnArg} {args : List Ident},
      List.Forall₂ (fun a i => fnArgToIdent a = .ok i) inputs args → (inputs.filterMap argName).Nodup →
      ((args.zip (inputs.map f)).Pairwise (fun p q => p.1 = q.1 →
          (g.paramTy p.2).isShared = true ∧ (g.paramTy q.2).isShared = true) ↔
        inputs.Pairwise fun a b => a.NamesStorage → b.NamesStorage →
          (src.argTy a).isShared = true ∧ (src.argTy b).isShared = true) := by
    intro inputs args hF hn
    induction hF with
    | nil => simp
    | @cons a i l l' hi hl ih =>
      have hn' : (l.filterMap argName).Nodup := by
        cases ha : argName a with
        | none => rwa [List.filterMap_cons_none ha] at hn
        | some j => rw [List.filterMap_cons_some ha] at hn; exact (List.nodup_cons.1 hn).2
      simp only [List.map_cons, List.zip_cons_cons, List.pairwise_cons]
      refine and_congr ?_ (ih hn')
      -- the tail: same name implies both are the storage
      have tail : ∀ b ∈ l, ∀ k, fnArgToIdent b = .ok k → i = k → i = "shared_storage" := by
        intro b hb k hk e
        subst e
        cases a with
        | receiver m => cases hi; rfl
        | typed attrs pat ty =>
          cases pat with
          | reference => cases hi
          | unsupported => cases hi
          | ident j =>
            cases hi
            cases b with
            | receiver m => cases hk; rfl
            | typed attrs' pat' ty' =>
              cases pat' with
              | reference => cases hk
              | unsupported => cases hk
              | ident j' =>
                cases hk
                rw [List.filterMap_cons_some (show argName (.typed attrs (.ident i) ty) = some i from rfl)] at hn
                exact absurd (List.mem_filterMap (f := argName).2 ⟨_, hb, rfl⟩) (List.nodup_cons.1 hn).1
      clear ih hn hn'
      induction hl with
      | nil => simp
      | @cons b k l l' hk _ ih =>
        simp only [List.map_cons, List.zip_cons_cons, List.forall_mem_cons, hty]
        refine and_congr ?_ ?_
        · have t := tail b (List.mem_cons_self) k hk
          rw [namesStorage_iff hi, namesStorage_iff hk]
          constructor
          · intro H e1 e2; exact H (e1.trans e2.symm)
          · intro H e; exact H (t e) (e ▸ t e)
        · simp only [hty] at ih
          exact ih fun b hb => tail b (List.mem_cons_of_mem _ hb)
  exact key hF hn

theorem actionBorrows_iff (h : GenInfo syn src g sm L Lp) (hd : src.Distinct)
    (hn : ∀ mth ∈ src.methods, (mth.inputs.filterMap argName).Nodup) {link : Option Ident} {action : Option FnCall}
    (ha : ActionLink src link action) :
    (∀ c ∈ action, g.CallBorrows c) ↔
      ∀ am ∈ src.methods, am.Has "action" → link = some am.name → src.AsksOnce am := by
  unfold ActionLink at ha
  split at ha
  · subst ha
    simp
  · obtain ⟨am, ham, rfl, hk, c, rfl, hca⟩ := ha
    simp only [Option.mem_def, Option.some.injEq, forall_eq']
    rw [callBorrows_iff h hd ham (hn am ham) hca.fn hca.args]
    constructor
    · intro H am' ham' _ e
      cases hd.eq ham ham' e
      exact H
    · intro H
      exact H am ham hk rfl

theorem viewBorrows (h : GenInfo syn src g sm L Lp) (hc : g.Compiles) {link : Option Ident}
    {target : Option VariantPat} (ha : SupLink syn src link target) : ∀ p ∈ target, p.fields.Nodup := by
  unfold SupLink at ha
  split at ha
  · subst ha
    simp
  · obtain ⟨pm, hpm, rfl, hk, rfl⟩ := ha
    simp only [Option.mem_def, Option.some.injEq, forall_eq']
    obtain ⟨ls, -, hls, hdp⟩ := h.supOf hc hpm hk
    have hv' : ls.variant ∈ g.superstates := h.superstates.mem_iff.2 (List.mem_map.2 ⟨_, hls, rfl⟩)
    have := hc.supFields _ hv'
    rwa [hdp.lowered.fields] at this

theorem borrowChecks_iff {ord : Order} (h : expand syn ord src = .ok g) (hc : g.Compiles)
    (hn : ∀ mth ∈ src.methods, (mth.inputs.filterMap argName).Nodup) :
    g.BorrowChecks ↔ ∀ mth ∈ src.methods, src.Called mth → src.AsksOnce mth := by
  have hd := hc.distinct h
  obtain ⟨sm, L, Lp, hg⟩ := genInfo hd h
  have h1 := (forall_perm_map hg.handlerArms (Q := fun a => g.CallBorrows a.body)).trans <|
    hg.statesMap.forall_iff hd fun mth hm hk v hp =>
      callBorrows_iff hg hd hm (hn mth hm) hp.1.lowered.handlerFn hp.1.lowered.handlerArgs
  have h2 := (forall_perm_map hg.supHandlerArms (Q := fun a => g.CallBorrows a.body)).trans <|
    hg.superstatesMap.forall_iff hd fun mth hm hk v hp =>
      callBorrows_iff hg hd hm (hn mth hm) hp.lowered.handlerFn hp.lowered.handlerArgs
  have a1 := (forall_perm_map hg.entryArms (Q := fun a => ∀ c ∈ a.body, g.CallBorrows c)).trans <|
    hg.statesMap.forall_iff hd fun mth hm hk v hp => actionBorrows_iff hg hd hn hp.1.entry
  have a2 := (forall_perm_map hg.exitArms (Q := fun a => ∀ c ∈ a.body, g.CallBorrows c)).trans <|
    hg.statesMap.forall_iff hd fun mth hm hk v hp => actionBorrows_iff hg hd hn hp.1.exit
  have a3 := (forall_perm_map hg.supEntryArms (Q := fun a => ∀ c ∈ a.body, g.CallBorrows c)).trans <|
    hg.superstatesMap.forall_iff hd fun mth hm hk v hp => actionBorrows_iff hg hd hn hp.entry
  have a4 := (forall_perm_map hg.supExitArms (Q := fun a => ∀ c ∈ a.body, g.CallBorrows c)).trans <|
    hg.superstatesMap.forall_iff hd fun mth hm hk v hp => actionBorrows_iff hg hd hn hp.exit
  have s1 := (forall_perm_map hg.superstateArms (Q := fun a => ∀ p ∈ a.body, p.fields.Nodup)).trans <|
    hg.statesMap.forall_iff hd (R := fun _ => True) fun mth hm hk v hp =>
      ⟨fun _ => trivial, fun _ => viewBorrows hg hc hp.1.superstate⟩
  have s2 := (forall_perm_map hg.supSuperstateArms (Q := fun a => ∀ p ∈ a.body, p.fields.Nodup)).trans <|
    hg.superstatesMap.forall_iff hd (R := fun _ => True) fun mth hm hk v hp =>
      ⟨fun _ => trivial, fun _ => viewBorrows hg hc hp.superstate⟩
  constructor
  · rintro hb mth hm (hk | hk | ⟨hk, m, hmm, kind, rfl | rfl, hmk, hl | hl⟩)
    · exact h1.1 hb.handler mth hm hk
    · exact h2.1 hb.supHandler mth hm hk
    · exact a1.1 hb.entry m hmm hmk mth hm hk hl
    · exact a2.1 hb.exit m hmm hmk mth hm hk hl
    · exact a3.1 hb.supEntry m hmm hmk mth hm hk hl
    · exact a4.1 hb.supExit m hmm hmk mth hm hk hl
  · intro H
    exact ⟨h1.2 fun m hm hk => H m hm (.inl hk),
      a1.2 fun m hm hk am ham hka hl => H am ham (.inr (.inr ⟨hka, m, hm, _, .inl rfl, hk, .inl hl⟩)),
      a2.2 fun m hm hk am ham hka hl => H am ham (.inr (.inr ⟨hka, m, hm, _, .inl rfl, hk, .inr hl⟩)),
      s1.2 fun _ _ _ => trivial,
      h2.2 fun m hm hk => H m hm (.inr (.inl hk)),
      a3.2 fun m hm hk am ham hka hl => H am ham (.inr (.inr ⟨hka, m, hm, _, .inr rfl, hk, .inl hl⟩)),
      a4.2 fun m hm hk am ham hka hl => H am ham (.inr (.inr ⟨hka, m, hm, _, .inr rfl, hk, .inr hl⟩)),
      s2.2 fun _ _ _ => trivial⟩

end Statig.Macro
