import Verif.Proofs.Macro.Follows
/-!
# The order in which hash maps are iterated
-/
namespace Statig.Macro

theorem Res.bind_of {ε α β : Type} {x : Except ε α} {f : α → Except ε β} {a : α} {r : Except ε β} (h : x = .ok a)
    (h' : f a = r) : (x >>= f) = r := by
  rw [h]
  exact h'

theorem mapM_perm {ε α β : Type} {f : α → Except ε β} {l l' : List α} (hp : l.Perm l') :
    ∀ {r : List β}, l.mapM f = .ok r → ∃ r', l'.mapM f = .ok r' ∧ r.Perm r' := by
  induction hp with
  | nil => exact fun h => ⟨_, h, .refl _⟩
  | cons a _ ih =>
    intro r h
    rw [List.mapM_cons] at h
    obtain ⟨b, hb, h⟩ := Res.bind_ok h
    obtain ⟨bs, hbs, h⟩ := Res.bind_ok h
    cases h
    obtain ⟨r', hr', hp'⟩ := ih hbs
    exact ⟨b :: r', by rw [List.mapM_cons, hb, hr']; rfl, hp'.cons b⟩
  | swap a b l =>
    intro r h
    rw [List.mapM_cons, List.mapM_cons] at h
    obtain ⟨b', hb, h⟩ := Res.bind_ok h
    obtain ⟨bs, hbs, h⟩ := Res.bind_ok h
    obtain ⟨a', ha, hbs⟩ := Res.bind_ok hbs
    obtain ⟨cs, hcs, hbs⟩ := Res.bind_ok hbs
    cases h
    cases hbs
    exact ⟨a' :: b' :: cs, by rw [List.mapM_cons, List.mapM_cons, ha, hb, hcs]; rfl, .swap _ _ _⟩
  | trans _ _ ih1 ih2 =>
    intro r h
    obtain ⟨r1, h1, p1⟩ := ih1 h
    obtain ⟨r2, h2, p2⟩ := ih2 h1
    exact ⟨r2, h2, p1.trans p2⟩

theorem mapM_keys {V W : Type} {m : HMap V} {r : HMap W} {f : Ident × V → Res (Ident × W)} (h : m.mapM f = .ok r)
    (hf : ∀ e r, f e = .ok r → r.1 = e.1) : r.map (·.1) = m.map (·.1) := by
  have := mapM_ok h
  clear h
  induction this with
  | nil => rfl
  | cons hab _ ih =>
    simp only [List.map_cons]
    rw [ih, hf _ _ hab]

theorem get_perm {V : Type} {m m' : HMap V} (hp : m.Perm m') (hn : (m.map (·.1)).Nodup) :
    HMap.get m = HMap.get m' := by
  funext k
  apply Option.ext
  intro v
  rw [HMap.get_iff hn, HMap.get_iff ((hp.map _).nodup_iff.1 hn), hp.mem_iff]

theorem resolveLink_perm {V : Type} {m m' : HMap V} (h : HMap.get m = HMap.get m') :
    resolveLink m = resolveLink m' := by
  funext msg link
  unfold resolveLink
  rw [h]

/-! ## Types -/

/-- The type of an event or context argument. -/
def refArg (ident : Ident) : Option PatType → Option Ty
  | some ⟨.ident i, .ref _ _ elem⟩ => if ident = i then some elem else none
  | _ => none

/-- The argument is not the event (or context), or is passed by reference. -/
def RefArg (ident : Ident) : Option PatType → Prop
  | some ⟨.ident _, .ref _ _ _⟩ => True
  | some ⟨.ident i, _⟩ => ident ≠ i
  | _ => True

theorem findType_ok {ident : Ident} {msg : String} {arg : Option PatType} {acc : Option Ty} {r : Option Ty} :
    findType ident msg arg acc = .ok r ↔ RefArg ident arg ∧ r = (refArg ident arg).or acc := by
  unfold findType RefArg refArg
  rcases arg with _ | ⟨_ | _ | _, _ | _ | _⟩ <;> simp [eq_comm]
  all_goals split <;> simp_all [eq_comm]

theorem findTypes_ok {sm : StateMachine} {acc r : Found} {e : Ident × State} :
    findTypes sm acc e = .ok r ↔
      (RefArg sm.eventIdent e.2.eventArg ∧ RefArg sm.contextIdent e.2.contextArg) ∧
      r = { mode := if e.2.isAsync then .awaitable else acc.mode
            eventType := (refArg sm.eventIdent e.2.eventArg).or acc.eventType
            contextType := (refArg sm.contextIdent e.2.contextArg).or acc.contextType } := by
  unfold findTypes
  constructor
  · intro h
    obtain ⟨a, ha, h⟩ := Res.bind_ok h
    obtain ⟨b, hb, h⟩ := Res.bind_ok h
    rw [findType_ok] at ha hb
    cases h
    exact ⟨⟨ha.1, hb.1⟩, by rw [ha.2, hb.2]⟩
  · rintro ⟨⟨h1, h2⟩, rfl⟩
    rw [findType_ok.2 ⟨h1, rfl⟩]
    show (findType _ _ _ _ >>= _) = _
    rw [findType_ok.2 ⟨h2, rfl⟩]
    rfl

/-- The loop over states or superstates does not abort. -/
theorem foldlM_findTypes {sm : StateMachine} {l : List (Ident × State)} : ∀ {acc : Found},
    (∃ r, l.foldlM (findTypes sm) acc = .ok r) ↔
      ∀ e ∈ l, RefArg sm.eventIdent e.2.eventArg ∧ RefArg sm.contextIdent e.2.contextArg := by
  induction l with
  | nil => intro acc; simp [pure, Except.pure]
  | cons a l ih =>
    intro acc
    simp only [List.foldlM_cons, List.forall_mem_cons]
    constructor
    · rintro ⟨r, h⟩
      obtain ⟨b, hb, h⟩ := Res.bind_ok h
      exact ⟨(findTypes_ok.1 hb).1, ih.1 ⟨r, h⟩⟩
    · rintro ⟨h1, h2⟩
      obtain ⟨r, hr⟩ := ih.2 h2
      refine ⟨r, ?_⟩
      rw [findTypes_ok.2 ⟨h1, rfl⟩]
      exact hr

/-- What type it finds. -/
theorem foldlM_eventType {sm : StateMachine} {l : List (Ident × State)} {acc r : Found}
    (h : l.foldlM (findTypes sm) acc = .ok r) :
    (r.eventType = acc.eventType ∧ ∀ e ∈ l, refArg sm.eventIdent e.2.eventArg = none) ∨
      ∃ T, r.eventType = some T ∧ ∃ e ∈ l, refArg sm.eventIdent e.2.eventArg = some T := by
  refine foldlM_inv' (fun l r => (r.eventType = acc.eventType ∧ ∀ e ∈ l, refArg sm.eventIdent e.2.eventArg = none) ∨
      ∃ T, r.eventType = some T ∧ ∃ e ∈ l, refArg sm.eventIdent e.2.eventArg = some T) h (.inl ⟨rfl, by simp⟩) ?_
  intro pre a b b' h e
  obtain ⟨_, rfl⟩ := findTypes_ok.1 e
  simp only
  cases ha : refArg sm.eventIdent a.2.eventArg with
  | some T => exact .inr ⟨T, by simp, a, by simp, ha⟩
  | none =>
    rcases h with ⟨h1, h2⟩ | ⟨T, h1, e, he, h2⟩
    · refine .inl ⟨by simpa using h1, ?_⟩
      intro e he
      rcases List.mem_append.1 he with he | he
      · exact h2 e he
      · rw [List.mem_singleton] at he
        exact he ▸ ha
    · exact .inr ⟨T, by simpa using h1, e, by simp [he], h2⟩

theorem foldlM_contextType {sm : StateMachine} {l : List (Ident × State)} {acc r : Found}
    (h : l.foldlM (findTypes sm) acc = .ok r) :
    (r.contextType = acc.contextType ∧ ∀ e ∈ l, refArg sm.contextIdent e.2.contextArg = none) ∨
      ∃ T, r.contextType = some T ∧ ∃ e ∈ l, refArg sm.contextIdent e.2.contextArg = some T := by
  refine foldlM_inv' (fun l r => (r.contextType = acc.contextType ∧ ∀ e ∈ l, refArg sm.contextIdent e.2.contextArg = none) ∨
      ∃ T, r.contextType = some T ∧ ∃ e ∈ l, refArg sm.contextIdent e.2.contextArg = some T) h (.inl ⟨rfl, by simp⟩) ?_
  intro pre a b b' h e
  obtain ⟨_, rfl⟩ := findTypes_ok.1 e
  simp only
  cases ha : refArg sm.contextIdent a.2.contextArg with
  | some T => exact .inr ⟨T, by simp, a, by simp, ha⟩
  | none =>
    rcases h with ⟨h1, h2⟩ | ⟨T, h1, e, he, h2⟩
    · refine .inl ⟨by simpa using h1, ?_⟩
      intro e he
      rcases List.mem_append.1 he with he | he
      · exact h2 e he
      · rw [List.mem_singleton] at he
        exact he ▸ ha
    · exact .inr ⟨T, by simpa using h1, e, by simp [he], h2⟩

/-! ## The result -/

/-- The same up to the order of methods and of the entries of hash maps. -/
structure Model.Reordered (m m' : Model) : Prop where
  stateMachine : m'.stateMachine = m.stateMachine
  states : m.states.Perm m'.states
  superstates : m.superstates.Perm m'.superstates
  actions : m.actions.Perm m'.actions

/-- The same up to the order of hash maps, and except for the methods and the types of event and context. -/
structure Ir.Reordered (ir ir' : Ir) : Prop where
  stateMachine : ir'.stateMachine = ir.stateMachine
  superstateLifetime : ir'.superstateLifetime = ir.superstateLifetime
  stateGenerics : ir'.stateGenerics = ir.stateGenerics
  superstateGenerics : ir'.superstateGenerics = ir.superstateGenerics
  stateImplGenerics : ir'.stateImplGenerics = ir.stateImplGenerics
  superstateImplGenerics : ir'.superstateImplGenerics = ir.superstateImplGenerics
  turbofish : ir'.turbofish = ir.turbofish
  mode : ir'.mode = ir.mode
  states : ir.states.Perm ir'.states
  superstates : ir.superstates.Perm ir'.superstates

theorem mode_eq {a b : Mode} (h : a = .awaitable ↔ b = .awaitable) : a = b := by
  cases a <;> cases b <;> simp_all

theorem any_perm {α : Type} {l l' : List α} {p : α → Bool} (h : l.Perm l') : l.any p = l'.any p := by
  rw [Bool.eq_iff_iff, List.any_eq_true, List.any_eq_true]
  simp only [h.mem_iff]

theorem lower_reordered {syn : Syn} {ord : Order} {model model' : Model} {ir : Ir} (hr : model.Reordered model')
    (hn0 : (model.states.map (·.1)).Nodup)
    (hn : (model.superstates.map (·.1)).Nodup) (hn' : (model.actions.map (·.1)).Nodup)
    (h : lower syn ord model = .ok ir) (ord' : Order) :
    ∃ ir', lower syn ord' model' = .ok ir' ∧ ir.Reordered ir' ∧ ir.methods = model.methods ∧
      ir'.methods = model'.methods := by
  unfold lower at h
  obtain ⟨states, hstates, h⟩ := Res.bind_ok h
  obtain ⟨sups, hsups, h⟩ := Res.bind_ok h
  obtain ⟨actions, hactions, h⟩ := Res.bind_ok h
  obtain ⟨states', hstates', h⟩ := Res.bind_ok h
  obtain ⟨sups', hsups', h⟩ := Res.bind_ok h
  obtain ⟨found, hf, h⟩ := Res.bind_ok h
  obtain ⟨found', hf', h⟩ := Res.bind_ok h
  obtain ⟨gen, hgen, h⟩ := Res.bind_ok h
  cases h
  have p : ∀ {α : Type} (n : Nat) {l l' : List α}, l.Perm l' → (ord.perm n l).Perm (ord'.perm n l') :=
    fun n _ _ h => ((ord.perm_perm n _).trans h).trans (ord'.perm_perm n _).symm
  obtain ⟨states2, hstates2, p1⟩ := mapM_perm (p 0 hr.states) hstates
  obtain ⟨sups2, hsups2, p2⟩ := mapM_perm (p 1 hr.superstates) hsups
  obtain ⟨actions2, hactions2, p3⟩ := mapM_perm (p 2 hr.actions) hactions
  have k1 : (sups.map (·.1)).Nodup := by
    rw [mapM_keys hsups ?_, ((ord.perm_perm 1 _).map _).nodup_iff]
    · exact hn
    · intro e r he
      obtain ⟨_, _, he⟩ := Res.bind_ok he
      cases he
      rfl
  have k2 : (actions.map (·.1)).Nodup := by
    rw [mapM_keys hactions ?_, ((ord.perm_perm 2 _).map _).nodup_iff]
    · exact hn'
    · intro e r he
      obtain ⟨_, _, he⟩ := Res.bind_ok he
      cases he
      rfl
  have l1 : linkState model sups actions = linkState model' sups2 actions2 := by
    funext e
    unfold linkState
    rw [resolveLink_perm (get_perm p2 k1), resolveLink_perm (get_perm p3 k2), get_perm hr.states hn0]
  have l2 : linkSuperstate model sups actions = linkSuperstate model' sups2 actions2 := by
    funext e
    unfold linkSuperstate
    rw [resolveLink_perm (get_perm p2 k1), resolveLink_perm (get_perm p3 k2), get_perm hr.superstates hn]
  rw [l1] at hstates'
  rw [l2] at hsups'
  obtain ⟨states2', hstates2', p4⟩ := mapM_perm (p 3 p1) hstates'
  obtain ⟨sups2', hsups2', p5⟩ := mapM_perm (p 4 p2) hsups'
  obtain ⟨found2, hf2⟩ := foldlM_findTypes (acc := {}).2 fun e he =>
    foldlM_findTypes.1 ⟨_, hf⟩ e ((p 5 hr.states).mem_iff.2 he)
  obtain ⟨found2', hf2'⟩ := foldlM_findTypes (acc := found2).2 fun e he =>
    foldlM_findTypes.1 ⟨_, hf'⟩ e ((p 6 hr.superstates).mem_iff.2 he)
  rw [← hr.stateMachine] at hf2 hf2' hgen
  have hany : (model'.superstates.any fun e => !e.2.stateInputs.isEmpty) =
      model.superstates.any fun e => !e.2.stateInputs.isEmpty := any_perm hr.superstates.symm
  refine ⟨_, Res.bind_of hstates2 (Res.bind_of hsups2 (Res.bind_of hactions2 (Res.bind_of hstates2'
    (Res.bind_of hsups2' (Res.bind_of hf2 (Res.bind_of hf2' (Res.bind_of hgen rfl))))))), ?_, rfl, rfl⟩
  · refine ⟨hr.stateMachine, hany, ?_, ?_, congrArg StateMachine.generics hr.stateMachine, ?_,
      congrArg (fun s => turbofish s.generics) hr.stateMachine, mode_eq ?_, p4, p5⟩
    · simp only [List.mem_flatMap, (ord.perm_perm _ _).mem_iff, (ord'.perm_perm _ _).mem_iff, hr.states.mem_iff,
        hr.stateMachine]
    · simp only [List.mem_flatMap, (ord.perm_perm _ _).mem_iff, (ord'.perm_perm _ _).mem_iff, hr.superstates.mem_iff,
        hr.stateMachine, hany]
    · simp only [hr.stateMachine, hany]
    simp only
    rw [foldl_mode, foldl_mode, (foundInfo hf').mode, (foundInfo hf).mode, (foundInfo hf2').mode, (foundInfo hf2).mode]
    simp only [(ord.perm_perm _ _).mem_iff, (ord'.perm_perm _ _).mem_iff, hr.states.mem_iff, hr.superstates.mem_iff,
      hr.actions.mem_iff]

end Statig.Macro
