import Verif.Spec.MacroAsync
import Verif.Props.MacroOrder
/-!
# What the macro does with `async`
-/
namespace Statig.Macro

/-! ## Loops -/

theorem foldlM_natural {ε α α' β β' : Type} {f : β → α → Except ε β} {f' : β' → α' → Except ε β'} (k : α → α')
    (h : β → β') (hf : ∀ b a, f' (h b) (k a) = (f b a).map h) :
    ∀ (l : List α) (b : β), (l.map k).foldlM f' (h b) = (l.foldlM f b).map h
  | [], b => rfl
  | a :: l, b => by
    rw [List.map_cons, List.foldlM_cons, List.foldlM_cons, hf]
    cases f b a with
    | error e => rfl
    | ok b' => exact foldlM_natural k h hf l b'

theorem mapM_natural {ε α α' β β' : Type} {f : α → Except ε β} {f' : α' → Except ε β'} (k : α → α')
    (h : β → β') (hf : ∀ a, f' (k a) = (f a).map h) :
    ∀ l : List α, (l.map k).mapM f' = (l.mapM f).map (List.map h)
  | [] => rfl
  | a :: l => by
    rw [List.map_cons, List.mapM_cons, List.mapM_cons, hf, mapM_natural k h hf l]
    cases f a with
    | error e => rfl
    | ok b =>
      cases l.mapM f with
      | error e => rfl
      | ok bs => rfl

/-- The values of a map, changed. -/
def HMap.over {V W : Type} (f : V → W) (m : HMap V) : HMap W := m.map fun e => (e.1, f e.2)

theorem HMap.insert_over {V W : Type} (f : V → W) (m : HMap V) (k : Ident) (v : V) :
    HMap.insert (HMap.over f m) k (f v) = HMap.over f (HMap.insert m k v) := by
  unfold HMap.insert HMap.over
  rw [List.any_map]
  have : (fun x : Ident × W => x.1 == k) ∘ (fun e : Ident × V => (e.1, f e.2)) = fun x => x.1 == k := rfl
  rw [this]
  split
  · rw [List.map_map, List.map_map]
    congr 1
    funext e
    simp only [Function.comp]
    split <;> rfl
  · rw [List.map_append]
    rfl

theorem HMap.get_over {V W : Type} (f : V → W) (m : HMap V) (k : Ident) :
    HMap.get (HMap.over f m) k = (HMap.get m k).map f := by
  unfold HMap.get HMap.over
  induction m with
  | nil => rfl
  | cons e m ih =>
    rw [List.map_cons, List.lookup_cons, List.lookup_cons, ih]
    split <;> rfl

/-! ## Analysis -/

/-- `analyze::State`, not `async`. -/
def State.sync (s : State) : State := { s with isAsync := false }

/-- `analyze::Action`, not `async`. -/
def Action.sync (a : Action) : Action := { a with isAsync := false }

/-- The maps without `async`. -/
def Maps.sync (r : Maps) : Maps :=
  ⟨r.method.sync, HMap.over State.sync r.states, HMap.over State.sync r.superstates, HMap.over Action.sync r.actions⟩

/-- `analyze::Model` without `async`. -/
def Model.sync (m : Model) : Model :=
  ⟨m.methods.map Method.sync, m.stateMachine, HMap.over State.sync m.states, HMap.over State.sync m.superstates,
    HMap.over Action.sync m.actions⟩

section
variable {syn : Syn} {sm : StateMachine}

theorem analyzeState_sync (mth : Method) :
    analyzeState syn sm mth.sync = (analyzeState syn sm mth).map fun p => (p.1.sync, p.2.sync) := by
  unfold analyzeState
  show (if mth.generic then _ else _) = _
  split
  · rfl
  · show (List.foldlM (analyzeStateInput sm) {} mth.inputs >>= _) =
      Except.map _ (List.foldlM (analyzeStateInput sm) {} mth.inputs >>= _)
    cases List.foldlM (analyzeStateInput sm) {} mth.inputs with
    | error e => rfl
    | ok i =>
      show (List.foldlM (analyzeMeta syn) {} (getMeta mth.attrs "state") >>= _) =
        Except.map _ (List.foldlM (analyzeMeta syn) {} (getMeta mth.attrs "state") >>= _)
      cases List.foldlM (analyzeMeta syn) {} (getMeta mth.attrs "state") with
      | error e => rfl
      | ok l => rfl

theorem analyzeSuperstate_sync (mth : Method) :
    analyzeSuperstate syn sm mth.sync = (analyzeSuperstate syn sm mth).map State.sync := by
  unfold analyzeSuperstate
  show (if mth.generic then _ else _) = _
  split
  · rfl
  · show (List.foldlM (analyzeSuperstateInput sm) {} mth.inputs >>= _) =
      Except.map _ (List.foldlM (analyzeSuperstateInput sm) {} mth.inputs >>= _)
    cases List.foldlM (analyzeSuperstateInput sm) {} mth.inputs with
    | error e => rfl
    | ok i =>
      show (List.foldlM (analyzeMeta syn) {} (getMeta mth.attrs "superstate") >>= _) =
        Except.map _ (List.foldlM (analyzeMeta syn) {} (getMeta mth.attrs "superstate") >>= _)
      cases List.foldlM (analyzeMeta syn) {} (getMeta mth.attrs "superstate") with
      | error e => rfl
      | ok l => rfl

theorem analyzeAction_sync (mth : Method) : analyzeAction mth.sync = (analyzeAction mth).map Action.sync := by
  unfold analyzeAction
  show (if mth.generic then _ else _) = _
  split <;> rfl

theorem analyzeAttr_sync (r : Maps) (path : Ident) :
    analyzeAttr syn sm r.sync path = (analyzeAttr syn sm r path).map Maps.sync := by
  unfold analyzeAttr
  split
  · show (analyzeState syn sm r.method.sync >>= _) = Except.map _ (analyzeState syn sm r.method >>= _)
    rw [analyzeState_sync]
    cases analyzeState syn sm r.method with
    | error e => rfl
    | ok p =>
      show Except.ok _ = Except.ok _
      simp only [Maps.sync, ← HMap.insert_over]
      rfl
  · split
    · show (analyzeSuperstate syn sm r.method.sync >>= _) = Except.map _ (analyzeSuperstate syn sm r.method >>= _)
      rw [analyzeSuperstate_sync]
      cases analyzeSuperstate syn sm r.method with
      | error e => rfl
      | ok p =>
        show Except.ok _ = Except.ok _
        simp only [Maps.sync, ← HMap.insert_over]
        rfl
    · split
      · show (analyzeAction r.method.sync >>= _) = Except.map _ (analyzeAction r.method >>= _)
        rw [analyzeAction_sync]
        cases analyzeAction r.method with
        | error e => rfl
        | ok p =>
          show Except.ok _ = Except.ok _
          simp only [Maps.sync, ← HMap.insert_over]
          rfl
      · rfl

theorem analyzeMethod_sync (acc : Model) (mth : Method) :
    analyzeMethod syn sm acc.sync mth.sync = (analyzeMethod syn sm acc mth).map Model.sync := by
  unfold analyzeMethod
  have h := foldlM_natural id Maps.sync (fun b a => analyzeAttr_sync (syn := syn) (sm := sm) b a)
    (mth.attrs.map (·.path)) ⟨mth, acc.states, acc.superstates, acc.actions⟩
  rw [List.map_id] at h
  show (List.foldlM (analyzeAttr syn sm) (Maps.sync ⟨mth, acc.states, acc.superstates, acc.actions⟩)
    (mth.attrs.map (·.path)) >>= _) = _
  rw [h]
  cases List.foldlM (analyzeAttr syn sm) (⟨mth, acc.states, acc.superstates, acc.actions⟩ : Maps)
    (mth.attrs.map (·.path)) with
  | error e => rfl
  | ok r =>
    show Except.ok _ = Except.ok _
    simp only [Model.sync, List.map_append]
    rfl

end

theorem analyze_sync {syn : Syn} {selfTy : Ty} {generics : Generics} {args : List Setting} (methods : List Method) :
    analyze syn selfTy generics args (methods.map Method.sync) =
      (analyze syn selfTy generics args methods).map Model.sync := by
  unfold analyze
  cases analyzeStateMachine syn selfTy generics args with
  | error e => rfl
  | ok sm => exact foldlM_natural Method.sync Model.sync (fun b a => analyzeMethod_sync b a) methods ⟨[], sm, [], [], []⟩

/-! ## Lowering -/

/-- `lower::State` without `.await`. -/
def LState.sync (s : LState) : LState :=
  { s with handlerCall := s.handlerCall.sync, entryActionCall := s.entryActionCall.map FnCall.sync
           exitActionCall := s.exitActionCall.map FnCall.sync }

/-- `lower::Superstate` without `.await`. -/
def LSuperstate.sync (s : LSuperstate) : LSuperstate :=
  { s with handlerCall := s.handlerCall.sync, entryActionCall := s.entryActionCall.map FnCall.sync
           exitActionCall := s.exitActionCall.map FnCall.sync }

/-- `lower::Ir` without `async` and `.await`. -/
def Ir.sync (ir : Ir) : Ir :=
  { ir with methods := ir.methods.map Method.sync, mode := .blocking, states := HMap.over LState.sync ir.states
            superstates := HMap.over LSuperstate.sync ir.superstates }

section
variable {syn : Syn}

theorem lowerState_sync (s : State) : lowerState syn s.sync = (lowerState syn s).map LState.sync := by
  unfold lowerState
  show (pascal syn s.handlerName >>= _) = Except.map _ (pascal syn s.handlerName >>= _)
  cases pascal syn s.handlerName with
  | error e => rfl
  | ok v =>
    show (s.stateInputs.mapM fnArgToStateField >>= _) = Except.map _ (s.stateInputs.mapM fnArgToStateField >>= _)
    cases s.stateInputs.mapM fnArgToStateField with
    | error e => rfl
    | ok fs =>
      show (s.inputs.mapM fnArgToIdent >>= _) = Except.map _ (s.inputs.mapM fnArgToIdent >>= _)
      cases s.inputs.mapM fnArgToIdent with
      | error e => rfl
      | ok is => rfl

theorem lowerSuperstate_sync (s : State) : lowerSuperstate syn s.sync = (lowerSuperstate syn s).map LSuperstate.sync := by
  unfold lowerSuperstate
  show (pascal syn s.handlerName >>= _) = Except.map _ (pascal syn s.handlerName >>= _)
  cases pascal syn s.handlerName with
  | error e => rfl
  | ok v =>
    show (s.stateInputs.mapM fnArgToSuperstateField >>= _) =
      Except.map _ (s.stateInputs.mapM fnArgToSuperstateField >>= _)
    cases s.stateInputs.mapM fnArgToSuperstateField with
    | error e => rfl
    | ok fs =>
      show (s.inputs.mapM fnArgToIdent >>= _) = Except.map _ (s.inputs.mapM fnArgToIdent >>= _)
      cases s.inputs.mapM fnArgToIdent with
      | error e => rfl
      | ok is => rfl

theorem lowerAction_sync (a : Action) : lowerAction a.sync = (lowerAction a).map FnCall.sync := by
  unfold lowerAction
  show (a.inputs.mapM fnArgToIdent >>= _) = Except.map _ (a.inputs.mapM fnArgToIdent >>= _)
  cases a.inputs.mapM fnArgToIdent with
  | error e => rfl
  | ok is => rfl

theorem resolveLink_over {V W : Type} (f : V → W) (m : HMap V) (msg : String) (link : Option Ident) :
    resolveLink (HMap.over f m) msg link = (resolveLink m msg link).map (Option.map f) := by
  unfold resolveLink
  cases link with
  | none => rfl
  | some i =>
    simp only [HMap.get_over]
    cases HMap.get m i <;> rfl

theorem map_sup {α : Type} (o : Option α) (f : α → α) (g : α → Option Ident) (h : ∀ a, g (f a) = g a) :
    (o.map f).bind g = o.bind g := by
  cases o with
  | none => rfl
  | some a => exact h a

theorem linkState_sync (model : Model) (sups : HMap LSuperstate) (actions : HMap FnCall) (e : Ident × LState) :
    linkState model.sync (HMap.over LSuperstate.sync sups) (HMap.over FnCall.sync actions) (e.1, e.2.sync) =
      (linkState model sups actions e).map fun e => (e.1, e.2.sync) := by
  unfold linkState
  simp only [Model.sync, HMap.get_over, resolveLink_over]
  rw [map_sup _ State.sync (·.superstate) (fun _ => rfl), map_sup _ State.sync (·.entryAction) (fun _ => rfl),
    map_sup _ State.sync (·.exitAction) (fun _ => rfl)]
  cases resolveLink sups "superstate not found" ((HMap.get model.states e.1).bind (·.superstate)) with
  | error e => rfl
  | ok s =>
    show (Except.map _ (resolveLink actions "entry action not found" ((HMap.get model.states e.1).bind (·.entryAction)))
      >>= _) = Except.map _ ((resolveLink actions "entry action not found"
      ((HMap.get model.states e.1).bind (·.entryAction))) >>= _)
    cases resolveLink actions "entry action not found" ((HMap.get model.states e.1).bind (·.entryAction)) with
    | error e => rfl
    | ok en =>
      show (Except.map _ (resolveLink actions "exit action not found" ((HMap.get model.states e.1).bind (·.exitAction)))
        >>= _) = Except.map _ ((resolveLink actions "exit action not found"
        ((HMap.get model.states e.1).bind (·.exitAction))) >>= _)
      cases resolveLink actions "exit action not found" ((HMap.get model.states e.1).bind (·.exitAction)) with
      | error e => rfl
      | ok ex =>
        show Except.ok _ = Except.ok _
        obtain ⟨n, ls⟩ := e
        cases s <;> cases en <;> cases ex <;> rfl

theorem linkSuperstate_sync (model : Model) (sups : HMap LSuperstate) (actions : HMap FnCall) (e : Ident × LSuperstate) :
    linkSuperstate model.sync (HMap.over LSuperstate.sync sups) (HMap.over FnCall.sync actions) (e.1, e.2.sync) =
      (linkSuperstate model sups actions e).map fun e => (e.1, e.2.sync) := by
  unfold linkSuperstate
  simp only [Model.sync, HMap.get_over, resolveLink_over]
  rw [map_sup _ State.sync (·.superstate) (fun _ => rfl), map_sup _ State.sync (·.entryAction) (fun _ => rfl),
    map_sup _ State.sync (·.exitAction) (fun _ => rfl)]
  cases resolveLink sups "superstate not found" ((HMap.get model.superstates e.1).bind (·.superstate)) with
  | error e => rfl
  | ok s =>
    show (Except.map _ (resolveLink actions "action not found" ((HMap.get model.superstates e.1).bind (·.entryAction)))
      >>= _) = Except.map _ ((resolveLink actions "action not found"
      ((HMap.get model.superstates e.1).bind (·.entryAction))) >>= _)
    cases resolveLink actions "action not found" ((HMap.get model.superstates e.1).bind (·.entryAction)) with
    | error e => rfl
    | ok en =>
      show (Except.map _ (resolveLink actions "action not found" ((HMap.get model.superstates e.1).bind (·.exitAction)))
        >>= _) = Except.map _ ((resolveLink actions "action not found"
        ((HMap.get model.superstates e.1).bind (·.exitAction))) >>= _)
      cases resolveLink actions "action not found" ((HMap.get model.superstates e.1).bind (·.exitAction)) with
      | error e => rfl
      | ok ex =>
        show Except.ok _ = Except.ok _
        obtain ⟨n, ls⟩ := e
        cases s <;> cases en <;> cases ex <;> rfl

/-- The local variables without `async`. -/
def Found.sync (f : Found) : Found := { f with mode := .blocking }

theorem findTypes_sync (sm : StateMachine) (acc : Found) (e : Ident × State) :
    findTypes sm acc.sync (e.1, e.2.sync) = (findTypes sm acc e).map Found.sync := by
  unfold findTypes
  show (findType sm.eventIdent _ e.2.eventArg acc.eventType >>= _) =
    Except.map _ (findType sm.eventIdent _ e.2.eventArg acc.eventType >>= _)
  cases findType sm.eventIdent "event must be passed in as a reference" e.2.eventArg acc.eventType with
  | error e => rfl
  | ok a =>
    show (findType sm.contextIdent _ e.2.contextArg acc.contextType >>= _) =
      Except.map _ (findType sm.contextIdent _ e.2.contextArg acc.contextType >>= _)
    cases findType sm.contextIdent "context must be passed in as a reference" e.2.contextArg acc.contextType with
    | error e => rfl
    | ok b => rfl

/-- Hash maps are iterated in order of insertion. -/
def inOrder : Order where
  perm _ l := l
  perm_perm _ _ := .refl _

theorem mode_sync (l : HMap Action) :
    (HMap.over Action.sync l).foldl (fun m e => if e.2.isAsync then Mode.awaitable else m) .blocking = .blocking := by
  unfold HMap.over
  induction l with
  | nil => rfl
  | cons a l ih => exact ih

theorem flatMap_over {V W : Type} (f : V → W) (m : HMap V) {A : Type} (k : Ident × W → List A) :
    (HMap.over f m).flatMap k = m.flatMap fun e => k (e.1, f e.2) := by
  unfold HMap.over
  rw [List.flatMap_map]

theorem lower_sync (model : Model) : lower syn inOrder model.sync = (lower syn inOrder model).map Ir.sync := by
  have h1 := mapM_natural (fun e : Ident × State => (e.1, e.2.sync)) (fun e : Ident × LState => (e.1, e.2.sync))
    (f := fun e => do let s ← lowerState syn e.2; .ok (e.1, s)) (f' := fun e => do let s ← lowerState syn e.2; .ok (e.1, s))
    (fun a => by
      show (lowerState syn a.2.sync >>= _) = _
      rw [lowerState_sync]
      cases lowerState syn a.2 <;> rfl) model.states
  have h2 := mapM_natural (fun e : Ident × State => (e.1, e.2.sync)) (fun e : Ident × LSuperstate => (e.1, e.2.sync))
    (f := fun e => do let s ← lowerSuperstate syn e.2; .ok (e.1, s))
    (f' := fun e => do let s ← lowerSuperstate syn e.2; .ok (e.1, s))
    (fun a => by
      show (lowerSuperstate syn a.2.sync >>= _) = _
      rw [lowerSuperstate_sync]
      cases lowerSuperstate syn a.2 <;> rfl) model.superstates
  have h3 := mapM_natural (fun e : Ident × Action => (e.1, e.2.sync)) (fun e : Ident × FnCall => (e.1, e.2.sync))
    (f := fun e => do let s ← lowerAction e.2; .ok (e.1, s)) (f' := fun e => do let s ← lowerAction e.2; .ok (e.1, s))
    (fun a => by
      show (lowerAction a.2.sync >>= _) = _
      rw [lowerAction_sync]
      cases lowerAction a.2 <;> rfl) model.actions
  unfold lower
  simp only [inOrder]
  show (List.mapM _ (model.states.map fun e => (e.1, e.2.sync)) >>= _) = _
  rw [h1]
  cases List.mapM (fun e : Ident × State => do let s ← lowerState syn e.2; .ok (e.1, s)) model.states with
  | error e => rfl
  | ok states =>
    show (List.mapM _ (model.superstates.map fun e => (e.1, e.2.sync)) >>= _) = Except.map _ (_ >>= _)
    rw [h2]
    cases List.mapM (fun e : Ident × State => do let s ← lowerSuperstate syn e.2; .ok (e.1, s)) model.superstates with
    | error e => rfl
    | ok sups =>
      show (List.mapM _ (model.actions.map fun e => (e.1, e.2.sync)) >>= _) = Except.map _ (_ >>= _)
      rw [h3]
      cases List.mapM (fun e : Ident × Action => do let s ← lowerAction e.2; .ok (e.1, s)) model.actions with
      | error e => rfl
      | ok actions =>
        show (List.mapM (linkState model.sync (HMap.over LSuperstate.sync sups) (HMap.over FnCall.sync actions))
          (states.map fun e => (e.1, e.2.sync)) >>= _) = Except.map _ (List.mapM (linkState model sups actions) states >>= _)
        rw [mapM_natural (fun e : Ident × LState => (e.1, e.2.sync)) (fun e : Ident × LState => (e.1, e.2.sync))
          (linkState_sync model sups actions)]
        cases List.mapM (linkState model sups actions) states with
        | error e => rfl
        | ok states' =>
          show (List.mapM (linkSuperstate model.sync (HMap.over LSuperstate.sync sups) (HMap.over FnCall.sync actions))
            (sups.map fun e => (e.1, e.2.sync)) >>= _) =
            Except.map _ (List.mapM (linkSuperstate model sups actions) sups >>= _)
          rw [mapM_natural (fun e : Ident × LSuperstate => (e.1, e.2.sync)) (fun e : Ident × LSuperstate => (e.1, e.2.sync))
            (linkSuperstate_sync model sups actions)]
          cases List.mapM (linkSuperstate model sups actions) sups with
          | error e => rfl
          | ok linked =>
            show (List.foldlM (findTypes model.stateMachine) (Found.sync {}) (model.states.map fun e => (e.1, e.2.sync)) >>= _)
              = Except.map _ (List.foldlM (findTypes model.stateMachine) {} model.states >>= _)
            rw [foldlM_natural (fun e : Ident × State => (e.1, e.2.sync)) Found.sync
              (findTypes_sync model.stateMachine)]
            cases List.foldlM (findTypes model.stateMachine) {} model.states with
            | error e => rfl
            | ok found =>
              show (List.foldlM (findTypes model.stateMachine) found.sync
                (model.superstates.map fun e => (e.1, e.2.sync)) >>= _) =
                Except.map _ (List.foldlM (findTypes model.stateMachine) found model.superstates >>= _)
              rw [foldlM_natural (fun e : Ident × State => (e.1, e.2.sync)) Found.sync
                (findTypes_sync model.stateMachine)]
              cases List.foldlM (findTypes model.stateMachine) found model.superstates with
              | error e => rfl
              | ok found' =>
                show (mapGenerics model.stateMachine.generics >>= _) =
                  Except.map _ (mapGenerics model.stateMachine.generics >>= _)
                cases mapGenerics model.stateMachine.generics with
                | error e => rfl
                | ok gens =>
                  show Except.ok _ = Except.ok _
                  simp only [Except.ok.injEq, Model.sync, flatMap_over]
                  have hany : (HMap.over State.sync model.superstates).any (fun e => !e.2.stateInputs.isEmpty) =
                      model.superstates.any fun e => !e.2.stateInputs.isEmpty := by
                    unfold HMap.over
                    rw [List.any_map]
                    rfl
                  have hmode := mode_sync model.actions
                  simp only [Ir.sync, Found.sync, hany, hmode]
                  rfl

end

/-! ## Code generation -/

theorem codegen_sync (ir : Ir) : codegen inOrder ir.sync = (codegen inOrder ir).sync := by
  unfold codegen Gen.sync
  simp only [inOrder, Ir.sync, HMap.over, List.map_map]
  rfl

theorem expand_sync {syn : Syn} (src : Source) :
    expand syn inOrder src.sync = (expand syn inOrder src).map Gen.sync := by
  unfold expand
  show (analyze syn src.selfTy src.generics src.args (src.methods.map Method.sync) >>= _) = _
  rw [analyze_sync]
  cases analyze syn src.selfTy src.generics src.args src.methods with
  | error e => rfl
  | ok model =>
    show (lower syn inOrder model.sync >>= _) = Except.map _ (lower syn inOrder model >>= _)
    rw [lower_sync]
    cases lower syn inOrder model with
    | error e => rfl
    | ok ir => exact congrArg Except.ok (codegen_sync ir)

end Statig.Macro
