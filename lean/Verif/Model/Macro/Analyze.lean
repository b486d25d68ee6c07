import Verif.Model.Macro.Syntax
/-!
# The `#[state_machine]` macro: `macro/src/analyze.rs`
-/
namespace Statig.Macro

/-- `std::collections::HashMap<Ident, _>` by its entries; the order of the entries is arbitrary, see `Order`. -/
abbrev HMap (V : Type) := List (Ident × V)

/-- `HashMap::insert`. -/
def HMap.insert {V : Type} (m : HMap V) (k : Ident) (v : V) : HMap V :=
  if m.any (·.1 == k) then m.map (fun p => if p.1 == k then (k, v) else p) else m ++ [(k, v)]

/-- `HashMap::get`. -/
def HMap.get {V : Type} (m : HMap V) (k : Ident) : Option V := m.lookup k

/-- `LocalStorageDefault`: `macro/src/analyze.rs:125-130`. -/
inductive LocalStorageDefault where
  | empty (ident : Ident)
  | value (ident : Ident) (value : Expr)

/-- `LocalStorageDefault::ident`: `macro/src/analyze.rs:132-139`. -/
def LocalStorageDefault.ident : LocalStorageDefault → Ident
  | .empty i => i
  | .value i _ => i

/-- A typed parameter (`syn::PatType`). -/
structure PatType where
  pat : Pat
  ty : Ty

/-- `analyze::StateMachine`: `macro/src/analyze.rs:27-60`. -/
structure StateMachine where
  selfTy : Ty
  path : List Ident
  generics : Generics
  initial : Expr
  stateIdent : Ident
  stateDerives : List Ident
  superstateIdent : Ident
  superstateDerives : List Ident
  eventIdent : Ident
  contextIdent : Ident
  visibility : String
  beforeTransition : Option Expr
  afterTransition : Option Expr
  beforeDispatch : Option Expr
  afterDispatch : Option Expr

/-- `analyze::State` (`macro/src/analyze.rs:62-87`) and `analyze::Superstate`
(`macro/src/analyze.rs:89-112`, which has no `local_storage_default`). -/
structure State where
  handlerName : Ident
  superstate : Option Ident
  entryAction : Option Ident
  exitAction : Option Ident
  localStorage : List Field
  localStorageDefault : List LocalStorageDefault
  inputs : List FnArg
  stateInputs : List PatType
  eventArg : Option PatType
  contextArg : Option PatType
  isAsync : Bool

/-- `analyze::Action`: `macro/src/analyze.rs:114-123`. -/
structure Action where
  handlerName : Ident
  inputs : List FnArg
  isAsync : Bool

/-- `analyze::Model`: `macro/src/analyze.rs:13-25`; of the impl block its methods are kept. -/
structure Model where
  methods : List Method
  stateMachine : StateMachine
  states : HMap State
  superstates : HMap State
  actions : HMap Action

/-- `meta_require_name_lit_str(meta).parse()` with the result an identifier, expression, ..
(`macro/src/analyze.rs:653-664`). -/
def requireLit (ok : String → Bool) (msg : String) : MetaValue → Res String
  | .lit s => if ok s then .ok s else .error msg
  | .notString => .error "expected string literal"
  | _ => .error "expected name-value pair"

/-- The same for the arguments of `#[state_machine(..)]`. -/
def requireSetting (ok : String → Bool) (msg : String) : SettingValue → Res String
  | .lit s => if ok s then .ok s else .error msg
  | .notString => .error "expected string literal"
  | _ => .error "expected name-value pair"

/-- Local variables of `analyze_state_machine`: `macro/src/analyze.rs:192-209`. -/
structure Settings where
  initial : Option Expr := none
  stateMeta : Option (List EnumMeta) := some []
  superstateMeta : Option (List EnumMeta) := some []
  eventIdent : Ident := "event"
  contextIdent : Ident := "context"
  visibility : String := "pub"
  beforeTransition : Option Expr := none
  afterTransition : Option Expr := none
  beforeDispatch : Option Expr := none
  afterDispatch : Option Expr := none

/-- One round of the first loop of `analyze_state_machine`: `macro/src/analyze.rs:212-266`. -/
def analyzeSetting (syn : Syn) (s : Settings) (m : Setting) : Res Settings := do
  if m.key = "initial" then
    let e ← requireSetting syn.isExpr "initial state must be an expression" m.value
    .ok { s with initial := some e }
  else if m.key = "event_identifier" then
    let i ← requireSetting syn.isIdent "event identifier must be an ident" m.value
    .ok { s with eventIdent := i }
  else if m.key = "context_identifier" then
    let i ← requireSetting syn.isIdent "context identifier must be an ident" m.value
    .ok { s with contextIdent := i }
  else if m.key = "before_transition" then
    let p ← requireSetting syn.isPath "before transition hook must be a function pointer" m.value
    .ok { s with beforeTransition := some p }
  else if m.key = "after_transition" then
    let p ← requireSetting syn.isPath "after transition hook must be a function pointer" m.value
    .ok { s with afterTransition := some p }
  else if m.key = "before_dispatch" then
    let p ← requireSetting syn.isPath "before dispatch hook must be a function pointer" m.value
    .ok { s with beforeDispatch := some p }
  else if m.key = "after_dispatch" then
    let p ← requireSetting syn.isPath "after dispatch hook must be a function pointer" m.value
    .ok { s with afterDispatch := some p }
  else if m.key = "visibility" then
    let v ← requireSetting syn.isVisibility "visibility must be a visibility keyword" m.value
    .ok { s with visibility := v }
  else if m.key = "state" then
    match m.value with
    | .list l => .ok { s with stateMeta := l }
    | _ => .error "state must contain a list of meta items"
  else if m.key = "superstate" then
    match m.value with
    | .list l => .ok { s with superstateMeta := l }
    | _ => .error "superstate must contain a list of meta items"
  else .error "unknown argument for `state_machine` attribute"

/-- The messages of the second (`macro/src/analyze.rs:288, 298`) and the third loop (`macro/src/analyze.rs:317, 329`) of
`analyze_state_machine`. -/
structure EnumMsgs where
  name : String
  unknown : String

/-- Of the second loop. -/
def stateMsgs : EnumMsgs := ⟨"state type name must be an ident", "unknown argument for `state` attribute"⟩

/-- Of the third loop. -/
def superstateMsgs : EnumMsgs :=
  ⟨"superstate type name must be an ident", "unknown argument for `superstate` attribute"⟩

/-- The second and third loop of `analyze_state_machine`: name and derives of the state enum
(`macro/src/analyze.rs:284-300`) and of the superstate enum (`macro/src/analyze.rs:313-332`). -/
def analyzeEnum (syn : Syn) (msgs : EnumMsgs) (acc : Ident × List Ident) (m : EnumMeta) : Res (Ident × List Ident) :=
  match m with
  | .name v => do
    let i ← requireLit syn.isIdent msgs.name v
    .ok (i, acc.2)
  | .derive (some paths) => .ok (acc.1, acc.2 ++ paths)
  | .derive none => .error "derive must be a list of paths"
  | .unknown => .error msgs.unknown

/-- The earlier segments of a path. -/
def Args.segments : Args → List Ident
  | .ident i rest => i :: rest.segments
  | _ => []

/-- `get_shared_storage_path`: `macro/src/analyze.rs:641-649`. -/
def getSharedStoragePath : Ty → Res (List Ident)
  | .path name args => .ok (args.segments ++ [name])
  | _ => .error "can not get path of shared storage"

/-- `analyze_state_machine`: `macro/src/analyze.rs:187-351`. -/
def analyzeStateMachine (syn : Syn) (selfTy : Ty) (generics : Generics) (args : List Setting) :
    Res StateMachine := do
  let path ← getSharedStoragePath selfTy
  let s ← args.foldlM (analyzeSetting syn) {}
  match s.initial with
  | none => .error "no initial state defined"
  | some initial =>
    match s.stateMeta with
    | none => .error "state meta must be a list of meta items"
    | some stateMeta => do
      let (stateIdent, stateDerives) ← stateMeta.foldlM (analyzeEnum syn stateMsgs) ("State", [])
      match s.superstateMeta with
      | none => .error "superstate meta must be a list of meta items"
      | some superstateMeta => do
        let (superstateIdent, superstateDerives) ←
          superstateMeta.foldlM (analyzeEnum syn superstateMsgs) ("Superstate", [])
        .ok { selfTy, path, generics, initial, stateIdent, stateDerives, superstateIdent, superstateDerives
              eventIdent := s.eventIdent, contextIdent := s.contextIdent, visibility := s.visibility
              beforeTransition := s.beforeTransition, afterTransition := s.afterTransition
              beforeDispatch := s.beforeDispatch, afterDispatch := s.afterDispatch }

/-- `attr.path().is_ident("default")`: `macro/src/analyze.rs:395`. -/
def ArgAttr.isDefault : ArgAttr → Bool
  | .other _ => false
  | _ => true

/-- `analyze_local_storage_default`: `macro/src/analyze.rs:598-623`. -/
def analyzeLocalStorageDefault (input : Ident) : ArgAttr → Res LocalStorageDefault
  | .default => .ok (.empty input)
  | .defaultValue (some e) => .ok (.value input e)
  | .defaultValue none => .error "value must be an expression"
  | .defaultNotString => .error "must be string literal"
  | _ => .error "wrong attribute format"

/-- `Vec::swap_remove` of the first `default` attribute (`macro/src/analyze.rs:392-400`): the last attribute takes
its place. -/
def removeDefault : List ArgAttr → List ArgAttr
  | [] => []
  | a :: l => if a.isDefault then l.getLast?.toList ++ l.dropLast else a :: removeDefault l

/-- What is said about a pattern that is rejected: `macro/src/analyze.rs:407-417, 514-522`. -/
def PatKind.msg : PatKind → String
  | .tuple => "tuple pattern is not supported"
  | .tupleStruct => "tuple struct pattern is not supported"
  | .struct => "struct pattern is not supported"
  | .wild => "wildcard pattern is not supported"
  | .other => "patterns are not supported"

/-- What the loop over the parameters of a handler collects: `macro/src/analyze.rs:362-365`. -/
structure Inputs where
  stateInputs : List PatType := []
  localStorageDefault : List LocalStorageDefault := []
  eventArg : Option PatType := none
  contextArg : Option PatType := none

/-- One round of the loop over the parameters of a state handler: `macro/src/analyze.rs:379-421`. -/
def analyzeStateInput (sm : StateMachine) (acc : Inputs) : FnArg → Res Inputs
  | .receiver _ => .ok acc
  | .typed attrs pat ty =>
    match pat with
    | .ident i =>
      if sm.eventIdent = i then .ok { acc with eventArg := some ⟨pat, ty⟩ }
      else if sm.contextIdent = i then .ok { acc with contextArg := some ⟨pat, ty⟩ }
      else
        match attrs.find? ArgAttr.isDefault with
        | some attr => do
          let d ← analyzeLocalStorageDefault i attr
          .ok { acc with
                localStorageDefault := acc.localStorageDefault ++ [d]
                stateInputs := acc.stateInputs ++ [⟨pat, ty⟩] }
        | none => .ok { acc with stateInputs := acc.stateInputs ++ [⟨pat, ty⟩] }
    | .reference => .ok { acc with stateInputs := acc.stateInputs ++ [⟨pat, ty⟩] }
    | .unsupported k => .error k.msg

/-- What that loop leaves of a parameter: the first `default` attribute of a local storage parameter is removed
(`macro/src/analyze.rs:392-400`). -/
def stripDefault (sm : StateMachine) : FnArg → FnArg
  | .typed attrs (.ident i) ty =>
    if sm.eventIdent = i ∨ sm.contextIdent = i then .typed attrs (.ident i) ty
    else .typed (removeDefault attrs) (.ident i) ty
  | a => a

/-- One round of the loop over the parameters of a superstate handler: `macro/src/analyze.rs:498-525`. -/
def analyzeSuperstateInput (sm : StateMachine) (acc : Inputs) : FnArg → Res Inputs
  | .receiver _ => .ok acc
  | .typed _ pat ty =>
    match pat with
    | .ident i =>
      if sm.eventIdent = i then .ok { acc with eventArg := some ⟨pat, ty⟩ }
      else if sm.contextIdent = i then .ok { acc with contextArg := some ⟨pat, ty⟩ }
      else .ok { acc with stateInputs := acc.stateInputs ++ [⟨pat, ty⟩] }
    | .reference => .ok { acc with stateInputs := acc.stateInputs ++ [⟨pat, ty⟩] }
    | .unsupported k => .error k.msg

/-- `get_meta`: `macro/src/analyze.rs:626-638`. -/
def getMeta (attrs : List Attr) (name : Ident) : List Meta :=
  ((attrs.filter (·.path == name)).filterMap (·.metas)).flatten

/-- What the loop over the metas collects: `macro/src/analyze.rs:358-361`. -/
structure Links where
  superstate : Option Ident := none
  entryAction : Option Ident := none
  exitAction : Option Ident := none
  localStorage : List Field := []

/-- The fields of `local_storage(..)`: `macro/src/analyze.rs:444-452`. -/
def analyzeFields : List (Option Field) → Res (List Field)
  | [] => .ok []
  | some f :: l => do
    let l ← analyzeFields l
    .ok (f :: l)
  | none :: _ => .error "local storage entry must be a named field"

/-- One round of the loop over the metas of a state (`macro/src/analyze.rs:424-456`) or superstate
(`macro/src/analyze.rs:528-560`).  Unknown keys are ignored. -/
def analyzeMeta (syn : Syn) (acc : Links) (m : Meta) : Res Links := do
  if m.key = "superstate" then
    let i ← requireLit syn.isIdent "superstate must be an ident" m.value
    .ok { acc with superstate := some i }
  else if m.key = "entry_action" then
    let i ← requireLit syn.isIdent "entry action must be an ident" m.value
    .ok { acc with entryAction := some i }
  else if m.key = "exit_action" then
    let i ← requireLit syn.isIdent "exit action must be an ident" m.value
    .ok { acc with exitAction := some i }
  else if m.key = "local_storage" then
    match m.value with
    | .fields l => do
      let fields ← analyzeFields l
      .ok { acc with localStorage := acc.localStorage ++ fields }
    | _ => .error "local storage must be a list of string literals"
  else .ok acc

/-- `analyze_state`: `macro/src/analyze.rs:354-471`; also returns the method, whose parameters it changes. -/
def analyzeState (syn : Syn) (sm : StateMachine) (method : Method) : Res (State × Method) := do
  if method.generic then .error "state handlers can not define their generics themselves"
  else
    let inputs ← method.inputs.foldlM (analyzeStateInput sm) {}
    let links ← (getMeta method.attrs "state").foldlM (analyzeMeta syn) {}
    .ok ({ handlerName := method.name
           superstate := links.superstate
           entryAction := links.entryAction
           exitAction := links.exitAction
           localStorage := links.localStorage
           localStorageDefault := inputs.localStorageDefault
           inputs := method.inputs
           stateInputs := inputs.stateInputs
           eventArg := inputs.eventArg
           contextArg := inputs.contextArg
           isAsync := method.isAsync },
         { method with inputs := method.inputs.map (stripDefault sm) })

/-- `analyze_superstate`: `macro/src/analyze.rs:474-574`. -/
def analyzeSuperstate (syn : Syn) (sm : StateMachine) (method : Method) : Res State := do
  if method.generic then .error "superstate handlers can not define their generics themselves"
  else
    let inputs ← method.inputs.foldlM (analyzeSuperstateInput sm) {}
    let links ← (getMeta method.attrs "superstate").foldlM (analyzeMeta syn) {}
    .ok { handlerName := method.name
          superstate := links.superstate
          entryAction := links.entryAction
          exitAction := links.exitAction
          localStorage := links.localStorage
          localStorageDefault := []
          inputs := method.inputs
          stateInputs := inputs.stateInputs
          eventArg := inputs.eventArg
          contextArg := inputs.contextArg
          isAsync := method.isAsync }

/-- `analyze_action`: `macro/src/analyze.rs:577-596`. -/
def analyzeAction (method : Method) : Res Action :=
  if method.generic then .error "action handlers can not define their generics themselves"
  else .ok { handlerName := method.name, inputs := method.inputs, isAsync := method.isAsync }

/-- The maps being filled by `analyze`, and the method being looked at. -/
structure Maps where
  method : Method
  states : HMap State := []
  superstates : HMap State := []
  actions : HMap Action := []

/-- One round of the inner loop of `analyze`, for the path of one attribute: `macro/src/analyze.rs:163-174`. -/
def analyzeAttr (syn : Syn) (sm : StateMachine) (acc : Maps) (path : Ident) : Res Maps := do
  if path = "state" then
    let (state, method) ← analyzeState syn sm acc.method
    .ok { acc with method := method, states := HMap.insert acc.states state.handlerName state }
  else if path = "superstate" then
    let superstate ← analyzeSuperstate syn sm acc.method
    .ok { acc with superstates := HMap.insert acc.superstates superstate.handlerName superstate }
  else if path = "action" then
    let action ← analyzeAction acc.method
    .ok { acc with actions := HMap.insert acc.actions action.handlerName action }
  else .ok acc

/-- One round of the outer loop of `analyze`: `macro/src/analyze.rs:157-175`. -/
def analyzeMethod (syn : Syn) (sm : StateMachine) (acc : Model) (method : Method) : Res Model := do
  let maps ← (method.attrs.map (·.path)).foldlM (analyzeAttr syn sm)
    ⟨method, acc.states, acc.superstates, acc.actions⟩
  .ok { acc with
        methods := acc.methods ++ [maps.method]
        states := maps.states
        superstates := maps.superstates
        actions := maps.actions }

/-- `analyze`: `macro/src/analyze.rs:142-184`. -/
def analyze (syn : Syn) (selfTy : Ty) (generics : Generics) (args : List Setting) (methods : List Method) :
    Res Model := do
  let sm ← analyzeStateMachine syn selfTy generics args
  methods.foldlM (analyzeMethod syn sm) ⟨[], sm, [], [], []⟩

end Statig.Macro
