import Verif.Model.Core
import Verif.Model.Macro.Analyze
import Verif.Model.Macro.Lifetimes
/-!
# The `#[state_machine]` macro: `macro/src/lower.rs`

and `macro/src/visitors/generic_param_visitor.rs`.  The where clauses of `state_generics` and `superstate_generics`
(`macro/src/lower.rs:389-397, 407-415`), which no generated item contains, are not modelled.
-/
namespace Statig.Macro

/-- `snake.to_string().split('_')`: `macro/src/lower.rs:739`. -/
def splitUnderscore : List Char → List (List Char)
  | [] => [[]]
  | c :: l =>
    if c = '_' then [] :: splitUnderscore l
    else
      match splitUnderscore l with
      | p :: ps => (c :: p) :: ps
      | [] => [[c]]

/-- `char::to_uppercase`; the tables outside ASCII are a parameter. -/
def upperChar (syn : Syn) (c : Char) : List Char :=
  if c.toNat < 128 then [c.toUpper] else syn.toUppercase c

/-- One part: `macro/src/lower.rs:740-743`. -/
def capitalize (syn : Syn) : List Char → List Char
  | [] => []
  | c :: l => upperChar syn c ++ l

/-- The string built by `snake_case_to_pascal_case`: `macro/src/lower.rs:738-744`. -/
def pascalChars (syn : Syn) (snake : List Char) : List Char :=
  (splitUnderscore snake).flatMap (capitalize syn)

/-- `snake_case_to_pascal_case`: `macro/src/lower.rs:737-746`; `format_ident!` panics if the result is not an
identifier. -/
def pascal (syn : Syn) (snake : Ident) : Res Ident :=
  let s := String.ofList (pascalChars syn snake.toList)
  if syn.identNew s then .ok s else .error "not an identifier"

/-- A generated call `Type::name(arg, ..)`, with or without `.await`: `macro/src/lower.rs:522-529`. -/
structure FnCall where
  fn : Ident
  args : List Ident
  await : Bool
deriving DecidableEq

/-- `syn::Variant` with named fields. -/
structure Variant where
  name : Ident
  fields : List Field
deriving DecidableEq

/-- `Enum::Variant { field, .. }`, as a pattern or as an expression: `macro/src/lower.rs:519, 580`. -/
structure VariantPat where
  variant : Ident
  fields : List Ident
deriving DecidableEq

/-- The value of a field in a constructor: `macro/src/lower.rs:497-508`. -/
inductive FieldInit where
  | default
  | value (e : Expr)
  | arg
deriving DecidableEq

/-- The constructor of a state, `fn name(args) -> Self { Self::Variant { field: .., .. } }`:
`macro/src/lower.rs:520`. -/
structure Constructor where
  name : Ident
  args : List Field
  variant : Ident
  fields : List (Ident × FieldInit)
deriving DecidableEq

/-- `lower::State`: `macro/src/lower.rs:81-105`. `none` for an action is `{}`. -/
structure LState where
  variant : Variant
  pat : VariantPat
  handlerCall : FnCall
  entryActionCall : Option FnCall
  exitActionCall : Option FnCall
  superstatePat : Option VariantPat
  constructor : Constructor

/-- `lower::Superstate`: `macro/src/lower.rs:107-127`. -/
structure LSuperstate where
  variant : Variant
  pat : VariantPat
  handlerCall : FnCall
  entryActionCall : Option FnCall
  exitActionCall : Option FnCall
  superstatePat : Option VariantPat

/-- `lower::Ir` (`macro/src/lower.rs:21-32`) with the parts of `lower::StateMachine`
(`macro/src/lower.rs:34-79`) that are modelled. -/
structure Ir where
  methods : List Method
  stateMachine : StateMachine
  eventType : Ty
  contextType : Ty
  superstateLifetime : Bool
  stateGenerics : List GParam
  superstateGenerics : List GParam
  stateImplGenerics : Generics
  superstateImplGenerics : Generics
  turbofish : Args
  mode : Mode
  states : HMap LState
  superstates : HMap LSuperstate

/-- `fn_arg_to_ident`: `macro/src/lower.rs:645-653`. -/
def fnArgToIdent : FnArg → Res Ident
  | .receiver _ => .ok "shared_storage"
  | .typed _ (.ident i) _ => .ok i
  | _ => .error "all patterns should be verified to be idents"

/-- `fn_arg_to_state_field`: `macro/src/lower.rs:655-670`. -/
def fnArgToStateField (p : PatType) : Res Field :=
  match p.ty with
  | .ref _ _ elem =>
    match p.pat with
    | .ident i => .ok ⟨i, elem⟩
    | _ => .error "all patterns should be verified to be idents"
  | _ => .error "input must be passed as a reference"

/-- `fn_arg_to_superstate_field`: `macro/src/lower.rs:672-690`. -/
def fnArgToSuperstateField (p : PatType) : Res Field :=
  match p.ty with
  | .ref _ mutable elem =>
    match p.pat with
    | .ident i => .ok ⟨i, .ref (some "sub") mutable elem⟩
    | _ => .error "all patterns should be verified to be idents"
  | _ => .error "input must be passed as a reference"

/-- One field of `local_storage(..)`: `macro/src/lower.rs:481-486, 565-570`: it replaces the first field of the
same name, or is added. -/
def mergeField (fields : List Field) (field : Field) : List Field :=
  match fields with
  | [] => [field]
  | f :: l => if f.name = field.name then field :: l else f :: mergeField l field

/-- The value of a field in the constructor: `macro/src/lower.rs:492-508`. -/
def fieldInit (defaults : List LocalStorageDefault) (field : Field) : FieldInit :=
  match defaults.find? (fun d => field.name == d.ident) with
  | some (.empty _) => .default
  | some (.value _ v) => .value v
  | none => .arg

/-- `lower_state`: `macro/src/lower.rs:463-544`. -/
def lowerState (syn : Syn) (state : State) : Res LState := do
  let variantName ← pascal syn state.handlerName
  let inputFields ← state.stateInputs.mapM fnArgToStateField
  let variantFields := state.localStorage.foldl mergeField inputFields
  let fieldValues := variantFields.map fun f => (f.name, fieldInit state.localStorageDefault f)
  let constructorArgs := variantFields.filter fun f => fieldInit state.localStorageDefault f = .arg
  let patFields := variantFields.map (·.name)
  let handlerInputs ← state.inputs.mapM fnArgToIdent
  .ok { variant := ⟨variantName, variantFields⟩
        pat := ⟨variantName, patFields⟩
        constructor := ⟨state.handlerName, constructorArgs, variantName, fieldValues⟩
        handlerCall := ⟨state.handlerName, handlerInputs, state.isAsync⟩
        entryActionCall := none
        exitActionCall := none
        superstatePat := none }

/-- `lower_superstate`: `macro/src/lower.rs:546-603`. -/
def lowerSuperstate (syn : Syn) (superstate : State) : Res LSuperstate := do
  let superstateName ← pascal syn superstate.handlerName
  let inputFields ← superstate.stateInputs.mapM fnArgToSuperstateField
  let variantFields := superstate.localStorage.foldl mergeField inputFields
  let patFields := variantFields.map (·.name)
  let handlerInputs ← superstate.inputs.mapM fnArgToIdent
  .ok { variant := ⟨superstateName, variantFields⟩
        pat := ⟨superstateName, patFields⟩
        handlerCall := ⟨superstate.handlerName, handlerInputs, superstate.isAsync⟩
        entryActionCall := none
        exitActionCall := none
        superstatePat := none }

/-- `lower_action`: `macro/src/lower.rs:605-643`; `call_inputs` (lines 612-629) is not used there, and panics
in the same cases as `fn_arg_to_ident`. -/
def lowerAction (action : Action) : Res FnCall := do
  let handlerInputs ← action.inputs.mapM fnArgToIdent
  .ok ⟨action.handlerName, handlerInputs, action.isAsync⟩

/-- The value of a link, if there is one, looked up: `match superstates.get(superstate)` and
`match actions.get(entry_action)` (`macro/src/lower.rs:189-223, 229-263`). -/
def resolveLink {V : Type} (m : HMap V) (msg : String) : Option Ident → Res (Option V)
  | none => .ok none
  | some i =>
    match HMap.get m i with
    | some v => .ok (some v)
    | none => .error msg

/-- One round of linking a state: `macro/src/lower.rs:188-224`. -/
def linkState (model : Model) (superstates : HMap LSuperstate) (actions : HMap FnCall)
    (entry : Ident × LState) : Res (Ident × LState) := do
  let source := HMap.get model.states entry.1
  let superstate ← resolveLink superstates "superstate not found" (source.bind (·.superstate))
  let entryAction ← resolveLink actions "entry action not found" (source.bind (·.entryAction))
  let exitAction ← resolveLink actions "exit action not found" (source.bind (·.exitAction))
  .ok (entry.1,
    { entry.2 with
      superstatePat := (superstate.map (·.pat)).or entry.2.superstatePat
      entryActionCall := entryAction.or entry.2.entryActionCall
      exitActionCall := exitAction.or entry.2.exitActionCall })

/-- One round of linking a superstate: `macro/src/lower.rs:228-264`. -/
def linkSuperstate (model : Model) (superstates : HMap LSuperstate) (actions : HMap FnCall)
    (entry : Ident × LSuperstate) : Res (Ident × LSuperstate) := do
  let source := HMap.get model.superstates entry.1
  let superstate ← resolveLink superstates "superstate not found" (source.bind (·.superstate))
  let entryAction ← resolveLink actions "action not found" (source.bind (·.entryAction))
  let exitAction ← resolveLink actions "action not found" (source.bind (·.exitAction))
  .ok (entry.1,
    { entry.2 with
      superstatePat := (superstate.map (·.pat)).or entry.2.superstatePat
      entryActionCall := entryAction.or entry.2.entryActionCall
      exitActionCall := exitAction.or entry.2.exitActionCall })

/-- Local variables of the search for types and async functions: `macro/src/lower.rs:267-269`. -/
structure Found where
  mode : Mode := .blocking
  eventType : Option Ty := none
  contextType : Option Ty := none

/-- The type of the event or context argument: `macro/src/lower.rs:272-286`. -/
def findType (ident : Ident) (msg : String) (arg : Option PatType) (acc : Option Ty) : Res (Option Ty) :=
  match arg with
  | some ⟨.ident i, ty⟩ =>
    if ident = i then
      match ty with
      | .ref _ _ elem => .ok (some elem)
      | _ => .error msg
    else .ok acc
  | _ => .ok acc

/-- One round of the loops over states (`macro/src/lower.rs:271-305`) and superstates
(`macro/src/lower.rs:307-341`). -/
def findTypes (sm : StateMachine) (acc : Found) (entry : Ident × State) : Res Found := do
  let eventType ← findType sm.eventIdent "event must be passed in as a reference" entry.2.eventArg acc.eventType
  let contextType ←
    findType sm.contextIdent "context must be passed in as a reference" entry.2.contextArg acc.contextType
  .ok { mode := if entry.2.isAsync then .awaitable else acc.mode, eventType, contextType }

mutual
/-- The identifiers that `syn::visit` finds in a type. -/
def tyIdents : Ty → List Ident
  | .ref _ _ elem => tyIdents elem
  | .path name args => name :: argsIdents args
  | .compound _ parts => argsIdents parts
/-- The identifiers in generic arguments. -/
def argsIdents : Args → List Ident
  | .nil => []
  | .lifetime _ rest => argsIdents rest
  | .ty t rest => tyIdents t ++ argsIdents rest
  | .ident i rest => i :: argsIdents rest
end

mutual
/-- The lifetimes that `syn::visit` finds in a type. -/
def tyLifetimes : Ty → List Ident
  | .ref l _ elem => l.toList ++ tyLifetimes elem
  | .path _ args => argsLifetimes args
  | .compound _ parts => argsLifetimes parts
/-- The lifetimes in generic arguments. -/
def argsLifetimes : Args → List Ident
  | .nil => []
  | .lifetime l rest => l :: argsLifetimes rest
  | .ty t rest => tyLifetimes t ++ argsLifetimes rest
  | .ident _ rest => argsLifetimes rest
end

/-- The identifiers in a pattern. -/
def patIdents : Pat → List Ident
  | .ident i => [i]
  | _ => []

/-- `visit_ident`: `macro/src/visitors/generic_param_visitor.rs:34-47`. -/
def visitIdent (candidates : List GParam) (ident : Ident) : List GParam :=
  candidates.filter fun
    | .type n _ => n = ident
    | .const n _ => n = ident
    | .lifetime _ _ => false

/-- `GenericParamVisitor::search` (`macro/src/visitors/generic_param_visitor.rs:21-25`) for one parameter: the
generic parameters found.  Every lifetime is found, as a parameter without bounds (lines 49-52).  Attributes of the
parameter are not searched here. -/
def searchParam (candidates : List GParam) (p : PatType) : List GParam :=
  (patIdents p.pat ++ tyIdents p.ty).flatMap (visitIdent candidates) ++
    (tyLifetimes p.ty).map fun l => .lifetime l []

/-- `get_generic_argument_ident`: `macro/src/lower.rs:692-697`. -/
def getGenericArgumentIdent : Ty → Res Ident
  | .path name _ => .ok name
  | _ => .error "can not get ident of shared storage"

/-- `predicate_bounded_to_param`: `macro/src/lower.rs:699-711`. -/
def predicateBoundedToParam (predicate : WherePred) (param : GParam) : Res Bool :=
  match predicate, param with
  | .type bounded _, .type name _ => do
    let i ← getGenericArgumentIdent bounded
    .ok (i == name)
  | .lifetime l _, .lifetime r _ => .ok (l == r)
  | _, _ => .ok false

/-- `map_generics`: `macro/src/lower.rs:714-735`. -/
def mapGenerics (generics : Generics) : Res (List (GParam × List WherePred)) :=
  generics.params.mapM fun param => do
    let predicates ← generics.preds.foldlM (init := []) fun predicates predicate => do
      let bounded ← predicateBoundedToParam predicate param
      .ok (if bounded then predicates ++ [predicate] else predicates)
    .ok (param, predicates)

/-- The name of a lifetime parameter (for `turbofish`). -/
def GParam.lifetimeName : GParam → Option Ident
  | .lifetime l _ => some l
  | _ => none

/-- The name of another parameter (for `turbofish`). -/
def GParam.otherName : GParam → Option Ident
  | .lifetime _ _ => none
  | .type n _ => some n
  | .const n _ => some n

/-- `Generics::split_for_impl().1.as_turbofish()` (`macro/src/lower.rs:467-469, 556-558, 608-610`): the names of the
parameters, lifetimes first. -/
def turbofish (generics : Generics) : Args :=
  (generics.params.filterMap GParam.lifetimeName).foldr .lifetime
    ((generics.params.filterMap GParam.otherName).foldr (fun n => .ty (.path n .nil)) .nil)

/-- `lower`: `macro/src/lower.rs:142-461`.  The `where` clauses of `state_generics` and `superstate_generics` (lines
382-391 and 402-411) are left out, since `macro/src/codegen.rs` does not use them.  What all calls have in common,
`Type::<..>::`, is kept here once (`turbofish`) and not in every call. -/
def lower (syn : Syn) (ord : Order) (model : Model) : Res Ir := do
  let states ← (ord.perm 0 model.states).mapM fun e => do
    let s ← lowerState syn e.2
    .ok (e.1, s)
  let superstates ← (ord.perm 1 model.superstates).mapM fun e => do
    let s ← lowerSuperstate syn e.2
    .ok (e.1, s)
  let actions ← (ord.perm 2 model.actions).mapM fun e => do
    let a ← lowerAction e.2
    .ok (e.1, a)
  -- Linking states to their superstates and entry/exit actions.
  let states ← (ord.perm 3 states).mapM (linkState model superstates actions)
  -- Linking superstates to superstates and entry/exit action.
  let linked ← (ord.perm 4 superstates).mapM (linkSuperstate model superstates actions)
  -- Find event and/or context types and check whether there are any async functions.
  let found ← (ord.perm 5 model.states).foldlM (findTypes model.stateMachine) {}
  let found ← (ord.perm 6 model.superstates).foldlM (findTypes model.stateMachine) found
  let mode := (ord.perm 7 model.actions).foldl (fun m e => if e.2.isAsync then .awaitable else m) found.mode
  -- Find the generics that need to be included on the state and superstate enums.
  let generics ← mapGenerics model.stateMachine.generics
  let stateFound := (ord.perm 13 model.states).flatMap fun e =>
    e.2.stateInputs.flatMap (searchParam model.stateMachine.generics.params)
  let supFound := (ord.perm 14 model.superstates).flatMap fun e =>
    e.2.stateInputs.flatMap (searchParam model.stateMachine.generics.params)
  let superstateLifetime := model.superstates.any fun e => !e.2.stateInputs.isEmpty
  .ok { methods := model.methods
        stateMachine := model.stateMachine
        eventType := renameTy "event" (found.eventType.getD (.compound "()" .nil))
        contextType := renameTy "context" (found.contextType.getD (.compound "()" .nil))
        superstateLifetime := superstateLifetime
        stateGenerics := (generics.map (·.1)).filter (· ∈ stateFound)
        superstateGenerics := (generics.map (·.1)).filter (· ∈ supFound) ++
          if superstateLifetime then [.lifetime "sub" []] else []
        stateImplGenerics := model.stateMachine.generics
        superstateImplGenerics :=
          if superstateLifetime then
            ⟨model.stateMachine.generics.params ++ [.lifetime "sub" []],
              model.stateMachine.generics.preds ++ [.type (.path "Self" .nil) ["'sub"]]⟩
          else model.stateMachine.generics
        turbofish := turbofish model.stateMachine.generics
        mode := mode
        states := states
        superstates := linked }

end Statig.Macro
