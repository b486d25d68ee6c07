import Verif.Model.Macro.Lower
/-!
# The `#[state_machine]` macro: `macro/src/codegen.rs` and `macro/src/lib.rs`

The generated items, as syntax.  The `match` expressions are kept as their lists of arms; each ends with a
wildcard arm (`_ => Response::Super`, `_ => {}`, `_ => None`), which is not listed.
-/
namespace Statig.Macro

/-- An arm `pat => body`. -/
structure Arm (B : Type) where
  pat : VariantPat
  body : B
deriving DecidableEq

/-- The generated items.  `generics`, `stateImpl` and `superstateImpl` are the generic parameters and `where` clauses
of the three trait impls; `callPath` and `callArgs` are the type on which all generated calls call a method. -/
structure Gen where
  methods : List Method
  selfTy : Ty
  callPath : List Ident
  callArgs : Args
  generics : Generics
  stateImpl : Generics
  superstateImpl : Generics
  mode : Mode
  initial : Expr
  eventType : Ty
  contextType : Ty
  beforeTransition : Option Expr
  afterTransition : Option Expr
  beforeDispatch : Option Expr
  afterDispatch : Option Expr
  visibility : String
  eventIdent : Ident
  contextIdent : Ident
  stateIdent : Ident
  stateDerives : List Ident
  stateGenerics : List GParam
  states : List Variant
  constructors : List Constructor
  handlerArms : List (Arm FnCall)
  entryArms : List (Arm (Option FnCall))
  exitArms : List (Arm (Option FnCall))
  superstateArms : List (Arm (Option VariantPat))
  superstateIdent : Ident
  superstateDerives : List Ident
  superstateLifetime : Bool
  superstateGenerics : List GParam
  superstates : List Variant
  supHandlerArms : List (Arm FnCall)
  supEntryArms : List (Arm (Option FnCall))
  supExitArms : List (Arm (Option FnCall))
  supSuperstateArms : List (Arm (Option VariantPat))
deriving DecidableEq

/-- `codegen`: `macro/src/codegen.rs:8-37`, with `codegen_state_machine_impl` (39-175), `codegen_state` (177-195),
`codegen_state_impl` (197-213), `codegen_state_impl_state` (215-348), `codegen_superstate` (350-368) and
`codegen_superstate_impl_superstate` (370-505).  Every loop over a hash map is a place of its own in `Order`,
which allows more orders than the code has. -/
def codegen (ord : Order) (ir : Ir) : Gen :=
  let states := (ord.perm 10 ir.states).map (·.2)
  let superstates := (ord.perm 11 ir.superstates).map (·.2)
  { methods := ir.methods
    selfTy := ir.stateMachine.selfTy
    callPath := ir.stateMachine.path
    callArgs := ir.turbofish
    generics := ir.stateMachine.generics
    stateImpl := ir.stateImplGenerics
    superstateImpl := ir.superstateImplGenerics
    mode := ir.mode
    initial := ir.stateMachine.initial
    eventType := ir.eventType
    contextType := ir.contextType
    beforeTransition := ir.stateMachine.beforeTransition
    afterTransition := ir.stateMachine.afterTransition
    beforeDispatch := ir.stateMachine.beforeDispatch
    afterDispatch := ir.stateMachine.afterDispatch
    visibility := ir.stateMachine.visibility
    eventIdent := ir.stateMachine.eventIdent
    contextIdent := ir.stateMachine.contextIdent
    stateIdent := ir.stateMachine.stateIdent
    stateDerives := ir.stateMachine.stateDerives
    stateGenerics := ir.stateGenerics
    states := (ord.perm 8 ir.states).map fun e => e.2.variant
    constructors := (ord.perm 9 ir.states).map fun e => e.2.constructor
    handlerArms := states.map fun s => ⟨s.pat, s.handlerCall⟩
    entryArms := states.map fun s => ⟨s.pat, s.entryActionCall⟩
    exitArms := states.map fun s => ⟨s.pat, s.exitActionCall⟩
    superstateArms := states.map fun s => ⟨s.pat, s.superstatePat⟩
    superstateIdent := ir.stateMachine.superstateIdent
    superstateDerives := ir.stateMachine.superstateDerives
    superstateLifetime := ir.superstateLifetime
    superstateGenerics := ir.superstateGenerics
    superstates := (ord.perm 12 ir.superstates).map fun e => e.2.variant
    supHandlerArms := superstates.map fun s => ⟨s.pat, s.handlerCall⟩
    supEntryArms := superstates.map fun s => ⟨s.pat, s.entryActionCall⟩
    supExitArms := superstates.map fun s => ⟨s.pat, s.exitActionCall⟩
    supSuperstateArms := superstates.map fun s => ⟨s.pat, s.superstatePat⟩ }

/-- The input of the macro: the arguments of `#[state_machine(..)]`, and type, generic parameters and methods of the
impl block. -/
structure Source where
  selfTy : Ty := .path "Machine" .nil
  generics : Generics := {}
  args : List Setting
  methods : List Method

/-- `state_machine`: `macro/src/lib.rs:25-32`. -/
def expand (syn : Syn) (ord : Order) (src : Source) : Res Gen := do
  let model ← analyze syn src.selfTy src.generics src.args src.methods
  let ir ← lower syn ord model
  .ok (codegen ord ir)

end Statig.Macro
