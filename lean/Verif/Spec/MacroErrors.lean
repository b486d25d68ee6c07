import Verif.Spec.MacroTyping
/-!
# Vocabulary of C83: what the error messages of `#[state_machine]` complain about
-/
namespace Statig.Macro

/-- What a parameter of a kind that is not supported is called in messages. -/
def PatKind.phrase : PatKind → String
  | .tuple => "tuple pattern is not supported"
  | .tupleStruct => "tuple struct pattern is not supported"
  | .struct => "struct pattern is not supported"
  | .wild => "wildcard pattern is not supported"
  | .other => "patterns are not supported"

/-- `#[state_machine(key = ..)]` occurs, with this value. -/
def Source.Sets (src : Source) (key : Ident) (v : SettingValue) : Prop := ∃ a ∈ src.args, a.key = key ∧ a.value = v

/-- The last `#[state_machine(key(..))]` has these items (`none` if they are not a list of items). -/
def Source.Lists (src : Source) (key : Ident) (l : Option (List EnumMeta)) : Prop :=
  ((src.args.filter fun a => a.key = key).getLast?).map (·.value) = some (.list l)

/-- The last `#[state_machine(key(..))]` has this item. -/
def Source.Item (src : Source) (key : Ident) (m : EnumMeta) : Prop := ∃ l, src.Lists key (some l) ∧ m ∈ l

/-- Some method has `#[kind(key = ..)]`, with this value. -/
def Source.Says (src : Source) (kind key : Ident) (v : MetaValue) : Prop :=
  ∃ mth ∈ src.methods, ∃ m ∈ mth.metas kind, m.key = key ∧ m.value = v

/-- Some method with `#[kind]` has this parameter. -/
def Source.Takes (src : Source) (kind : Ident) (attrs : List ArgAttr) (pat : Pat) (ty : Ty) : Prop :=
  ∃ mth ∈ src.methods, mth.Has kind ∧ .typed attrs pat ty ∈ mth.inputs

/-- Some method has `#[kind(key = "..")]` (the last one counts), and there is no method of that name with `#[target]`. -/
def Source.Dangling (src : Source) (kind key target : Ident) : Prop :=
  ∃ mth ∈ src.methods, ∃ p, mth.link kind key = some p ∧ ¬ ∃ pm ∈ src.methods, pm.name = p ∧ pm.Has target

/-- The pattern is the name of the event or the context. -/
def Source.Reserved (src : Source) (pat : Pat) : Prop := pat = .ident src.eventIdent ∨ pat = .ident src.contextIdent


/-- The settings whose values are string literals, what these have to be, and what is said otherwise. -/
inductive LitSetting (syn : Syn) : Ident → (String → Bool) → String → Prop where
  | initial : LitSetting syn "initial" syn.isExpr "initial state must be an expression"
  | event : LitSetting syn "event_identifier" syn.isIdent "event identifier must be an ident"
  | context : LitSetting syn "context_identifier" syn.isIdent "context identifier must be an ident"
  | beforeTransition :
      LitSetting syn "before_transition" syn.isPath "before transition hook must be a function pointer"
  | afterTransition :
      LitSetting syn "after_transition" syn.isPath "after transition hook must be a function pointer"
  | beforeDispatch : LitSetting syn "before_dispatch" syn.isPath "before dispatch hook must be a function pointer"
  | afterDispatch : LitSetting syn "after_dispatch" syn.isPath "after dispatch hook must be a function pointer"
  | visibility : LitSetting syn "visibility" syn.isVisibility "visibility must be a visibility keyword"

/-- The items of `#[state(..)]` and `#[superstate(..)]` whose values are names, and what is said otherwise. -/
inductive NameMeta : Ident → String → Prop where
  | superstate : NameMeta "superstate" "superstate must be an ident"
  | entryAction : NameMeta "entry_action" "entry action must be an ident"
  | exitAction : NameMeta "exit_action" "exit action must be an ident"

/-- The settings of `#[state_machine(..)]`. -/
def knownSettings : List Ident :=
  ["initial", "event_identifier", "context_identifier", "before_transition", "after_transition", "before_dispatch",
    "after_dispatch", "visibility", "state", "superstate"]

/-- States or superstates. -/
def handlerKind (kind : Ident) : Prop := kind = "state" ∨ kind = "superstate"

/-- A message, and a fault of the declaration that it describes. -/
inductive Source.Fault (syn : Syn) (src : Source) : String → Prop where
  /-- `impl (A, B) { .. }` -/
  | selfTy : (∀ n args, src.selfTy ≠ .path n args) → src.Fault syn "can not get path of shared storage"
  /-- `initial = ".."` is not an expression, `event_identifier = ".."` is not an identifier, .. -/
  | setting {key ok msg s} : LitSetting syn key ok msg → src.Sets key (.lit s) → ok s = false → src.Fault syn msg
  /-- `initial = 1` -/
  | settingNotString {key ok msg} : LitSetting syn key ok msg → src.Sets key .notString →
      src.Fault syn "expected string literal"
  /-- `initial` or `initial(..)` -/
  | settingNoValue {key ok msg v} : LitSetting syn key ok msg → src.Sets key v → (∀ s, v ≠ .lit s) → v ≠ .notString →
      src.Fault syn "expected name-value pair"
  | stateNoList {v} : src.Sets "state" v → (∀ l, v ≠ .list l) → src.Fault syn "state must contain a list of meta items"
  | superstateNoList {v} : src.Sets "superstate" v → (∀ l, v ≠ .list l) →
      src.Fault syn "superstate must contain a list of meta items"
  | unknownSetting {key v} : src.Sets key v → key ∉ knownSettings →
      src.Fault syn "unknown argument for `state_machine` attribute"
  | noInitial : (∀ v, ¬ src.Sets "initial" v) → src.Fault syn "no initial state defined"
  | stateList : src.Lists "state" none → src.Fault syn "state meta must be a list of meta items"
  | superstateList : src.Lists "superstate" none → src.Fault syn "superstate meta must be a list of meta items"
  | stateName {s} : src.Item "state" (.name (.lit s)) → syn.isIdent s = false →
      src.Fault syn "state type name must be an ident"
  | superstateName {s} : src.Item "superstate" (.name (.lit s)) → syn.isIdent s = false →
      src.Fault syn "superstate type name must be an ident"
  | enumNameNotString {key} : handlerKind key → src.Item key (.name .notString) → src.Fault syn "expected string literal"
  | enumNameNoValue {key v} : handlerKind key → src.Item key (.name v) → (∀ s, v ≠ .lit s) → v ≠ .notString →
      src.Fault syn "expected name-value pair"
  | derive {key} : handlerKind key → src.Item key (.derive none) → src.Fault syn "derive must be a list of paths"
  | unknownState : src.Item "state" .unknown → src.Fault syn "unknown argument for `state` attribute"
  | unknownSuperstate : src.Item "superstate" .unknown → src.Fault syn "unknown argument for `superstate` attribute"
  | stateGenerics {mth} : mth ∈ src.methods → mth.Has "state" → mth.generic = true →
      src.Fault syn "state handlers can not define their generics themselves"
  | superstateGenerics {mth} : mth ∈ src.methods → mth.Has "superstate" → mth.generic = true →
      src.Fault syn "superstate handlers can not define their generics themselves"
  | actionGenerics {mth} : mth ∈ src.methods → mth.Has "action" → mth.generic = true →
      src.Fault syn "action handlers can not define their generics themselves"
  | pattern {kind attrs k ty} : handlerKind kind → src.Takes kind attrs (.unsupported k) ty → src.Fault syn k.phrase
  /-- `#[default = "1 +"]` -/
  | default {attrs pat ty} : src.Takes "state" attrs pat ty → ¬ src.Reserved pat →
      attrs.find? defaultAttr = some (.defaultValue none) →
      src.Fault syn "value must be an expression"
  /-- `#[default = 1]` -/
  | defaultNotString {attrs pat ty} : src.Takes "state" attrs pat ty → ¬ src.Reserved pat →
      attrs.find? defaultAttr = some .defaultNotString →
      src.Fault syn "must be string literal"
  /-- `#[default(1)]` -/
  | defaultFormat {attrs pat ty} : src.Takes "state" attrs pat ty → ¬ src.Reserved pat →
      attrs.find? defaultAttr = some .defaultMalformed →
      src.Fault syn "wrong attribute format"
  | link {kind key msg s} : handlerKind kind → NameMeta key msg → src.Says kind key (.lit s) → syn.isIdent s = false →
      src.Fault syn msg
  | linkNotString {kind key msg} : handlerKind kind → NameMeta key msg → src.Says kind key .notString →
      src.Fault syn "expected string literal"
  | linkNoValue {kind key msg v} : handlerKind kind → NameMeta key msg → src.Says kind key v → (∀ s, v ≠ .lit s) →
      v ≠ .notString → src.Fault syn "expected name-value pair"
  | storage {kind v} : handlerKind kind → src.Says kind "local_storage" v → (∀ l, v ≠ .fields l) →
      src.Fault syn "local storage must be a list of string literals"
  | storageField {kind l} : handlerKind kind → src.Says kind "local_storage" (.fields l) → none ∈ l →
      src.Fault syn "local storage entry must be a named field"
  /-- `#[state] fn _1(..)`, whose variant would be called `1`. -/
  | variant {kind mth} : handlerKind kind → mth ∈ src.methods → mth.Has kind →
      syn.identNew (variantName syn mth.name) = false → src.Fault syn "not an identifier"
  | byValue {kind attrs pat ty} : handlerKind kind → src.Takes kind attrs pat ty → ¬ src.Reserved pat → ¬ ty.IsRef →
      src.Fault syn "input must be passed as a reference"
  | notIdent {kind attrs pat ty} : handlerKind kind ∨ kind = "action" → src.Takes kind attrs pat ty →
      (∀ i, pat ≠ .ident i) → src.Fault syn "all patterns should be verified to be idents"
  | superstate {kind} : handlerKind kind → src.Dangling kind "superstate" "superstate" →
      src.Fault syn "superstate not found"
  | entryAction : src.Dangling "state" "entry_action" "action" → src.Fault syn "entry action not found"
  | exitAction : src.Dangling "state" "exit_action" "action" → src.Fault syn "exit action not found"
  | action {key} : key = "entry_action" ∨ key = "exit_action" → src.Dangling "superstate" key "action" →
      src.Fault syn "action not found"
  | event {kind attrs ty} : handlerKind kind → src.Takes kind attrs (.ident src.eventIdent) ty → ¬ ty.IsRef →
      src.Fault syn "event must be passed in as a reference"
  | context {kind attrs ty} : handlerKind kind → src.Takes kind attrs (.ident src.contextIdent) ty → ¬ ty.IsRef →
      src.Fault syn "context must be passed in as a reference"
  /-- `impl<T> Blinky<T> where (T,): Clone` -/
  | predicate {n bounds t bounds'} : .type n bounds ∈ src.generics.params → .type t bounds' ∈ src.generics.preds →
      (∀ m args, t ≠ .path m args) → src.Fault syn "can not get ident of shared storage"

end Statig.Macro
