import Mathlib.Data.List.Forall2
import Mathlib.Logic.Relation
import Verif.Model.Macro.Rust
/-!
# Vocabulary of the properties of `#[state_machine]`: what a declaration says

Everything here is about the source that the macro is applied to.
-/
namespace Statig.Macro

/-- The method has an attribute `#[kind]` or `#[kind(..)]`. -/
def Method.Has (mth : Method) (kind : Ident) : Prop := ∃ a ∈ mth.attrs, a.path = kind

/-- The items in the `#[kind(..)]` attributes of a method, in order.  An attribute whose arguments are not a list of
items counts as empty. -/
def Method.metas (mth : Method) (kind : Ident) : List Meta :=
  mth.attrs.flatMap fun a => if a.path = kind then a.metas.getD [] else []

/-- What `key = ".."` in the `#[kind(..)]` attributes names; the last one counts. -/
def Method.link (mth : Method) (kind key : Ident) : Option Ident :=
  ((mth.metas kind).filterMap fun m =>
    match m.value with
    | .lit s => if m.key = key then some s else none
    | _ => none).getLast?

/-- The fields in `local_storage(..)`. -/
def Method.storageFields (mth : Method) (kind : Ident) : List Field :=
  (mth.metas kind).flatMap fun m =>
    match m.value with
    | .fields l => if m.key = "local_storage" then l.filterMap id else []
    | _ => []

/-- The names of the fields in `local_storage(..)`. -/
def Method.storage (mth : Method) (kind : Ident) : List Ident := (mth.storageFields kind).map (·.name)

/-- `key = ".."` in `#[state_machine(..)]`; the last one counts. -/
def Source.setting (src : Source) (key : Ident) : Option String :=
  (src.args.filterMap fun a =>
    match a.value with
    | .lit s => if a.key = key then some s else none
    | _ => none).getLast?

/-- The name of event parameters: `event`, or what `event_identifier` says. -/
def Source.eventIdent (src : Source) : Ident := (src.setting "event_identifier").getD "event"

/-- The name of context parameters: `context`, or what `context_identifier` says. -/
def Source.contextIdent (src : Source) : Ident := (src.setting "context_identifier").getD "context"

/-- The items in `key(..)`, which is `state(..)` or `superstate(..)`, of `#[state_machine(..)]`; the last one counts. -/
def Source.enumItems (src : Source) (key : Ident) : List EnumMeta :=
  ((src.args.filterMap fun a =>
    match a.value with
    | .list (some l) => if a.key = key then some l else none
    | _ => none).getLast?).getD []

/-- `name = ".."` in `state(..)` or `superstate(..)`; the last one counts. -/
def Source.enumName (src : Source) (key : Ident) : Option Ident :=
  ((src.enumItems key).filterMap fun
    | .name (.lit s) => some s
    | _ => none).getLast?

/-- The traits in `derive(..)` in `state(..)` or `superstate(..)`; several `derive(..)` add up. -/
def Source.enumDerives (src : Source) (key : Ident) : List Ident :=
  (src.enumItems key).flatMap fun
    | .derive (some l) => l
    | _ => []

/-- The local storage field that a parameter of a handler stands for: every parameter but the receiver, the event
and the context. -/
def Source.param (src : Source) : FnArg → Option Ident
  | .typed _ (.ident i) _ => if i = src.eventIdent ∨ i = src.contextIdent then none else some i
  | _ => none

/-- The local storage of a state (`kind` is `state`) or superstate (`kind` is `superstate`): its parameters, then
what else is in `local_storage(..)`. -/
def Source.fields (src : Source) (kind : Ident) (mth : Method) : List Ident :=
  (mth.storage kind).foldl (fun l x => if x ∈ l then l else l ++ [x]) (mth.inputs.filterMap src.param)

/-- PascalCase, character by character: underscores are dropped; the first character and those after an underscore
are capitalized. -/
def camel (syn : Syn) (start : Bool) : List Char → List Char
  | [] => []
  | c :: l =>
    if c = '_' then camel syn true l
    else (if start then upperChar syn c else [c]) ++ camel syn false l

/-- The variant of the generated enum that belongs to a handler. -/
def variantName (syn : Syn) (n : Ident) : Ident := String.ofList (camel syn true n.toList)

/-- snake_case: non-empty parts, separated by single underscores, that start with `a` to `z` and have no upper-case
(ASCII) letters.  `start` is true at the start of a part. -/
def snakeCase (start : Bool) : List Char → Prop
  | [] => start = false
  | c :: l =>
    if start then c.isLower ∧ snakeCase false l
    else if c = '_' then snakeCase true l
    else ¬ c.isUpper ∧ snakeCase false l

mutual
/-- What is meant to be done to the types of event and context: every anonymous lifetime, in `&T`, `&'_ T` and `T<'_>`,
is replaced by `new`, and nothing else is changed. -/
def nameAnonymous (new : Ident) : Ty → Ty
  | .ref none m t => .ref (some new) m (nameAnonymous new t)
  | .ref (some l) m t => .ref (some (if l = "_" then new else l)) m (nameAnonymous new t)
  | .path n args => .path n (nameAnonymousArgs new args)
  | .compound k ts => .compound k (nameAnonymousArgs new ts)

/-- The same for the parts of a type. -/
def nameAnonymousArgs (new : Ident) : Args → Args
  | .nil => .nil
  | .lifetime l r => .lifetime (if l = "_" then new else l) (nameAnonymousArgs new r)
  | .ty t r => .ty (nameAnonymous new t) (nameAnonymousArgs new r)
  | .ident i r => .ident i (nameAnonymousArgs new r)
end

mutual
/-- The type has an anonymous lifetime. -/
def Ty.Anonymous : Ty → Prop
  | .ref l _ t => l = none ∨ l = some "_" ∨ t.Anonymous
  | .path _ args => args.Anonymous
  | .compound _ ts => ts.Anonymous

/-- The same for the parts of a type. -/
def Args.Anonymous : Args → Prop
  | .nil => False
  | .lifetime l r => l = "_" ∨ r.Anonymous
  | .ty t r => t.Anonymous ∨ r.Anonymous
  | .ident _ r => r.Anonymous
end

mutual
/-- Lifetimes that are generic arguments are anonymous or `new`, except under references; there is no `&'_ T`; and no
anonymous lifetime under a reference. -/
def Ty.Plain (new : Ident) : Ty → Prop
  | .ref l _ t => l ≠ some "_" ∧ ¬ t.Anonymous
  | .path _ args => args.Plain new
  | .compound _ ts => ts.Plain new

/-- The same for the parts of a type. -/
def Args.Plain (new : Ident) : Args → Prop
  | .nil => True
  | .lifetime l r => (l = "_" ∨ l = new) ∧ r.Plain new
  | .ty t r => t.Plain new ∧ r.Plain new
  | .ident _ r => r.Plain new
end

mutual
/-- No name of a lifetime is `'_`, with an apostrophe: the apostrophe is not part of the name. -/
def Ty.Lexed : Ty → Prop
  | .ref l _ t => l ≠ some "'_" ∧ t.Lexed
  | .path _ args => args.Lexed
  | .compound _ ts => ts.Lexed

/-- The same for the parts of a type. -/
def Args.Lexed : Args → Prop
  | .nil => True
  | .lifetime l r => l ≠ "'_" ∧ r.Lexed
  | .ty t r => t.Lexed ∧ r.Lexed
  | .ident _ r => r.Lexed
end

/-- The superstate `p` is declared to be the parent of the superstate `n`. -/
def Source.SupParent (src : Source) (p n : Ident) : Prop :=
  ∃ mth ∈ src.methods, mth.name = n ∧ mth.Has "superstate" ∧ mth.link "superstate" "superstate" = some p

/-- No superstate is declared to be its own ancestor. -/
def Source.Acyclic (src : Source) : Prop := ∀ n, ¬ Relation.TransGen src.SupParent n n

/-- The superstate `p`, or one above it, is declared to be its own ancestor. -/
def Source.Cyclic (src : Source) (p : Ident) : Prop :=
  ∃ n, Relation.TransGen src.SupParent n n ∧ Relation.ReflTransGen src.SupParent n p

/-- The superstates above a state or superstate that names `link` as its superstate, innermost first. -/
inductive Source.Above (src : Source) : Option Ident → List Ident → Prop where
  | none : src.Above none []
  | some {pm l} : pm ∈ src.methods → pm.Has "superstate" → src.Above (pm.link "superstate" "superstate") l →
      src.Above (some pm.name) (pm.name :: l)

/-- What a parameter of a state or superstate handler is to be given. -/
def Source.role (src : Source) : FnArg → Option Role
  | .receiver _ => some .storage
  | .typed _ (.ident i) _ =>
    some (if i = src.eventIdent then .event else if i = src.contextIdent then .context else .field i)
  | _ => none

/-- What a parameter of an entry or exit action is to be given.  (An action without a receiver can ask for the
shared storage by name.) -/
def Source.actionRole (src : Source) : FnArg → Option Role
  | .receiver _ => some .storage
  | .typed _ (.ident i) _ =>
    some (if i = "shared_storage" then .storage else if i = src.contextIdent then .context else .field i)
  | _ => none

/-- The local storage has no field with the name of a parameter of the generated functions. -/
def Source.Unshadowed (src : Source) (kind : Ident) (mth : Method) : Prop :=
  ∀ x ∈ src.fields kind mth, x ≠ "shared_storage" ∧ x ≠ src.eventIdent ∧ x ≠ src.contextIdent

section calls
variable {decl : Ident → Option (List Ident)} {T : Types}

/-- What is passed for a role, when `self`, shared storage and context are `w`. -/
inductive Passes (ev : Option T.Ev) (w : Val decl T.V × T.M × T.Ctx) : Role → Arg T → Prop where
  | storage : Passes ev w .storage (.storage w.2.1)
  | event {e} : ev = some e → Passes ev w .event (.event e)
  | context : Passes ev w .context (.context w.2.2)
  | field {x v} : w.1.get x = some v → Passes ev w (.field x) (.field v)

/-- The last value that a callee leaves in an argument for which `of` gives one. -/
def lastLeft {X : Type} (of : Role → Arg T → Option X) (roles : List Role) (args : List (Arg T)) : Option X :=
  ((roles.zip args).filterMap fun p => of p.1 p.2).getLast?

/-- A value of the shared storage. -/
def storageLeft : Role → Arg T → Option T.M
  | .storage, .storage m => some m
  | _, _ => none

/-- A value of the context. -/
def contextLeft : Role → Arg T → Option T.Ctx
  | .context, .context c => some c
  | _, _ => none

/-- A value of the field `x`. -/
def fieldLeft (x : Ident) : Role → Arg T → Option T.V
  | .field y, .field v => if x = y then some v else none
  | _, _ => none

/-- `w'` is what becomes of `self`, shared storage and context `w` when a callee that has been passed references for the
roles leaves `args` there: shared storage, context and fields are what it left there, or unchanged if they were not
passed; the variant, and which fields there are, is unchanged. -/
structure Leaves (roles : List Role) (w : Val decl T.V × T.M × T.Ctx) (args : List (Arg T))
    (w' : Val decl T.V × T.M × T.Ctx) : Prop where
  variant : w'.1.variant = w.1.variant
  field : ∀ x, w'.1.get x = (w.1.get x).map fun v => (lastLeft (fieldLeft x) roles args).getD v
  storage : w'.2.1 = (lastLeft storageLeft roles args).getD w.2.1
  context : w'.2.2 = (lastLeft contextLeft roles args).getD w.2.2

/-- `run` is a call of `f` with arguments for the roles, from `self`, shared storage and context `w`; whatever is
written to the arguments is written to them, at every point where the run can be observed. -/
def Calls {α : Type} (f : List (Arg T) → Fut T.In (List (Arg T)) α) (roles : List Role) (ev : Option T.Ev)
    (w : Val decl T.V × T.M × T.Ctx) (run : Fut T.In (Val decl T.V × T.M × T.Ctx) α) : Prop :=
  ∃ args write, List.Forall₂ (Passes ev w) roles args ∧ (∀ args', Leaves roles w args' (write args')) ∧
    run = (f args).mapWorld write

/-- `run` performs the entry or exit action that a declaration names: nothing without a name, otherwise a call of
the `#[action]` of that name. -/
def Source.Performs (src : Source) (f : Ident → List (Arg T) → Fut T.In (List (Arg T)) Unit) (link : Option Ident)
    (w : Val decl T.V × T.M × T.Ctx) (run : Fut T.In (Val decl T.V × T.M × T.Ctx) Unit) : Prop :=
  match link with
  | none => run = .done w ()
  | some a => ∃ am ∈ src.methods, am.name = a ∧ am.Has "action" ∧
      ∃ roles, am.inputs.mapM src.actionRole = some roles ∧ Calls (f a) roles none w run

/-- `parent` is the superstate that a declaration names, borrowed from `s`: none without a name, otherwise a value of
the variant of the `#[superstate]` of that name, whose fields are those of `s` of the same names; writing to it
writes to these fields of `s`, and to no others. -/
def Source.Borrows (src : Source) (syn : Syn) {decl' : Ident → Option (List Ident)} (link : Option Ident)
    (s : Val decl T.V) (parent : Option (Val decl' T.V × (Val decl' T.V → Val decl T.V))) : Prop :=
  match link with
  | none => parent = none
  | some p => ∃ pm ∈ src.methods, pm.name = p ∧ pm.Has "superstate" ∧ ∃ v back, parent = some (v, back) ∧
      v.variant = variantName syn p ∧
      (∀ x, v.get x = if x ∈ src.fields "superstate" pm then s.get x else none) ∧
      (∀ x ∈ src.fields "superstate" pm, (s.get x).isSome) ∧
      ∀ w, w.variant = variantName syn p → (back w).variant = s.variant ∧
        ∀ x, (back w).get x = if x ∈ src.fields "superstate" pm then w.get x else s.get x

end calls

/-- The attribute is `#[default]`, `#[default = ".."]`, or another form of it. -/
def defaultAttr : ArgAttr → Bool
  | .other _ => false
  | _ => true

/-- How the constructor of a state initializes a field: by the first `#[default]` attribute of the parameter of that
name, if there is one, and otherwise from an argument.  (`#[default]` on a parameter with another role says nothing.) -/
def Source.initOf (src : Source) (mth : Method) (x : Ident) : FieldInit :=
  (mth.inputs.findSome? fun
    | .typed attrs (.ident i) _ =>
      if i = x ∧ i ≠ src.eventIdent ∧ i ≠ src.contextIdent then
        match attrs.find? defaultAttr with
        | some .default => some .default
        | some (.defaultValue (some e)) => some (.value e)
        | _ => none
      else none
    | _ => none).getD .arg

/-- The arguments of the constructor of a state: its fields without default. -/
def Source.ctorArgs (src : Source) (mth : Method) : List Ident :=
  (src.fields "state" mth).filter fun x => src.initOf mth x = .arg

/-- The type that a local storage parameter gives to the field of its name: in a state what it refers to, in a
superstate the reference, with the lifetime `'sub`. -/
def Source.paramTy (src : Source) (kind : Ident) (mth : Method) (x : Ident) : Option Ty :=
  mth.inputs.findSome? fun
    | .typed _ (.ident i) (.ref _ m ty) =>
      if i = x ∧ i ≠ src.eventIdent ∧ i ≠ src.contextIdent then
        some (if kind = "superstate" then .ref (some "sub") m ty else ty)
      else none
    | _ => none

/-- The type of a local storage field: the one in `local_storage(..)`, where the last one counts, or else the one
given by the parameter. -/
def Source.fieldTy (src : Source) (kind : Ident) (mth : Method) (x : Ident) : Option Ty :=
  ((((mth.storageFields kind).filter fun f => f.name = x).getLast?).map (·.ty)).or (src.paramTy kind mth x)

/-- The number of attributes of this name. -/
def Method.countAttr (mth : Method) (kind : Ident) : Nat := (mth.attrs.filter fun a => a.path = kind).length

/-- What is left of a parameter of a method with `k` attributes `#[state]`: it is unchanged, except that of the
`default` attributes of a local storage parameter `k` are removed; other attributes stay (maybe in another order). -/
inductive Source.Kept (src : Source) (k : Nat) : FnArg → FnArg → Prop where
  | same {a} : src.param a = none → src.Kept k a a
  | param {attrs attrs' pat ty} : src.param (.typed attrs pat ty) ≠ none →
      (attrs'.filter fun a => ¬ defaultAttr a).Perm (attrs.filter fun a => ¬ defaultAttr a) →
      (attrs'.filter defaultAttr).length = (attrs.filter defaultAttr).length - k →
      src.Kept k (.typed attrs pat ty) (.typed attrs' pat ty)

mutual
/-- The identifier occurs in the type. -/
def Ty.Names (i : Ident) : Ty → Prop
  | .ref _ _ t => t.Names i
  | .path n args => n = i ∨ args.Names i
  | .compound _ ts => ts.Names i

/-- The same for the parts of a type. -/
def Args.Names (i : Ident) : Args → Prop
  | .nil => False
  | .lifetime _ r => r.Names i
  | .ty t r => t.Names i ∨ r.Names i
  | .ident j r => j = i ∨ r.Names i
end

mutual
/-- The lifetime occurs in the type. -/
def Ty.HasLifetime (l : Ident) : Ty → Prop
  | .ref l' _ t => l' = some l ∨ t.HasLifetime l
  | .path _ args => args.HasLifetime l
  | .compound _ ts => ts.HasLifetime l

/-- The same for the parts of a type. -/
def Args.HasLifetime (l : Ident) : Args → Prop
  | .nil => False
  | .lifetime l' r => l' = l ∨ r.HasLifetime l
  | .ty t r => t.HasLifetime l ∨ r.HasLifetime l
  | .ident _ r => r.HasLifetime l
end

/-- The generic parameter occurs in the type. -/
def GParam.UsedIn : GParam → Ty → Prop
  | .lifetime l _, t => t.HasLifetime l
  | .type n _, t => t.Names n
  | .const n _, t => t.Names n

/-- The name of a generic parameter. -/
def GParam.name : GParam → Ident
  | .lifetime l _ => l
  | .type n _ => n
  | .const n _ => n

/-- The generic parameter is a lifetime. -/
def GParam.IsLifetime : GParam → Prop
  | .lifetime _ _ => True
  | _ => False

/-- The macro regards the generic parameter as used by local storage: some state (`kind` is `state`) or superstate
has a local storage parameter in whose type (with the reference) it occurs, or which has its name if it is not a
lifetime; a lifetime must not have bounds. -/
def Source.Mentions (src : Source) (kind : Ident) (p : GParam) : Prop :=
  ∃ mth ∈ src.methods, mth.Has kind ∧ ∃ attrs i ty, .typed attrs (.ident i) ty ∈ mth.inputs ∧
    i ≠ src.eventIdent ∧ i ≠ src.contextIdent ∧
    (p.UsedIn ty ∨ (¬ p.IsLifetime ∧ p.name = i)) ∧ ∀ l bounds, p = .lifetime l bounds → bounds = []

/-- The argument of `#[state_machine(..)]` is a known setting with a value of the right form. -/
def Setting.Valid (syn : Syn) (a : Setting) : Prop :=
  (a.key = "initial" ∧ ∃ s, a.value = .lit s ∧ syn.isExpr s) ∨
  ((a.key = "event_identifier" ∨ a.key = "context_identifier") ∧ ∃ s, a.value = .lit s ∧ syn.isIdent s) ∨
  ((a.key = "before_transition" ∨ a.key = "after_transition" ∨ a.key = "before_dispatch" ∨ a.key = "after_dispatch") ∧
    ∃ s, a.value = .lit s ∧ syn.isPath s) ∨
  (a.key = "visibility" ∧ ∃ s, a.value = .lit s ∧ syn.isVisibility s) ∨
  ((a.key = "state" ∨ a.key = "superstate") ∧ ∃ l, a.value = .list l)

/-- The item of `state(..)` or `superstate(..)` is `name = ".."` with an identifier, or `derive(..)` with paths. -/
def EnumMeta.Valid (syn : Syn) : EnumMeta → Prop
  | .name v => ∃ s, v = .lit s ∧ syn.isIdent s
  | .derive paths => paths ≠ none
  | .unknown => False

/-- The last `state(..)` (or `superstate(..)`), if there is one, has valid items. -/
def Source.EnumValid (src : Source) (syn : Syn) (key : Ident) : Prop :=
  ∀ l, ((src.args.filter fun a => a.key = key).getLast?).map (·.value) = some (.list l) →
    ∃ ms, l = some ms ∧ ∀ m ∈ ms, m.Valid syn

/-- The item of `#[state(..)]` or `#[superstate(..)]`, if known, has a value of the right form. -/
def Meta.Valid (syn : Syn) (m : Meta) : Prop :=
  ((m.key = "superstate" ∨ m.key = "entry_action" ∨ m.key = "exit_action") → ∃ s, m.value = .lit s ∧ syn.isIdent s) ∧
  (m.key = "local_storage" → ∃ l, m.value = .fields l ∧ none ∉ l)

/-- The parameter of a state or superstate handler is the receiver, or has an identifier as pattern and a reference as
type; and the first `default` attribute of a local storage parameter of a state is well-formed. -/
def Source.ArgValid (src : Source) (kind : Ident) : FnArg → Prop
  | .receiver _ => True
  | .typed attrs pat ty => ∃ i l m t, pat = .ident i ∧ ty = .ref l m t ∧
    (kind = "state" → i ≠ src.eventIdent → i ≠ src.contextIdent →
      ∀ a, attrs.find? defaultAttr = some a → a = .default ∨ ∃ e, a = .defaultValue (some e))

/-- The declarations that the macro is meant to accept. -/
structure Source.WellFormed (syn : Syn) (src : Source) : Prop where
  selfTy : ∃ n args, src.selfTy = .path n args
  settings : ∀ a ∈ src.args, a.Valid syn
  initial : ∃ a ∈ src.args, a.key = "initial"
  enums : src.EnumValid syn "state" ∧ src.EnumValid syn "superstate"
  generic : ∀ mth ∈ src.methods, mth.Has "state" ∨ mth.Has "superstate" ∨ mth.Has "action" → mth.generic = false
  metas : ∀ mth ∈ src.methods, ∀ kind, kind = "state" ∨ kind = "superstate" → ∀ m ∈ mth.metas kind, m.Valid syn
  args : ∀ mth ∈ src.methods, ∀ kind, kind = "state" ∨ kind = "superstate" → mth.Has kind →
    ∀ a ∈ mth.inputs, src.ArgValid kind a
  actionArgs : ∀ mth ∈ src.methods, mth.Has "action" →
    ∀ attrs pat ty, .typed attrs pat ty ∈ mth.inputs → ∃ i, pat = .ident i
  names : ∀ mth ∈ src.methods, mth.Has "state" ∨ mth.Has "superstate" → syn.identNew (variantName syn mth.name)
  superstates : ∀ mth ∈ src.methods, ∀ kind, kind = "state" ∨ kind = "superstate" →
    ∀ p, mth.link kind "superstate" = some p → ∃ pm ∈ src.methods, pm.name = p ∧ pm.Has "superstate"
  actions : ∀ mth ∈ src.methods, ∀ kind, kind = "state" ∨ kind = "superstate" →
    ∀ key, key = "entry_action" ∨ key = "exit_action" →
    ∀ a, mth.link kind key = some a → ∃ am ∈ src.methods, am.name = a ∧ am.Has "action"
  predicates : ∀ n bounds, .type n bounds ∈ src.generics.params → ∀ t bounds', .type t bounds' ∈ src.generics.preds →
    ∃ m args, t = .path m args

/-- The name of a parameter. -/
def argName : FnArg → Option Ident
  | .typed _ (.ident i) _ => some i
  | _ => none

/-- Some state or superstate takes the event (by its configured name) as a reference to `ty`. -/
def Source.EventTy (src : Source) (ty : Ty) : Prop :=
  ∃ mth ∈ src.methods, (mth.Has "state" ∨ mth.Has "superstate") ∧
    ∃ attrs l m, .typed attrs (.ident src.eventIdent) (.ref l m ty) ∈ mth.inputs

/-- Some state or superstate takes the context (by its configured name) as a reference to `ty`. -/
def Source.ContextTy (src : Source) (ty : Ty) : Prop :=
  ∃ mth ∈ src.methods, (mth.Has "state" ∨ mth.Has "superstate") ∧
    ∃ attrs l m, .typed attrs (.ident src.contextIdent) (.ref l m ty) ∈ mth.inputs

/-- The same generated items up to the order of variants, constructors and match arms (and except for the types of
event and context). -/
structure Gen.SameItems (g g' : Gen) : Prop where
  methods : g.methods = g'.methods
  selfTy : g.selfTy = g'.selfTy
  callPath : g.callPath = g'.callPath
  callArgs : g.callArgs = g'.callArgs
  generics : g.generics = g'.generics
  stateImpl : g.stateImpl = g'.stateImpl
  superstateImpl : g.superstateImpl = g'.superstateImpl
  mode : g.mode = g'.mode
  initial : g.initial = g'.initial
  beforeTransition : g.beforeTransition = g'.beforeTransition
  afterTransition : g.afterTransition = g'.afterTransition
  beforeDispatch : g.beforeDispatch = g'.beforeDispatch
  afterDispatch : g.afterDispatch = g'.afterDispatch
  visibility : g.visibility = g'.visibility
  eventIdent : g.eventIdent = g'.eventIdent
  contextIdent : g.contextIdent = g'.contextIdent
  stateIdent : g.stateIdent = g'.stateIdent
  stateDerives : g.stateDerives = g'.stateDerives
  stateGenerics : g.stateGenerics = g'.stateGenerics
  superstateIdent : g.superstateIdent = g'.superstateIdent
  superstateDerives : g.superstateDerives = g'.superstateDerives
  superstateLifetime : g.superstateLifetime = g'.superstateLifetime
  superstateGenerics : g.superstateGenerics = g'.superstateGenerics
  states : g.states.Perm g'.states
  constructors : g.constructors.Perm g'.constructors
  handlerArms : g.handlerArms.Perm g'.handlerArms
  entryArms : g.entryArms.Perm g'.entryArms
  exitArms : g.exitArms.Perm g'.exitArms
  superstateArms : g.superstateArms.Perm g'.superstateArms
  superstates : g.superstates.Perm g'.superstates
  supHandlerArms : g.supHandlerArms.Perm g'.supHandlerArms
  supEntryArms : g.supEntryArms.Perm g'.supEntryArms
  supExitArms : g.supExitArms.Perm g'.supExitArms
  supSuperstateArms : g.supSuperstateArms.Perm g'.supSuperstateArms

/-- The methods of the impl block have distinct names (required by `rustc`). -/
def Source.Distinct (src : Source) : Prop := (src.methods.map (·.name)).Nodup

/-- The declarations for which the generated code is well-scoped.

* Methods have distinct names, and so have the variants of each enum and the fields of each variant.
* `shared_storage` and the names of event and context are different.
* A state or superstate has all the fields of its superstate.
* The parameters of an entry or exit action are fields of the state or superstate, the context, or called
  `shared_storage`; the event is not available. -/
structure Source.Usable (syn : Syn) (src : Source) : Prop where
  methods : src.Distinct
  variants : ∀ kind, kind = "state" ∨ kind = "superstate" → ∀ mth ∈ src.methods, ∀ mth' ∈ src.methods,
    mth.Has kind → mth'.Has kind → variantName syn mth.name = variantName syn mth'.name → mth.name = mth'.name
  fields : ∀ kind, kind = "state" ∨ kind = "superstate" → ∀ mth ∈ src.methods, mth.Has kind →
    (src.fields kind mth).Nodup
  names : src.eventIdent ≠ "shared_storage" ∧ src.contextIdent ≠ "shared_storage" ∧ src.eventIdent ≠ src.contextIdent
  superstates : ∀ kind, kind = "state" ∨ kind = "superstate" → ∀ mth ∈ src.methods, ∀ pm ∈ src.methods,
    pm.Has "superstate" → mth.link kind "superstate" = some pm.name →
      ∀ x ∈ src.fields "superstate" pm, x ∈ src.fields kind mth
  actions : ∀ kind, kind = "state" ∨ kind = "superstate" → ∀ mth ∈ src.methods, ∀ am ∈ src.methods,
    am.Has "action" → ∀ key, key = "entry_action" ∨ key = "exit_action" → mth.link kind key = some am.name →
      ∀ attrs i ty, .typed attrs (.ident i) ty ∈ am.inputs →
        i ∈ src.fields kind mth ∨ i = src.contextIdent ∨ i = "shared_storage"

end Statig.Macro
