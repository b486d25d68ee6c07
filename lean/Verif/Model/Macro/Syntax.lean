/-!
# The `#[state_machine]` macro: input

The part of `syn`'s syntax trees that the macro looks at.  Not modelled: spans, tokens, the bodies of functions,
and syntax that the macro copies without looking at it.
-/
namespace Statig.Macro

/-- `syn::Ident` (raw identifiers are not modelled).  The name of a lifetime is its identifier, without the
apostrophe, as in `syn::Lifetime::ident`. -/
abbrev Ident := String

/-- `syn::Expr`, `syn::Path` and `syn::Visibility` are only copied by the macro. -/
abbrev Expr := String

mutual
/-- `syn::Type`: references; paths, by their last segment, and its earlier segments (as identifiers) and generic
arguments; and all other types (tuples, arrays, slices, pointers, functions, trait objects, `<T as Trait>::U`), by
their kind and parts.  A constant `{ .. }` among generic arguments is of this last kind too. -/
inductive Ty where
  | ref (lifetime : Option Ident) (mutable : Bool) (elem : Ty)
  | path (name : Ident) (args : Args)
  | compound (kind : String) (parts : Args)
/-- Parts of a type: lifetimes (also those bound by `for<..>` and in bounds), types, and other identifiers (in the
length of an array, in a constant, in a path). -/
inductive Args where
  | nil
  | lifetime (l : Ident) (rest : Args)
  | ty (t : Ty) (rest : Args)
  | ident (i : Ident) (rest : Args)
end

deriving instance DecidableEq for Ty, Args

instance : Inhabited Ty := ⟨.compound "()" .nil⟩

/-- `syn::Field` with a name. -/
structure Field where
  name : Ident
  ty : Ty
deriving DecidableEq

/-- The patterns that are rejected in `macro/src/analyze.rs:407-417`. -/
inductive PatKind where
  | tuple
  | tupleStruct
  | struct
  | wild
  | other
deriving DecidableEq

/-- `syn::Pat` as far as distinguished in `macro/src/analyze.rs:384-418`: an identifier, a reference pattern, or
one of the patterns that are rejected. -/
inductive Pat where
  | ident (i : Ident)
  | reference
  | unsupported (kind : PatKind)
deriving DecidableEq

/-- An attribute on a parameter (`macro/src/analyze.rs:598-623`): `#[default]`, `#[default = "expr"]` (`none` if
the string is not an expression), `#[default = ..]` without a string literal, another form of `default`, or an
unrelated attribute. -/
inductive ArgAttr where
  | default
  | defaultValue (e : Option Expr)
  | defaultNotString
  | defaultMalformed
  | other (tokens : String)
deriving DecidableEq

/-- `syn::FnArg`: `&self`/`&mut self`, or a typed parameter. -/
inductive FnArg where
  | receiver (mutable : Bool)
  | typed (attrs : List ArgAttr) (pat : Pat) (ty : Ty)
deriving DecidableEq

/-- The right-hand side of `key = ".."` or `key(..)` in `#[state(..)]`: `key = ".."` with a string literal,
`key = ..` with something else, `key(..)` with a list of string literals each of which was parsed as a field or could
not be, or anything else. -/
inductive MetaValue where
  | lit (s : String)
  | notString
  | fields (l : List (Option Field))
  | other
deriving DecidableEq

/-- `syn::Meta` inside `#[state(..)]` and `#[superstate(..)]`. -/
structure Meta where
  key : Ident
  value : MetaValue
deriving DecidableEq

/-- `syn::Attribute` on a method; `metas` is `none` if its arguments are not a list of metas. -/
structure Attr where
  path : Ident
  metas : Option (List Meta)
deriving DecidableEq

/-- `syn::ImplItemFn`: name, attributes, whether it has generic parameters, whether it is `async`, parameters. -/
structure Method where
  name : Ident
  attrs : List Attr
  generic : Bool
  isAsync : Bool
  inputs : List FnArg
deriving DecidableEq

/-- `syn::Meta` inside `state(..)` and `superstate(..)` of `#[state_machine(..)]`: `name = ".."`,
`derive(..)`, or anything else. -/
inductive EnumMeta where
  | name (value : MetaValue)
  | derive (paths : Option (List Ident))
  | unknown

/-- An argument of `#[state_machine(..)]`: `key = ".."` with a string literal, `key = ..` with something else, `key(..)`
(`none` if the list is not one of metas), or anything else. -/
inductive SettingValue where
  | lit (s : String)
  | notString
  | list (metas : Option (List EnumMeta))
  | other

/-- See `SettingValue`. -/
structure Setting where
  key : Ident
  value : SettingValue

/-- `syn::GenericParam`: bounds and the types of constants are only copied and compared. -/
inductive GParam where
  | lifetime (name : Ident) (bounds : List Ident)
  | type (name : Ident) (bounds : List String)
  | const (name : Ident) (ty : String)
deriving DecidableEq

/-- `syn::WherePredicate`. -/
inductive WherePred where
  | type (bounded : Ty) (bounds : List String)
  | lifetime (name : Ident) (bounds : List Ident)
deriving DecidableEq

/-- `syn::Generics` of the impl block. -/
structure Generics where
  params : List GParam := []
  preds : List WherePred := []
deriving DecidableEq

/-- What parsing the contents of a string literal with `syn` says; whether `proc_macro2::Ident::new` accepts a
string (otherwise it panics); and `char::to_uppercase` outside ASCII. -/
structure Syn where
  isIdent : String → Bool
  isExpr : String → Bool
  isPath : String → Bool
  isVisibility : String → Bool
  identNew : String → Bool
  toUppercase : Char → List Char

/-- The order in which the hash maps of one run of the macro are iterated: at every place, a permutation of the
entries. -/
structure Order where
  perm : {α : Type} → Nat → List α → List α
  perm_perm : ∀ {α : Type} n (l : List α), (perm n l).Perm l

/-- Either the macro aborts (or panics) with a message, or it has a result. -/
abbrev Res := Except String

end Statig.Macro
