import Verif.Model.Macro.Rust
/-!
# The `#[state_machine]` macro: the types in the generated code

What `rustc` checks of the arguments of generated calls and of the fields of generated superstate expressions.  Which
type can be passed where another one is expected is a parameter (`Coercion`).  Of borrows, it is checked that the
arguments of one call do not conflict (`Gen.BorrowChecks`).  Lifetimes, bounds and the results of functions are not
modelled.
-/
namespace Statig.Macro

mutual
/-- The type without its lifetimes, which are not compared here (types of `syn`, see `Ty` in `Syntax`; `macro/src/lower.rs:655-690`). -/
def Ty.erase : Ty → Ty
  | .ref _ m t => .ref none m t.erase
  | .path n args => .path n args.erase
  | .compound k ts => .compound k ts.erase
/-- The same for the parts of a type. -/
def Args.erase : Args → Args
  | .nil => .nil
  | .lifetime _ r => r.erase
  | .ty t r => .ty t.erase r.erase
  | .ident i r => .ident i r.erase
end

/-- Rust's coercions (The Rust Reference, "Type coercions"), as far as they are used here: `coerces t u` means that a
value of type `t` can be passed where a `u` is expected.  It does not depend on lifetimes (which are not checked here);
every type coerces to itself, `&mut T` to `&T`, and `&mut &mut T` to `&mut T` and `&T`, and `&mut &T` to `&T`.  There
can be more coercions, for instance by implementations of `Deref`, and types that are written differently can be the
same. -/
structure Coercion where
  coerces : Ty → Ty → Prop
  erase : ∀ {t t' u u' : Ty}, t.erase = t'.erase → u.erase = u'.erase → coerces t u → coerces t' u'
  refl : ∀ t, coerces t t
  share : ∀ t, coerces (.ref none true t) (.ref none false t)
  deref : ∀ m m' t, (m' = true → m = true) → coerces (.ref none true (.ref none m t)) (.ref none m' t)

/-- The type of a parameter of a method of the impl block, which the macro keeps (`macro/src/codegen.rs:8-37`): `&self` is `self: &Self`. -/
def Gen.paramTy (g : Gen) : FnArg → Ty
  | .receiver m => .ref none m g.selfTy
  | .typed _ _ ty => ty

/-- The declared type of a field of a variant of a generated enum (`macro/src/codegen.rs:177-195, 350-368`). -/
def fieldTyOf (vs : List Variant) (v x : Ident) : Option Ty :=
  (vs.find? fun a => a.name == v).bind fun a => (a.fields.find? fun f => f.name == x).map (·.ty)

/-- The type of a variable in an arm of a generated `match self { .. }` (`macro/src/codegen.rs:254-347, 407-504`), where
`self` is a `&mut` reference to a value of the enum with variants `vs`: fields bound by the pattern are `&mut` references
to the fields; `shared_storage` is a `&mut` reference to the type of the impl block, the event a `&` reference to
`Event`, the context a `&mut` reference to `Context`. -/
def Gen.varTy (g : Gen) (vs : List Variant) (pat : VariantPat) (inHandler : Bool) (x : Ident) : Option Ty :=
  (g.iface.resolve pat.fields inHandler x).bind fun
    | .storage => some (.ref none true g.selfTy)
    | .event => some (.ref none false g.eventType)
    | .context => some (.ref none true g.contextType)
    | .field x => (fieldTyOf vs pat.variant x).map (.ref none true)

/-- A generated call: there is such a method, it has as many parameters as there are arguments, and the arguments can be
passed for them. -/
def Gen.CallChecks (g : Gen) (co : Coercion) (vs : List Variant) (pat : VariantPat) (inHandler : Bool) (c : FnCall) :
    Prop :=
  ∃ mth, g.methods.find? (·.name == c.fn) = some mth ∧ c.args.length = mth.inputs.length ∧
    ∀ p ∈ c.args.zip mth.inputs, ∃ t, g.varTy vs pat inHandler p.1 = some t ∧ co.coerces t (g.paramTy p.2)

/-- A generated superstate expression `Superstate::Variant { field, .. }`: the variables can be used for the fields. -/
def Gen.ViewChecks (g : Gen) (co : Coercion) (vs : List Variant) (pat target : VariantPat) : Prop :=
  ∀ x ∈ target.fields, ∃ t u, g.varTy vs pat false x = some t ∧ fieldTyOf g.superstates target.variant x = some u ∧
    co.coerces t u

/-- The generated calls (`macro/src/lower.rs:516-529, 577-591, 629-643`) and superstate expressions have the right
types.  (In `superstate()` there are no other variables than the fields; `Gen.Compiles` says that the fields of the
expression are bound.) -/
structure Gen.TypeChecks (g : Gen) (co : Coercion) : Prop where
  handler : ∀ a ∈ g.handlerArms, g.CallChecks co g.states a.pat true a.body
  entry : ∀ a ∈ g.entryArms, ∀ c ∈ a.body, g.CallChecks co g.states a.pat false c
  exit : ∀ a ∈ g.exitArms, ∀ c ∈ a.body, g.CallChecks co g.states a.pat false c
  superstate : ∀ a ∈ g.superstateArms, ∀ p ∈ a.body, g.ViewChecks co g.states a.pat p
  supHandler : ∀ a ∈ g.supHandlerArms, g.CallChecks co g.superstates a.pat true a.body
  supEntry : ∀ a ∈ g.supEntryArms, ∀ c ∈ a.body, g.CallChecks co g.superstates a.pat false c
  supExit : ∀ a ∈ g.supExitArms, ∀ c ∈ a.body, g.CallChecks co g.superstates a.pat false c
  supSuperstate : ∀ a ∈ g.supSuperstateArms, ∀ p ∈ a.body, g.ViewChecks co g.superstates a.pat p

/-- A shared reference. -/
def Ty.isShared : Ty → Bool
  | .ref _ false _ => true
  | _ => false

/-- The arguments of a generated call (`macro/src/lower.rs:516-529, 577-591, 629-643`) can be borrowed together: a
variable that is passed for two parameters is only read by both.  (All variables are references; passing a `&mut`
reference for a `&T` borrows it shared, for anything else it borrows it mutably or moves it, and then it can not be
passed again.) -/
def Gen.CallBorrows (g : Gen) (c : FnCall) : Prop :=
  ∀ mth, g.methods.find? (·.name == c.fn) = some mth →
    (c.args.zip mth.inputs).Pairwise fun p q =>
      p.1 = q.1 → (g.paramTy p.2).isShared = true ∧ (g.paramTy q.2).isShared = true

/-- The arguments of each generated call, and the fields of each generated superstate expression
(`macro/src/lower.rs:196-197, 236-237`), can be borrowed together. -/
structure Gen.BorrowChecks (g : Gen) : Prop where
  handler : ∀ a ∈ g.handlerArms, g.CallBorrows a.body
  entry : ∀ a ∈ g.entryArms, ∀ c ∈ a.body, g.CallBorrows c
  exit : ∀ a ∈ g.exitArms, ∀ c ∈ a.body, g.CallBorrows c
  superstate : ∀ a ∈ g.superstateArms, ∀ p ∈ a.body, p.fields.Nodup
  supHandler : ∀ a ∈ g.supHandlerArms, g.CallBorrows a.body
  supEntry : ∀ a ∈ g.supEntryArms, ∀ c ∈ a.body, g.CallBorrows c
  supExit : ∀ a ∈ g.supExitArms, ∀ c ∈ a.body, g.CallBorrows c
  supSuperstate : ∀ a ∈ g.supSuperstateArms, ∀ p ∈ a.body, p.fields.Nodup

end Statig.Macro
