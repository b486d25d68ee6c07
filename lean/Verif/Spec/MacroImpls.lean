import Verif.Spec.Macro
/-!
# The type of the impl block, as it appears in the generated code
-/
namespace Statig.Macro

/-- Lifetime parameters come before all others (required by `rustc`). -/
def Generics.LifetimesFirst (gs : Generics) : Prop :=
  ∃ ls os, gs.params = ls ++ os ∧ (∀ p ∈ ls, p.IsLifetime) ∧ ∀ p ∈ os, ¬ p.IsLifetime

/-- A generic parameter as first argument. -/
def GParam.asArg : GParam → Args → Args
  | .lifetime l _, rest => .lifetime l rest
  | .type n _, rest => .ty (.path n .nil) rest
  | .const n _, rest => .ty (.path n .nil) rest

/-- The generic parameters, in order, as generic arguments. -/
def Generics.asArgs (gs : Generics) : Args := gs.params.foldr GParam.asArg .nil

/-- The type `a::b::name<args>`, where `modules = [a, b]`. -/
def namedType (modules : List Ident) (name : Ident) (args : Args) : Ty :=
  .path name (modules.foldr .ident args)

/-- Generic arguments are lifetimes and types (constants are types here, see `Ty`). -/
def Args.Proper : Args → Prop
  | .nil => True
  | .lifetime _ rest => rest.Proper
  | .ty _ rest => rest.Proper
  | .ident _ _ => False

/-- The generated calls are calls of methods of this type. -/
def Gen.CallsMethodsOf (g : Gen) (ty : Ty) : Prop :=
  ∃ modules name, g.callPath = modules ++ [name] ∧ ty = namedType modules name g.callArgs

/-- Some superstate handler has a parameter that is stored in the superstate. -/
def Source.SuperstateBorrows (src : Source) : Prop :=
  ∃ mth ∈ src.methods, mth.Has "superstate" ∧ ∃ a ∈ mth.inputs, ∃ x, src.param a = some x

end Statig.Macro
