import Verif.Spec.Macro
/-!
# Specification: the same impl block written in another order
-/
namespace Statig.Macro

/-- The same methods in another order, and the same arguments of `#[state_machine(..)]`, no two of which have the same
key, in another order. -/
structure Source.Rearranged (src src' : Source) : Prop where
  selfTy : src'.selfTy = src.selfTy
  generics : src'.generics = src.generics
  args : src.args.Perm src'.args
  keys : (src.args.map (·.key)).Nodup
  methods : src.methods.Perm src'.methods

end Statig.Macro
