import Verif.Spec.Extension
import Verif.Spec.Macro
/-!
# Vocabulary of the properties of `#[state_machine]`: adding methods to the impl block
-/
namespace Statig.Macro

/-- The variants of one enum are variants of another one, with the same fields. -/
def Widens (decl decl' : Ident → Option (List Ident)) : Prop := ∀ v ns, decl v = some ns → decl' v = some ns

/-- The same variant with the same values of its fields, as a value of the other enum. -/
def Val.widen {decl decl' : Ident → Option (List Ident)} {V : Type} (h : Widens decl decl') (s : Val decl V) :
    Val decl' V where
  variant := s.variant
  get := s.get
  ok := let ⟨ns, h1, h2⟩ := s.ok; ⟨ns, h _ _ h1, h2⟩

/-- `src'` is `src` with further methods (states, superstates, actions or others), anywhere in the impl block. -/
structure Source.AddsTo (src' src : Source) : Prop where
  args : src'.args = src.args
  methods : ∀ mth ∈ src.methods, mth ∈ src'.methods

/-- `src'` has the methods of `src`, each of which may or may not be `async` in it, and maybe more. -/
structure Source.Covers (src' src : Source) : Prop where
  args : src'.args = src.args
  methods : ∀ mth ∈ src.methods, ∃ b, { mth with isAsync := b } ∈ src'.methods

/-- The function with this path is one of the hooks. -/
def Gen.Uses (g : Gen) (p : Expr) : Prop :=
  g.beforeDispatch = some p ∨ g.afterDispatch = some p ∨ g.beforeTransition = some p ∨ g.afterTransition = some p

/-- The methods of the old impl block, the expression `initial` and the hooks are the same functions in two programs. -/
structure Env.Same {I I' : Iface} {T : Types} (src : Source) (hst : Widens I.stateFields I'.stateFields)
    (hsup : Widens I.supFields I'.supFields) (env : Env I T) (env' : Env I' T) : Prop where
  handler : ∀ mth ∈ src.methods, ∀ args,
    env'.handler mth.name args = (env.handler mth.name args).image id (Response.image (Val.widen hst))
  action : ∀ mth ∈ src.methods, ∀ args, env'.action mth.name args = env.action mth.name args
  initial : ∀ e, env'.initial e = (env.initial e).widen hst
  dispatchHook : ∀ p sh k ev,
    env'.dispatchHook p sh (k.image (Val.widen hst) (Val.widen hsup)) ev = env.dispatchHook p sh k ev
  transitionHook : ∀ p sh s t,
    env'.transitionHook p sh (s.widen hst) (t.widen hst) = env.transitionHook p sh s t
  hookAsync : ∀ p, env'.hookAsync p = env.hookAsync p

end Statig.Macro
