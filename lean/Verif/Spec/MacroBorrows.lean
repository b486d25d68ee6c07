import Verif.Spec.MacroTyping
/-!
# Vocabulary of the properties of `#[state_machine]`: methods that can be called with what they ask for
-/
namespace Statig.Macro

/-- The parameter is given the variable `shared_storage`: the receiver, or a parameter of that name. -/
def FnArg.NamesStorage : FnArg → Prop
  | .receiver _ => True
  | .typed _ (.ident i) _ => i = "shared_storage"
  | _ => False

/-- The method does not ask for the variable `shared_storage` more than once, unless it only reads it. -/
def Source.AsksOnce (src : Source) (mth : Method) : Prop :=
  mth.inputs.Pairwise fun a b => a.NamesStorage → b.NamesStorage →
    (src.argTy a).isShared = true ∧ (src.argTy b).isShared = true

/-- The method is called by the generated code: it is a state or superstate, or an action that one uses. -/
def Source.Called (src : Source) (mth : Method) : Prop :=
  mth.Has "state" ∨ mth.Has "superstate" ∨
    mth.Has "action" ∧ ∃ m ∈ src.methods, ∃ kind, (kind = "state" ∨ kind = "superstate") ∧ m.Has kind ∧
      (m.link kind "entry_action" = some mth.name ∨ m.link kind "exit_action" = some mth.name)

end Statig.Macro
