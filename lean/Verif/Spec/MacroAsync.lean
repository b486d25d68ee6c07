import Verif.Spec.MacroExtension
/-!
# Vocabulary of the properties of `#[state_machine]`: declarations and generated code without `async`
-/
namespace Statig.Macro

/-- The method, not `async`. -/
def Method.sync (mth : Method) : Method := { mth with isAsync := false }

/-- The impl block without any `async`. -/
def Source.sync (src : Source) : Source := { src with methods := src.methods.map Method.sync }

/-- The call, without `.await`. -/
def FnCall.sync (c : FnCall) : FnCall := { c with await := false }

/-- The arm, with a call without `.await`. -/
def Arm.sync (a : Arm FnCall) : Arm FnCall := ⟨a.pat, a.body.sync⟩

/-- The same for actions. -/
def Arm.syncs (a : Arm (Option FnCall)) : Arm (Option FnCall) := ⟨a.pat, a.body.map FnCall.sync⟩

/-- The generated items without any `async` and `.await`, as impls of the traits for blocking machines. -/
def Gen.sync (g : Gen) : Gen :=
  { g with
    methods := g.methods.map Method.sync
    mode := .blocking
    handlerArms := g.handlerArms.map Arm.sync
    entryArms := g.entryArms.map Arm.syncs
    exitArms := g.exitArms.map Arm.syncs
    supHandlerArms := g.supHandlerArms.map Arm.sync
    supEntryArms := g.supEntryArms.map Arm.syncs
    supExitArms := g.supExitArms.map Arm.syncs }

/-- Some state, superstate or action is declared with an `async fn`. -/
def Source.Async (src : Source) : Prop :=
  ∃ mth ∈ src.methods, mth.isAsync = true ∧ (mth.Has "state" ∨ mth.Has "superstate" ∨ mth.Has "action")

/-- None of the four hooks is set. -/
def Source.NoHooks (src : Source) : Prop :=
  src.setting "before_dispatch" = none ∧ src.setting "after_dispatch" = none ∧
    src.setting "before_transition" = none ∧ src.setting "after_transition" = none

end Statig.Macro
