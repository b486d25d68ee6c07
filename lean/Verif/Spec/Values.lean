import Verif.Spec.Forest
/-!
# Vocabulary of the properties: callbacks that do not write local storage

`self` of a callback is the state (or superstate) itself, so "does not write local storage" means that
`self` is unchanged whenever the callback can be observed: at return, panic or suspension.
-/
namespace Statig
variable {S : Sig}

/-- Handlers do not write local storage when given the event `ev`. -/
structure Machine.HandlersKeep (m : Machine S) (ev : S.Ev) : Prop where
  leaf : ∀ s sh c, (m.handler s sh ev c).All (fun w => w.1 = s)
  sup : ∀ v sh c, (m.supHandler v sh ev c).All (fun w => w.1 = v)

/-- The handler of `n` does not write local storage when given the event `ev`. -/
def Machine.HandlerKeeps (m : Machine S) (ev : S.Ev) : StateOrSuperstate S.St S.Sup → Prop
  | .state s => ∀ sh c, (m.handler s sh ev c).All (fun w => w.1 = s)
  | .superstate v => ∀ sh c, (m.supHandler v sh ev c).All (fun w => w.1 = v)

/-- Entry actions do not write local storage. -/
structure Machine.EntriesKeep (m : Machine S) : Prop where
  leaf : ∀ s sh c, (m.entry s sh c).All (fun w => w.1 = s)
  sup : ∀ v sh c, (m.supEntry v sh c).All (fun w => w.1 = v)

/-- Exit actions do not write local storage. -/
structure Machine.ExitsKeep (m : Machine S) : Prop where
  leaf : ∀ s sh c, (m.exit s sh c).All (fun w => w.1 = s)
  sup : ∀ v sh c, (m.supExit v sh c).All (fun w => w.1 = v)

end Statig
