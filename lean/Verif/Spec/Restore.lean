import Verif.Spec.History
import Verif.Spec.Forest
/-!
# Vocabulary of the properties: resuming from a saved machine
-/
namespace Statig
variable {S : Sig}

/-- The entry actions do nothing: they return at once, leaving everything as it is. -/
structure Machine.EntriesIdle (m : Machine S) : Prop where
  leaf : ∀ s sh c, m.entry s sh c = .done (s, sh, c) ()
  sup : ∀ v sh c, m.supEntry v sh c = .done (v, sh, c) ()

/-- `Resumes m F d l l'`: the results `l'` of a sequence of calls are the results `l` of the same calls on a machine that
was never saved, but for the first: before its callbacks, the entry actions from the root down to the state variant `d`
are run. -/
def Resumes (m : Machine S) (F : Forest S.D S.E) (d : S.D) : (l l' : List (Call S (StateMachine S))) → Prop
  | [], l' => l' = []
  | c :: l, l' => ∃ pre, m.steps pre = (F.path d).reverse.map .entry ∧ l' = { c with trace := pre ++ c.trace } :: l

end Statig
