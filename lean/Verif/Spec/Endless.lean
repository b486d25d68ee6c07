import Verif.Spec.Forest
import Verif.Spec.Invariants
/-!
# Endless chains of superstates
-/
namespace Statig
variable {S : Sig}

/-- Whenever the event `ev` is given to a state in which `L` holds, or to a superstate in which `P` holds, it is deferred
to a superstate in which `P` holds.  (So there is always another superstate.) -/
structure Machine.AlwaysDefers (m : Machine S) (ev : S.Ev) (L : S.St → Prop) (P : S.Sup → Prop) : Prop where
  leaf : ∀ s sh c, L s → (m.handler s sh ev c).Returns fun r w =>
    r = .super ∧ ∃ v back, m.superstate w.1 = some (v, back) ∧ P v
  sup : ∀ u sh c, P u → (m.supHandler u sh ev c).Returns fun r w =>
    r = .super ∧ ∃ v back, m.supSuperstate w.1 = some (v, back) ∧ P v

end Statig
