import Verif.Model.Api
/-!
# Vocabulary of the properties: polling a call

The schedule of a call is the list of inputs it is polled with; a call that is still suspended when the
schedule is used up has been polled that often so far.
-/
namespace Statig
variable {S : Sig} {τ : Type}

/-- The first `n` inputs of an endless source of inputs. -/
def firstInputs {In : Type} (f : Nat → In) (n : Nat) : List In := (List.range n).map f

/-- A call, as a function of the inputs it is polled with, can be polled on with more inputs `t`: if it has
ended it is unaffected by them, and leaves them unused; if it is suspended it has used all its inputs so far, and
the callbacks it has made stay made, in the same order, whatever comes next. -/
def Incremental (call : List S.In → Option (Call S τ)) : Prop :=
  ∀ l t c, call l = some c →
    (c.out ≠ .stopped → call (l ++ t) = some { c with sched := c.sched ++ t }) ∧
    (c.out = .stopped → c.sched = [] ∧ ∀ d, call (l ++ t) = some d → c.trace <+: d.trace)

/-- Whatever the outside world answers, the call ends after it has been polled finitely often. -/
def EndsWhenPolled (call : List S.In → Option (Call S τ)) : Prop :=
  ∀ f : Nat → S.In, ∃ n c, call (firstInputs f n) = some c ∧ c.out ≠ .stopped ∧ c.sched = []

end Statig
