import Verif.Model.Core
/-!
# Vocabulary of the properties: static hierarchies and what it means to follow one

Nothing here mentions the functions of the library.
-/
namespace Statig

/-- A node of the hierarchy: a state variant (leaf) or a superstate variant. -/
inductive Node (D E : Type) where
  | leaf (d : D)
  | sup (e : E)
deriving DecidableEq, Repr

/-- A static, acyclic hierarchy.  Every state variant and every superstate variant has at most one parent
superstate.  Acyclicity: the ancestors of every superstate form a finite list (nearest first). -/
structure Forest (D E : Type) where
  leafParent : D → Option E
  supParent : E → Option E
  supAnc : E → List E
  supAnc_eq : ∀ e, supAnc e = match supParent e with
    | none => []
    | some p => p :: supAnc p

namespace Forest
variable {D E : Type} (F : Forest D E)

/-- Ancestors of a leaf, nearest first. -/
def leafAnc (d : D) : List E :=
  match F.leafParent d with
  | none => []
  | some p => p :: F.supAnc p

/-- Ancestors of any node, nearest first. -/
def anc : Node D E → List E
  | .leaf d => F.leafAnc d
  | .sup e => F.supAnc e

/-- A node and all its ancestors, from the node up to the root. -/
def up (n : Node D E) : List (Node D E) := n :: (F.anc n).map .sup

/-- The active nodes when the machine is in state variant `d`, from the leaf up to the root. -/
def path (d : D) : List (Node D E) := F.up (.leaf d)

/-- Parent of a node. -/
def parent : Node D E → Option (Node D E)
  | .leaf d => (F.leafParent d).map .sup
  | .sup e => (F.supParent e).map .sup

variable [DecidableEq D] [DecidableEq E]

/-- What a transition from variant `d` to variant `t` must exit, in order: for a self-transition only the
leaf; otherwise every active node that is not active in the target, innermost first. -/
def exits (d t : D) : List (Node D E) :=
  if d = t then [.leaf d] else (F.path d).filter (· ∉ F.path t)

/-- What a transition from variant `d` to variant `t` must enter, in order: for a self-transition only the
leaf; otherwise every node active in the target that is not active in the source, outermost first. -/
def entries (d t : D) : List (Node D E) :=
  if d = t then [.leaf t] else ((F.path t).filter (· ∉ F.path d)).reverse

end Forest

variable {S : Sig}

/-- The machine follows the static hierarchy `F`: the superstate variant of a state or superstate is
determined by its variant as in `F`; a superstate that keeps its variant writes back to a state (or
superstate) that keeps its variant; and handlers and actions never change the variant of `self` (at no
point where they can be observed: return, panic or suspension). -/
structure Follows (m : Machine S) (F : Forest S.D S.E) : Prop where
  leaf : ∀ s, (m.superstate s).map (fun p => m.supDiscr p.1) = F.leafParent (m.discr s)
  sup : ∀ v, (m.supSuperstate v).map (fun p => m.supDiscr p.1) = F.supParent (m.supDiscr v)
  leaf_back : ∀ s v back w, m.superstate s = some (v, back) → m.supDiscr w = m.supDiscr v →
    m.discr (back w) = m.discr s
  sup_back : ∀ u v back w, m.supSuperstate u = some (v, back) → m.supDiscr w = m.supDiscr v →
    m.supDiscr (back w) = m.supDiscr u
  handler : ∀ s sh ev c, (m.handler s sh ev c).All (fun w => m.discr w.1 = m.discr s)
  entry : ∀ s sh c, (m.entry s sh c).All (fun w => m.discr w.1 = m.discr s)
  exit : ∀ s sh c, (m.exit s sh c).All (fun w => m.discr w.1 = m.discr s)
  supHandler : ∀ v sh ev c, (m.supHandler v sh ev c).All (fun w => m.supDiscr w.1 = m.supDiscr v)
  supEntry : ∀ v sh c, (m.supEntry v sh c).All (fun w => m.supDiscr w.1 = m.supDiscr v)
  supExit : ∀ v sh c, (m.supExit v sh c).All (fun w => m.supDiscr w.1 = m.supDiscr v)

/-- A superstate is a view of the state's data: after writing `w` back, borrowing again yields `w`, with
the same way of writing back.  (`w` ranges over values of the same superstate variant.) -/
structure Lawful (m : Machine S) : Prop where
  leaf : ∀ s v back w, m.superstate s = some (v, back) → m.supDiscr w = m.supDiscr v →
    ∃ back', m.superstate (back w) = some (w, back') ∧
      ∀ w', m.supDiscr w' = m.supDiscr v → back' w' = back w'
  sup : ∀ u v back w, m.supSuperstate u = some (v, back) → m.supDiscr w = m.supDiscr v →
    ∃ back', m.supSuperstate (back w) = some (w, back') ∧
      ∀ w', m.supDiscr w' = m.supDiscr v → back' w' = back w'

/-- A callback that can never panic. -/
def Fut.NoPanic {In W α : Type} : Fut In W α → Prop
  | .done _ _ => True
  | .panic _ => False
  | .pending _ k => ∀ i, (k i).NoPanic

/-- A callback that never suspends. -/
def Fut.NoSuspend {In W α : Type} : Fut In W α → Prop
  | .done _ _ => True
  | .panic _ => True
  | .pending _ _ => False

/-- All user callbacks satisfy a predicate on futures. -/
structure Machine.AllCallbacks (m : Machine S)
    (P : ∀ {W α : Type}, Fut S.In W α → Prop) : Prop where
  handler : ∀ s sh ev c, P (m.handler s sh ev c)
  entry : ∀ s sh c, P (m.entry s sh c)
  exit : ∀ s sh c, P (m.exit s sh c)
  supHandler : ∀ v sh ev c, P (m.supHandler v sh ev c)
  supEntry : ∀ v sh c, P (m.supEntry v sh c)
  supExit : ∀ v sh c, P (m.supExit v sh c)
  beforeDispatch : ∀ sh n ev, P (m.beforeDispatch sh n ev)
  afterDispatch : ∀ sh n ev, P (m.afterDispatch sh n ev)
  beforeTransition : ∀ sh a b, P (m.beforeTransition sh a b)
  afterTransition : ∀ sh a b, P (m.afterTransition sh a b)

/-- No user callback ever panics. -/
def Machine.NoPanic (m : Machine S) : Prop := m.AllCallbacks Fut.NoPanic

/-- No user callback ever suspends. -/
def Machine.NoSuspend (m : Machine S) : Prop := m.AllCallbacks Fut.NoSuspend

end Statig
