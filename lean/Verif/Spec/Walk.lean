import Verif.Spec.Forest
/-!
# Vocabulary of C08: walks in the state tree

The tree has the states and superstates as nodes and an implicit top, which is the parent of every node
without a superstate.
-/
namespace Statig.Forest
variable {D E : Type} (F : Forest D E)

/-- A node of the tree: `none` is the implicit top. -/
abbrev Vertex (D E : Type) := Option (Node D E)

/-- `x` is a child of `y`. -/
def Child : Vertex D E → Vertex D E → Prop
  | none, _ => False
  | some n, y => y = F.parent n

/-- `Walk x y k`: one can go from `x` to `y` along `k` edges of the tree. -/
inductive Walk : Vertex D E → Vertex D E → Nat → Prop where
  | here {x} : Walk x x 0
  | up {x y z k} : F.Child x y → Walk y z k → Walk x z (k + 1)
  | down {x y z k} : F.Child y x → Walk y z k → Walk x z (k + 1)

end Statig.Forest
