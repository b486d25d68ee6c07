import Verif.Model.Macro.Syntax
/-!
# The `#[state_machine]` macro: `macro/src/visitors/lifetime_visitor.rs`
-/
namespace Statig.Macro

mutual
/-- `LifetimeVisitor::rename_type`: `macro/src/visitors/lifetime_visitor.rs:19-21`, with
`visit_type_reference_mut` (lines 31-37) and the traversal of `syn::visit_mut`.  The visitor compares
`lifetime.ident`, which does not include the apostrophe, with `"'_"`.  References are not descended into. -/
def renameTy (new : Ident) : Ty → Ty
  | .ref lifetime mutable elem =>
    match lifetime with
    | some l => if l = "'_" then .ref (some new) mutable elem else .ref (some l) mutable elem
    | none => .ref (some new) mutable elem
  | .path name args => .path name (renameArgs new args)
  | .compound kind parts => .compound kind (renameArgs new parts)

/-- `visit_lifetime_mut`: `macro/src/visitors/lifetime_visitor.rs:25-29`, for the lifetimes that do not belong
to a reference. -/
def renameArgs (new : Ident) : Args → Args
  | .nil => .nil
  | .lifetime l rest => .lifetime (if l ≠ "'_" then new else l) (renameArgs new rest)
  | .ty t rest => .ty (renameTy new t) (renameArgs new rest)
  | .ident i rest => .ident i (renameArgs new rest)
end

end Statig.Macro
