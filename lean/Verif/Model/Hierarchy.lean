import Verif.Model.Core
/-!
# Walking the hierarchy

`same_state`, `depth`, `common_ancestor_depth` and `transition_path`.  The blocking and awaitable versions
are textually identical (`statig/src/blocking/state.rs:39-84` and `statig/src/awaitable/state.rs:54-99`,
`statig/src/blocking/superstate.rs:44-87` and `statig/src/awaitable/superstate.rs:56-99`), so they are
modelled once.  They take `&mut self` only to be able to call `superstate()`, and never write, so they are
modelled as functions of the value.  `none` means the recursion never ends.
-/
namespace Statig
variable {S : Sig} (m : Machine S)

/-- `StateExt::same_state`: `statig/src/blocking/state.rs:40-42`, `statig/src/awaitable/state.rs:55-57`. -/
def sameState (lhs rhs : S.St) : Bool := m.discr lhs == m.discr rhs

/-- `SuperstateExt::same_state`: `statig/src/blocking/superstate.rs:44-55`,
`statig/src/awaitable/superstate.rs:56-67`.  The `transmute` only changes lifetimes. -/
def supSameState (lhs rhs : S.Sup) : Bool := m.supDiscr lhs == m.supDiscr rhs

/-- `SuperstateExt::depth`: `statig/src/blocking/superstate.rs:58-63`,
`statig/src/awaitable/superstate.rs:70-75`. -/
def supDepth (v : S.Sup) : Option Nat :=
  match m.supSuperstate v with
  | some (w, _) => do
    let d ← supDepth w
    some (d + 1)
  | none => some 1
partial_fixpoint

/-- `StateExt::depth`: `statig/src/blocking/state.rs:45-50`, `statig/src/awaitable/state.rs:60-65`. -/
def depth (s : S.St) : Option Nat :=
  match m.superstate s with
  | some (v, _) => do
    let d ← supDepth m v
    some (d + 1)
  | none => some 1

/-- `SuperstateExt::common_ancestor_depth`: `statig/src/blocking/superstate.rs:66-87`,
`statig/src/awaitable/superstate.rs:78-99`. -/
def supCommonAncestorDepth (source target : S.Sup) : Option Nat := do
  let ds ← supDepth m source
  let dt ← supDepth m target
  match compare ds dt with
  | .eq =>
    match supSameState m source target with
    | true => supDepth m source
    | false =>
      match m.supSuperstate source, m.supSuperstate target with
      | some (source, _), some (target, _) => supCommonAncestorDepth source target
      | _, _ => some 0
  | .gt =>
    match m.supSuperstate source with
    | some (superstate, _) => supCommonAncestorDepth superstate target
    | none => some 0
  | .lt =>
    match m.supSuperstate target with
    | some (superstate, _) => supCommonAncestorDepth source superstate
    | none => some 0
partial_fixpoint

/-- `StateExt::common_ancestor_depth`: `statig/src/blocking/state.rs:53-62`,
`statig/src/awaitable/state.rs:68-77`. -/
def commonAncestorDepth (source target : S.St) : Option Nat :=
  if sameState m source target then depth m source
  else
    match m.superstate source, m.superstate target with
    | some (source, _), some (target, _) => supCommonAncestorDepth m source target
    | _, _ => some 0

/-- `usize` subtraction: panics on underflow (debug builds; release builds would wrap). -/
def usizeSub (a b : Nat) : Out Nat := if b ≤ a then .ok (a - b) else .panic

/-- `StateExt::transition_path`: `statig/src/blocking/state.rs:67-84`,
`statig/src/awaitable/state.rs:82-99`. -/
def transitionPath (source target : S.St) : Option (Out (Nat × Nat)) :=
  if sameState m source target then some (.ok (1, 1))
  else do
    let sourceDepth ← depth m source
    let targetDepth ← depth m target
    match m.superstate source, m.superstate target with
    | some (source, _), some (target, _) =>
      let common ← supCommonAncestorDepth m source target
      match usizeSub sourceDepth common, usizeSub targetDepth common with
      | .ok x, .ok n => some (.ok (x, n))
      | _, _ => some .panic
    | _, _ => some (.ok (sourceDepth, targetDepth))

end Statig
