import Verif.Model.Api
/-!
# Constructors, accessors, `Clone` and `PartialEq`

The files `statig/src/awaitable/{state_machine,inner}.rs` are identical here, so they are modelled once.
User-supplied `M::default()`, `clone` and `eq` are parameters.
-/
namespace Statig
variable {S : Sig}

/-- `impl Default for StateMachine`: `statig/src/blocking/state_machine.rs:235-249`,
`statig/src/awaitable/state_machine.rs:241-255`; `dflt` is
`M::default()`. -/
def StateMachine.default (m : Machine S) (dflt : S.M) : StateMachine S :=
  { inner := { shared := dflt, state := m.initial }, initialized := false }

/-- `UninitializedStateMachine::inner` and `Deref`: `statig/src/blocking/state_machine.rs:650-652, 758-760`,
`statig/src/awaitable/state_machine.rs:668-670, 776-778`. -/
def UninitializedStateMachine.shared (sm : UninitializedStateMachine S) : S.M := sm.inner.shared

/-- The state of an uninitialized machine as seen through `state_mut`
(`statig/src/blocking/state_machine.rs:705-707`,
`statig/src/awaitable/state_machine.rs:723-725`). -/
def UninitializedStateMachine.state (sm : UninitializedStateMachine S) : S.St := sm.inner.state

/-- A write through `UninitializedStateMachine::inner_mut`: `statig/src/blocking/state_machine.rs:675-677`,
`statig/src/awaitable/state_machine.rs:693-695`. -/
def UninitializedStateMachine.setInner (sm : UninitializedStateMachine S) (x : S.M) :
    UninitializedStateMachine S := { inner := { sm.inner with shared := x } }

/-- A write through `UninitializedStateMachine::state_mut`: `statig/src/blocking/state_machine.rs:705-707`,
`statig/src/awaitable/state_machine.rs:723-725`. -/
def UninitializedStateMachine.setState (sm : UninitializedStateMachine S) (x : S.St) :
    UninitializedStateMachine S := { inner := { sm.inner with state := x } }

/-- `InitializedStateMachine::inner` and `Deref`: `statig/src/blocking/state_machine.rs:386-388, 504-506`,
`statig/src/awaitable/state_machine.rs:392-394, 516-518`. -/
def InitializedStateMachine.shared (sm : InitializedStateMachine S) : S.M := sm.inner.shared

/-- A write through `StateMachine::inner_mut` (`unsafe`): `statig/src/blocking/state_machine.rs:169-171`,
`statig/src/awaitable/state_machine.rs:175-177`. -/
def StateMachine.setInner (sm : StateMachine S) (x : S.M) : StateMachine S :=
  { sm with inner := { sm.inner with shared := x } }

/-- A write through `StateMachine::state_mut` (`unsafe`): `statig/src/blocking/state_machine.rs:201-203`,
`statig/src/awaitable/state_machine.rs:207-209`. -/
def StateMachine.setState (sm : StateMachine S) (x : S.St) : StateMachine S :=
  { sm with inner := { sm.inner with state := x } }

/-- A write through `InitializedStateMachine::inner_mut` (`unsafe`):
`statig/src/blocking/state_machine.rs:418-420`,
`statig/src/awaitable/state_machine.rs:427-429`. -/
def InitializedStateMachine.setInner (sm : InitializedStateMachine S) (x : S.M) : InitializedStateMachine S :=
  { inner := { sm.inner with shared := x } }

/-- A write through `InitializedStateMachine::state_mut` (`unsafe`):
`statig/src/blocking/state_machine.rs:451-453`,
`statig/src/awaitable/state_machine.rs:463-465`. -/
def InitializedStateMachine.setState (sm : InitializedStateMachine S) (x : S.St) : InitializedStateMachine S :=
  { inner := { sm.inner with state := x } }

/-- `impl Clone for Inner`: `statig/src/blocking/inner.rs:61-72`,
`statig/src/awaitable/inner.rs:65-76`; `cm` and `cs` are the user's `clone`. -/
def Inner.clone (cm : S.M → S.M) (cs : S.St → S.St) (i : Inner S) : Inner S :=
  { shared := cm i.shared, state := cs i.state }

/-- `impl Clone for StateMachine`: `statig/src/blocking/state_machine.rs:206-216`,
`statig/src/awaitable/state_machine.rs:212-222`. -/
def StateMachine.clone (cm : S.M → S.M) (cs : S.St → S.St) (sm : StateMachine S) : StateMachine S :=
  { inner := sm.inner.clone cm cs, initialized := sm.initialized }

/-- `impl Clone for InitializedStateMachine`: `statig/src/blocking/state_machine.rs:456-466`,
`statig/src/awaitable/state_machine.rs:468-478`. -/
def InitializedStateMachine.clone (cm : S.M → S.M) (cs : S.St → S.St) (sm : InitializedStateMachine S) :
    InitializedStateMachine S := { inner := sm.inner.clone cm cs }

/-- `impl Clone for UninitializedStateMachine`: `statig/src/blocking/state_machine.rs:710-720`,
`statig/src/awaitable/state_machine.rs:728-738`. -/
def UninitializedStateMachine.clone (cm : S.M → S.M) (cs : S.St → S.St) (sm : UninitializedStateMachine S) :
    UninitializedStateMachine S := { inner := sm.inner.clone cm cs }

/-- `impl PartialEq for Inner`: `statig/src/blocking/inner.rs:74-82`,
`statig/src/awaitable/inner.rs:78-86`; `em` and `es` are the user's `eq`. -/
def Inner.eq (em : S.M → S.M → Bool) (es : S.St → S.St → Bool) (a b : Inner S) : Bool :=
  em a.shared b.shared && es a.state b.state

/-- `impl PartialEq for StateMachine`: `statig/src/blocking/state_machine.rs:218-226`,
`statig/src/awaitable/state_machine.rs:224-232`. -/
def StateMachine.eq (em : S.M → S.M → Bool) (es : S.St → S.St → Bool) (a b : StateMachine S) : Bool :=
  a.inner.eq em es b.inner && a.initialized == b.initialized

/-- `impl PartialEq for InitializedStateMachine`: `statig/src/blocking/state_machine.rs:481-489`,
`statig/src/awaitable/state_machine.rs:493-501`. -/
def InitializedStateMachine.eq (em : S.M → S.M → Bool) (es : S.St → S.St → Bool)
    (a b : InitializedStateMachine S) : Bool := a.inner.eq em es b.inner

/-- `impl PartialEq for UninitializedStateMachine`: `statig/src/blocking/state_machine.rs:735-743`,
`statig/src/awaitable/state_machine.rs:753-761`. -/
def UninitializedStateMachine.eq (em : S.M → S.M → Bool) (es : S.St → S.St → Bool)
    (a b : UninitializedStateMachine S) : Bool := a.inner.eq em es b.inner

/-- `impl PartialEq for Response`: `statig/src/response.rs:13-25`; `es` is the user's `eq` on states. -/
def Response.eq {T : Type} (es : T → T → Bool) : Response T → Response T → Bool
  | .handled, .handled => true
  | .super, .super => true
  | .transition s, .transition o => es s o
  | _, _ => false

/-- `impl PartialEq for StateOrSuperstate`: `statig/src/state_or_superstate.rs:29-41`; `es` and `ev` are the
user's `eq` on states and superstates. -/
def StateOrSuperstate.eq {St Sup : Type} (es : St → St → Bool) (ev : Sup → Sup → Bool) :
    StateOrSuperstate St Sup → StateOrSuperstate St Sup → Bool
  | .state a, .state b => es a b
  | .superstate a, .superstate b => ev a b
  | _, _ => false

end Statig
