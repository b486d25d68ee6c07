import Verif.Spec.History
import Verif.Model.Values
import Verif.Model.Serde
/-!
# Vocabulary of the properties: everything that can happen to a machine between calls

Besides calling a machine, a user can write to its shared storage and its state, clone it, save it and load it
again.
-/
namespace Statig
variable {S : Sig} {V X : Type}

/-- The implementations of `Clone`, `Serialize` and `Deserialize` for the user's storage and state. -/
structure UserImpls (S : Sig) (V X : Type) where
  cloneShared : S.M → S.M
  cloneState : S.St → S.St
  shared : Codec S.M V X
  state : Codec S.St V X

/-- `Lived mode m u T sm`: the machine `sm` can have come about, and `T` are the callbacks that were run since it was
constructed or loaded.

* It was constructed around some storage, or loaded from any input whatsoever.
* Calls were made that returned.  Calls may also have been cut short (by a panic, or because the future was dropped),
  as long as they were cut short before they ran an entry or exit action.
* The storage was overwritten at any time.
* The state was overwritten: at any time with a state of the same variant, and with any state while the machine was not
  yet initialized.
* It is a clone of such a machine (where cloning a state keeps the variant). -/
inductive Lived (mode : Mode) (m : Machine S) (u : UserImpls S V X) : List (Obs S) → StateMachine S → Prop where
  | new (x : S.M) : Lived mode m u [] (stateMachine m x)
  | loaded {content : Content V} {sm} : StateMachine.deserialize u.shared u.state content = .ok sm →
      Lived mode m u [] sm
  | call {T sm} {cmd : Command S} {c} : Lived mode m u T sm → cmd.exec mode m sm = some c → c.out = .ok () →
      Lived mode m u (T ++ c.trace) c.self
  | cut {T sm} {cmd : Command S} {c} : Lived mode m u T sm → cmd.exec mode m sm = some c →
      actionsOf (m.steps c.trace) = [] → Lived mode m u (T ++ c.trace) c.self
  | writeShared {T sm} (x : S.M) : Lived mode m u T sm → Lived mode m u T (sm.setInner x)
  | writeState {T sm} (s : S.St) : Lived mode m u T sm →
      (sm.initialized = true → m.discr s = m.discr sm.state) → Lived mode m u T (sm.setState s)
  | clone {T sm} : Lived mode m u T sm → m.discr (u.cloneState sm.state) = m.discr sm.state →
      Lived mode m u T (sm.clone u.cloneShared u.cloneState)

end Statig
