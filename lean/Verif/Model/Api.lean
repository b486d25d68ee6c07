import Verif.Model.Blocking
import Verif.Model.Awaitable
/-!
# Public API

`statig/src/blocking/state_machine.rs` and `statig/src/awaitable/state_machine.rs`.  The two files are
identical up to `async`/`.await`, trait bounds and doc comments, so they are modelled once, with the
functions of `Inner` selected by the `Mode`.
-/
namespace Statig

/-- `StateExt::handle` of the chosen mode: `statig/src/blocking/state.rs:87-126`,
`statig/src/awaitable/state.rs:103-154`. -/
def Mode.handle {S : Sig} (mode : Mode) (m : Machine S) (ev : S.Ev) : Eff S S.St (Response S.St) :=
  match mode with
  | .blocking => Blocking.handle m ev
  | .awaitable => Awaitable.handle m ev

/-- `StateExt::enter` of the chosen mode: `statig/src/blocking/state.rs:130-141`,
`statig/src/awaitable/state.rs:158-187`. -/
def Mode.enter {S : Sig} (mode : Mode) (m : Machine S) (n : Nat) : Eff S S.St Unit :=
  match mode with
  | .blocking => Blocking.enter m n
  | .awaitable => Awaitable.enter m n

/-- `StateExt::exit` of the chosen mode: `statig/src/blocking/state.rs:145-156`,
`statig/src/awaitable/state.rs:191-218`. -/
def Mode.exit {S : Sig} (mode : Mode) (m : Machine S) (n : Nat) : Eff S S.St Unit :=
  match mode with
  | .blocking => Blocking.exit m n
  | .awaitable => Awaitable.exit m n

/-- `Inner<M>`: `statig/src/blocking/inner.rs:5-11`, `statig/src/awaitable/inner.rs:5-11`. -/
structure Inner (S : Sig) where
  shared : S.M
  state : S.St

/-- The result of an API call: how it ended, the machine afterwards, the context as the call left it, the
unused part of the schedule, and the callbacks the call made. -/
structure Call (S : Sig) (τ : Type) where
  out : Out Unit
  self : τ
  ctx : S.Ctx
  sched : List S.In
  trace : List (Obs S)

variable {S : Sig}

/-- Run a function of `Inner` on its two fields (`&mut self.shared_storage`, `&mut self.state`). -/
def Inner.run (i : Inner S) (x : Eff S S.St Unit) (ctx : S.Ctx) (sched : List S.In) :
    Option (Call S (Inner S)) :=
  match x i.state { sh := i.shared, ctx := ctx, sched := sched, trace := [] } with
  | none => none
  | some (o, st, g) =>
    some { out := o, self := { shared := g.sh, state := st }, ctx := g.ctx, sched := g.sched,
           trace := g.trace }

/-- `Inner::init_with_context` of the chosen mode: `statig/src/blocking/inner.rs:20-24`,
`statig/src/awaitable/inner.rs:19-24`. -/
def Inner.init (mode : Mode) (m : Machine S) (i : Inner S) (ctx : S.Ctx) (sched : List S.In) :
    Option (Call S (Inner S)) :=
  match mode with
  | .blocking => i.run (Blocking.init m) ctx sched
  | .awaitable => i.run (Awaitable.init m) ctx sched

/-- `Inner::handle_with_context` of the chosen mode: `statig/src/blocking/inner.rs:27-38`,
`statig/src/awaitable/inner.rs:26-40`. -/
def Inner.handle (mode : Mode) (m : Machine S) (i : Inner S) (ev : S.Ev) (ctx : S.Ctx)
    (sched : List S.In) : Option (Call S (Inner S)) :=
  match mode with
  | .blocking => i.run (Blocking.handleEvent m ev) ctx sched
  | .awaitable => i.run (Awaitable.handleEvent m ev) ctx sched

/-- `StateMachine<M>`: `statig/src/blocking/state_machine.rs:44-50`,
`statig/src/awaitable/state_machine.rs:46-52`. -/
structure StateMachine (S : Sig) where
  inner : Inner S
  initialized : Bool

/-- `InitializedStateMachine<M>`: `statig/src/blocking/state_machine.rs:309-314`,
`statig/src/awaitable/state_machine.rs:315-320`. -/
structure InitializedStateMachine (S : Sig) where
  inner : Inner S

/-- `UninitializedStateMachine<M>`: `statig/src/blocking/state_machine.rs:547-552`,
`statig/src/awaitable/state_machine.rs:559-564`. -/
structure UninitializedStateMachine (S : Sig) where
  inner : Inner S

/-- `IntoStateMachineExt::state_machine`: `statig/src/blocking/state_machine.rs:11-23`,
`statig/src/awaitable/state_machine.rs:12-24`. -/
def stateMachine (m : Machine S) (self : S.M) : StateMachine S :=
  { inner := { shared := self, state := m.initial }, initialized := false }

/-- `IntoStateMachineExt::uninitialized_state_machine`: `statig/src/blocking/state_machine.rs:27-33`,
`statig/src/awaitable/state_machine.rs:28-34`. -/
def uninitializedStateMachine (m : Machine S) (self : S.M) : UninitializedStateMachine S :=
  { inner := { shared := self, state := m.initial } }

namespace StateMachine
variable (mode : Mode) (m : Machine S)

/-- `StateMachine::init_with_context`: `statig/src/blocking/state_machine.rs:69-74`,
`statig/src/awaitable/state_machine.rs:71-76`. -/
def initWithContext (sm : StateMachine S) (ctx : S.Ctx) (sched : List S.In) :
    Option (Call S (StateMachine S)) :=
  if sm.initialized = false then do
    let c ← sm.inner.init mode m ctx sched
    match c.out with
    | .ok () => some { c with self := { inner := c.self, initialized := true } }
    | _ => some { c with self := { inner := c.self, initialized := sm.initialized } }
  else some { out := .ok (), self := sm, ctx := ctx, sched := sched, trace := [] }

/-- `StateMachine::handle_with_context`: `statig/src/blocking/state_machine.rs:87-93`,
`statig/src/awaitable/state_machine.rs:89-99`. -/
def handleWithContext (sm : StateMachine S) (ev : S.Ev) (ctx : S.Ctx) (sched : List S.In) :
    Option (Call S (StateMachine S)) :=
  if sm.initialized = false then do
    let c ← sm.inner.init mode m ctx sched
    match c.out with
    | .ok () =>
      let d ← c.self.handle mode m ev c.ctx c.sched
      some { d with self := { inner := d.self, initialized := true }, trace := c.trace ++ d.trace }
    | _ => some { c with self := { inner := c.self, initialized := sm.initialized } }
  else do
    let d ← sm.inner.handle mode m ev ctx sched
    some { d with self := { inner := d.self, initialized := sm.initialized } }

/-- `StateMachine::step_with_context` (`statig/src/blocking/state_machine.rs:102-107`,
`statig/src/awaitable/state_machine.rs:108-113`), for machines whose
event type is `()`; the unit event is given by `unitEv`. -/
def stepWithContext (unitEv : S.Ev) (sm : StateMachine S) (ctx : S.Ctx) (sched : List S.In) :
    Option (Call S (StateMachine S)) :=
  handleWithContext mode m sm unitEv ctx sched

/-- `StateMachine::handle` (`statig/src/blocking/state_machine.rs:78-83`,
`statig/src/awaitable/state_machine.rs:80-85`), for machines whose context type
is `()`; the unit context is given by `unitCtx`. -/
def handle (unitCtx : S.Ctx) (sm : StateMachine S) (ev : S.Ev) (sched : List S.In) :
    Option (Call S (StateMachine S)) :=
  handleWithContext mode m sm ev unitCtx sched

/-- `StateMachine::init` (`statig/src/blocking/state_machine.rs:60-65`,
`statig/src/awaitable/state_machine.rs:62-67`). -/
def init (unitCtx : S.Ctx) (sm : StateMachine S) (sched : List S.In) :
    Option (Call S (StateMachine S)) :=
  initWithContext mode m sm unitCtx sched

/-- `StateMachine::step` (`statig/src/blocking/state_machine.rs:95-100`,
`statig/src/awaitable/state_machine.rs:101-106`). -/
def step (unitEv : S.Ev) (unitCtx : S.Ctx) (sm : StateMachine S) (sched : List S.In) :
    Option (Call S (StateMachine S)) :=
  handleWithContext mode m sm unitEv unitCtx sched

/-- `StateMachine::state`: `statig/src/blocking/state_machine.rs:110-112`,
`statig/src/awaitable/state_machine.rs:116-118`. -/
def state (sm : StateMachine S) : S.St := sm.inner.state

/-- `StateMachine::inner` and `Deref`: `statig/src/blocking/state_machine.rs:137-139, 257-259`,
`statig/src/awaitable/state_machine.rs:143-145, 263-265`. -/
def shared (sm : StateMachine S) : S.M := sm.inner.shared

end StateMachine

namespace InitializedStateMachine
variable (mode : Mode) (m : Machine S)

/-- `InitializedStateMachine::handle_with_context`: `statig/src/blocking/state_machine.rs:331-337`,
`statig/src/awaitable/state_machine.rs:337-342`. -/
def handleWithContext (sm : InitializedStateMachine S) (ev : S.Ev) (ctx : S.Ctx) (sched : List S.In) :
    Option (Call S (InitializedStateMachine S)) := do
  let d ← sm.inner.handle mode m ev ctx sched
  some { d with self := { inner := d.self } }

/-- `InitializedStateMachine::handle`: `statig/src/blocking/state_machine.rs:322-328`,
`statig/src/awaitable/state_machine.rs:329-334`. -/
def handle (unitCtx : S.Ctx) (sm : InitializedStateMachine S) (ev : S.Ev) (sched : List S.In) :
    Option (Call S (InitializedStateMachine S)) :=
  handleWithContext mode m sm ev unitCtx sched

/-- `InitializedStateMachine::step`: `statig/src/blocking/state_machine.rs:340-346`,
`statig/src/awaitable/state_machine.rs:345-350`. -/
def step (unitEv : S.Ev) (unitCtx : S.Ctx) (sm : InitializedStateMachine S) (sched : List S.In) :
    Option (Call S (InitializedStateMachine S)) :=
  handle mode m unitCtx sm unitEv sched

/-- `InitializedStateMachine::step_with_context`: `statig/src/blocking/state_machine.rs:349-355`,
`statig/src/awaitable/state_machine.rs:353-358`. -/
def stepWithContext (unitEv : S.Ev) (sm : InitializedStateMachine S) (ctx : S.Ctx)
    (sched : List S.In) : Option (Call S (InitializedStateMachine S)) :=
  handleWithContext mode m sm unitEv ctx sched

/-- `InitializedStateMachine::state`: `statig/src/blocking/state_machine.rs:358-360`,
`statig/src/awaitable/state_machine.rs:361-363`. -/
def state (sm : InitializedStateMachine S) : S.St := sm.inner.state

end InitializedStateMachine

namespace UninitializedStateMachine
variable (mode : Mode) (m : Machine S)

/-- `UninitializedStateMachine::init_with_context`: `statig/src/blocking/state_machine.rs:617-624`,
`statig/src/awaitable/state_machine.rs:635-642`.  The uninitialized machine is consumed, so there is no
machine left (`none`) if the call is interrupted. -/
def initWithContext (sm : UninitializedStateMachine S) (ctx : S.Ctx) (sched : List S.In) :
    Option (Call S (Option (InitializedStateMachine S))) := do
  let c ← sm.inner.init mode m ctx sched
  match c.out with
  | .ok () => some { c with self := some { inner := c.self } }
  | _ => some { c with self := none }

/-- `UninitializedStateMachine::init`: `statig/src/blocking/state_machine.rs:583-591`,
`statig/src/awaitable/state_machine.rs:599-606`. -/
def init (unitCtx : S.Ctx) (sm : UninitializedStateMachine S) (sched : List S.In) :
    Option (Call S (Option (InitializedStateMachine S))) :=
  initWithContext mode m sm unitCtx sched

end UninitializedStateMachine
end Statig
