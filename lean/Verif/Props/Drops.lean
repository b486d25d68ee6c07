import Verif.Proofs.Drops
import Verif.Props.Sample
/-!
# Properties of dropping states: C88
-/
namespace Statig
variable {S : Sig} {m : Machine S} {mode : Mode} {T : Type} {tag : S.St → T}

/-- C88 (the same calls). Taking note of the dropped states changes nothing: these are the calls of the other theorems. -/
theorem C88_same_calls (sm : StateMachine S) (cmd : Command S) (i : InitializedStateMachine S)
    (u : UninitializedStateMachine S) (ev : S.Ev) (ctx : S.Ctx) (sched : List S.In) :
    (cmd.execOwned mode m sm).map (·.call) = cmd.exec mode m sm ∧
    (i.handleOwned mode m ev ctx sched).map (·.call) = i.handleWithContext mode m ev ctx sched ∧
    (u.initOwned mode m ctx sched).map (·.call) = u.initWithContext mode m ctx sched :=
  ⟨execOwned_map cmd, initialized_handleOwned_map, uninitialized_initOwned_map⟩

/-- C88 (one call). A call of `init` or `handle`, whether it returns or is interrupted, drops nothing if no handler
returned a target, and otherwise exactly one state, after all callbacks: the source if the target was reached, and the
target if not. -/
theorem C88_call (hk : m.KeepsTag tag) {sm : StateMachine S} {cmd : Command S} {c : OwnedCall S (StateMachine S)}
    (h : cmd.execOwned mode m sm = some c) :
    Dropping tag sm.state c.call.self.state c.call.trace c.call.out c.drops :=
  execOwned_dropping hk h

/-- C88 (one call of an initialized machine). -/
theorem C88_initialized_call (hk : m.KeepsTag tag) {sm : InitializedStateMachine S} {ev : S.Ev} {ctx : S.Ctx}
    {sched : List S.In} {c : OwnedCall S (InitializedStateMachine S)} (h : sm.handleOwned mode m ev ctx sched = some c) :
    Dropping tag sm.state c.call.self.state c.call.trace c.call.out c.drops :=
  initialized_handleOwned_dropping hk h

/-- C88 (any machine). That nothing can be said about tags is no obstacle: every machine keeps the trivial tag. -/
theorem C88_any_call {sm : StateMachine S} {cmd : Command S} {c : OwnedCall S (StateMachine S)}
    (h : cmd.execOwned mode m sm = some c) :
    (c.drops = [] ∧ targets c.call.trace = []) ∨
    ∃ t v, targets c.call.trace = [t] ∧ c.drops = [⟨c.call.trace.length, v⟩] ∧
      (c.call.out = .ok () → c.call.trace.getLast? = some (.afterTransition v c.call.self.state)) := by
  have h1 : ∀ pre n t post, targets pre = [] → targets post = [] →
      targets (pre ++ Obs.returned n (.transition t) :: post : List (Obs S)) = [t] := by
    intro pre n t post h2 h3
    rw [targets_append, show (Obs.returned n (Response.transition t)) :: post =
      [.returned n (.transition t)] ++ post from rfl, targets_append, h2, h3]; rfl
  have hd := execOwned_dropping noTag h
  generalize e : c.drops = d at hd
  cases hd with
  | nothing h2 _ => exact .inl ⟨rfl, h2⟩
  | target k1 k2 k3 _ k5 _ => exact .inr ⟨_, _, by rw [k1]; exact h1 _ _ _ _ k2 k3, rfl, fun ho => absurd ho k5⟩
  | source k1 k2 k3 _ _ _ k7 =>
    refine .inr ⟨_, _, by rw [k1]; exact h1 _ _ _ _ k2 k3, rfl, fun ho => ?_⟩
    have := k7 (.inl ho)
    rw [k1, List.getLast?_append, List.getLast?_cons, this]
    rfl

/-- C88 (nothing lost, nothing twice). Over any calls, in any order, interrupted or not: the states that were dropped
and the one the machine has now are those that handlers returned as targets and the one it had at first. -/
theorem C88_balance (hk : m.KeepsTag tag) {sm sm' : StateMachine S} {l : List (OwnedCall S (StateMachine S))}
    (h : OwnedHistory mode m sm l sm') :
    (tag sm'.state :: l.flatMap fun c => c.drops.map fun x => tag x.value).Perm
      (tag sm.state :: l.flatMap fun c => (targets c.call.trace).map tag) :=
  ownedHistory_balance hk h

/-- C88 (creating an initialized machine). If the call is interrupted the machine is gone, and its state is dropped at
the end; otherwise its state is in the initialized machine, and nothing is dropped. -/
theorem C88_init (hk : m.KeepsTag tag) {sm : UninitializedStateMachine S} {ctx : S.Ctx} {sched : List S.In}
    {c : OwnedCall S (Option (InitializedStateMachine S))} (h : sm.initOwned mode m ctx sched = some c) :
    (∃ i, c.call.self = some i ∧ c.drops = [] ∧ tag i.state = tag sm.inner.state) ∨
    (c.call.self = none ∧ ∃ v, c.drops = [⟨c.call.trace.length, v⟩] ∧ tag v = tag sm.inner.state) :=
  uninitialized_initOwned_drops hk h

namespace Sample

/-- The sample machine keeps the variants of its states. -/
theorem keepsTag (fragile : Bool) : (machine fragile).KeepsTag (fun s : D × Nat => s.1) where
  handler s sh ev c := (follows fragile).handler s sh ev c
  entry s sh c := (follows fragile).entry s sh c
  exit s sh c := (follows fragile).exit s sh c
  superstate s v back h v' := by
    simp only [machine, Option.some.injEq, Prod.mk.injEq] at h
    rw [← h.2]

/-- Evaluate a call on the sample machine that takes note of drops. -/
local macro "owned_case" : tactic => `(tactic| (
  apply witness
  simp only [InitializedStateMachine.handleOwned, UninitializedStateMachine.initOwned, Command.execOwned,
    StateMachine.handleOwned, Inner.handleOwned, Inner.init, Blocking.init, Awaitable.init, Owned.blockingHandleEvent,
    Owned.blockingHandle, Owned.blockingTransition, Owned.awaitableHandleEvent, Owned.awaitableHandle,
    Owned.awaitableTransition, transitionPath_closed, depth_closed]
  (try rw [Owned.blockingSupHandle, Owned.blockingSupHandle, Owned.blockingSupHandle, Owned.blockingSupHandle])
  (try rw [Owned.awaitableHandleLoop, Owned.awaitableHandleLoop, Owned.awaitableHandleLoop, Owned.awaitableHandleLoop])
  decide +kernel))

/-- The dropped values, with the times. -/
abbrev dropsOf {τ : Type} (c : OwnedCall sig τ) : List (Nat × (D × Nat)) := c.drops.map fun x => (x.time, x.value)

/-- A completed transition drops the source, after the hook. -/
example : ∃ c, InitializedStateMachine.handleOwned .blocking (machine false) (at_ .s12) .c 0 [] = some c ∧
    dropsOf c = [(11, (.s12, 7))] ∧ c.call.trace.length = 11 ∧ c.call.self.state = (.s211, 0) ∧ c.call.out = .ok () := by
  owned_case

/-- A panic of an exit action drops the target; the machine stays in its state. -/
example : ∃ c, InitializedStateMachine.handleOwned .awaitable (machine true) (at_ .s12 1) .c 0 [] = some c ∧
    dropsOf c = [(7, (.s211, 0))] ∧ c.call.trace.length = 7 ∧ c.call.self.state = (.s12, 7) ∧ c.call.out = .panic := by
  owned_case

/-- A panic of an entry action drops the source; the machine is in the target. -/
example : ∃ c, InitializedStateMachine.handleOwned .awaitable (machine true) (at_ .s12 3) .c 0 [] = some c ∧
    dropsOf c = [(9, (.s12, 7))] ∧ c.call.self.state = (.s211, 0) ∧ c.call.out = .panic := by
  owned_case

/-- An event that is handled without a transition drops nothing, not even the local storage it changed. -/
example : ∃ c, InitializedStateMachine.handleOwned .awaitable (machine false) (at_ .s211) .bump 0 [] = some c ∧
    dropsOf c = [] ∧ c.call.self.state = (.s211, 8) := by
  owned_case

/-- A panic of a hook, while the response of a superstate is held, drops the target in it. -/
example : ∃ c, InitializedStateMachine.handleOwned .blocking { machine false with
      afterDispatch := fun sh n _ => match n with
        | .superstate (.s2, _) => .panic sh
        | _ => .done sh () } (at_ .s211) .d 0 [] = some c ∧
    dropsOf c = [(c.call.trace.length, (.s11, 0))] ∧ c.call.self.state = (.s211, 7) ∧ c.call.out = .panic := by
  owned_case

/-- The first event initializes the machine; the time of the drop counts the entry actions. -/
example : ∃ c, Command.execOwned .blocking (machine false) ⟨⟨⟨[], 0⟩, (.s12, 7)⟩, false⟩ (.handle .c 0 []) = some c ∧
    dropsOf c = [(14, (.s12, 7))] ∧ c.call.trace.length = 14 := by
  owned_case

/-- An interrupted initialization of an uninitialized machine drops its state. -/
example : ∃ c, UninitializedStateMachine.initOwned .blocking (machine true) ⟨⟨⟨[], 1⟩, (.s12, 7)⟩⟩ 0 [] = some c ∧
    dropsOf c = [(2, (.s12, 7))] ∧ c.call.self.isNone = true := by
  owned_case

/-- A machine is its parts. -/
theorem parts {sm : StateMachine sig} {path : List (Act D E)} {fuse : Nat} {st : D × Nat}
    (h : sm.inner.shared = ⟨path, fuse⟩ ∧ sm.inner.state = st ∧ sm.initialized = true) :
    sm = ⟨⟨⟨path, fuse⟩, st⟩, true⟩ := by
  obtain ⟨⟨sh, s⟩, b⟩ := sm
  obtain ⟨rfl, rfl, rfl⟩ := h
  rfl

/-- Three calls; the last two are interrupted while the machine leaves its state. -/
example : ∃ l sm', OwnedHistory .blocking (machine true) ⟨⟨⟨[], 7⟩, (.s12, 7)⟩, true⟩ l sm' ∧
    (l.flatMap fun c => (targets c.call.trace).map (·.1)) = [.s211, .s11, .s11] ∧
    (sm'.state.1 :: l.flatMap fun c => c.drops.map fun x => x.value.1) = [.s211, .s12, .s11, .s11] := by
  obtain ⟨c1, h1, p1, t1, d1⟩ : ∃ c, Command.execOwned .blocking (machine true) ⟨⟨⟨[], 7⟩, (.s12, 7)⟩, true⟩
        (.handle .c 0 []) = some c ∧
      (c.call.self.inner.shared = ⟨[.leave (.leaf .s12), .leave (.sup .s1), .enter (.sup .s2), .enter (.sup .s21),
        .enter (.leaf .s211)], 2⟩ ∧ c.call.self.inner.state = (.s211, 0) ∧ c.call.self.initialized = true) ∧
      (targets c.call.trace).map (·.1) = [.s211] ∧ (c.drops.map fun x => x.value.1) = [.s12] := by owned_case
  obtain ⟨c2, h2, p2, t2, d2⟩ : ∃ c, Command.execOwned .blocking (machine true) ⟨⟨⟨[.leave (.leaf .s12), .leave (.sup .s1),
        .enter (.sup .s2), .enter (.sup .s21), .enter (.leaf .s211)], 2⟩, (.s211, 0)⟩, true⟩ (.handle .d 0 []) = some c ∧
      (c.call.self.inner.shared = ⟨[.leave (.leaf .s12), .leave (.sup .s1), .enter (.sup .s2), .enter (.sup .s21),
        .enter (.leaf .s211), .leave (.leaf .s211), .leave (.sup .s21)], 0⟩ ∧ c.call.self.inner.state = (.s211, 0) ∧
        c.call.self.initialized = true) ∧
      (targets c.call.trace).map (·.1) = [.s11] ∧ (c.drops.map fun x => x.value.1) = [.s11] := by owned_case
  obtain ⟨c3, h3, p3, t3, d3⟩ : ∃ c, Command.execOwned .blocking (machine true) ⟨⟨⟨[.leave (.leaf .s12), .leave (.sup .s1),
        .enter (.sup .s2), .enter (.sup .s21), .enter (.leaf .s211), .leave (.leaf .s211), .leave (.sup .s21)], 0⟩,
        (.s211, 0)⟩, true⟩ (.handle .d 0 []) = some c ∧ c.call.self.inner.state = (.s211, 0) ∧
      (targets c.call.trace).map (·.1) = [.s11] ∧ (c.drops.map fun x => x.value.1) = [.s11] := by owned_case
  rw [← parts p2] at h3
  rw [← parts p1] at h2
  refine ⟨[c1, c2, c3], _, .cons h1 (.cons h2 (.cons h3 .nil)), ?_, ?_⟩
  · simp [t1, t2, t3]
  · simp [d1, d2, d3, StateMachine.state, p3]

end Sample
end Statig
