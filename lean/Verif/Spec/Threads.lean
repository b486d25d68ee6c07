import Verif.Spec.Forest
/-!
# Vocabulary of the properties: callbacks acting on one world

A reference semantics of a call at the level of single callbacks: there is one state, one shared storage, one
context and one stream of poll inputs; the callbacks run one after the other, each on what the earlier ones
left.  A superstate's callback runs on the superstate's view of the state, and what it does to the view is
written into the state.
-/
namespace Statig
variable {S : Sig}

/-- The superstate `k` levels above the direct superstate of the state `s`, as a view of `s`: the superstate
and how to write a changed superstate back into the state. -/
def Machine.view (m : Machine S) : Nat → S.St → Option (S.Sup × (S.Sup → S.St))
  | 0, s => m.superstate s
  | k + 1, s =>
    match m.view k s with
    | none => none
    | some (v, put) =>
      match m.supSuperstate v with
      | none => none
      | some (w, put') => some (w, fun w' => put (put' w'))

/-- Everything the callbacks of a call act on.  `pending` is the target of a transition that was requested but
not made yet; `left` is the state that was left when it was made, as it was then. -/
structure World (S : Sig) where
  state : S.St
  shared : S.M
  ctx : S.Ctx
  sched : List S.In
  pending : Option S.St := none
  left : Option S.St := none

/-- What is observed when a handler ends. -/
def returnedObs (n : StateOrSuperstate S.St S.Sup) : Out (Response S.St) → List (Obs S)
  | .ok r => [.returned n r]
  | _ => []

/-- The target of the transition requested by a handler. -/
def requested : Out (Response S.St) → Option S.St
  | .ok (.transition t) => some t
  | _ => none

/-- Forget the returned value. -/
def Out.void {α : Type} (o : Out α) : Out Unit := o.map fun _ => ()

/-- `Runs1 mode m ev w T o w'`: in world `w` one callback of a call with event `ev` is run, it is observed as
`T`, ends with `o` and leaves the world `w'`.  `before_dispatch`, handlers and entry actions run while no
transition is pending, exit actions while one is. -/
inductive Runs1 (mode : Mode) (m : Machine S) (ev : Option S.Ev) :
    World S → List (Obs S) → Out Unit → World S → Prop where
  | handler {w e o s x c l} : ev = some e → w.pending = none →
      (m.handler w.state w.shared e w.ctx).run w.sched = (o, (s, x, c), l) →
      Runs1 mode m ev w (.handler (.state w.state) e :: returnedObs (.state s) o) o.void
        ⟨s, x, c, l, requested o, w.left⟩
  | supHandler {w e k v put o v' x c l} : ev = some e → w.pending = none →
      m.view k w.state = some (v, put) →
      (m.supHandler v w.shared e w.ctx).run w.sched = (o, (v', x, c), l) →
      Runs1 mode m ev w (.handler (.superstate v) e :: returnedObs (.superstate v') o) o.void
        ⟨put v', x, c, l, requested o, w.left⟩
  | entry {w o s x c l} : w.pending = none →
      (m.entry w.state w.shared w.ctx).run w.sched = (o, (s, x, c), l) →
      Runs1 mode m ev w [.entry (.state w.state)] o ⟨s, x, c, l, w.pending, w.left⟩
  | supEntry {w k v put o v' x c l} : w.pending = none → m.view k w.state = some (v, put) →
      (m.supEntry v w.shared w.ctx).run w.sched = (o, (v', x, c), l) →
      Runs1 mode m ev w [.entry (.superstate v)] o ⟨put v', x, c, l, w.pending, w.left⟩
  | exit {w o s x c l} : w.pending ≠ none →
      (m.exit w.state w.shared w.ctx).run w.sched = (o, (s, x, c), l) →
      Runs1 mode m ev w [.exit (.state w.state)] o ⟨s, x, c, l, w.pending, w.left⟩
  | supExit {w k v put o v' x c l} : w.pending ≠ none → m.view k w.state = some (v, put) →
      (m.supExit v w.shared w.ctx).run w.sched = (o, (v', x, c), l) →
      Runs1 mode m ev w [.exit (.superstate v)] o ⟨put v', x, c, l, w.pending, w.left⟩
  | beforeDispatch {w e o x l} : ev = some e → w.pending = none →
      (m.beforeDispatch w.shared (.state w.state) e).run w.sched = (o, x, l) →
      Runs1 mode m ev w [.beforeDispatch (.state w.state) e] o ⟨w.state, x, w.ctx, l, w.pending, w.left⟩
  | supBeforeDispatch {w e k v put o x l} : ev = some e → w.pending = none → m.view k w.state = some (v, put) →
      (m.beforeDispatch w.shared (.superstate v) e).run w.sched = (o, x, l) →
      Runs1 mode m ev w [.beforeDispatch (.superstate v) e] o ⟨w.state, x, w.ctx, l, w.pending, w.left⟩
  | afterDispatch {w e o x l} : ev = some e →
      (m.afterDispatch w.shared (.state w.state) e).run w.sched = (o, x, l) →
      Runs1 mode m ev w [.afterDispatch (.state w.state) e] o ⟨w.state, x, w.ctx, l, w.pending, w.left⟩
  | supAfterDispatch {w e k v put o x l} : ev = some e → m.view k w.state = some (v, put) →
      (m.afterDispatch w.shared (.superstate v) e).run w.sched = (o, x, l) →
      Runs1 mode m ev w [.afterDispatch (.superstate v) e] o ⟨w.state, x, w.ctx, l, w.pending, w.left⟩
  /-- `before_transition` gets the state and the pending target; in blocking mode in the wrong order (C13). -/
  | beforeTransition {w t o x l} : w.pending = some t →
      (match mode with
        | .blocking => m.beforeTransition w.shared t w.state
        | .awaitable => m.beforeTransition w.shared w.state t).run w.sched = (o, x, l) →
      Runs1 mode m ev w
        [match mode with
          | .blocking => .beforeTransition t w.state
          | .awaitable => .beforeTransition w.state t] o ⟨w.state, x, w.ctx, l, w.pending, w.left⟩
  /-- `after_transition` gets the state that was left, as it was then, and the state now. -/
  | afterTransition {w s o x l} : w.pending = none → w.left = some s →
      (m.afterTransition w.shared s w.state).run w.sched = (o, x, l) →
      Runs1 mode m ev w [.afterTransition s w.state] o ⟨w.state, x, w.ctx, l, w.pending, w.left⟩

/-- `Threads mode m ev w T o w'`: from world `w` the callbacks observed in `T` run one after the other, each
in the world the previous one left; the last one leaves `w'`.  The only other thing that can happen is that a
pending transition is made, which replaces the state by the target.  `o` tells whether all the callbacks
returned (`ok`) or the last one was interrupted. -/
inductive Threads (mode : Mode) (m : Machine S) (ev : Option S.Ev) :
    World S → List (Obs S) → Out Unit → World S → Prop where
  | nil {w} : Threads mode m ev w [] (.ok ()) w
  | call {w T w1 T' o w2} : Runs1 mode m ev w T (.ok ()) w1 → Threads mode m ev w1 T' o w2 →
      Threads mode m ev w (T ++ T') o w2
  | cut {w T o w1} : Runs1 mode m ev w T o w1 → o ≠ .ok () → Threads mode m ev w T o w1
  | swap {w t T o w'} : w.pending = some t →
      Threads mode m ev ⟨t, w.shared, w.ctx, w.sched, none, some w.state⟩ T o w' →
      Threads mode m ev w T o w'

end Statig
