import Verif.Proofs.Does
import Verif.Model.Blocking
import Verif.Model.Awaitable
/-! # Log of single callbacks, and of `enter` and `exit` -/
namespace Statig
variable {S : Sig} {m : Machine S} {F : Forest S.D S.E}

theorem does_callHandler (hF : Follows m F) (ev : S.Ev) (s : S.St) :
    Does m m.discr (callHandler m ev) s (fun L r =>
      L = [.handler (.leaf (m.discr s)) ev, .returned (.leaf (m.discr s)) r]) := by
  unfold callHandler
  refine ((Does.callback (a0 := .handled) _ s (fun sh c => hF.handler s sh ev c)
    (fun h sh c => h.handler s sh ev c) (fun h sh c => h.handler s sh ev c)).bind
    (B := fun r L r' => L = [.returned (.leaf (m.discr s)) r] ∧ r' = r) ?_).mono ?_
  · intro r s' hs'
    refine ((Does.log _ s').bind (fun _ s'' _ => Does.pure r s'')).mono ?_
    rintro L r' ⟨l1, _, l2, rfl, ⟨rfl, rfl⟩, rfl⟩
    refine ⟨?_, rfl⟩
    simp [Machine.step, Machine.node, hs']
  · rintro L r' ⟨l1, _, l2, rfl, ⟨rfl, rfl⟩, rfl⟩
    rfl

theorem does_callSupHandler (hF : Follows m F) (ev : S.Ev) (s : S.Sup) :
    Does m m.supDiscr (callSupHandler m ev) s (fun L r =>
      L = [.handler (.sup (m.supDiscr s)) ev, .returned (.sup (m.supDiscr s)) r]) := by
  unfold callSupHandler
  refine ((Does.callback (a0 := .handled) _ s (fun sh c => hF.supHandler s sh ev c)
    (fun h sh c => h.supHandler s sh ev c) (fun h sh c => h.supHandler s sh ev c)).bind
    (B := fun r L r' => L = [.returned (.sup (m.supDiscr s)) r] ∧ r' = r) ?_).mono ?_
  · intro r s' hs'
    refine ((Does.log _ s').bind (fun _ s'' _ => Does.pure r s'')).mono ?_
    rintro L r' ⟨l1, _, l2, rfl, ⟨rfl, rfl⟩, rfl⟩
    refine ⟨?_, rfl⟩
    simp [Machine.step, Machine.node, hs']
  · rintro L r' ⟨l1, _, l2, rfl, ⟨rfl, rfl⟩, rfl⟩
    rfl

theorem does_callEntry (hF : Follows m F) (s : S.St) :
    Does m m.discr (callEntry m) s (fun L _ => L = [.entry (.leaf (m.discr s))]) :=
  Does.callback (a0 := ()) _ s (fun sh c => hF.entry s sh c)
    (fun h sh c => h.entry s sh c) (fun h sh c => h.entry s sh c)

theorem does_callExit (hF : Follows m F) (s : S.St) :
    Does m m.discr (callExit m) s (fun L _ => L = [.exit (.leaf (m.discr s))]) :=
  Does.callback (a0 := ()) _ s (fun sh c => hF.exit s sh c)
    (fun h sh c => h.exit s sh c) (fun h sh c => h.exit s sh c)

theorem does_callSupEntry (hF : Follows m F) (s : S.Sup) :
    Does m m.supDiscr (callSupEntry m) s (fun L _ => L = [.entry (.sup (m.supDiscr s))]) :=
  Does.callback (a0 := ()) _ s (fun sh c => hF.supEntry s sh c)
    (fun h sh c => h.supEntry s sh c) (fun h sh c => h.supEntry s sh c)

theorem does_callSupExit (hF : Follows m F) (s : S.Sup) :
    Does m m.supDiscr (callSupExit m) s (fun L _ => L = [.exit (.sup (m.supDiscr s))]) :=
  Does.callback (a0 := ()) _ s (fun sh c => hF.supExit s sh c)
    (fun h sh c => h.supExit s sh c) (fun h sh c => h.supExit s sh c)

theorem does_hookBeforeDispatch (ev : S.Ev) (s : S.St) :
    Does m m.discr (hookBeforeDispatch m ev) s
      (fun L _ => L = [.beforeDispatch (.leaf (m.discr s)) ev]) :=
  Does.hook _ s (fun h sh => h.beforeDispatch sh _ ev) (fun h sh => h.beforeDispatch sh _ ev)

theorem does_hookAfterDispatch (ev : S.Ev) (s : S.St) :
    Does m m.discr (hookAfterDispatch m ev) s
      (fun L _ => L = [.afterDispatch (.leaf (m.discr s)) ev]) :=
  Does.hook _ s (fun h sh => h.afterDispatch sh _ ev) (fun h sh => h.afterDispatch sh _ ev)

theorem does_hookSupBeforeDispatch (ev : S.Ev) (s : S.Sup) :
    Does m m.supDiscr (hookSupBeforeDispatch m ev) s
      (fun L _ => L = [.beforeDispatch (.sup (m.supDiscr s)) ev]) :=
  Does.hook _ s (fun h sh => h.beforeDispatch sh _ ev) (fun h sh => h.beforeDispatch sh _ ev)

theorem does_hookSupAfterDispatch (ev : S.Ev) (s : S.Sup) :
    Does m m.supDiscr (hookSupAfterDispatch m ev) s
      (fun L _ => L = [.afterDispatch (.sup (m.supDiscr s)) ev]) :=
  Does.hook _ s (fun h sh => h.afterDispatch sh _ ev) (fun h sh => h.afterDispatch sh _ ev)

theorem does_hookBeforeTransition (a b s : S.St) :
    Does m m.discr (hookBeforeTransition m a b) s
      (fun L _ => L = [.beforeTransition (m.discr a) (m.discr b)]) :=
  Does.hook _ s (fun h sh => h.beforeTransition sh _ _) (fun h sh => h.beforeTransition sh _ _)

theorem does_hookAfterTransition (a b s : S.St) :
    Does m m.discr (hookAfterTransition m a b) s
      (fun L _ => L = [.afterTransition (m.discr a) (m.discr b)]) :=
  Does.hook _ s (fun h sh => h.afterTransition sh _ _) (fun h sh => h.afterTransition sh _ _)

/-- Borrow the superstate of a superstate for something with a fixed log. -/
theorem Does.supBorrow (hF : Follows m F) {α : Type} {body : Eff S S.Sup α} {v : S.Sup} {Ls : S.E → List _}
    (hbody : ∀ w, F.supParent (m.supDiscr v) = some (m.supDiscr w) →
      Does m m.supDiscr body w (fun L _ => L = Ls (m.supDiscr w))) :
    Does m m.supDiscr (Eff.borrow m.supSuperstate body) v (fun L _ =>
      L = (F.supParent (m.supDiscr v)).elim [] Ls) := by
  cases hs : m.supSuperstate v with
  | none =>
    rw [hF.supSuperstate_none hs]
    exact (Does.borrow_none hs).mono (fun L a h => h.1)
  | some p =>
    obtain ⟨w, back⟩ := p
    have hp := hF.supSuperstate_some hs
    rw [hp]
    refine (Does.borrow_some hs (fun w' hw' => hF.sup_back v w back w' hs hw') (hbody w hp)).mono ?_
    rintro L _ ⟨a, rfl, h⟩; exact h

/-- Borrow the superstate of a state for something with a fixed log. -/
theorem Does.leafBorrow (hF : Follows m F) {α : Type} {body : Eff S S.Sup α} {s : S.St} {Ls : S.E → List _}
    (hbody : ∀ w, F.leafParent (m.discr s) = some (m.supDiscr w) →
      Does m m.supDiscr body w (fun L _ => L = Ls (m.supDiscr w))) :
    Does m m.discr (Eff.borrow m.superstate body) s (fun L _ =>
      L = (F.leafParent (m.discr s)).elim [] Ls) := by
  cases hs : m.superstate s with
  | none =>
    rw [hF.superstate_none hs]
    exact (Does.borrow_none hs).mono (fun L a h => h.1)
  | some p =>
    obtain ⟨w, back⟩ := p
    have hp := hF.superstate_some hs
    rw [hp]
    refine (Does.borrow_some hs (fun w' hw' => hF.leaf_back s w back w' hs hw') (hbody w hp)).mono ?_
    rintro L _ ⟨a, rfl, h⟩; exact h

/-- Nodes of a chain. -/
theorem up_sup (e : S.E) : F.up (.sup e) =
    .sup e :: (F.supParent e).elim [] (fun p => F.up (.sup p)) := by
  have := F.supAnc_eq e
  unfold Forest.up Forest.anc
  cases hp : F.supParent e with
  | none => simp [this, hp]
  | some p => simp [this, hp]

theorem up_leaf (d : S.D) : F.path d =
    .leaf d :: (F.leafParent d).elim [] (fun p => F.up (.sup p)) := by
  unfold Forest.path Forest.up Forest.anc Forest.leafAnc
  dsimp only
  cases hp : F.leafParent d with
  | none => simp
  | some p => simp

theorem take_up_sup (e : S.E) (n : Nat) : (F.up (.sup e)).take (n + 1) =
    .sup e :: (F.supParent e).elim [] (fun p => (F.up (.sup p)).take n) := by
  rw [up_sup]
  cases F.supParent e <;> simp

theorem take_path (d : S.D) (n : Nat) : (F.path d).take (n + 1) =
    .leaf d :: (F.leafParent d).elim [] (fun p => (F.up (.sup p)).take n) := by
  rw [up_leaf]
  cases F.leafParent d <;> simp

theorem map_match {A B C : Type} (o : Option A) (f : A → List B) (g : B → C) :
    (o.elim [] f).map g = o.elim [] (fun p => (f p).map g) := by
  cases o <;> rfl

theorem reverse_match {A B : Type} (o : Option A) (f : A → List B) :
    (o.elim [] f).reverse = o.elim [] (fun p => (f p).reverse) := by
  cases o <;> rfl

theorem does_supExit (hF : Follows m F) (n : Nat) (v : S.Sup) :
    Does m m.supDiscr (Blocking.supExit m n) v
      (fun L _ => L = ((F.up (.sup (m.supDiscr v))).take n).map .exit) := by
  induction n generalizing v with
  | zero => exact (Does.pure () v).mono (fun L _ h => by simp [h.1])
  | succ n ih =>
    cases n with
    | zero =>
      unfold Blocking.supExit
      exact (does_callSupExit hF v).mono (fun L _ h => by rw [up_sup]; simp [h])
    | succ n =>
      unfold Blocking.supExit
      rw [take_up_sup, List.map_cons, map_match]
      refine (does_callSupExit hF v).seq_cons (fun _ v' hv' => ?_)
      rw [← hv']
      exact (Does.supBorrow hF (fun w hw => ih w)).then_pure

theorem does_exit (hF : Follows m F) (n : Nat) (s : S.St) :
    Does m m.discr (Blocking.exit m n) s
      (fun L _ => L = ((F.path (m.discr s)).take n).map .exit) := by
  cases n with
  | zero => exact (Does.pure () s).mono (fun L _ h => by simp [h.1])
  | succ n =>
    cases n with
    | zero =>
      unfold Blocking.exit
      exact (does_callExit hF s).mono (fun L _ h => by rw [up_leaf]; simp [h])
    | succ n =>
      unfold Blocking.exit
      rw [take_path, List.map_cons, map_match]
      refine (does_callExit hF s).seq_cons (fun _ v' hv' => ?_)
      rw [← hv']
      exact (Does.leafBorrow hF (fun w hw => does_supExit hF _ w)).then_pure

theorem does_supEnter (hF : Follows m F) (n : Nat) (v : S.Sup) :
    Does m m.supDiscr (Blocking.supEnter m n) v
      (fun L _ => L = ((F.up (.sup (m.supDiscr v))).take n).reverse.map .entry) := by
  induction n generalizing v with
  | zero => exact (Does.pure () v).mono (fun L _ h => by simp [h.1])
  | succ n ih =>
    cases n with
    | zero =>
      unfold Blocking.supEnter
      exact (does_callSupEntry hF v).mono (fun L _ h => by rw [up_sup]; simp [h])
    | succ n =>
      unfold Blocking.supEnter
      rw [take_up_sup, List.reverse_cons, List.map_append, reverse_match, map_match]
      refine (Does.supBorrow hF (fun w hw => ih w)).seq (fun _ v' hv' => ?_)
      rw [← hv']
      exact does_callSupEntry hF v'

theorem does_enter (hF : Follows m F) (n : Nat) (s : S.St) :
    Does m m.discr (Blocking.enter m n) s
      (fun L _ => L = ((F.path (m.discr s)).take n).reverse.map .entry) := by
  cases n with
  | zero => exact (Does.pure () s).mono (fun L _ h => by simp [h.1])
  | succ n =>
    cases n with
    | zero =>
      unfold Blocking.enter
      exact (does_callEntry hF s).mono (fun L _ h => by rw [up_leaf]; simp [h])
    | succ n =>
      unfold Blocking.enter
      rw [take_path, List.reverse_cons, List.map_append, reverse_match, map_match]
      refine (Does.leafBorrow hF (fun w hw => does_supEnter hF _ w)).seq (fun _ v' hv' => ?_)
      rw [← hv']
      exact does_callEntry hF v'

/-! ## Awaitable -/

theorem does_exitLoop (hF : Follows m F) (n : Nat) (v : S.Sup) :
    Does m m.supDiscr (Awaitable.exitLoop m (n + 1)) v
      (fun L _ => L = ((F.up (.sup (m.supDiscr v))).take n).map .exit) := by
  induction n generalizing v with
  | zero => exact (Does.pure () v).mono (fun L _ h => by simp [h.1])
  | succ n ih =>
    unfold Awaitable.exitLoop
    rw [take_up_sup, List.map_cons, map_match]
    refine (does_callSupExit hF v).seq_cons (fun _ v' hv' => ?_)
    rw [← hv']
    exact (Does.supBorrow hF (fun w hw => ih w)).then_pure

theorem does_exitLoop_zero (v : S.Sup) :
    Does m m.supDiscr (Awaitable.exitLoop m 0) v (fun L _ => L = []) :=
  (Does.pure () v).mono (fun L _ h => by simp [h.1])

theorem does_awaitExit (hF : Follows m F) (n : Nat) (s : S.St) :
    Does m m.discr (Awaitable.exit m n) s
      (fun L _ => L = ((F.path (m.discr s)).take n).map .exit) := by
  unfold Awaitable.exit
  cases n with
  | zero =>
    rw [if_neg (by omega)]
    refine (Does.leafBorrow hF (s := s) (Ls := fun _ => [])
      (fun w hw => does_exitLoop_zero w)).then_pure.mono (fun L _ h => ?_)
    rw [h]; cases F.leafParent (m.discr s) <;> rfl
  | succ n =>
    rw [if_pos (by omega), take_path, List.map_cons, map_match]
    refine (does_callExit hF s).seq_cons (fun _ v' hv' => ?_)
    rw [← hv']
    exact (Does.leafBorrow hF (fun w hw => does_exitLoop hF _ w)).then_pure

/-- The superstate `n` levels up, or the topmost one. -/
def climbTo (F : Forest S.D S.E) : Nat → S.E → S.E
  | 0, e => e
  | n + 1, e => match F.supParent e with
    | none => e
    | some p => climbTo F n p

theorem does_climbEntry (hF : Follows m F) (n : Nat) (v : S.Sup) :
    Does m m.supDiscr (Awaitable.climbEntry m n) v
      (fun L _ => L = [.entry (.sup (climbTo F n (m.supDiscr v)))]) := by
  induction n generalizing v with
  | zero => exact does_callSupEntry hF v
  | succ n ih =>
    unfold Awaitable.climbEntry climbTo
    cases hs : m.supSuperstate v with
    | none =>
      rw [hF.supSuperstate_none hs]
      refine ((Does.borrow_none hs).bind
        (B := fun a L _ => a = none → L = [.entry (.sup (m.supDiscr v))]) (fun a s' hs' => ?_)).mono ?_
      · cases a with
        | none => rw [← hs']; exact (does_callSupEntry hF s').mono (fun L _ h _ => h)
        | some a => exact (Does.pure () s').mono (fun L _ _ h => by simp at h)
      · rintro L _ ⟨l1, a, l2, ⟨rfl, rfl⟩, h, rfl⟩
        simp [h rfl]
    | some p =>
      obtain ⟨w, back⟩ := p
      rw [hF.supSuperstate_some hs]
      refine ((Does.borrow_some hs (fun w' hw' => hF.sup_back v w back w' hs hw') (ih w)).bind
        (B := fun a L _ => a ≠ none → L = []) (fun a s' hs' => ?_)).mono ?_
      · cases a with
        | none => exact (does_callSupEntry hF s').mono (fun L _ _ h => by simp at h)
        | some a => exact (Does.pure () s').mono (fun L _ h _ => h.1)
      · rintro L _ ⟨l1, a, l2, ⟨b, rfl, rfl⟩, h, rfl⟩
        simp [h (by simp)]

/-- Nodes entered by the awaitable `enter`, as a recursion over `levels`. -/
def awaitEntered (F : Forest S.D S.E) (d : S.D) : Nat → List (Node S.D S.E)
  | 0 => []
  | 1 => [.leaf d]
  | n + 2 => (F.leafParent d).elim [] (fun p => [.sup (climbTo F n p)]) ++ awaitEntered F d (n + 1)

theorem does_awaitEnter' (hF : Follows m F) (n : Nat) (s : S.St) :
    Does m m.discr (Awaitable.enter m n) s
      (fun L _ => L = (awaitEntered F (m.discr s) n).map .entry) := by
  induction n generalizing s with
  | zero => exact (Does.pure () s).mono (fun L _ h => by simp [h.1, awaitEntered])
  | succ n ih =>
    cases n with
    | zero => exact does_callEntry hF s
    | succ n =>
      unfold Awaitable.enter awaitEntered
      rw [List.map_append, map_match]
      refine (Does.leafBorrow hF (fun w hw => does_climbEntry hF _ w)).seq (fun _ s' hs' => ?_)
      rw [← hs']
      exact ih s'

theorem climbTo_eq (n : Nat) (e : S.E) :
    climbTo F n e = if h : n < (F.chain e).length then (F.chain e)[n] else
      (F.chain e).getLast (by simp [Forest.chain]) := by
  induction n generalizing e with
  | zero => simp [climbTo, Forest.chain]
  | succ n ih =>
    unfold climbTo
    have hs := F.supAnc_eq' e
    cases hp : F.supParent e with
    | none => simp only [hp] at hs; simp [Forest.chain, hs]
    | some p =>
      simp only [hp] at hs
      simp only [ih]
      have hc : F.chain e = e :: F.chain p := by unfold Forest.chain; rw [hs]; rfl
      simp only [hc, List.length_cons, Nat.add_lt_add_iff_right, List.getElem_cons_succ]
      split
      · rfl
      · rw [List.getLast_cons (by simp [Forest.chain])]

/-- The awaitable `enter` repeats the topmost superstate for levels beyond the depth. -/
theorem awaitEntered_eq (d : S.D) (n : Nat) :
    awaitEntered F d n =
      (match (F.leafAnc d).getLast? with
        | none => []
        | some e => List.replicate (n - (F.path d).length) (.sup e)) ++
      ((F.path d).take n).reverse := by
  have hlen : (F.path d).length = (F.leafAnc d).length + 1 := by
    simp [Forest.path, Forest.up, Forest.anc]
  induction n with
  | zero => simp [awaitEntered]; cases (F.leafAnc d).getLast? <;> rfl
  | succ n ih =>
    cases n with
    | zero =>
      have : 1 - (F.path d).length = 0 := by omega
      rw [this]
      unfold awaitEntered
      simp only [Forest.path, Forest.up]
      cases (F.leafAnc d).getLast? <;> simp
    | succ n =>
      unfold awaitEntered
      rw [ih]
      have hs := F.leafAnc_eq d
      cases hp : F.leafParent d with
      | none =>
        simp only [hp] at hs
        have : F.path d = [.leaf d] := by simp [Forest.path, Forest.up, Forest.anc, hs]
        simp [hs, this]
      | some p =>
        simp only [hp] at hs
        have hne : F.leafAnc d ≠ [] := by simp [hs, Forest.chain]
        rw [List.getLast?_eq_some_getLast hne]
        rw [Option.elim_some, climbTo_eq]
        have hpath : F.path d = .leaf d :: (F.chain p).map .sup := by
          simp [Forest.path, Forest.up, Forest.anc, hs]
        simp only [hs] at hlen ⊢
        by_cases hn : n < (F.chain p).length
        · rw [dif_pos hn, hlen]
          have h1 : n + 1 + 1 - ((F.chain p).length + 1) = 0 := by omega
          have h2 : n + 1 - ((F.chain p).length + 1) = 0 := by omega
          rw [h1, h2, hpath]
          simp only [List.replicate_zero, List.nil_append, List.take_succ_cons]
          rw [← List.map_take, ← List.map_take, List.take_succ_eq_append_getElem hn]
          simp only [List.map_append, List.map_cons, List.map_nil, List.reverse_cons,
            List.reverse_append, List.reverse_nil, List.nil_append, List.cons_append]
        · rw [dif_neg hn, hlen]
          have h1 : n + 1 + 1 - ((F.chain p).length + 1) = n + 1 - ((F.chain p).length + 1) + 1 := by omega
          rw [h1, List.replicate_succ]
          rw [List.take_of_length_le (by omega), List.take_of_length_le (by omega)]
          simp

theorem does_awaitEnter (hF : Follows m F) (n : Nat) (s : S.St)
    (hn : n ≤ (F.path (m.discr s)).length) :
    Does m m.discr (Awaitable.enter m n) s
      (fun L _ => L = ((F.path (m.discr s)).take n).reverse.map .entry) := by
  refine (does_awaitEnter' hF n s).mono (fun L _ h => ?_)
  rw [h, awaitEntered_eq]
  have : n - (F.path (m.discr s)).length = 0 := by omega
  rw [this]
  cases (F.leafAnc (m.discr s)).getLast? <;> simp

end Statig
