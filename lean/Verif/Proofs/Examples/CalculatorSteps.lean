import Verif.Proofs.Examples.Calculator
import Verif.Proofs.Transition
/-!
# What the machine of the example `calculator` does on each event
-/
namespace Statig.Examples.Calculator
variable {A : Arith} {minus : Text}

/-- Started with `self = s` and the display showing `d`, `x` ends as `o`, with `s'` and `d'`. -/
def Ends {σ α : Type} (x : Eff (sig A) σ α) (s : σ) (d : Text) (o : Out α) (s' : σ) (d' : Text) : Prop :=
  ∀ c l tr, ∃ tr', x s ⟨d, c, l, tr⟩ = some (o, s', ⟨d', c, l, tr'⟩)

namespace Ends
variable {σ τ α β : Type} {s s' s'' : σ} {d d' d'' : Text}

theorem pure (a : α) : Ends (A := A) (Pure.pure a) s d (.ok a) s d := fun _ _ tr => ⟨tr, rfl⟩

theorem bind {x : Eff (sig A) σ α} {f : α → Eff (sig A) σ β} {a : α} {o : Out β} (h : Ends x s d (.ok a) s' d')
    (hf : Ends (f a) s' d' o s'' d'') : Ends (x >>= f) s d o s'' d'' := by
  intro c l tr
  obtain ⟨tr', h⟩ := h c l tr
  obtain ⟨tr'', hf⟩ := hf c l tr'
  refine ⟨tr'', ?_⟩
  show Eff.bind x f s _ = _
  unfold Eff.bind
  rw [h]
  exact hf

theorem bind_panic {x : Eff (sig A) σ α} {f : α → Eff (sig A) σ β} (h : Ends x s d .panic s' d') :
    Ends (x >>= f) s d .panic s' d' := by
  intro c l tr
  obtain ⟨tr', h⟩ := h c l tr
  refine ⟨tr', ?_⟩
  show Eff.bind x f s _ = _
  unfold Eff.bind
  rw [h]

theorem self : Ends (A := A) Eff.self s d (.ok s) s d := fun _ _ tr => ⟨tr, rfl⟩

theorem swap {t : σ} : Ends (A := A) (Eff.swap t) s d (.ok s) t d := fun _ _ tr => ⟨tr, rfl⟩

theorem lift {x : Option (Out α)} {o : Out α} (h : x = some o) : Ends (A := A) (Eff.lift x) s d o s d := by
  subst h; exact fun _ _ tr => ⟨tr, rfl⟩

theorem log {o : σ → Obs (sig A)} : Ends (Eff.log o) s d (.ok ()) s d := fun _ _ _ => ⟨_, rfl⟩

theorem callback {ob : σ → Obs (sig A)} {f} {o : Out α}
    (h : ∀ c l, (f s d c).run l = (o, (s', d', c), l)) : Ends (Eff.callback ob f) s d o s' d' := by
  intro c l tr
  refine ⟨tr ++ [ob s], ?_⟩
  show (match (f s d c).run l with
    | (r, (s', m', c'), l) => some (r, s', ({ sh := m', ctx := c', sched := l, trace := tr ++ [ob s] } : Glob (sig A)))) = _
  rw [h]

theorem hook {ob : σ → Obs (sig A)} {f : σ → Text → Fut Empty Text Unit} (h : f s d = .done d ()) :
    Ends (Eff.hook ob f) s d (.ok ()) s d := by
  intro c l tr
  refine ⟨tr ++ [ob s], ?_⟩
  show (match (f s d).run l with
    | (r, m', l) => some (r, s, ({ sh := m', ctx := c, sched := l, trace := tr ++ [ob s] } : Glob (sig A)))) = _
  rw [h]
  rfl

theorem borrow {sup : σ → Option (τ × (τ → σ))} {v v' : τ} {back : τ → σ} {body : Eff (sig A) τ α} {o : Out α}
    (h : sup s = some (v, back)) (hb : Ends body v d o v' d') :
    Ends (Eff.borrow sup body) s d (o.map some) (back v') d' := by
  intro c l tr
  obtain ⟨tr', hb⟩ := hb c l tr
  refine ⟨tr', ?_⟩
  simp only [Eff.borrow, h, hb]

theorem borrow_none {sup : σ → Option (τ × (τ → σ))} {body : Eff (sig A) τ α} (h : sup s = none) :
    Ends (Eff.borrow sup body) s d (.ok none) s d := by
  intro c l tr
  refine ⟨tr, ?_⟩
  simp only [Eff.borrow, h]

end Ends

/-! ## Transitions -/

theorem sup_on (v : Superstate A) (h : v ≠ .on) : (machine A minus).supSuperstate v = some (.on, fun _ => v) := by
  cases v <;> first | rfl | exact absurd rfl h

theorem ends_supExit (n : Nat) (v : Superstate A) (d : Text) :
    Ends (Blocking.supExit (machine A minus) n) v d (.ok ()) v d := by
  have hx : ∀ v, Ends (callSupExit (machine A minus)) v d (.ok ()) v d :=
    fun v => Ends.callback fun c l => rfl
  have hon := sup_on (A := A) (minus := minus)
  induction n generalizing v with
  | zero => exact Ends.pure ()
  | succ n ih =>
    cases n with
    | zero => exact hx v
    | succ n =>
      unfold Blocking.supExit
      refine Ends.bind (hx v) (Ends.bind (?_ : Ends _ v d (.ok (if v.tag = .on then none else some ())) v d) (Ends.pure ()))
      cases v with
      | on => exact Ends.borrow_none rfl
      | _ => exact Ends.borrow (sup := (machine A minus).supSuperstate) (back := fun _ => _) (hon _ (by simp)) (ih .on)

theorem ends_supEnter (n : Nat) (v : Superstate A) (d : Text) :
    Ends (Blocking.supEnter (machine A minus) n) v d (.ok ()) v d := by
  have hx : ∀ v, Ends (callSupEntry (machine A minus)) v d (.ok ()) v d :=
    fun v => Ends.callback fun c l => rfl
  have hon := sup_on (A := A) (minus := minus)
  induction n generalizing v with
  | zero => exact Ends.pure ()
  | succ n ih =>
    cases n with
    | zero => exact hx v
    | succ n =>
      unfold Blocking.supEnter
      refine Ends.bind (?_ : Ends _ v d (.ok (if v.tag = .on then none else some ())) v d) (hx v)
      cases v with
      | on => exact Ends.borrow_none rfl
      | _ => exact Ends.borrow (sup := (machine A minus).supSuperstate) (back := fun _ => _) (hon _ (by simp)) (ih .on)

theorem writeBack_superstate (s : State A) : writeBack A s (superstate A s) = s := by cases s <;> rfl

theorem ends_exit (n : Nat) (s : State A) (d : Text) :
    Ends (Blocking.exit (machine A minus) n) s d (.ok ()) s d := by
  have hx : ∀ s, Ends (callExit (machine A minus)) s d (.ok ()) s d :=
    fun s => Ends.callback fun c l => rfl
  match n with
  | 0 => exact Ends.pure ()
  | 1 => exact hx s
  | n + 2 =>
    unfold Blocking.exit
    have := Ends.borrow (A := A) (s := s) (sup := (machine A minus).superstate) rfl (ends_supExit (minus := minus) (n + 1) (superstate A s) d)
    rw [writeBack_superstate] at this
    exact Ends.bind (hx s) (Ends.bind this (Ends.pure ()))

theorem ends_enter (n : Nat) (s : State A) (d : Text) :
    Ends (Blocking.enter (machine A minus) (n + 1)) s d (.ok ()) s (entry A s d) := by
  have hx : ∀ s, Ends (callEntry (machine A minus)) s d (.ok ()) s (entry A s d) :=
    fun s => Ends.callback fun c l => rfl
  match n with
  | 0 => exact hx s
  | n + 1 =>
    unfold Blocking.enter
    have := Ends.borrow (A := A) (s := s) (sup := (machine A minus).superstate) rfl (ends_supEnter (minus := minus) (n + 1) (superstate A s) d)
    rw [writeBack_superstate] at this
    exact Ends.bind this (hx s)


/-- The hierarchy. -/
def forest : Forest StateTag SuperstateTag where
  leafParent
    | .begin | .response => some .ready
    | .zero1 | .int1 | .frac1 | .negated1 => some .operand1
    | .zero2 | .int2 | .frac2 => some .operand2
    | .opEntered | .negated2 => some .on
  supParent
    | .on => none
    | _ => some .on
  supAnc
    | .on => []
    | _ => [.on]
  supAnc_eq t := by cases t <;> rfl

theorem follows : Follows (machine A minus) forest where
  leaf s := by cases s <;> rfl
  sup v := by cases v <;> rfl
  leaf_back := by
    intro s v back w h hw
    cases h
    cases s <;> cases w <;> rfl
  sup_back := by
    intro u v back w h hw
    cases u <;> cases h <;> rfl
  handler s sh ev c := by
    show Fut.All _ (reply s c (handler A minus s sh ev))
    unfold reply; split
    · exact .done rfl
    · exact .panic rfl
  entry s sh c := .done rfl
  exit s sh c := .done rfl
  supHandler v sh ev c := by
    show Fut.All _ (reply v c (supHandler A v sh ev))
    unfold reply; split
    · exact .done rfl
    · exact .panic rfl
  supEntry v sh c := .done rfl
  supExit v sh c := .done rfl

theorem ends_transition (s t : State A) (d : Text) :
    Ends (Blocking.transition (machine A minus) t) s d (.ok ()) t (entry A t d) := by
  obtain ⟨x, n, h1, -, -, h2, -⟩ := transitionPath_spec (follows (A := A) (minus := minus)) s t
  obtain ⟨n, rfl⟩ : ∃ k, n = k + 1 := ⟨n - 1, by omega⟩
  unfold Blocking.transition
  exact Ends.bind Ends.self (Ends.bind (Ends.hook rfl) (Ends.bind (Ends.lift h1) (Ends.bind (ends_exit x s d)
    (Ends.bind Ends.swap (Ends.bind (ends_enter n t d) (Ends.bind Ends.self (Ends.hook rfl)))))))

theorem ends_init (s : State A) (d : Text) :
    Ends (Blocking.init (machine A minus)) s d (.ok ()) s (entry A s d) := by
  unfold Blocking.init
  exact Ends.bind Ends.self (Ends.bind (Ends.lift (by rw [depth_eq (follows (A := A) (minus := minus))]; rfl)) (ends_enter _ s d))

/-! ## Dispatch -/

/-- How the outcome of a handler is seen by the library. -/
def outOf {St : Type} : Option (Response St) → Out (Response St)
  | some r => .ok r
  | none => .panic

theorem ends_reply {σ : Type} {ob : σ → Obs (sig A)} {f} {s : σ} {d : Text} {r : Reply (State A)}
    (h : ∀ c, f s d c = reply s c r) : Ends (Eff.callback ob f) s d (outOf r.2) s r.1 := by
  refine Ends.callback fun c l => ?_
  rw [h]
  obtain ⟨d, r⟩ := r
  cases r <;> rfl

theorem ends_callHandler (s : State A) (d : Text) (e : Event) :
    Ends (callHandler (machine A minus) e) s d (outOf (handler A minus s d e).2) s (handler A minus s d e).1 := by
  have := ends_reply (A := A) (ob := fun s => .handler (.state s) e)
    (f := fun s sh c => (machine A minus).handler s sh e c) (s := s) (d := d) (fun c => rfl)
  unfold callHandler
  revert this
  generalize handler A minus s d e = r
  obtain ⟨d', r⟩ := r
  intro this
  cases r with
  | none => exact Ends.bind_panic this
  | some r => exact Ends.bind this (Ends.bind Ends.log (Ends.pure r))

theorem ends_callSupHandler (s : Superstate A) (d : Text) (e : Event) :
    Ends (callSupHandler (machine A minus) e) s d (outOf (supHandler A s d e).2) s (supHandler A s d e).1 := by
  have := ends_reply (A := A) (ob := fun s => .handler (.superstate s) e)
    (f := fun s sh c => (machine A minus).supHandler s sh e c) (s := s) (d := d) (fun c => rfl)
  unfold callSupHandler
  revert this
  generalize supHandler A s d e = r
  obtain ⟨d', r⟩ := r
  intro this
  cases r with
  | none => exact Ends.bind_panic this
  | some r => exact Ends.bind this (Ends.bind Ends.log (Ends.pure r))

/-- What the superstates reply. -/
def supRespond (v : Superstate A) (d : Text) (e : Event) : Reply (State A) :=
  match supHandler A v d e with
  | (d, some .super) => on (constructors A) d e
  | r => r

/-- What a state and its superstates reply. -/
def respond (minus : Text) (s : State A) (d : Text) (e : Event) : Reply (State A) :=
  match handler A minus s d e with
  | (d, some .super) => supRespond (superstate A s) d e
  | r => r

theorem ends_supHandle_on (d : Text) (e : Event) :
    Ends (Blocking.supHandle (machine A minus) e) .on d (outOf (on (constructors A) d e).2) .on (on (constructors A) d e).1 := by
  have := ends_callSupHandler (A := A) (minus := minus) .on d e
  have h : supHandler A .on d e = on (constructors A) d e := rfl
  rw [h] at this
  rw [Blocking.supHandle]
  cases e with
  | ac => exact Ends.bind this (Ends.pure _)
  | _ => exact Ends.bind this (Ends.bind (Ends.borrow_none rfl) (Ends.pure _))

theorem ends_supBody {v : Superstate A} {d : Text} {e : Event} {r : Reply (State A)}
    (h : Ends (Blocking.supHandle (machine A minus) e) v d (outOf r.2) v r.1) :
    Ends (do
      hookSupBeforeDispatch (machine A minus) e
      let response ← Blocking.supHandle (machine A minus) e
      hookSupAfterDispatch (machine A minus) e
      pure response) v d (outOf r.2) v r.1 := by
  obtain ⟨d', r⟩ := r
  cases r with
  | none => exact Ends.bind (Ends.hook rfl) (Ends.bind_panic h)
  | some r => exact Ends.bind (Ends.hook rfl) (Ends.bind h (Ends.bind (Ends.hook rfl) (Ends.pure _)))

theorem ends_supHandle (v : Superstate A) (d : Text) (e : Event) :
    Ends (Blocking.supHandle (machine A minus) e) v d (outOf (supRespond v d e).2) v (supRespond v d e).1 := by
  by_cases hv : v = .on
  · subst hv
    have : supRespond .on d e = on (constructors A) d e := by cases e <;> rfl
    rw [this]
    exact ends_supHandle_on d e
  have := ends_callSupHandler (A := A) (minus := minus) v d e
  rw [Blocking.supHandle]
  unfold supRespond
  revert this
  generalize supHandler A v d e = r
  obtain ⟨d', r⟩ := r
  intro this
  match r with
  | none => exact Ends.bind_panic this
  | some .handled => exact Ends.bind this (Ends.pure _)
  | some (.transition s) => exact Ends.bind this (Ends.pure _)
  | some .super =>
    have h1 := ends_supHandle_on (A := A) (minus := minus) d' e
    revert h1
    simp only
    generalize on (constructors A) d' e = r
    intro h1
    have h2 := Ends.borrow (sup_on (minus := minus) v hv) (ends_supBody h1)
    obtain ⟨d'', r⟩ := r
    cases r with
    | none => exact Ends.bind this (Ends.bind_panic h2)
    | some r => exact Ends.bind this (Ends.bind h2 (Ends.pure _))

theorem ends_handle (s : State A) (d : Text) (e : Event) :
    Ends (Blocking.handle (machine A minus) e) s d (outOf (respond minus s d e).2) s (respond minus s d e).1 := by
  have := ends_callHandler (A := A) (minus := minus) s d e
  unfold Blocking.handle respond
  revert this
  generalize handler A minus s d e = r
  obtain ⟨d', r⟩ := r
  intro this
  match r with
  | none => exact Ends.bind (Ends.hook rfl) (Ends.bind_panic this)
  | some .handled => exact Ends.bind (Ends.hook rfl) (Ends.bind this (Ends.bind (Ends.hook rfl) (Ends.pure _)))
  | some (.transition t) => exact Ends.bind (Ends.hook rfl) (Ends.bind this (Ends.bind (Ends.hook rfl) (Ends.pure _)))
  | some .super =>
    have h1 := ends_supHandle (A := A) (minus := minus) (superstate A s) d' e
    revert h1
    simp only
    generalize supRespond (superstate A s) d' e = r
    intro h1
    have h2 := Ends.borrow (A := A) (s := s) (sup := (machine A minus).superstate) rfl (ends_supBody h1)
    rw [writeBack_superstate s] at h2
    obtain ⟨d'', r⟩ := r
    cases r with
    | none => exact Ends.bind (Ends.hook rfl) (Ends.bind this (Ends.bind (Ends.hook rfl) (Ends.bind_panic h2)))
    | some r => exact Ends.bind (Ends.hook rfl) (Ends.bind this (Ends.bind (Ends.hook rfl) (Ends.bind h2 (Ends.pure _))))

/-- The state and display after an event; `none` if a handler panics. -/
def next (minus : Text) (s : State A) (d : Text) (e : Event) : Option (State A × Text) :=
  match respond minus s d e with
  | (_, none) => none
  | (d, some (.transition t)) => some (t, entry A t d)
  | (d, some _) => some (s, d)

theorem ends_handleEvent (s : State A) (d : Text) (e : Event) :
    match next minus s d e with
    | some (s', d') => Ends (Blocking.handleEvent (machine A minus) e) s d (.ok ()) s' d'
    | none => Ends (Blocking.handleEvent (machine A minus) e) s d .panic s (respond minus s d e).1 := by
  have := ends_handle (A := A) (minus := minus) s d e
  unfold next Blocking.handleEvent
  revert this
  generalize respond minus s d e = r
  obtain ⟨d', r⟩ := r
  intro this
  match r with
  | none => exact Ends.bind_panic this
  | some .handled => exact Ends.bind this (Ends.pure _)
  | some .super => exact Ends.bind this (Ends.pure _)
  | some (.transition t) => exact Ends.bind this (ends_transition s t d')

theorem inner_run {x : Eff (sig A) (State A) Unit} {s s' : State A} {d d' : Text} {o : Out Unit}
    (h : Ends x s d o s' d') (ctx : Unit) (l : List Empty) :
    ∃ tr, (⟨d, s⟩ : Inner (sig A)).run x ctx l = some ⟨o, ⟨d', s'⟩, ctx, l, tr⟩ := by
  obtain ⟨tr, h⟩ := h ctx l []
  exact ⟨tr, by simp [Inner.run, h]⟩

/-- The display once the machine is initialized. -/
def shown (sm : StateMachine (sig A)) : Text :=
  if sm.initialized then sm.inner.shared else entry A sm.inner.state sm.inner.shared

theorem exec_init (sm : StateMachine (sig A)) (ctx : Unit) (l : List Empty) :
    ∃ c, (Command.init ctx l).exec .blocking (machine A minus) sm = some c ∧ c.out = .ok () ∧
      c.self = ⟨⟨shown sm, sm.inner.state⟩, true⟩ := by
  obtain ⟨⟨d, s⟩, b⟩ := sm
  cases b with
  | true => exact ⟨_, rfl, rfl, rfl⟩
  | false =>
    obtain ⟨tr, h⟩ := inner_run (ends_init (minus := minus) s d) ctx l
    refine ⟨⟨.ok (), ⟨⟨entry A s d, s⟩, true⟩, ctx, l, tr⟩, ?_, rfl, rfl⟩
    · simp only [Command.exec, StateMachine.initWithContext, Inner.init, h]; rfl

theorem exec_handle (sm : StateMachine (sig A)) (e : Event) (ctx : Unit) (l : List Empty) :
    ∃ c, (Command.handle e ctx l).exec .blocking (machine A minus) sm = some c ∧ c.self.initialized = true ∧
      match next minus sm.inner.state (shown sm) e with
      | some (s, d) => c.out = .ok () ∧ c.self = ⟨⟨d, s⟩, true⟩
      | none => c.out = .panic ∧ c.self = ⟨⟨(respond minus sm.inner.state (shown sm) e).1, sm.inner.state⟩, true⟩ := by
  obtain ⟨⟨d, s⟩, b⟩ := sm
  have key : ∀ d, ∃ o d' s' tr, (⟨d, s⟩ : Inner (sig A)).run (Blocking.handleEvent (machine A minus) e) ctx l =
      some ⟨o, ⟨d', s'⟩, ctx, l, tr⟩ ∧ match next minus s d e with
      | some (s1, d1) => o = .ok () ∧ s' = s1 ∧ d' = d1
      | none => o = .panic ∧ s' = s ∧ d' = (respond minus s d e).1 := by
    intro d
    have h1 := ends_handleEvent (minus := minus) s d e
    revert h1
    cases next minus s d e with
    | none =>
      intro h1
      obtain ⟨tr, h⟩ := inner_run h1 ctx l
      exact ⟨_, _, _, tr, h, rfl, rfl, rfl⟩
    | some p =>
      obtain ⟨s1, d1⟩ := p
      intro h1
      obtain ⟨tr, h⟩ := inner_run h1 ctx l
      exact ⟨_, _, _, tr, h, rfl, rfl, rfl⟩
  cases b with
  | true =>
    obtain ⟨o, d', s', tr, h, hm⟩ := key d
    refine ⟨⟨o, ⟨⟨d', s'⟩, true⟩, ctx, l, tr⟩, ?_, rfl, ?_⟩
    · simp only [Command.exec, StateMachine.handleWithContext, Inner.handle, h]; rfl
    · revert hm
      show _ → (match next minus s d e with
        | some (s1, d1) => o = .ok () ∧ (⟨⟨d', s'⟩, true⟩ : StateMachine (sig A)) = ⟨⟨d1, s1⟩, true⟩
        | none => o = .panic ∧ (⟨⟨d', s'⟩, true⟩ : StateMachine (sig A)) = ⟨⟨(respond minus s d e).1, s⟩, true⟩)
      cases next minus s d e with
      | none => rintro ⟨rfl, rfl, rfl⟩; exact ⟨rfl, rfl⟩
      | some p => rintro ⟨rfl, rfl, rfl⟩; exact ⟨rfl, rfl⟩
  | false =>
    obtain ⟨tr0, h0⟩ := inner_run (ends_init (minus := minus) s d) ctx l
    obtain ⟨o, d', s', tr, h, hm⟩ := key (entry A s d)
    refine ⟨⟨o, ⟨⟨d', s'⟩, true⟩, ctx, l, tr0 ++ tr⟩, ?_, rfl, ?_⟩
    · simp only [Command.exec, StateMachine.handleWithContext, Inner.handle, Inner.init, h0, ↓reduceIte, Option.bind_eq_bind,
        Option.bind_some, h]
    · revert hm
      show _ → (match next minus s (entry A s d) e with
        | some (s1, d1) => o = .ok () ∧ (⟨⟨d', s'⟩, true⟩ : StateMachine (sig A)) = ⟨⟨d1, s1⟩, true⟩
        | none => o = .panic ∧ (⟨⟨d', s'⟩, true⟩ : StateMachine (sig A)) =
            ⟨⟨(respond minus s (entry A s d) e).1, s⟩, true⟩)
      cases next minus s (entry A s d) e with
      | none => rintro ⟨rfl, rfl, rfl⟩; exact ⟨rfl, rfl⟩
      | some p => rintro ⟨rfl, rfl, rfl⟩; exact ⟨rfl, rfl⟩

end Statig.Examples.Calculator
