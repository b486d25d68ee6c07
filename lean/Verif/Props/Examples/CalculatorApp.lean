import Verif.Spec.Examples.CalculatorApp
import Verif.Props.Examples.Calculator
/-!
# The user interface of the example `calculator`: C95
-/
namespace Statig.Examples.Calculator
open Statig.Macro
variable {A : Arith}

/-! ## One key -/

/-- The calculators that are reached. -/
def Good (sm : StateMachine (gen.iface.sig (types A))) : Prop :=
  ∃ sm' : StateMachine (sig A), (sameValues A).Machine sm sm' ∧ sm'.initialized = true ∧
    Shows ['-', '0'] sm'.inner.state sm'.inner.shared

theorem Good.initialized {sm : StateMachine (gen.iface.sig (types A))} (h : Good sm) : sm.initialized = true := by
  obtain ⟨sm', h1, h2, -⟩ := h
  exact h1.2.trans h2

theorem good_exec (hA : A.Sane) {sm : StateMachine (gen.iface.sig (types A))} (h : Good sm) (e : Event) :
    ∃ c, (Command.handle e () []).exec .blocking (generated A) sm = some c ∧ Good c.self ∧
      (c.out = .ok () ∧ ¬ Crashes sm.inner.state.variant sm.inner.shared e ∨
        c.out = .panic ∧ Crashes sm.inner.state.variant sm.inner.shared e) := by
  obtain ⟨sm', h1, h2, h3⟩ := h
  have hs : shown sm' = sm'.inner.shared := by simp [shown, h2]
  obtain ⟨c', g1, -, g2⟩ := exec_handle (minus := ['-', '0']) sm' e () []
  obtain ⟨c'', g3, g4, g5⟩ := shows_exec hA (by rw [hs]; exact h3) (.handle e () [])
  rw [g1] at g3
  cases g3
  have hb := exec_bisim respects .blocking h1 (cmd := .handle e () []) (cmd' := .handle e () []) (.handle rfl rfl .nil)
  rw [g1] at hb
  cases he : (Command.handle e () []).exec .blocking (generated A) sm with
  | none => rw [he] at hb; cases hb
  | some c =>
    rw [he] at hb
    cases hb with
    | some hc =>
      refine ⟨c, rfl, ⟨c'.self, hc.self, g5, by rw [show shown c'.self = c'.self.inner.shared from by simp [shown, g5]] at g4; exact g4⟩, ?_⟩
      have hn := crashes_iff hA (e := e) h3
      rw [← show sm.inner.state = value sm'.inner.state from h1.1.2, ← show sm.inner.shared = sm'.inner.shared from h1.1.1] at hn
      rw [hs, ← show sm.inner.shared = sm'.inner.shared from h1.1.1] at g2
      rw [hc.out, ← hn]
      revert g2
      cases next ['-', '0'] sm'.inner.state sm.inner.shared e with
      | none => rintro ⟨h, -⟩; exact .inr ⟨h, rfl⟩
      | some p => rintro ⟨h, -⟩; exact .inl ⟨h, by simp⟩

/-! ## Many keys -/

theorem callAll_press {sm : StateMachine (gen.iface.sig (types A))} {e : Event} {c}
    (h : (Command.handle e () []).exec .blocking (generated A) sm = some c) (keys : List Event) :
    callAll .blocking (generated A) sm (press id () (e :: keys)) = c :: callAll .blocking (generated A) c.self (press id () keys) := by
  show callAll .blocking (generated A) sm (.handle e () [] :: press id () keys) = _
  simp only [callAll, h]

theorem after_press {sm : StateMachine (gen.iface.sig (types A))} {e : Event} {c}
    (h : (Command.handle e () []).exec .blocking (generated A) sm = some c) (keys : List Event) :
    after (generated A) sm (press id () (e :: keys)) = after (generated A) c.self (press id () keys) :=
  after_cons h _

theorem good_append (hA : A.Sane) {sm : StateMachine (gen.iface.sig (types A))} (h : Good sm) (k k' : List Event) :
    Good (after (generated A) sm (press id () k)) ∧
    callAll .blocking (generated A) sm (press id () (k ++ k')) =
      callAll .blocking (generated A) sm (press id () k) ++
        callAll .blocking (generated A) (after (generated A) sm (press id () k)) (press id () k') ∧
    after (generated A) sm (press id () (k ++ k')) =
      after (generated A) (after (generated A) sm (press id () k)) (press id () k') := by
  induction k generalizing sm with
  | nil => exact ⟨h, rfl, rfl⟩
  | cons e k ih =>
    obtain ⟨c, h1, h2, -⟩ := good_exec hA h e
    obtain ⟨i1, i2, i3⟩ := ih h2
    rw [List.cons_append, callAll_press h1, callAll_press h1, after_press h1, after_press h1]
    exact ⟨i1, by rw [i2]; rfl, i3⟩

/-- No key crashes. -/
def Calm (sm : StateMachine (gen.iface.sig (types A))) (keys : List Event) : Prop :=
  ∀ c ∈ callAll .blocking (generated A) sm (press id () keys), c.out = .ok ()

theorem calm_cons {sm : StateMachine (gen.iface.sig (types A))} {e : Event} {c}
    (h : (Command.handle e () []).exec .blocking (generated A) sm = some c) (keys : List Event) :
    Calm sm (e :: keys) ↔ c.out = .ok () ∧ Calm c.self keys := by
  simp only [Calm, callAll_press h, List.forall_mem_cons]

theorem calm_append (hA : A.Sane) {sm : StateMachine (gen.iface.sig (types A))} (h : Good sm) (k k' : List Event) :
    Calm sm (k ++ k') ↔ Calm sm k ∧ Calm (after (generated A) sm (press id () k)) k' := by
  simp only [Calm, (good_append hA h k k').2.1, List.forall_mem_append]

theorem calm_iff (hA : A.Sane) {sm : StateMachine (gen.iface.sig (types A))} (h : Good sm) (keys : List Event) :
    Calm sm keys ↔ ∀ pre e post, keys = pre ++ e :: post →
      ¬ Crashes (after (generated A) sm (press id () pre)).inner.state.variant
        (after (generated A) sm (press id () pre)).inner.shared e := by
  constructor
  · rintro hc pre e post rfl
    obtain ⟨g, -⟩ := good_append hA h pre []
    obtain ⟨c, h1, h2, h3⟩ := good_exec hA g e
    have := ((calm_append hA h pre (e :: post)).1 hc).2
    rw [calm_cons h1] at this
    rcases h3 with h3 | h3
    · exact h3.2
    · rw [h3.1] at this; cases this.1
  · intro hk
    induction keys generalizing sm with
    | nil => intro c hc; cases hc
    | cons e keys ih =>
      obtain ⟨c, h1, h2, h3⟩ := good_exec hA h e
      rw [calm_cons h1]
      constructor
      · rcases h3 with h3 | h3
        · exact h3.1
        · exact absurd h3.2 (hk [] e keys rfl)
      · refine ih h2 fun pre e' post hp => ?_
        have := hk (e :: pre) e' post (by rw [hp]; rfl)
        rwa [after_press h1] at this

/-! ## Frames -/

/-- The machine with the field `initialized`. -/
def full (sm : InitializedStateMachine (gen.iface.sig (types A))) : StateMachine (gen.iface.sig (types A)) := ⟨sm.inner, true⟩

theorem handle_full {sm : InitializedStateMachine (gen.iface.sig (types A))} {e : Event} {c}
    (h : (Command.handle e () []).exec .blocking (generated A) (full sm) = some c) (hi : c.self.initialized = true) :
    ∃ d, sm.handleWithContext .blocking (generated A) e () [] = some d ∧ d.out = c.out ∧ full d.self = c.self := by
  simp only [Command.exec, StateMachine.handleWithContext, full, Bool.true_eq_false, if_false] at h
  cases hh : sm.inner.handle .blocking (generated A) e () [] with
  | none => rw [hh] at h; cases h
  | some d =>
    rw [hh] at h
    cases h
    exact ⟨{ d with self := ⟨d.self⟩ }, by simp only [InitializedStateMachine.handleWithContext, hh]; rfl, rfl, rfl⟩

theorem clickAll_eq (hA : A.Sane) (clicked : String → Bool) (bs : List Button)
    (sm : InitializedStateMachine (gen.iface.sig (types A))) (h : Good (full sm)) :
    ∃ o sm', clickAll (generated A) id () clicked sm bs = some (o, sm') ∧
      (o = .ok () ∧ Calm (full sm) ((bs.filter fun b => clicked b.label).map (·.event)) ∧
          full sm' = after (generated A) (full sm) (press id () ((bs.filter fun b => clicked b.label).map (·.event))) ∨
        o = .panic ∧ ¬ Calm (full sm) ((bs.filter fun b => clicked b.label).map (·.event))) := by
  induction bs generalizing sm with
  | nil => exact ⟨_, _, rfl, .inl ⟨rfl, (fun c hc => by cases hc), rfl⟩⟩
  | cons b bs ih =>
    by_cases hb : clicked b.label = true
    · obtain ⟨c, h1, h2, h3⟩ := good_exec hA h b.event
      obtain ⟨d, g1, g2, g3⟩ := handle_full h1 h2.initialized
      simp only [clickAll, hb, if_true, List.filter_cons, List.map_cons, calm_cons h1, after_press h1, id_eq, g1, bind, Option.bind]
      rcases h3 with h3 | h3
      · rw [h3.1] at g2
        rw [g2]
        simp only
        obtain ⟨o, sm', i1, i2⟩ := ih d.self (by rw [g3]; exact h2)
        rw [g3] at i2
        refine ⟨o, sm', i1, ?_⟩
        rcases i2 with ⟨i2, i3, i4⟩ | ⟨i2, i3⟩
        · exact .inl ⟨i2, ⟨h3.1, i3⟩, i4⟩
        · exact .inr ⟨i2, fun hh => i3 hh.2⟩
      · rw [h3.1] at g2
        rw [g2]
        refine ⟨_, _, rfl, .inr ⟨rfl, fun hh => ?_⟩⟩
        rw [h3.1] at hh; cases hh.1
    · simp only [clickAll, hb, if_false, List.filter_cons]
      exact ih sm h

theorem buttons_order : buttons.map (·.label) = order := by decide +kernel
theorem buttons_meaning : (buttons.all fun b => decide (meaning b.label = some b.event)) = true := by decide +kernel

theorem pressed_eq (clicked : String → Bool) : (buttons.filter fun b => clicked b.label).map (·.event) = pressed clicked := by
  have key : ∀ bs : List Button, (bs.all fun b => decide (meaning b.label = some b.event)) = true →
      (bs.filter fun b => clicked b.label).map (·.event) = ((bs.map (·.label)).filter clicked).filterMap meaning := by
    intro bs
    induction bs with
    | nil => intro _; rfl
    | cons b bs ih =>
      intro h
      rw [List.all_cons, Bool.and_eq_true, decide_eq_true_iff] at h
      by_cases hb : clicked b.label = true
      · simp only [List.filter_cons, hb, if_true, List.map_cons, List.filterMap_cons, h.1, ih h.2]
      · simp only [List.filter_cons, hb, List.map_cons]; exact ih h.2
  rw [key buttons buttons_meaning, buttons_order]; rfl

theorem typed_cons (f : String → Bool) (fs) : typed (f :: fs) = pressed f ++ typed fs := rfl

theorem frames_eq (hA : A.Sane) (fs : List (String → Bool)) (sm : InitializedStateMachine (gen.iface.sig (types A)))
    (h : Good (full sm)) :
    ∃ texts o, frames (generated A) id () sm fs = some (texts, o) ∧ (texts.length ≤ fs.length) ∧
      (o = .ok () ∧ texts.length = fs.length ∨ o = .panic ∧ texts.length < fs.length) ∧
      (∀ k, k < fs.length → (k < texts.length ↔ Calm (full sm) (typed (fs.take (k + 1))))) ∧
      ∀ k (hk : k < texts.length), texts[k] = (after (generated A) (full sm) (press id () (typed (fs.take k)))).inner.shared := by
  induction fs generalizing sm with
  | nil => exact ⟨[], _, rfl, Nat.le_refl _, .inl ⟨rfl, rfl⟩, fun k hk => absurd hk (Nat.not_lt_zero _), fun k hk => absurd hk (Nat.not_lt_zero _)⟩
  | cons f fs ih =>
    obtain ⟨o, sm', h1, h2⟩ := clickAll_eq hA f buttons sm h
    rw [pressed_eq] at h2
    have hg : Good (after (generated A) (full sm) (press id () (pressed f))) := (good_append hA h (pressed f) []).1
    simp only [frames, h1, bind, Option.bind]
    rcases h2 with ⟨rfl, h2, h3⟩ | ⟨rfl, h2⟩
    · rw [← h3] at hg
      obtain ⟨texts, o, i1, i2, i3, i4, i5⟩ := ih sm' hg
      simp only [i1]
      refine ⟨_, _, rfl, by simpa using i2, by simpa using i3, fun k hk => ?_, fun k hk => ?_⟩
      · simp only [List.take_succ_cons, typed_cons, calm_append hA h, ← h3, h2, true_and, List.length_cons]
        cases k with
        | zero => simp [typed, Calm, press, callAll]
        | succ k =>
          rw [← i4 k (by simpa using hk)]
          exact Nat.succ_lt_succ_iff
      · cases k with
        | zero => rfl
        | succ k =>
          simp only [List.getElem_cons_succ, List.take_succ_cons, typed_cons, (good_append hA h (pressed f) _).2.2, ← h3]
          exact i5 k (by simpa using hk)
    · refine ⟨_, _, rfl, Nat.zero_le _, .inr ⟨rfl, by simp⟩, fun k hk => ?_, fun k hk => absurd hk (Nat.not_lt_zero _)⟩
      simp only [List.take_succ_cons, typed_cons, calm_append hA h, h2, false_and, iff_false]
      exact Nat.not_lt_zero _

/-! ## From the start -/

/-- A calculator that has been initialized. -/
def started (A : Arith) : InitializedStateMachine (gen.iface.sig (types A)) := ⟨⟨['0'], value .begin⟩⟩

theorem good_started : Good (full (started A)) := ⟨⟨⟨['0'], .begin⟩, true⟩, any_rel _ _ _, rfl, rfl⟩

theorem exec_start (d : Text) :
    ∃ c, (Command.init () []).exec .blocking (generated A) (stateMachine (generated A) d) = some c ∧ c.out = .ok () ∧
      c.self = full (started A) := by
  obtain ⟨c', g1, g2, g3⟩ := exec_init (minus := ['-', '0']) (stateMachine (machine A ['-', '0']) d) () []
  have hb := exec_bisim respects .blocking (fresh_rel (A := A) d) (cmd := .init () []) (cmd' := .init () []) (.init rfl .nil)
  rw [g1] at hb
  cases he : (Command.init () []).exec .blocking (generated A) (stateMachine (generated A) d) with
  | none => rw [he] at hb; cases hb
  | some c =>
    rw [he] at hb
    cases hb with
    | some hc =>
      refine ⟨c, rfl, hc.out.trans g2, ?_⟩
      obtain ⟨⟨h1, h2⟩, h3⟩ := hc.self
      rw [g3] at h1 h2 h3
      obtain ⟨o, ⟨⟨x, y⟩, z⟩, w1, w2, w3⟩ := c
      cases h1; cases h2; cases h3
      rfl

theorem start_eq (d : Text) :
    ∃ c, (uninitializedStateMachine (generated A) d).initWithContext .blocking (generated A) () [] = some c ∧
      c.self = some (started A) := by
  obtain ⟨c, h1, h2, h3⟩ := exec_start (A := A) d
  simp only [Command.exec, StateMachine.initWithContext, stateMachine, if_true] at h1
  simp only [UninitializedStateMachine.initWithContext, uninitializedStateMachine]
  cases hh : (⟨d, (generated A).initial⟩ : Inner (gen.iface.sig (types A))).init .blocking (generated A) () [] with
  | none => rw [hh] at h1; cases h1
  | some c' =>
    rw [hh] at h1
    simp only [bind, Option.bind] at h1 ⊢
    cases ho : c'.out with
    | ok u =>
      rw [ho] at h1
      cases h1
      have : c'.self = (started A).inner := congrArg StateMachine.inner h3
      exact ⟨_, rfl, by simp only [this]⟩
    | panic => rw [ho] at h1; cases h1; cases h2
    | stopped => rw [ho] at h1; cases h1; cases h2

theorem app_eq (d : Text) (fs : List (String → Bool)) :
    app (generated A) id () d fs = frames (generated A) id () (started A) fs := by
  obtain ⟨c, h1, h2⟩ := start_eq (A := A) d
  simp only [app, h1, bind, Option.bind, h2]

theorem after_start (d : Text) (keys : List Event) :
    after (generated A) (stateMachine (generated A) d) (.init () [] :: press id () keys) =
      after (generated A) (full (started A)) (press id () keys) := by
  obtain ⟨c, h1, -, h2⟩ := exec_start (A := A) d
  rw [after_cons h1, h2]

/-! ## The buttons -/

theorem digit_cases {d : UInt8} (h : d ≤ 9) :
    d = 0 ∨ d = 1 ∨ d = 2 ∨ d = 3 ∨ d = 4 ∨ d = 5 ∨ d = 6 ∨ d = 7 ∨ d = 8 ∨ d = 9 := by
  have h' : d.toNat ≤ 9 := by simpa [UInt8.le_iff_toNat_le] using h
  have : d = UInt8.ofNat d.toNat := by simp
  generalize d.toNat = n at h' this
  subst this
  have : n = 0 ∨ n = 1 ∨ n = 2 ∨ n = 3 ∨ n = 4 ∨ n = 5 ∨ n = 6 ∨ n = 7 ∨ n = 8 ∨ n = 9 := by omega
  rcases this with rfl | rfl | rfl | rfl | rfl | rfl | rfl | rfl | rfl | rfl <;> simp

/-- The keys that there are. -/
def allKeys : List Event := [.digit 0, .digit 1, .digit 2, .digit 3, .digit 4, .digit 5, .digit 6, .digit 7, .digit 8, .digit 9,
  .point, .ac, .ce, .equal, .operator .add, .operator .sub, .operator .mul, .operator .div]

theorem mem_allKeys {e : Event} (h : ∀ d, e = .digit d → d ≤ 9) : e ∈ allKeys := by
  cases e with
  | digit d => rcases digit_cases (h d rfl) with rfl | rfl | rfl | rfl | rfl | rfl | rfl | rfl | rfl | rfl <;> decide
  | operator o => cases o <;> decide
  | _ => decide

/-- The text of a digit. -/
def labelled (b : Button) : Bool :=
  match b.event with
  | .digit d => decide (d ≤ 9) && decide (b.label.toList = digits d)
  | _ => true

theorem buttons_labelled : buttons.all labelled = true := by decide +kernel
theorem allKeys_buttons : (allKeys.all fun e => buttons.any fun b => decide (b.event = e)) = true := by decide +kernel
theorem buttons_unique : (buttons.all fun b => buttons.all fun b' =>
    !(decide (b.event = b'.event) || decide (b.label = b'.label)) || decide (b = b')) = true := by decide +kernel

/-- A frame in which one key is pressed. -/
def only (e : Event) : String → Bool := fun label => decide (meaning label = some e)

theorem allKeys_only : (allKeys.all fun e => decide (pressed (only e) = [e])) = true := by decide +kernel

/-! ## Without the macro -/

theorem handle_any {S : Sig} {m : Machine S} {i : Inner S} {e ctx c}
    (h : (Command.handle e ctx []).exec .blocking m ⟨i, true⟩ = some c) :
    ∃ w, (⟨i⟩ : InitializedStateMachine S).handleWithContext .blocking m e ctx [] = some w ∧ w.out = c.out ∧
      w.self.inner = c.self.inner := by
  simp only [Command.exec, StateMachine.handleWithContext, Bool.true_eq_false, if_false] at h
  cases hh : i.handle .blocking m e ctx [] with
  | none => rw [hh] at h; cases h
  | some w =>
    rw [hh] at h
    cases h
    exact ⟨{ w with self := ⟨w.self⟩ }, by simp only [InitializedStateMachine.handleWithContext, hh]; rfl, rfl, rfl⟩

theorem start_any {S : Sig} {m : Machine S} {d : S.M} {ctx c}
    (h1 : (Command.init ctx []).exec .blocking m (stateMachine m d) = some c) (h2 : c.out = .ok ()) :
    ∃ w, (uninitializedStateMachine m d).initWithContext .blocking m ctx [] = some w ∧ w.self = some ⟨c.self.inner⟩ := by
  simp only [Command.exec, StateMachine.initWithContext, stateMachine, if_true] at h1
  simp only [UninitializedStateMachine.initWithContext, uninitializedStateMachine]
  cases hh : (⟨d, m.initial⟩ : Inner S).init .blocking m ctx [] with
  | none => rw [hh] at h1; cases h1
  | some c' =>
    rw [hh] at h1
    simp only [bind, Option.bind] at h1 ⊢
    cases ho : c'.out with
    | ok u => rw [ho] at h1; cases h1; exact ⟨_, rfl, rfl⟩
    | panic => rw [ho] at h1; cases h1; cases h2
    | stopped => rw [ho] at h1; cases h1; cases h2

theorem clickAll_filter {S : Sig} (m : Machine S) (key : Event → S.Ev) (ctx : S.Ctx) (clicked : String → Bool) (bs : List Button)
    (sm : InitializedStateMachine S) :
    clickAll m key ctx clicked sm bs = clickAll m key ctx (fun _ => true) sm (bs.filter fun b => clicked b.label) := by
  induction bs generalizing sm with
  | nil => rfl
  | cons b bs ih =>
    by_cases hb : clicked b.label = true
    · simp only [List.filter_cons, hb, clickAll, if_true, ih]
    · simp only [List.filter_cons, hb, clickAll, if_false]
      exact ih sm

theorem only_sub : (buttons.filter fun b => only (.operator .sub) b.label) = [⟨"-", .operator .sub⟩] := by decide +kernel
theorem only_equal : (buttons.filter fun b => only .equal b.label) = [⟨"=", .equal⟩] := by decide +kernel

theorem click_one {S : Sig} (m : Machine S) (key : Event → S.Ev) (ctx : S.Ctx) (clicked : String → Bool) (b : Button)
    (hb : (buttons.filter fun b => clicked b.label) = [b]) {i : Inner S} {c}
    (h : (Command.handle (key b.event) ctx []).exec .blocking m ⟨i, true⟩ = some c) :
    clickAll m key ctx clicked ⟨i⟩ buttons = some (c.out, ⟨c.self.inner⟩) := by
  obtain ⟨w, h1, h2, h3⟩ := handle_any h
  rw [clickAll_filter, hb]
  simp only [clickAll, if_true, h1, bind, Option.bind, ← h2, ← h3]
  cases w.out <;> rfl

end Statig.Examples.Calculator

namespace Statig
open Examples.Calculator
variable {A : Arith}

/-- C95.  Every key has exactly one button, labelled with what it means; a digit `d` has the label `d`. -/
theorem C95_buttons (e : Event) :
    ((∃ b ∈ buttons, b.event = e) ↔ ∀ d, e = .digit d → d ≤ 9) ∧
      (∀ b ∈ buttons, b.event = e → meaning b.label = some e ∧ ∀ d, e = .digit d → b.label.toList = digits d) ∧
      ∀ b ∈ buttons, ∀ b' ∈ buttons, b.event = b'.event ∨ b.label = b'.label → b = b' := by
  refine ⟨⟨?_, fun h => ?_⟩, fun b hb he => ⟨?_, ?_⟩, fun b hb b' hb' h => ?_⟩
  · rintro ⟨b, hb, rfl⟩ d hd
    have := List.all_eq_true.1 buttons_labelled b hb
    simp only [labelled, hd, Bool.and_eq_true, decide_eq_true_iff] at this
    exact this.1
  · have := List.all_eq_true.1 allKeys_buttons e (mem_allKeys h)
    simpa using this
  · have := List.all_eq_true.1 buttons_meaning b hb
    rw [decide_eq_true_iff] at this
    rw [this, he]
  · intro d hd
    have := List.all_eq_true.1 buttons_labelled b hb
    simp only [labelled, he, hd, Bool.and_eq_true, decide_eq_true_iff] at this
    exact this.2
  · have := List.all_eq_true.1 (List.all_eq_true.1 buttons_unique b hb) b' hb'
    rcases h with h | h <;> simpa [h] using this

/-- C95.  So every sequence of keys can be typed, with a click in each frame. -/
theorem C95_typed (keys : List Event) (h : ∀ d, .digit d ∈ keys → d ≤ 9) :
    typed (keys.map fun e => fun label => decide (meaning label = some e)) = keys := by
  induction keys with
  | nil => rfl
  | cons e keys ih =>
    rw [List.map_cons, typed_cons, ih fun d hd => h d (.tail _ hd)]
    have := List.all_eq_true.1 allKeys_only e (mem_allKeys fun d hd => h d (by rw [hd]; exact .head _))
    rw [decide_eq_true_iff] at this
    exact congrArg (· ++ keys) this

/-- C95.  Whatever buttons are clicked in whatever frames: a frame is completed exactly if, up to it, no key was pressed that
crashes the calculator; and then it displays what a calculator shows after the keys of the frames before it (not
yet those of its own). -/
theorem C95_app (hA : A.Sane) (d : Text) (clicks : List (String → Bool)) :
    ∃ texts out, app (generated A) id () d clicks = some (texts, out) ∧ texts.length ≤ clicks.length ∧
      (out = .ok () ∧ texts.length = clicks.length ∨ out = .panic ∧ texts.length < clicks.length) ∧
      (∀ k, k < clicks.length → (k < texts.length ↔ ∀ pre e post, typed (clicks.take (k + 1)) = pre ++ e :: post →
        let sm := after (generated A) (stateMachine (generated A) d) (.init () [] :: press id () pre)
        ¬ Crashes sm.inner.state.variant sm.inner.shared e)) ∧
      ∀ k (hk : k < texts.length), texts[k] =
        (after (generated A) (stateMachine (generated A) d) (.init () [] :: press id () (typed (clicks.take k)))).inner.shared := by
  obtain ⟨texts, out, h1, h2, h3, h4, h5⟩ := frames_eq hA clicks (started A) good_started
  refine ⟨texts, out, (app_eq d clicks).trans h1, h2, h3, fun k hk => ?_, fun k hk => ?_⟩
  · rw [h4 k hk, calm_iff hA good_started]
    constructor <;> intro h pre e post hp <;> have := h pre e post hp <;> rw [after_start d pre] at * <;> exact this
  · rw [after_start]; exact h5 k hk

/-- C95.  If in some frames an expression is typed, in whatever portions, then no frame fails, and the next one displays its
value. -/
theorem C95_computes (hA : A.Sane) (d : Text) (n : Operand) {x : A.F32} (h : A.parse n.text = some x) (ts : List (Term A))
    (clicks : List (String → Bool)) (hc : typed clicks = n.keys ++ ts.flatMap Term.keys ++ [.equal]) :
    ∃ texts, app (generated A) id () d (clicks ++ [fun _ => false]) = some (texts ++ [A.print (total x ts)], .ok ()) ∧
      texts.length = clicks.length := by
  have hr := transfer (any_rel (A := A) ['0'] .begin true)
    (keys := n.keys ++ ts.flatMap Term.keys ++ [.equal]) (by simp) (run_expression n _ (.inl rfl) h ts)
  rw [← hc] at hr
  obtain ⟨-, h2, h3⟩ := hr
  have ht : ∀ fs, (∀ f ∈ fs, pressed f = []) → typed (clicks ++ fs) = typed clicks := by
    intro fs hf
    simp only [typed, List.flatMap_append, List.flatMap_eq_nil_iff.2 hf, List.append_nil]
  have hn : pressed (fun _ => false) = [] := by decide
  obtain ⟨texts, out, g1, g2, g3, g4, g5⟩ := frames_eq hA (clicks ++ [fun _ => false]) (started A) good_started
  have hlen : (clicks ++ [fun _ => false]).length = clicks.length + 1 := by simp
  have hl : clicks.length < texts.length := by
    refine (g4 _ (by omega)).2 ?_
    rw [List.take_of_length_le (by omega), ht _ (by simp [hn])]
    exact h2
  have hx := g5 _ hl
  rw [List.take_left] at hx
  have hs : (after (generated A) (full (started A)) (press id () (typed clicks))).inner.shared = A.print (total x ts) :=
    congrArg (fun sm => sm.inner.shared) h3
  have hout : out = .ok () := by
    rcases g3 with g3 | g3
    · exact g3.1
    · omega
  refine ⟨texts.take clicks.length, ?_, by rw [List.length_take]; omega⟩
  rw [app_eq, g1, hout]
  refine congrArg (fun l => some (l, Out.ok ())) ?_
  conv => lhs; rw [← List.take_of_length_le (l := texts) (i := clicks.length + 1) (by omega)]
  rw [List.take_succ, List.getElem?_eq_getElem hl, hx, hs]
  rfl

/-- C95.  The applications of the two examples, which have the same user interface, are not the same: if `-` and then `=` is
clicked, the one without the macro panics. -/
theorem C95_versions_differ (hA : A.Sane) (h : A.parse ['-', ' ', '0'] = none) (d : Text) :
    app (generated A) id () d [only (.operator .sub), only .equal] = some ([['0'], ['-', '0']], .ok ()) ∧
      app (handwritten A) id () d [only (.operator .sub), only .equal] = some ([['0']], .panic) := by
  have h1 : ∀ minus, next minus (.begin : Examples.Calculator.State A) ['0'] (.operator .sub) = some (.negated1, minus) := by
    intro minus; step
  obtain ⟨z, hz⟩ := Option.ne_none_iff_exists'.1 (hA.numeral _ isInt_minusZero.numeral)
  have h2 : next ['-', '0'] (.negated1 : Examples.Calculator.State A) ['-', '0'] .equal = some (.response z, A.print z) := by
    step
  have h3 : next ['-', ' ', '0'] (.negated1 : Examples.Calculator.State A) ['-', ' ', '0'] .equal = none :=
    next_none (rfl : Event.equal = _) h
  constructor
  · have ht : typed [only (.operator .sub), only .equal] = [.operator .sub, .equal] := by decide +kernel
    have ht1 : typed [only (.operator .sub)] = [.operator .sub] := by decide +kernel
    obtain ⟨texts, out, g1, g2, g3, g4, g5⟩ := frames_eq hA [only (.operator .sub), only .equal] (started A) good_started
    obtain ⟨-, k1, -⟩ := transfer (any_rel (A := A) ['0'] .begin true) (keys := [.operator .sub, .equal]) (s := .response z)
      (d := A.print z) (by simp) (by
        show run ['-', '0'] (.begin, ['0']) _ = _
        simp [run_cons, run_nil, h1, h2])
    obtain ⟨-, -, k2⟩ := transfer (any_rel (A := A) ['0'] .begin true) (keys := [.operator .sub]) (s := .negated1)
      (d := ['-', '0']) (by simp) (by
        show run ['-', '0'] (.begin, ['0']) _ = _
        simp [run_cons, run_nil, h1])
    have hl : 1 < texts.length := (g4 1 (by simp)).2 (by
      show Calm _ (typed [only (.operator .sub), only .equal])
      rw [ht]; exact k1)
    have h2 : texts.length = 2 := Nat.le_antisymm g2 hl
    have hout : out = .ok () := by
      rcases g3 with g3 | g3
      · exact g3.1
      · exact absurd g3.2 (by simp [h2])
    rw [app_eq, g1, hout]
    match texts, h2 with
    | [t, t'], _ =>
      have e0 : t = ['0'] := g5 0 (by simp)
      have e1 : t' = ['-', '0'] := (g5 1 (by simp)).trans (by
        show (after (generated A) (full (started A)) (press id () (typed [only (.operator .sub)]))).inner.shared = _
        rw [ht1]
        exact congrArg (fun sm => sm.inner.shared) k2)
      rw [e0, e1]
  · obtain ⟨c0, g1, g2, g3⟩ := exec_init (minus := ['-', ' ', '0']) (stateMachine (handwritten A) d) () []
    obtain ⟨w, s1, s2⟩ := start_any (m := handwritten A) (d := d) g1 g2
    have g3 : c0.self.inner = ⟨['0'], .begin⟩ := congrArg StateMachine.inner g3
    rw [g3] at s2
    obtain ⟨c1, f1, f2, f3⟩ := exec_handle (minus := ['-', ' ', '0']) (⟨⟨['0'], .begin⟩, true⟩ : StateMachine (Examples.Calculator.sig A))
      (.operator .sub) () []
    have f3 : c1.out = .ok () ∧ c1.self = ⟨⟨['-', ' ', '0'], .negated1⟩, true⟩ := by
      have := f3
      rw [show shown (⟨⟨['0'], .begin⟩, true⟩ : StateMachine (Examples.Calculator.sig A)) = ['0'] from rfl] at this
      simp only [h1] at this
      exact this
    obtain ⟨c2, e1, -, e2⟩ := exec_handle (minus := ['-', ' ', '0'])
      (⟨⟨['-', ' ', '0'], .negated1⟩, true⟩ : StateMachine (Examples.Calculator.sig A)) .equal () []
    have e2 : c2.out = .panic := by
      have := e2
      rw [show shown (⟨⟨['-', ' ', '0'], .negated1⟩, true⟩ : StateMachine (Examples.Calculator.sig A)) =
        ['-', ' ', '0'] from rfl] at this
      simp only [h3] at this
      exact this.1
    have p1 := click_one (handwritten A) id () (only (.operator .sub)) _ only_sub (i := ⟨['0'], .begin⟩) f1
    have p2 := click_one (handwritten A) id () (only .equal) _ only_equal (i := ⟨['-', ' ', '0'], .negated1⟩) e1
    rw [f3.1, f3.2] at p1
    rw [e2] at p2
    simp only [app, s1, s2, bind, Option.bind, frames, p1, p2]

/-- C95 at work: `-1.5 =`, with a click in each frame. -/
example (h : texts.parse ['-', '1', '.', '5'] ≠ none) : ∃ t shown, t.length = 5 ∧
    app (generated texts) id () [] (([.operator .sub, .digit 1, .point, .digit 5, .equal].map only) ++ [fun _ => false]) =
      some (t ++ [shown], .ok ()) := by
  obtain ⟨x, hx⟩ := Option.ne_none_iff_exists'.1 h
  have hk : typed ([.operator .sub, .digit 1, .point, .digit 5, .equal].map only) =
      [.operator .sub, .digit 1, .point, .digit 5, .equal] :=
    C95_typed [.operator .sub, .digit 1, .point, .digit 5, .equal] (by
      intro d hd
      simp at hd
      rcases hd with rfl | rfl <;> decide)
  obtain ⟨t, h1, h2⟩ := C95_computes texts_sane [] ⟨true, [1], some [5], by simp, by simp⟩ (x := x) hx [] _ hk
  exact ⟨t, _, by simpa using h2, h1⟩

/-- It can be parsed. -/
example : texts.parse ['-', '1', '.', '5'] ≠ none :=
  texts_sane.numeral _ ⟨['-'], ['1'], ['5'], .inr rfl, by simp, by simp, .inr rfl⟩

/-- With a space it cannot be parsed, as `C95_versions_differ` supposes. -/
example : texts.Sane ∧ texts.parse ['-', ' ', '0'] = none := by
  refine ⟨texts_sane, ?_⟩
  have : ¬ IsNumeral ['-', ' ', '0'] := by
    rintro ⟨sign, i, f, h1, h2, h3, h4⟩
    have hm : ' ' ∈ sign ++ i ++ '.' :: f := by
      have : ' ' ∈ (['-', ' ', '0'] : Text) := by simp
      rcases h4 with ⟨-, h4⟩ | h4
      · rw [h4] at this; exact List.mem_append_left _ this
      · rw [h4] at this; exact this
    have hd : ' ' ∉ i ++ f := fun hc => absurd (h2 _ hc) (by decide)
    rcases h1 with rfl | rfl <;> simp_all
  simp [texts, this]

/-- Buttons that are clicked in one frame count in the order in which they are rendered. -/
example : pressed (fun l => l = "0" ∨ l = "+") = [.operator .add, .digit 0] := by decide +kernel

end Statig
