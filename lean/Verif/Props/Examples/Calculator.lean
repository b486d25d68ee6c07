import Verif.Proofs.Examples.CalculatorDisplay
/-!
# The example `calculator`: C63, C66, C67
-/
namespace Statig.Examples.Calculator
open Statig.Macro
variable {A : Arith}

/-- The machine that the macro generates. -/
abbrev generated (A : Arith) : Machine (gen.iface.sig (types A)) := gen.iface.machine (env A)

/-- The same call on the other machine. -/
def same : Command (gen.iface.sig (types A)) → Command (sig A)
  | .init c l => .init c l
  | .handle e c l => .handle e c l

theorem same_rel (cmds : List (Command (gen.iface.sig (types A)))) :
    ListRel (sameValues A).Command cmds (cmds.map same) := by
  induction cmds with
  | nil => exact .nil
  | cons cmd cmds ih =>
    refine .cons ?_ ih
    cases cmd with
    | init c l => exact .init rfl (ListRel.refl (fun _ => rfl) l)
    | handle e c l => exact .handle rfl rfl (ListRel.refl (fun _ => rfl) l)

theorem same_press (keys : List Event) :
    (press (S := gen.iface.sig (types A)) id () keys).map same = press (S := sig A) id () keys := by
  simp [press, same, Function.comp_def]

theorem calls_rel {a : StateMachine (gen.iface.sig (types A))} {b : StateMachine (sig A)} (h : (sameValues A).Machine a b)
    (cmds : List (Command (gen.iface.sig (types A)))) :
    ListRel (CallRel (sameValues A) (sameValues A).Machine) (callAll .blocking (generated A) a cmds)
      (callAll .blocking (machine A ['-', '0']) b (cmds.map same)) :=
  C50_representation_independence respects h (same_rel cmds)

theorem getLast_rel {α β : Type} {R : α → β → Prop} {l : List α} {l' : List β} (h : ListRel R l l') :
    OptRel R l.getLast? l'.getLast? := by
  induction h with
  | nil => exact .none
  | @cons x y l l' h _ ih =>
    rw [List.getLast?_cons, List.getLast?_cons]
    revert ih
    cases l.getLast? <;> cases l'.getLast? <;> intro ih <;> cases ih
    · exact .some h
    · exact .some ‹_›

theorem length_rel {α β : Type} {R : α → β → Prop} {l : List α} {l' : List β} (h : ListRel R l l') :
    l.length = l'.length := by
  induction h with
  | nil => rfl
  | cons _ _ ih => exact congrArg (· + 1) ih

theorem all_ok_rel {S T : Sig} {R : Rel S T} {l : List (Call S (StateMachine S))} {l' : List (Call T (StateMachine T))}
    (h : ListRel (CallRel R R.Machine) l l') (h' : ∀ c ∈ l', c.out = .ok ()) : ∀ c ∈ l, c.out = .ok () := by
  induction h with
  | nil => simp
  | cons hx _ ih =>
    intro c hm
    rcases List.mem_cons.1 hm with rfl | hm
    · exact hx.out.trans (h' _ (by simp))
    · exact ih (fun c hc => h' c (by simp [hc])) c hm

theorem crashes_iff (hA : A.Sane) {s : State A} {d : Text} {e : Event} (hs : Shows ['-', '0'] s d) :
    next ['-', '0'] s d e = none ↔ Crashes (value s).variant d e := by
  have hm : A.parse ['-', '0'] ≠ none := hA.numeral _ isInt_minusZero.numeral
  constructor
  · intro hn
    have := next_shows hA hs e
    rw [hn] at this
    obtain ⟨h1, h2, -⟩ := this
    refine ⟨(parse_none hA hm hs h1).1 h2, ?_⟩
    cases s <;> simp only [Evaluates] at h1
    case negated1 => exact .inr ⟨rfl, h1⟩
    all_goals exact .inl ⟨by simp [value, mconstructors, unitState], h1⟩
  · rintro ⟨h1, h2⟩
    have he : Evaluates s e := by
      rcases h2 with ⟨h2, h3⟩ | ⟨h2, h3⟩
      · cases s <;> simp [value, mconstructors, unitState, resultState, opState] at h2 <;> exact h3
      · cases s <;> simp [value, mconstructors, unitState, resultState, opState] at h2
        exact h3
    exact next_none he ((parse_none hA hm hs he).2 h1)

theorem after_rel {a : StateMachine (gen.iface.sig (types A))} {b : StateMachine (sig A)} (h : (sameValues A).Machine a b)
    (cmds : List (Command (gen.iface.sig (types A)))) :
    (sameValues A).Machine (after (generated A) a cmds) (after (machine A ['-', '0']) b (cmds.map same)) := by
  have := getLast_rel (calls_rel h cmds)
  unfold after
  revert this
  cases (callAll .blocking (generated A) a cmds).getLast? <;>
    cases (callAll .blocking (machine A ['-', '0']) b (cmds.map same)).getLast? <;> intro this <;> cases this
  · exact h
  · rename_i hc
    exact hc.self

theorem outs_rel {a : StateMachine (gen.iface.sig (types A))} {b : StateMachine (sig A)} (h : (sameValues A).Machine a b)
    (keys : List Event) :
    (callAll .blocking (generated A) a (press id () keys)).map (·.out) =
      (callAll .blocking (machine A ['-', '0']) b (press id () keys)).map (·.out) := by
  have := calls_rel h (press id () keys)
  rw [same_press] at this
  exact ListRel.map_eq this fun _ _ h => h.out

theorem fresh_rel (d : Text) : (sameValues A).Machine (stateMachine (generated A) d) (stateMachine (machine A ['-', '0']) d) :=
  ⟨⟨rfl, rfl⟩, rfl⟩

theorem any_rel (d : Text) (s : State A) (b : Bool) :
    (sameValues A).Machine ⟨⟨d, value s⟩, b⟩ ⟨⟨d, s⟩, b⟩ := ⟨⟨rfl, rfl⟩, rfl⟩

/-- From a run of the hand-written machine to one of the generated one. -/
theorem transfer {a : StateMachine (gen.iface.sig (types A))} {b : StateMachine (sig A)} (h : (sameValues A).Machine a b)
    {keys : List Event} {s : State A} {d : Text} (hk : keys ≠ [])
    (hr : run ['-', '0'] (b.inner.state, shown b) keys = some (s, d)) :
    let calls := callAll .blocking (generated A) a (press id () keys)
    calls.length = keys.length ∧ (∀ c ∈ calls, c.out = .ok ()) ∧
      after (generated A) a (press id () keys) = ⟨⟨d, value s⟩, true⟩ := by
  obtain ⟨h1, h2, h3, h4, h5⟩ := run_calls hr
  have hc := calls_rel h (press id () keys)
  have ha := after_rel h (press id () keys)
  rw [same_press] at hc ha
  refine ⟨?_, ?_, ?_⟩
  · exact (length_rel hc).trans h1
  · exact all_ok_rel hc h2
  · generalize after (generated A) a _ = x at ha
    generalize after (machine A _) b _ = y at ha h3 h4 h5
    obtain ⟨⟨dx, sx⟩, bx⟩ := x
    obtain ⟨⟨dy, sy⟩, by'⟩ := y
    have h5 : by' = true := h5 hk
    subst h5
    have h6 : dx = dy := ha.1.1
    have h7 : sx = value sy := ha.1.2
    have h8 : bx = true := ha.2
    have h4 : dy = d := h4
    have h3 : sy = s := h3
    subst h6 h7 h8 h4 h3
    rfl

end Statig.Examples.Calculator

namespace Statig
open Examples.Calculator Statig.Macro
variable {A : Arith}

/-- C63, the calculator (`examples/macro/calculator`, `examples/no_macro/calculator`).  In whatever order the macro
iterates over its hash maps, it accepts the impl block and what it generates compiles; and the generated machine
cannot be told apart from the hand-written one with the text `"-0"` in the place of `"- 0"`. -/
theorem C63_calculator (ord) :
    ∃ g, expand Sample.syn ord source = .ok g ∧ g.Compiles ∧ g.iface = gen.iface ∧
      ∀ {d cmds cmds'}, ListRel (sameValues A).Command cmds cmds' →
        ListRel (CallRel (sameValues A) (sameValues A).Machine)
          (callAll .blocking (gen.iface.machine (env A)) (stateMachine (gen.iface.machine (env A)) d) cmds)
          (callAll .blocking (machine A ['-', '0']) (stateMachine (machine A ['-', '0']) d) cmds') := by
  obtain ⟨g, h, -⟩ := C46_items gen_eq ord
  obtain ⟨h1, h2⟩ := C46_behaviour gen_eq h compiles
  exact ⟨g, h, h1, h2, fun hc => C50_representation_independence respects (fresh_rel _) hc⟩

/-- C66.  On a fresh calculator, typing a number, any number of operators each with another number, and `=`: all calls
return, and afterwards the display shows the value of the expression computed from left to right. -/
theorem C66_calculator_computes (d : Text) (n : Operand) {x : A.F32} (h : A.parse n.text = some x) (ts : List (Term A)) :
    let keys := n.keys ++ ts.flatMap Term.keys ++ [.equal]
    let calls := callAll .blocking (generated A) (stateMachine (generated A) d) (press id () keys)
    calls.length = keys.length ∧ (∀ c ∈ calls, c.out = .ok ()) ∧
      after (generated A) (stateMachine (generated A) d) (press id () keys) =
        ⟨⟨A.print (total x ts), value (.response (total x ts))⟩, true⟩ :=
  transfer (fresh_rel d) (by simp) (run_expression n _ (.inl rfl) h ts)

/-- C66.  A calculator that shows a result can be used for the next expression, if that does not start with a minus. -/
theorem C66_calculator_continues (d : Text) (r : A.F32) (n : Operand) (hn : n.minus = false) {x : A.F32}
    (h : A.parse n.text = some x) (ts : List (Term A)) :
    let keys := n.keys ++ ts.flatMap Term.keys ++ [.equal]
    let sm : StateMachine (gen.iface.sig (types A)) := ⟨⟨d, value (.response r)⟩, true⟩
    let calls := callAll .blocking (generated A) sm (press id () keys)
    calls.length = keys.length ∧ (∀ c ∈ calls, c.out = .ok ()) ∧
      after (generated A) sm (press id () keys) = ⟨⟨A.print (total x ts), value (.response (total x ts))⟩, true⟩ :=
  transfer (any_rel d (.response r) true) (by simp) (run_expression n _ (.inr ⟨hn, r, rfl⟩) h ts)

/-- C66.  Whatever a calculator shows and whatever it is doing, pressing `AC` twice returns and resets it. -/
theorem C66_calculator_reset (d : Text) (s : Examples.Calculator.State A) (b : Bool) :
    let sm : StateMachine (gen.iface.sig (types A)) := ⟨⟨d, value s⟩, b⟩
    (∀ c ∈ callAll .blocking (generated A) sm (press id () [.ac, .ac]), c.out = .ok ()) ∧
      after (generated A) sm (press id () [.ac, .ac]) = ⟨⟨['0'], value .begin⟩, true⟩ := by
  refine (transfer (any_rel d s b) (by simp) ?_).2
  rw [run_cons]
  have key : ∀ d, (next ['-', '0'] s d .ac).bind (fun q => run ['-', '0'] q [.ac]) = some (.begin, ['0']) := by
    intro d
    cases s <;> simp [run_cons, run_nil, next, respond, supRespond, handler, supHandler, superstate, entry,
      Examples.Calculator.begin, result, ready, zero1, int1, frac1, negated1, operand1, opEntered, zero2, int2, frac2,
      negated2, operand2, on, constructors, enterBegin]
  exact key _

/-- C67.  Whatever calls have been made on a fresh calculator, a key crashes it exactly if the first operand is being entered, there is no
digit on the display, and the key is an operator or `=`. -/
theorem C67_calculator_crashes (hA : A.Sane) (d : Text) (cmds : List (Command (gen.iface.sig (types A)))) (e : Event) :
    let sm := after (generated A) (stateMachine (generated A) d) cmds
    ∃ c, (Command.handle e () []).exec .blocking (generated A) sm = some c ∧ (c.out = .ok () ∨ c.out = .panic) ∧
      (c.out = .panic ↔ Crashes sm.inner.state.variant sm.inner.shared e) := by
  intro sm
  have hm : (sameValues A).Machine sm _ := after_rel (fresh_rel d) cmds
  have hs : Shows ['-', '0'] (after (machine A ['-', '0']) (stateMachine (machine A ['-', '0']) d) (cmds.map same)).inner.state _ :=
    shows_after hA (sm := stateMachine (machine A ['-', '0']) d) (rfl : _ = _) (cmds.map same)
  have hi := after_initialized (minus := ['-', '0']) hA (sm := stateMachine (machine A ['-', '0']) d) (rfl : _ = _) (cmds.map same)
  generalize after (machine A ['-', '0']) (stateMachine (machine A ['-', '0']) d) (cmds.map same) = sm' at hm hs hi
  obtain ⟨c', h1, -, h2⟩ := exec_handle (minus := ['-', '0']) sm' e () []
  have hc := calls_rel hm [.handle e () []]
  have h3 : callAll .blocking (machine A ['-', '0']) sm' ([Command.handle e () []].map same) = [c'] := by
    show callAll .blocking _ sm' [.handle e () []] = _
    simp only [callAll, h1]
  rw [h3] at hc
  obtain ⟨c, hc1, hc2⟩ : ∃ c, (Command.handle e () []).exec .blocking (generated A) sm = some c ∧ c.out = c'.out := by
    revert hc
    simp only [callAll]
    cases (Command.handle e () []).exec .blocking (generated A) sm with
    | none => intro hc; cases hc
    | some c => intro hc; cases hc with | cons h _ => exact ⟨c, rfl, h.out⟩
  refine ⟨c, hc1, ?_⟩
  rw [hc2]
  have hn := crashes_iff hA (e := e) hs
  have h4 : Crashes sm.inner.state.variant sm.inner.shared e ↔ Crashes (value sm'.inner.state).variant (shown sm') e := by
    rw [show sm.inner.state = value sm'.inner.state from hm.1.2, show sm.inner.shared = sm'.inner.shared from hm.1.1]
    rcases hi with hi | hi
    · rw [hi]
      constructor <;> rintro ⟨-, h | h⟩ <;>
        exact absurd h.1 (by simp [stateMachine, machine, value, mconstructors, unitState])
    · rw [show shown sm' = sm'.inner.shared from by simp [shown, hi]]
  rw [h4, ← hn]
  revert h2
  cases next ['-', '0'] sm'.inner.state (shown sm') e with
  | none => rintro ⟨h, -⟩; simp [h]
  | some p => rintro ⟨h, -⟩; simp [h]

/-- C67.  It does crash: on a fresh calculator, `0` followed by an operator or `=`. -/
theorem C67_calculator_zero_crashes (h : A.parse [] = none) (d : Text) {e : Event} (he : e = .equal ∨ ∃ o, e = .operator o) :
    (callAll .blocking (generated A) (stateMachine (generated A) d) (press id () [.digit 0, e])).map (·.out) =
      [.ok (), .panic] := by
  refine (outs_rel (fresh_rel d) _).trans ?_
  have h1 : next ['-', '0'] (.begin : Examples.Calculator.State A) ['0'] (.digit 0) = some (.zero1, []) := by step
  have h2 : next ['-', '0'] (.zero1 : Examples.Calculator.State A) [] e = none := next_none he h
  obtain ⟨c1, g1, -, g2⟩ := exec_handle (minus := ['-', '0']) (stateMachine (machine A ['-', '0']) d) (.digit 0) () []
  have g2 : c1.out = .ok () ∧ c1.self = ⟨⟨[], .zero1⟩, true⟩ := by
    have := g2
    rw [show shown (stateMachine (machine A ['-', '0']) d) = ['0'] from rfl,
      show (stateMachine (machine A ['-', '0']) d).inner.state = .begin from rfl, h1] at this
    exact this
  obtain ⟨c2, g3, -, g4⟩ := exec_handle (minus := ['-', '0']) c1.self e () []
  have g4 : c2.out = .panic := by
    have := g4
    rw [g2.2, show shown (⟨⟨[], .zero1⟩, true⟩ : StateMachine (Examples.Calculator.sig A)) = [] from rfl] at this
    simp only [h2] at this
    exact this.1
  show (callAll .blocking (machine A ['-', '0']) _ [.handle (.digit 0) () [], .handle e () []]).map _ = _
  simp only [callAll, g1, g3, List.map_cons, List.map_nil, g2.1, g4]

/-- C67.  The two versions of the example are not the same calculator: after a minus one shows `-0` and the other `- 0`,
and then `=` crashes the other if that text cannot be parsed. -/
theorem C67_calculator_versions_differ (hA : A.Sane) (h : A.parse ['-', ' ', '0'] = none) (d : Text) :
    (callAll .blocking (generated A) (stateMachine (generated A) d) (press id () [.operator .sub, .equal])).map
        (fun c => c.out) = [.ok (), .ok ()] ∧
      (callAll .blocking (handwritten A) (stateMachine (handwritten A) d) (press id () [.operator .sub, .equal])).map
        (fun c => c.out) = [.ok (), .panic] ∧
      (after (generated A) (stateMachine (generated A) d) (press id () [.operator .sub])).inner.shared = ['-', '0'] ∧
      (after (handwritten A) (stateMachine (handwritten A) d) (press id () [.operator .sub])).inner.shared =
        ['-', ' ', '0'] := by
  have h1 : ∀ minus, next minus (.begin : Examples.Calculator.State A) ['0'] (.operator .sub) = some (.negated1, minus) := by
    intro minus; step
  obtain ⟨z, hz⟩ := Option.ne_none_iff_exists'.1 (hA.numeral _ isInt_minusZero.numeral)
  have h2 : next ['-', '0'] (.negated1 : Examples.Calculator.State A) ['-', '0'] .equal = some (.response z, A.print z) := by
    step
  have h3 : next ['-', ' ', '0'] (.negated1 : Examples.Calculator.State A) ['-', ' ', '0'] .equal = none :=
    next_none (rfl : Event.equal = _) h
  refine ⟨?_, ?_, ?_, ?_⟩
  · obtain ⟨g1, g2, -⟩ := transfer (fresh_rel (A := A) d) (keys := [.operator .sub, .equal]) (s := .response z)
      (d := A.print z) (by simp) (by
        show run ['-', '0'] (.begin, ['0']) _ = _
        simp [run_cons, run_nil, h1, h2])
    revert g1 g2
    generalize callAll _ _ _ _ = l
    intro g1 g2
    match l, g1 with
    | [c, c'], _ => simp [g2 c (by simp), g2 c' (by simp)]
  · obtain ⟨c1, g1, -, g2⟩ := exec_handle (minus := ['-', ' ', '0']) (stateMachine (handwritten A) d) (.operator .sub) () []
    have g2 : c1.out = .ok () ∧ c1.self = ⟨⟨['-', ' ', '0'], .negated1⟩, true⟩ := by
      have := g2
      rw [show shown (stateMachine (handwritten A) d) = ['0'] from rfl,
        show (stateMachine (handwritten A) d).inner.state = .begin from rfl, h1] at this
      exact this
    obtain ⟨c2, g3, -, g4⟩ := exec_handle (minus := ['-', ' ', '0']) c1.self .equal () []
    have g4 : c2.out = .panic := by
      have := g4
      rw [g2.2, show shown (⟨⟨['-', ' ', '0'], .negated1⟩, true⟩ : StateMachine (Examples.Calculator.sig A)) =
        ['-', ' ', '0'] from rfl] at this
      simp only [h3] at this
      exact this.1
    show (callAll .blocking (machine A ['-', ' ', '0']) _ [.handle (.operator .sub) () [], .handle .equal () []]).map _ = _
    simp only [callAll, g1, g3, List.map_cons, List.map_nil, g2.1, g4]
  · obtain ⟨-, -, g⟩ := transfer (fresh_rel (A := A) d) (keys := [.operator .sub]) (s := .negated1)
      (d := ['-', '0']) (by simp) (by
        show run ['-', '0'] (.begin, ['0']) _ = _
        simp [run_cons, run_nil, h1])
    rw [g]
  · obtain ⟨-, -, -, g, g'⟩ := run_calls (minus := ['-', ' ', '0']) (sm := stateMachine (handwritten A) d)
      (keys := [.operator .sub]) (q := (.negated1, ['-', ' ', '0'])) (by
        show run ['-', ' ', '0'] (.begin, ['0']) _ = _
        simp [run_cons, run_nil, h1])
    have g' := g' (by simp)
    unfold shown at g
    rw [if_pos g'] at g
    exact g

/-- C67.  A minus is lost if the number starts with a zero: typing it shows the same as without the minus. -/
theorem C67_calculator_loses_minus (d : Text) (f : List UInt8) :
    (after (generated A) (stateMachine (generated A) d)
        (press id () (.operator .sub :: .digit 0 :: .point :: f.map .digit))).inner.shared =
      ['0', '.'] ++ f.flatMap digits := by
  have h1 : next ['-', '0'] (.begin : Examples.Calculator.State A) ['0'] (.operator .sub) = some (.negated1, ['-', '0']) := by
    step
  have h2 : next ['-', '0'] (.negated1 : Examples.Calculator.State A) ['-', '0'] (.digit 0) =
      some (.zero1, ['-'] ++ digits 0) := by step
  have h3 : ∀ d, next ['-', '0'] (.zero1 : Examples.Calculator.State A) d .point = some (.frac1, ['0', '.']) := by
    intro d; step
  obtain ⟨-, -, g⟩ := transfer (fresh_rel (A := A) d) (keys := .operator .sub :: .digit 0 :: .point :: f.map .digit)
    (s := .frac1) (d := ['0', '.'] ++ f.flatMap digits) (by simp) (by
      show run ['-', '0'] (.begin, ['0']) _ = _
      rw [run_cons, h1, Option.bind_some, run_cons, h2, Option.bind_some, run_cons, h3, Option.bind_some, run_frac1])
  rw [g]

/-! ## The hypotheses can be met -/

namespace Examples.Calculator

/-- Arithmetic on texts. -/
noncomputable def texts : Arith where
  F32 := { t : Text // IsNumeral t }
  parse t := open Classical in if h : IsNumeral t then some ⟨t, h⟩ else none
  print x := x.1
  div x _ := x
  mul x _ := x
  sub _ y := y
  add _ y := y

theorem not_numeral {t : Text} (h : ∀ c ∈ t, c.isDigit = false) : ¬ IsNumeral t := by
  rintro ⟨sign, i, f, h1, h2, h3, h4⟩
  obtain ⟨c, hc⟩ := List.exists_mem_of_ne_nil _ h3
  have := h2 c hc
  have hm : c ∈ t := by
    rcases h4 with ⟨rfl, rfl⟩ | rfl
    · simp at hc; simp [hc]
    · rcases List.mem_append.1 hc with hc | hc <;> simp [hc]
  rw [h c hm] at this
  cases this

theorem texts_sane : texts.Sane where
  numeral t h := by simp [texts, h]
  printed x := by simp [texts, x.2]
  empty := by
    have : ¬ IsNumeral [] := not_numeral (by simp)
    simp [texts, this]
  point := by
    have : ¬ IsNumeral ['.'] := not_numeral (by simp)
    simp [texts, this]

end Examples.Calculator

/-- C67 at work. -/
example : (callAll .blocking (generated texts) (stateMachine (generated texts) [])
    (press id () [.digit 0, .operator .add])).map (·.out) = [.ok (), .panic] :=
  C67_calculator_zero_crashes texts_sane.empty [] (.inr ⟨_, rfl⟩)

/-- C66 at work: `-1.5`. -/
example : (⟨true, [1], some [5], by simp, by simp⟩ : Operand).keys =
    [.operator .sub, .digit 1, .point, .digit 5] := rfl
example : (⟨true, [1], some [5], by simp, by simp⟩ : Operand).text = ['-', '1', '.', '5'] := by decide

end Statig
