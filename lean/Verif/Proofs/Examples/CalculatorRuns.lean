import Verif.Proofs.Examples.CalculatorSteps
import Verif.Spec.Examples.Calculator
/-!
# What the machine of the example `calculator` does on sequences of events
-/
namespace Statig.Examples.Calculator
variable {A : Arith} {minus : Text}

/-- Sequences of events. -/
def run (minus : Text) (p : State A × Text) (keys : List Event) : Option (State A × Text) :=
  keys.foldlM (fun p e => next minus p.1 p.2 e) p

theorem run_nil (p : State A × Text) : run minus p [] = some p := rfl

theorem run_cons (p : State A × Text) (e : Event) (keys : List Event) :
    run minus p (e :: keys) = (next minus p.1 p.2 e).bind fun q => run minus q keys := rfl

theorem run_append (p : State A × Text) (k k' : List Event) :
    run minus p (k ++ k') = (run minus p k).bind fun q => run minus q k' := List.foldlM_append ..

theorem after_cons {S : Sig} {m : Machine S} {sm : StateMachine S} {cmd : Command S} {c : Call S (StateMachine S)}
    (h : cmd.exec .blocking m sm = some c) (cmds : List (Command S)) :
    after m sm (cmd :: cmds) = after m c.self cmds := by
  unfold after
  simp only [callAll, h, List.getLast?_cons]
  cases (callAll .blocking m c.self cmds).getLast? <;> rfl

theorem run_calls {sm : StateMachine (sig A)} {keys : List Event} {q : State A × Text}
    (h : run minus (sm.inner.state, shown sm) keys = some q) :
    let calls := callAll .blocking (machine A minus) sm (press (S := sig A) id () keys)
    calls.length = keys.length ∧ (∀ c ∈ calls, c.out = .ok ()) ∧
      (after (machine A minus) sm (press id () keys)).inner.state = q.1 ∧
      shown (after (machine A minus) sm (press id () keys)) = q.2 ∧
      (keys ≠ [] → (after (machine A minus) sm (press id () keys)).initialized = true) := by
  induction keys generalizing sm with
  | nil => cases h; exact ⟨rfl, by simp [callAll, press], rfl, rfl, by simp⟩
  | cons e keys ih =>
    obtain ⟨c, h1, h2, h3⟩ := exec_handle (minus := minus) sm e () []
    rw [run_cons] at h
    cases hn : next minus sm.inner.state (shown sm) e with
    | none => simp [hn] at h
    | some p =>
      obtain ⟨s, d⟩ := p
      simp only [hn, Option.bind_some] at h h3
      obtain ⟨h3, h4⟩ := h3
      have := ih (sm := c.self) (by rw [h4]; exact h)
      obtain ⟨i0, i1, i2, i3, i4⟩ := this
      have ha := after_cons h1 (press id () keys)
      refine ⟨?_, ?_, ?_, ?_, fun _ => ?_⟩
      · show (callAll .blocking _ sm (_ :: press id () keys)).length = _
        simp only [callAll, id_eq, h1, List.length_cons]; exact congrArg (· + 1) i0
      · show ∀ c ∈ callAll .blocking _ sm (_ :: press id () keys), _
        simp only [callAll, id_eq, h1, List.mem_cons, forall_eq_or_imp]
        exact ⟨h3, i1⟩
      · exact (congrArg (fun x => x.inner.state) ha).trans i2
      · exact (congrArg shown ha).trans i3
      · refine (congrArg StateMachine.initialized ha).trans ?_
        cases keys with
        | nil => exact h2
        | cons => exact i4 (by simp)

macro "step" : tactic => `(tactic| simp [next, respond, supRespond, handler, supHandler, superstate, entry,
  Calculator.begin, result, ready, zero1, int1, frac1, negated1, operand1, opEntered, zero2, int2, frac2, negated2, operand2,
  on, constructors, enterBegin, enterResult, *])

theorem run_int1 (d : Text) (ks : List UInt8) :
    run minus ((.int1 : State A), d) (ks.map .digit) = some (.int1, d ++ ks.flatMap digits) := by
  induction ks generalizing d with
  | nil => simp [run]
  | cons k ks ih =>
    have : next minus (.int1 : State A) d (.digit k) = some (.int1, d ++ digits k) := by step
    rw [List.map_cons, run_cons, this, Option.bind_some, ih]; simp

theorem run_frac1 (d : Text) (ks : List UInt8) :
    run minus ((.frac1 : State A), d) (ks.map .digit) = some (.frac1, d ++ ks.flatMap digits) := by
  induction ks generalizing d with
  | nil => simp [run]
  | cons k ks ih =>
    have : next minus (.frac1 : State A) d (.digit k) = some (.frac1, d ++ digits k) := by step
    rw [List.map_cons, run_cons, this, Option.bind_some, ih]; simp

variable (x : A.F32) (o : Operator)

theorem run_int2 (d : Text) (ks : List UInt8) :
    run minus (.int2 x o, d) (ks.map .digit) = some (.int2 x o, d ++ ks.flatMap digits) := by
  induction ks generalizing d with
  | nil => simp [run]
  | cons k ks ih =>
    have : next minus (.int2 x o) d (.digit k) = some (.int2 x o, d ++ digits k) := by step
    rw [List.map_cons, run_cons, this, Option.bind_some, ih]; simp

theorem run_frac2 (d : Text) (ks : List UInt8) :
    run minus (.frac2 x o, d) (ks.map .digit) = some (.frac2 x o, d ++ ks.flatMap digits) := by
  induction ks generalizing d with
  | nil => simp [run]
  | cons k ks ih =>
    have : next minus (.frac2 x o) d (.digit k) = some (.frac2 x o, d ++ digits k) := by step
    rw [List.map_cons, run_cons, this, Option.bind_some, ih]; simp

/-- The state after typing the first operand. -/
def first (n : Operand) : State A := if n.frac = none then .int1 else .frac1

/-- The state after typing the second operand. -/
def second (x : A.F32) (o : Operator) (n : Operand) : State A := if n.frac = none then .int2 x o else .frac2 x o

theorem run_first (n : Operand) {s : State A} (d : Text) (hs : s = .begin ∨ n.minus = false ∧ ∃ r, s = .response r) :
    run minus (s, d) n.keys = some (first n, n.text) := by
  obtain ⟨neg, int, frac, head, hsome⟩ := n
  cases int with
  | nil =>
    cases frac with
    | none => exact absurd rfl (hsome rfl)
    | some f =>
      cases neg with
      | false =>
        have : next minus s d .point = some (.frac1, ['0', '.']) := by
          rcases hs with rfl | ⟨-, r, rfl⟩ <;> step
        simp [Operand.keys, Operand.text, first, run_cons, this, run_frac1]
      | true =>
        obtain rfl : s = .begin := by simpa using hs
        have h1 : next minus (.begin : State A) d (.operator .sub) = some (.negated1, minus) := by step
        have h2 : next minus (.negated1 : State A) minus .point = some (.frac1, ['-', '0', '.']) := by step
        simp [Operand.keys, Operand.text, first, run_cons, h1, h2, run_frac1]
  | cons k ks =>
    have hk : k ≠ 0 := head k ks rfl
    have key : run minus (s, d) ((if neg then [.operator .sub] else []) ++ (k :: ks).map .digit) =
        some (.int1, (if neg then ['-'] else []) ++ (k :: ks).flatMap digits) := by
      cases neg with
      | false =>
        have : next minus s d (.digit k) = some (.int1, digits k) := by
          rcases hs with rfl | ⟨-, r, rfl⟩ <;> step
        simp [run_cons, this, run_int1]
      | true =>
        obtain rfl : s = .begin := by simpa using hs
        have h1 : next minus (.begin : State A) d (.operator .sub) = some (.negated1, minus) := by step
        have h2 : next minus (.negated1 : State A) minus (.digit k) = some (.int1, '-' :: digits k) := by step
        simp [run_cons, h1, h2, run_int1]
    unfold Operand.keys
    rw [run_append, key]
    cases frac with
    | none => simp [first, Operand.text, run_nil]
    | some f =>
      have (d : Text) : next minus (.int1 : State A) d .point = some (.frac1, d ++ ['.']) := by step
      simp [first, Operand.text, run_cons, this, run_frac1]

theorem run_second (n : Operand) (d : Text) :
    run minus (.opEntered x o, d) n.keys = some (second x o n, n.text) := by
  obtain ⟨neg, int, frac, head, hsome⟩ := n
  cases int with
  | nil =>
    cases frac with
    | none => exact absurd rfl (hsome rfl)
    | some f =>
      cases neg with
      | false =>
        have : next minus (.opEntered x o) d .point = some (.frac2 x o, ['0', '.']) := by step
        simp [Operand.keys, Operand.text, second, run_cons, this, run_frac2]
      | true =>
        have h1 : next minus (.opEntered x o) d (.operator .sub) = some (.negated2 x o, ['-', '0']) := by step
        have h2 : next minus (.negated2 x o) ['-', '0'] .point = some (.frac2 x o, ['-', '0', '.']) := by step
        simp [Operand.keys, Operand.text, second, run_cons, h1, h2, run_frac2]
  | cons k ks =>
    have hk : k ≠ 0 := head k ks rfl
    have key : run minus (.opEntered x o, d) ((if neg then [.operator .sub] else []) ++ (k :: ks).map .digit) =
        some (.int2 x o, (if neg then ['-'] else []) ++ (k :: ks).flatMap digits) := by
      cases neg with
      | false =>
        have : next minus (.opEntered x o) d (.digit k) = some (.int2 x o, digits k) := by step
        simp [run_cons, this, run_int2]
      | true =>
        have h1 : next minus (.opEntered x o) d (.operator .sub) = some (.negated2 x o, ['-', '0']) := by step
        have h2 : next minus (.negated2 x o) ['-', '0'] (.digit k) = some (.int2 x o, '-' :: digits k) := by step
        simp [run_cons, h1, h2, run_int2]
    unfold Operand.keys
    rw [run_append, key]
    cases frac with
    | none => simp [second, Operand.text, run_nil]
    | some f =>
      have (d : Text) : next minus (.int2 x o) d .point = some (.frac2 x o, d ++ ['.']) := by step
      simp [second, Operand.text, run_cons, this, run_frac2]

theorem next_first_operator (n : Operand) {d : Text} {y : A.F32} (h : A.parse d = some y) (o' : Operator) :
    next minus (first n) d (.operator o') = some (.opEntered y o', d) := by
  unfold first; split <;> cases o' <;> step

theorem next_first_equal (n : Operand) {d : Text} {y : A.F32} (h : A.parse d = some y) :
    next minus (first n) d .equal = some (.response y, A.print y) := by
  unfold first; split <;> step

theorem next_second_operator (n : Operand) {d : Text} {y : A.F32} (h : A.parse d = some y) (o' : Operator) :
    next minus (second x o n) d (.operator o') = some (.opEntered (o.eval A x y) o', d) := by
  unfold second; split <;> cases o' <;> step

theorem next_second_equal (n : Operand) {d : Text} {y : A.F32} (h : A.parse d = some y) :
    next minus (second x o n) d .equal = some (.response (o.eval A x y), A.print (o.eval A x y)) := by
  unfold second; split <;> step

/-- The operations of the code are the expected ones. -/
theorem Term.apply_eq (x : A.F32) (t : Term A) : t.apply x = t.op.eval A x t.value := by
  rcases t with ⟨_ | _ | _ | _, _, _, _⟩ <;> rfl

theorem run_terms (n : Operand) {d : Text} {y : A.F32} (h : A.parse d = some y) (ts : List (Term A)) :
    run minus (second x o n, d) (ts.flatMap Term.keys ++ [.equal]) =
      some (.response (total (o.eval A x y) ts), A.print (total (o.eval A x y) ts)) := by
  induction ts generalizing x o n d y with
  | nil => simp [run_cons, run_nil, next_second_equal x o n h, total]
  | cons t ts ih =>
    rw [List.flatMap_cons, Term.keys, List.cons_append, List.cons_append, run_cons, next_second_operator x o n h,
      Option.bind_some, List.append_assoc, run_append, run_second, Option.bind_some, ih _ _ _ t.parsed,
      total, total, List.foldl_cons, Term.apply_eq]

theorem run_expression (n : Operand) {s : State A} (d : Text) (hs : s = .begin ∨ n.minus = false ∧ ∃ r, s = .response r)
    {y : A.F32} (h : A.parse n.text = some y) (ts : List (Term A)) :
    run minus (s, d) (n.keys ++ ts.flatMap Term.keys ++ [.equal]) =
      some (.response (total y ts), A.print (total y ts)) := by
  rw [List.append_assoc, run_append, run_first n d hs, Option.bind_some]
  cases ts with
  | nil => simp [run_cons, run_nil, next_first_equal n h, total]
  | cons t ts =>
    rw [List.flatMap_cons, Term.keys, List.cons_append, List.cons_append, run_cons, next_first_operator n h,
      Option.bind_some, List.append_assoc, run_append, run_second, Option.bind_some, run_terms _ _ _ t.parsed,
      total, total, List.foldl_cons, Term.apply_eq]

end Statig.Examples.Calculator
