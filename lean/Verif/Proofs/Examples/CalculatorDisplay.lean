import Verif.Proofs.Examples.CalculatorRuns
/-!
# What the display of the example `calculator` shows
-/
namespace Statig.Examples.Calculator
variable {A : Arith} {minus : Text}

/-- Digits, possibly with a minus. -/
def IsInt (t : Text) : Prop :=
  ∃ sign i, (sign = [] ∨ sign = ['-']) ∧ (∀ c ∈ i, c.isDigit = true) ∧ i ≠ [] ∧ t = sign ++ i

/-- A numeral with a point. -/
def IsFrac (t : Text) : Prop :=
  ∃ sign i f, (sign = [] ∨ sign = ['-']) ∧ (∀ c ∈ i ++ f, c.isDigit = true) ∧ i ++ f ≠ [] ∧ t = sign ++ i ++ '.' :: f

theorem digits_isDigit (k : UInt8) : ∀ c ∈ digits k, c.isDigit = true := fun _ h =>
  Nat.isDigit_of_mem_toDigits (by decide) (by decide) h

theorem digits_ne (k : UInt8) : digits k ≠ [] := Nat.toDigits_ne_nil

theorem IsInt.numeral {t : Text} : IsInt t → IsNumeral t := by
  rintro ⟨sign, i, h1, h2, h3, h4⟩
  exact ⟨sign, i, [], h1, by simpa using h2, by simpa using h3, .inl ⟨rfl, h4⟩⟩

theorem IsFrac.numeral {t : Text} : IsFrac t → IsNumeral t := by
  rintro ⟨sign, i, f, h1, h2, h3, h4⟩
  exact ⟨sign, i, f, h1, h2, h3, .inr h4⟩

theorem isInt_digits (k : UInt8) : IsInt (digits k) := ⟨[], _, .inl rfl, digits_isDigit k, digits_ne k, rfl⟩

theorem isInt_minus (k : UInt8) : IsInt ('-' :: digits k) := ⟨['-'], _, .inr rfl, digits_isDigit k, digits_ne k, rfl⟩

theorem IsInt.append {t : Text} (k : UInt8) : IsInt t → IsInt (t ++ digits k) := by
  rintro ⟨sign, i, h1, h2, h3, rfl⟩
  refine ⟨sign, i ++ digits k, h1, ?_, by simp [h3], by simp⟩
  intro c hc
  rcases List.mem_append.1 hc with hc | hc
  · exact h2 c hc
  · exact digits_isDigit k c hc

theorem IsNumeral.append {t : Text} (k : UInt8) : IsNumeral t → IsNumeral (t ++ digits k) := by
  rintro ⟨sign, i, f, h1, h2, h3, h4⟩
  rcases h4 with ⟨rfl, rfl⟩ | rfl
  · refine ⟨sign, i ++ digits k, [], h1, ?_, by simpa using fun _ => digits_ne k, .inl ⟨rfl, by simp⟩⟩
    intro c hc
    simp only [List.append_nil, List.mem_append] at hc
    rcases hc with hc | hc
    · exact h2 c (by simp [hc])
    · exact digits_isDigit k c hc
  · refine ⟨sign, i, f ++ digits k, h1, ?_, ?_, .inr (by simp)⟩
    · intro c hc
      rw [← List.append_assoc, List.mem_append] at hc
      rcases hc with hc | hc
      · exact h2 c hc
      · exact digits_isDigit k c hc
    · simp [digits_ne]

theorem IsInt.point {t : Text} : IsInt t → IsNumeral (t ++ ['.']) := by
  rintro ⟨sign, i, h1, h2, h3, rfl⟩
  exact ⟨sign, i, [], h1, by simpa using h2, by simpa using h3, .inr rfl⟩

theorem numeral_point {t : Text} (k : UInt8) (h : t = ['.']) : IsNumeral (t ++ digits k) := by
  subst h
  exact ⟨[], [], digits k, .inl rfl, by simpa using digits_isDigit k, by simpa using digits_ne k, .inr rfl⟩

theorem numeral_zeroPoint : IsNumeral ['0', '.'] := ⟨[], ['0'], [], .inl rfl, by simp, by simp, .inr rfl⟩

theorem numeral_minusZeroPoint : IsNumeral ['-', '0', '.'] := ⟨['-'], ['0'], [], .inr rfl, by simp, by simp, .inr rfl⟩

theorem isInt_zero : IsInt ['0'] := ⟨[], ['0'], .inl rfl, by simp, by simp, rfl⟩

theorem isInt_minusZero : IsInt ['-', '0'] := ⟨['-'], ['0'], .inr rfl, by simp, by simp, rfl⟩

theorem digits_zero : digits 0 = ['0'] := by decide

/-- What the display shows in each state. -/
def Shows (minus : Text) : State A → Text → Prop
  | .begin, d => d = ['0']
  | .response x, d => d = A.print x
  | .zero1, d => d = [] ∨ IsInt d
  | .int1, d => d = [] ∨ IsInt d
  | .frac1, d => d = [] ∨ d = ['.'] ∨ IsNumeral d
  | .negated1, d => d = [] ∨ d = minus
  | .opEntered _ _, _ => True
  | .zero2 _ _, d => IsInt d
  | .int2 _ _, d => IsInt d
  | .frac2 _ _, d => IsNumeral d
  | .negated2 _ _, _ => True

/-- An operator or `=` is pressed that is not ignored in this state. -/
def Evaluates : State A → Event → Prop
  | .zero1, e | .int1, e | .frac1, e => e = .equal ∨ ∃ o, e = .operator o
  | .negated1, e => e = .equal
  | _, _ => False

theorem next_shows (hA : A.Sane) {s : State A} {d : Text} (h : Shows minus s d) (e : Event) :
    match next minus s d e with
    | some (s', d') => Shows minus s' d'
    | none => Evaluates s e ∧ A.parse d = none ∧ (respond minus s d e).1 = d := by
  have hz : A.parse ['0'] ≠ none := hA.numeral _ isInt_zero.numeral
  obtain ⟨z, hz⟩ := Option.ne_none_iff_exists'.1 hz
  have np := numeral_zeroPoint
  have nmp := numeral_minusZeroPoint
  have iz := isInt_zero
  have imz := isInt_minusZero
  have id := isInt_digits
  have im := isInt_minus
  have dz := digits_zero
  cases s
  case begin =>
    cases h
    rcases e with _ | _ | k | _ | o | _
    case digit => by_cases hk : k = 0 <;> (step; try simp [Shows, *])
    case operator => cases o <;> (step; try simp [Shows])
    all_goals (step; try simp [Shows, *])
  case response x =>
    cases h
    obtain ⟨y, hy⟩ := Option.ne_none_iff_exists'.1 (hA.printed x)
    rcases e with _ | _ | k | _ | o | _
    case digit => by_cases hk : k = 0 <;> (step; try simp [Shows, *])
    all_goals (step; try simp [Shows, *])
  case zero1 =>
    rcases e with _ | _ | k | _ | o | _
    case digit =>
      have h' := IsInt.append (t := d) k
      by_cases hk : k = 0
      · step
      · step; right
        rcases h with rfl | h
        · exact id k
        · exact h' h
    all_goals (cases hp : A.parse d <;> (step; try simp [Shows, Evaluates, *]))
  case int1 =>
    rcases e with _ | _ | k | _ | o | _
    case digit =>
      have h' := IsInt.append (t := d) k
      step; right
      rcases h with rfl | h
      · exact id k
      · exact h' h
    case point =>
      step; right
      rcases h with rfl | h
      · exact .inl rfl
      · exact .inr h.point
    all_goals (cases hp : A.parse d <;> (step; try simp [Shows, Evaluates, *]))
  case frac1 =>
    rcases e with _ | _ | k | _ | o | _
    case digit =>
      have h' := IsNumeral.append (t := d) k
      step; right; right
      rcases h with rfl | h | h
      · exact (id k).numeral
      · exact numeral_point k h
      · exact h' h
    all_goals (cases hp : A.parse d <;> (step; try simp [Shows, Evaluates, *]))
  case negated1 =>
    rcases e with _ | _ | k | _ | o | _
    case digit => by_cases hk : k = 0 <;> (step; try simp [Shows, *])
    all_goals (cases hp : A.parse d <;> (step; try simp [Shows, Evaluates, *]))
  case opEntered =>
    rcases e with _ | _ | k | _ | o | _
    case digit => by_cases hk : k = 0 <;> (step; try simp [Shows, *])
    case operator => cases o <;> (step; try simp [Shows, *])
    all_goals (step; try simp [Shows, *])
  case zero2 =>
    obtain ⟨y, hy⟩ := Option.ne_none_iff_exists'.1 (hA.numeral _ (IsInt.numeral h))
    rcases e with _ | _ | k | _ | o | _
    case digit =>
      by_cases hk : k = 0
      · step
      · step; exact id k
    all_goals (step; try simp [Shows, *])
  case int2 =>
    obtain ⟨y, hy⟩ := Option.ne_none_iff_exists'.1 (hA.numeral _ (IsInt.numeral h))
    rcases e with _ | _ | k | _ | o | _
    case digit => have := IsInt.append k h; step; exact this
    case point => have := IsInt.point h; step; exact this
    all_goals (step; try simp [Shows, *])
  case frac2 =>
    obtain ⟨y, hy⟩ := Option.ne_none_iff_exists'.1 (hA.numeral _ h)
    rcases e with _ | _ | k | _ | o | _
    case digit => have := IsNumeral.append k h; step; exact this
    all_goals (step; try first | exact h | simp [Shows, *])
  case negated2 =>
    rcases e with _ | _ | k | _ | o | _
    case digit => by_cases hk : k = 0 <;> (step; try simp [Shows, *])
    all_goals (step; try simp [Shows, *])

theorem next_none {s : State A} {d : Text} {e : Event} (he : Evaluates s e) (hp : A.parse d = none) :
    next minus s d e = none := by
  cases s <;> simp only [Evaluates] at he
  case negated1 => subst he; step
  all_goals
    rcases he with rfl | ⟨o, rfl⟩
    · step
    · step

/-- In those states, what is shown and cannot be parsed. -/
theorem parse_none (hA : A.Sane) (hm : A.parse minus ≠ none) {s : State A} {d : Text} {e : Event} (h : Shows minus s d)
    (he : Evaluates s e) : A.parse d = none ↔ d = [] ∨ d = ['.'] := by
  constructor
  · intro hp
    cases s <;> simp only [Evaluates] at he
    case zero1 =>
      rcases h with h | h
      · exact .inl h
      · exact absurd hp (hA.numeral _ h.numeral)
    case int1 =>
      rcases h with h | h
      · exact .inl h
      · exact absurd hp (hA.numeral _ h.numeral)
    case frac1 =>
      rcases h with h | h | h
      · exact .inl h
      · exact .inr h
      · exact absurd hp (hA.numeral _ h)
    case negated1 =>
      rcases h with h | h
      · exact .inl h
      · exact absurd (h ▸ hp) hm
  · rintro (rfl | rfl)
    · exact hA.empty
    · exact hA.point

theorem shows_exec (hA : A.Sane) {sm : StateMachine (sig A)} (h : Shows minus sm.inner.state (shown sm))
    (cmd : Command (sig A)) :
    ∃ c, cmd.exec .blocking (machine A minus) sm = some c ∧ Shows minus c.self.inner.state (shown c.self) ∧
      c.self.initialized = true := by
  cases cmd with
  | init ctx l =>
    obtain ⟨c, h1, h2, h3⟩ := exec_init (minus := minus) sm ctx l
    exact ⟨c, h1, by rw [h3]; exact h, by rw [h3]⟩
  | handle e ctx l =>
    obtain ⟨c, h1, h2, h3⟩ := exec_handle (minus := minus) sm e ctx l
    refine ⟨c, h1, ?_, h2⟩
    have := next_shows hA h e
    revert h3 this
    cases next minus sm.inner.state (shown sm) e with
    | none =>
      rintro ⟨h3, h4⟩ ⟨h5, h6, h7⟩
      rw [h4]
      simp only [shown, ↓reduceIte]
      simp only [shown] at h7
      rw [h7]
      exact h
    | some p =>
      rintro ⟨h3, h4⟩ h5
      rw [h4]
      exact h5

theorem shows_after (hA : A.Sane) {sm : StateMachine (sig A)} (h : Shows minus sm.inner.state (shown sm))
    (cmds : List (Command (sig A))) :
    Shows minus (after (machine A minus) sm cmds).inner.state (shown (after (machine A minus) sm cmds)) := by
  induction cmds generalizing sm with
  | nil => exact h
  | cons cmd cmds ih =>
    obtain ⟨c, h1, h2, -⟩ := shows_exec hA h cmd
    rw [after_cons h1]
    exact ih h2

theorem after_initialized (hA : A.Sane) {sm : StateMachine (sig A)} (h : Shows minus sm.inner.state (shown sm))
    (cmds : List (Command (sig A))) : after (machine A minus) sm cmds = sm ∨
      (after (machine A minus) sm cmds).initialized = true := by
  have key : ∀ cmds, ∀ sm : StateMachine (sig A), Shows minus sm.inner.state (shown sm) → sm.initialized = true →
      (after (machine A minus) sm cmds).initialized = true := by
    intro cmds
    induction cmds with
    | nil => exact fun _ _ h => h
    | cons cmd cmds ih =>
      intro sm h _
      obtain ⟨c, h1, h2, h3⟩ := shows_exec hA h cmd
      rw [after_cons h1]
      exact ih c.self h2 h3
  cases cmds with
  | nil => exact .inl rfl
  | cons cmd cmds =>
    obtain ⟨c, h1, h2, h3⟩ := shows_exec hA h cmd
    rw [after_cons h1]
    exact .inr (key cmds c.self h2 h3)

end Statig.Examples.Calculator
