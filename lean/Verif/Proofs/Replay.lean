import Verif.Proofs.StateMachine
import Verif.Proofs.Walk
/-! # Replaying logs on a stack -/
namespace Statig
variable {D E : Type} [DecidableEq D] [DecidableEq E] {F : Forest D E}

theorem replay_append (a b : List (Act D E)) (st : List (Node D E)) :
    replay F (a ++ b) st = (replay F a st).bind (replay F b) := by
  induction a generalizing st with
  | nil => rfl
  | cons x a ih =>
    cases x with
    | enter n => simp only [List.cons_append, replay]; split <;> simp [ih]
    | leave n => simp only [List.cons_append, replay]; split <;> simp [ih]

theorem replay_leave (k rest : List (Node D E)) : replay F (k.map .leave) (k ++ rest) = some rest := by
  induction k with
  | nil => rfl
  | cons n k ih => simp [replay, ih]

/-- Every node of the list is followed by its parent (or nothing). -/
inductive Linked (F : Forest D E) : List (Node D E) → Prop where
  | nil : Linked F []
  | cons {n l} : F.parent n = l.head? → Linked F l → Linked F (n :: l)

omit [DecidableEq D] [DecidableEq E] in
theorem linked_up (n : Node D E) : Linked F (F.up n) := by
  generalize hl : F.up n = l
  induction l generalizing n with
  | nil => exact .nil
  | cons a l ih =>
    rw [F.up_eq] at hl
    injection hl with h1 h2
    subst h1
    cases hp : F.parent n with
    | none => rw [hp] at h2; simp only at h2; subst h2; exact .cons hp .nil
    | some p =>
      rw [hp] at h2; simp only at h2
      refine .cons ?_ (ih p h2)
      rw [← h2, hp]; rfl

omit [DecidableEq D] [DecidableEq E] in
theorem Linked.drop {a b : List (Node D E)} (h : Linked F (a ++ b)) : Linked F b := by
  induction a with
  | nil => exact h
  | cons n a ih => cases h with | cons _ h => exact ih h

theorem replay_enter {k rest : List (Node D E)} (h : Linked F (k ++ rest)) :
    replay F (k.reverse.map .enter) rest = some (k ++ rest) := by
  induction k with
  | nil => rfl
  | cons n k ih =>
    cases h with
    | cons hp h =>
      rw [List.reverse_cons, List.map_append, replay_append, ih h]
      simp [replay, hp]

/-- The part of the paths that a transition does not touch. -/
theorem path_split (F : Forest D E) (d t : D) : ∃ common, F.path d = F.exits d t ++ common ∧
    F.path t = (F.entries d t).reverse ++ common := by
  by_cases h : d = t
  · subst h
    exact ⟨(F.leafAnc d).map .sup, by simp [Forest.exits, Forest.path, Forest.up, Forest.anc],
      by simp [Forest.entries, Forest.path, Forest.up, Forest.anc]⟩
  · have hsplit : ∀ d t : D, d ≠ t → F.path d = F.exits d t ++
        ((F.leafAnc d).filter (· ∈ F.leafAnc t)).map .sup := by
      intro d t h
      rw [F.exits_of_ne h]
      have := F.filter_append_filter (F.asc_leafAnc d) (F.leafAnc_closed t)
      show Node.leaf d :: (F.leafAnc d).map .sup = _
      rw [List.cons_append, ← List.map_append, this]
    refine ⟨_, hsplit d t h, ?_⟩
    rw [F.entries_of_ne h, List.reverse_reverse, ← F.exits_of_ne (Ne.symm h), Forest.common_eq F d t]
    exact hsplit t d (Ne.symm h)

/-- Replaying an initial part of a transition. -/
theorem replay_transition {d t : D} {k : List (Act D E)}
    (hk : k <+: (F.exits d t).map .leave ++ (F.entries d t).map .enter) :
    ∃ st, replay F k (F.path d) = some st ∧
      ((∀ n, Act.enter n ∉ k) → st <:+ F.path d) ∧
      ((∃ n, Act.enter n ∈ k) → st <:+ F.path t) ∧
      (k = (F.exits d t).map .leave ++ (F.entries d t).map .enter → st = F.path t) := by
  obtain ⟨common, h1, h2⟩ := path_split F d t
  have hlink : Linked F ((F.entries d t).reverse ++ common) := by rw [← h2]; exact linked_up _
  rcases prefix_append_iff.1 hk with hk' | ⟨j, rfl, hj⟩
  · obtain ⟨ex, hex⟩ : ∃ i, k = ((F.exits d t).take i).map .leave := by
      rw [List.prefix_iff_eq_take] at hk'
      exact ⟨k.length, by rw [List.map_take]; exact hk'⟩
    subst hex
    refine ⟨(F.exits d t).drop ex ++ common, ?_, fun _ => ?_, fun ⟨n, hn⟩ => ?_, fun he => ?_⟩
    · rw [h1]
      conv => lhs; rw [← List.take_append_drop ex (F.exits d t)]
      rw [List.append_assoc, List.take_append_drop]
      exact replay_leave _ _
    · rw [h1]
      exact List.IsSuffix.trans ⟨(F.exits d t).take ex, by rw [← List.append_assoc, List.take_append_drop]⟩
        (List.suffix_refl _)
    · obtain ⟨a, -, ha⟩ := List.mem_map.1 hn; cases ha
    · have hl := congrArg List.length he
      simp only [List.length_map, List.length_take, List.length_append] at hl
      have hen : F.entries d t = [] := by
        rw [← List.length_eq_zero_iff]; omega
      have : (F.path t).length = common.length := by rw [h2, hen]; simp
      have hdrop : (F.exits d t).drop ex = [] := by
        rw [List.drop_eq_nil_iff]; omega
      rw [hdrop, h2, hen]; simp
  · obtain ⟨ex, hex⟩ : ∃ i, j = ((F.entries d t).take i).map .enter := by
      rw [List.prefix_iff_eq_take] at hj
      exact ⟨j.length, by rw [List.map_take]; exact hj⟩
    subst hex
    have hpre : ((F.entries d t).take ex).reverse ++ common <:+ F.path t := by
      rw [h2]
      conv => rhs; rw [← List.take_append_drop ex (F.entries d t), List.reverse_append, List.append_assoc]
      exact List.suffix_append _ _
    have hlink' : Linked F (((F.entries d t).take ex).reverse ++ common) := by
      obtain ⟨a, ha⟩ := hpre
      have := linked_up (F := F) (.leaf t)
      have e : F.up (.leaf t) = F.path t := rfl
      rw [e, ← ha] at this
      exact this.drop
    refine ⟨((F.entries d t).take ex).reverse ++ common, ?_, fun hn => ?_, fun _ => hpre, fun he => ?_⟩
    · rw [replay_append, h1, replay_leave]
      have := replay_enter hlink'
      rw [List.reverse_reverse] at this
      exact this
    · have : (F.entries d t).take ex = [] := by
        cases hx : (F.entries d t).take ex with
        | nil => rfl
        | cons a l => exact absurd (by simp [hx]) (hn a)
      rw [this, h1]
      exact List.suffix_append _ _
    · have hl := congrArg List.length he
      simp only [List.length_map, List.length_take, List.length_append] at hl
      rw [List.take_of_length_le (by omega), h2]

theorem replay_init {d : D} {k : List (Act D E)} (hk : k <+: (F.path d).reverse.map .enter) :
    ∃ st, replay F k [] = some st ∧ st <:+ F.path d ∧
      (k = (F.path d).reverse.map .enter → st = F.path d) := by
  obtain ⟨ex, rfl⟩ : ∃ i, k = ((F.path d).reverse.take i).map .enter := by
    rw [List.prefix_iff_eq_take] at hk
    exact ⟨k.length, by rw [List.map_take]; exact hk⟩
  have hpre : ((F.path d).reverse.take ex).reverse <:+ F.path d := by
    conv => rhs; rw [← List.reverse_reverse (F.path d), ← List.take_append_drop ex (F.path d).reverse,
      List.reverse_append]
    exact List.suffix_append _ _
  have hlink : Linked F (((F.path d).reverse.take ex).reverse ++ []) := by
    obtain ⟨a, ha⟩ := hpre
    have := linked_up (F := F) (.leaf d)
    have e : F.up (.leaf d) = F.path d := rfl
    rw [e, ← ha] at this
    rw [List.append_nil]
    exact this.drop
  refine ⟨((F.path d).reverse.take ex).reverse, ?_, hpre, fun he => ?_⟩
  · have := replay_enter hlink
    rw [List.reverse_reverse, List.append_nil] at this
    exact this
  · have hl := congrArg List.length he
    simp only [List.length_map, List.length_take] at hl
    rw [List.take_of_length_le (by omega), List.reverse_reverse]

omit [DecidableEq D] [DecidableEq E] in
theorem mem_enter_iff {V T : Type} {l : List (Step D E V T)} {n : Node D E} :
    Act.enter n ∈ actionsOf l ↔ n ∈ entriesOf l := by
  unfold actionsOf entriesOf
  simp only [List.mem_filterMap]
  constructor
  · rintro ⟨x, hx, h⟩
    refine ⟨x, hx, ?_⟩
    cases x <;> simp_all
  · rintro ⟨x, hx, h⟩
    refine ⟨x, hx, ?_⟩
    cases x <;> simp_all

omit [DecidableEq D] [DecidableEq E] in
theorem actionsOf_initLog {V T : Type} (F : Forest D E) (d : D) :
    actionsOf (initLog (V := V) (T := T) F d) = (F.path d).reverse.map .enter := by
  unfold initLog actionsOf
  rw [List.filterMap_map]
  simp [Function.comp_def]

end Statig
