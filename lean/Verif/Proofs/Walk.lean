import Verif.Spec.Walk
import Verif.Proofs.Forest
/-! # Shortest walks -/
namespace Statig.Forest
variable {D E : Type} (F : Forest D E)

theorem up_eq (n : Node D E) : F.up n = n :: match F.parent n with
    | none => []
    | some p => F.up p := by
  cases n with
  | leaf d =>
    simp only [up, anc, parent]
    rw [F.leafAnc_eq]
    cases F.leafParent d <;> simp [chain]
  | sup e =>
    simp only [up, anc, parent]
    rw [F.supAnc_eq']
    cases F.supParent e <;> simp [chain]

/-- A vertex and everything above it, without the top. -/
def vup : Vertex D E → List (Node D E)
  | none => []
  | some n => F.up n

theorem vup_child {x y : Vertex D E} (h : F.Child x y) : ∃ n, F.vup x = n :: F.vup y := by
  cases x with
  | none => exact h.elim
  | some n =>
    refine ⟨n, ?_⟩
    have : y = F.parent n := h
    rw [this]
    show F.up n = _
    rw [F.up_eq n]
    cases F.parent n <;> rfl

variable {F}

theorem Walk.trans {x y z : Vertex D E} {j k : Nat} (h : F.Walk x y j) (h' : F.Walk y z k) :
    F.Walk x z (j + k) := by
  induction h with
  | here => simpa using h'
  | @up a b c j hc _ ih => have := Walk.up hc (ih h'); rwa [Nat.add_right_comm] at this
  | @down a b c j hc _ ih => have := Walk.down hc (ih h'); rwa [Nat.add_right_comm] at this

theorem Walk.symm {x y : Vertex D E} {k : Nat} (h : F.Walk x y k) : F.Walk y x k := by
  induction h with
  | here => exact .here
  | up hc _ ih => exact ih.trans (.down hc .here)
  | down hc _ ih => exact ih.trans (.up hc .here)

/-- Going up `a.length` edges. -/
theorem Walk.climb {x : Vertex D E} {a b : List (Node D E)} (h : F.vup x = a ++ b) :
    ∃ y, F.vup y = b ∧ y = b.head? ∧ F.Walk x y a.length := by
  induction a generalizing x with
  | nil =>
    refine ⟨x, h, ?_, .here⟩
    cases x with
    | none => have : b = [] := h.symm; simp [this]
    | some n => have : b = F.up n := h.symm; rw [this, F.up_eq]; rfl
  | cons c a ih =>
    cases x with
    | none => cases h
    | some n =>
      obtain ⟨n', hn⟩ := F.vup_child (x := some n) (y := F.parent n) rfl
      rw [h] at hn
      injection hn with _ hn
      obtain ⟨y, h1, h2, h3⟩ := ih hn.symm
      exact ⟨y, h1, h2, .up rfl h3⟩

variable [DecidableEq D] [DecidableEq E]

/-- Size of the symmetric difference. -/
def apart (l k : List (Node D E)) : Nat := (l.filter (· ∉ k)).length + (k.filter (· ∉ l)).length

theorem filter_cons_length {l k : List (Node D E)} {n : Node D E} (hk : k.Nodup) :
    (k.filter (· ∉ l)).length ≤ (k.filter (· ∉ n :: l)).length + 1 := by
  induction k with
  | nil => simp
  | cons a k ih =>
    rw [List.nodup_cons] at hk
    have := ih hk.2
    by_cases ha : a = n
    · subst ha
      have hrest : ∀ b ∈ k, (b ∉ a :: l) ↔ (b ∉ l) := by
        intro b hb
        have : b ≠ a := fun h => hk.1 (h ▸ hb)
        simp [this]
      have : k.filter (· ∉ a :: l) = k.filter (· ∉ l) := by
        apply List.filter_congr
        intro b hb
        simp only [decide_eq_decide]
        exact hrest b hb
      have h1 := List.length_filter_le (fun b => decide (b ∉ l)) [a]
      rw [List.filter_cons_of_neg (a := a) (l := k) (p := fun b => decide (b ∉ a :: l)) (by simp), this]
      by_cases hal : a ∈ l
      · rw [List.filter_cons_of_neg (by simpa using hal)]; omega
      · rw [List.filter_cons_of_pos (by simpa using hal)]; simp
    · by_cases hal : a ∈ l
      · rw [List.filter_cons_of_neg (by simpa using hal), List.filter_cons_of_neg (by simp [hal])]
        exact this
      · rw [List.filter_cons_of_pos (by simpa using hal), List.filter_cons_of_pos (by simp [hal, ha])]
        simp only [List.length_cons]; omega

theorem apart_cons {l k : List (Node D E)} {n : Node D E} (hk : k.Nodup) :
    apart l k ≤ apart (n :: l) k + 1 ∧ apart (n :: l) k ≤ apart l k + 1 := by
  unfold apart
  have h1 := filter_cons_length (l := l) (n := n) hk
  have h2 : (k.filter (· ∉ n :: l)).length ≤ (k.filter (· ∉ l)).length := by
    apply List.Sublist.length_le
    apply List.monotone_filter_right
    intro a ha
    simp at ha ⊢
    exact ha.2
  by_cases hn : n ∈ k
  · rw [List.filter_cons_of_neg (by simpa using hn)]; omega
  · rw [List.filter_cons_of_pos (by simpa using hn)]; simp only [List.length_cons]
    by_cases hall : ∀ a ∈ k, a ≠ n
    · have : k.filter (· ∉ n :: l) = k.filter (· ∉ l) := by
        apply List.filter_congr
        intro b hb
        simp [hall b hb]
      rw [this]; omega
    · exact absurd (by simpa using hall) hn

theorem Walk.apart_le {x y : Vertex D E} {k : Nat} (h : F.Walk x y k) {l : List (Node D E)}
    (hl : l.Nodup) : apart (F.vup x) l ≤ apart (F.vup y) l + k := by
  induction h with
  | here => omega
  | @up a b c j hc _ ih =>
    obtain ⟨n, hn⟩ := F.vup_child hc
    have := (apart_cons (l := F.vup b) (n := n) hl).2
    rw [hn]; omega
  | @down a b c j hc _ ih =>
    obtain ⟨n, hn⟩ := F.vup_child hc
    have := (apart_cons (l := F.vup a) (n := n) hl).1
    rw [hn] at ih; omega

theorem apart_self (l : List (Node D E)) : apart l l = 0 := by
  unfold apart
  have : l.filter (· ∉ l) = [] := by rw [List.filter_eq_nil_iff]; simp
  rw [this]; rfl

omit [DecidableEq D] in
/-- The shared part of two paths is the same list seen from both. -/
theorem common_eq (F : Forest D E) (d t : D) :
    (F.leafAnc d).filter (· ∈ F.leafAnc t) = (F.leafAnc t).filter (· ∈ F.leafAnc d) := by
  have hs := F.filter_append_filter (F.asc_leafAnc d) (F.leafAnc_closed t)
  have ht := F.filter_append_filter (F.asc_leafAnc t) (F.leafAnc_closed d)
  have hlen := common_length_comm (F.leafAnc_nodup d) (F.leafAnc_nodup t)
  cases hc : (F.leafAnc d).filter (· ∈ F.leafAnc t) with
  | nil =>
    rw [hc] at hlen
    exact (List.eq_nil_of_length_eq_zero (by simpa using hlen.symm)).symm
  | cons e rest =>
    have he : e ∈ F.leafAnc d ∧ e ∈ F.leafAnc t := by
      have : e ∈ (F.leafAnc d).filter (· ∈ F.leafAnc t) := by rw [hc]; simp
      simpa using this
    -- both are the chain of `e`
    have h1 : (e :: rest) <:+ F.leafAnc d := ⟨_, hc ▸ hs⟩
    have h2 := F.leafAnc_suffix he.1
    have h3 := F.leafAnc_suffix he.2
    have hnd := F.leafAnc_nodup d
    have hch : F.chain e = e :: rest := by
      rcases List.suffix_or_suffix_of_suffix h1 h2 with h | h
      · obtain ⟨p, hp⟩ := h
        cases p with
        | nil => exact hp.symm
        | cons q p =>
          have : q = e := by unfold chain at hp; injection hp
          subst this
          have := h2.sublist.nodup hnd
          rw [← hp] at this
          simp at this
      · obtain ⟨p, hp⟩ := h
        cases p with
        | nil => exact hp
        | cons q p =>
          have : q = e := by simp at hp; exact hp.1
          subst this
          have := h1.sublist.nodup hnd
          rw [← hp] at this
          simp [chain] at this
    have h4 : (F.leafAnc t).filter (· ∈ F.leafAnc d) <:+ F.leafAnc t := ⟨_, ht⟩
    rw [hch] at h3
    rw [hc] at hlen
    rcases List.suffix_or_suffix_of_suffix h3 h4 with h | h
    · exact h.eq_of_length hlen
    · exact (h.eq_of_length hlen.symm).symm

/-- `exits` plus `entries` is the distance between the two leaves. -/
theorem walk_shortest (F : Forest D E) {d t : D} (h : d ≠ t) :
    F.Walk (some (.leaf d)) (some (.leaf t)) ((F.exits d t).length + (F.entries d t).length) ∧
    ∀ k, F.Walk (some (.leaf d)) (some (.leaf t)) k →
      (F.exits d t).length + (F.entries d t).length ≤ k := by
  have hsplit : ∀ d t : D, d ≠ t → F.path d = F.exits d t ++
      ((F.leafAnc d).filter (· ∈ F.leafAnc t)).map .sup := by
    intro d t h
    rw [F.exits_of_ne h]
    have := F.filter_append_filter (F.asc_leafAnc d) (F.leafAnc_closed t)
    conv => lhs; rw [show F.path d = .leaf d :: (F.leafAnc d).map .sup from rfl, ← this]
    simp
  have hlen : (F.entries d t).length = (F.exits t d).length := by
    rw [F.entries_of_ne h, F.exits_of_ne (Ne.symm h)]; simp
  constructor
  · obtain ⟨y, -, h2, h3⟩ := Walk.climb (F := F) (x := some (.leaf d)) (hsplit d t h)
    obtain ⟨y', -, h2', h3'⟩ := Walk.climb (F := F) (x := some (.leaf t)) (hsplit t d (Ne.symm h))
    rw [← common_eq] at h2'
    rw [← h2] at h2'
    subst h2'
    rw [hlen]
    exact h3.trans h3'.symm
  · intro k hk
    have := hk.apart_le (F.path_nodup t)
    have h0 : apart (F.vup (some (.leaf t))) (F.path t) = 0 := apart_self _
    rw [h0] at this
    have h1 : apart (F.vup (some (.leaf d))) (F.path t) =
        (F.exits d t).length + (F.entries d t).length := by
      unfold apart exits entries
      rw [if_neg h, if_neg h, List.length_reverse]; rfl
    omega

end Statig.Forest
