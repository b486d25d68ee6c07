import Verif.Model.Hierarchy
import Verif.Proofs.Forest
/-! # The hierarchy functions on machines that follow a forest -/
namespace Statig
variable {S : Sig} {m : Machine S} {F : Forest S.D S.E}

namespace Follows

theorem superstate_none (hF : Follows m F) {s} (h : m.superstate s = none) :
    F.leafParent (m.discr s) = none := by
  rw [← hF.leaf, h]; rfl

theorem superstate_some (hF : Follows m F) {s v back} (h : m.superstate s = some (v, back)) :
    F.leafParent (m.discr s) = some (m.supDiscr v) := by
  rw [← hF.leaf, h]; rfl

theorem supSuperstate_none (hF : Follows m F) {s} (h : m.supSuperstate s = none) :
    F.supParent (m.supDiscr s) = none := by
  rw [← hF.sup, h]; rfl

theorem supSuperstate_some (hF : Follows m F) {s v back} (h : m.supSuperstate s = some (v, back)) :
    F.supParent (m.supDiscr s) = some (m.supDiscr v) := by
  rw [← hF.sup, h]; rfl

theorem leafAnc_none (hF : Follows m F) {s} (h : m.superstate s = none) :
    F.leafAnc (m.discr s) = [] := by
  rw [F.leafAnc_eq, hF.superstate_none h]

theorem leafAnc_some (hF : Follows m F) {s v back} (h : m.superstate s = some (v, back)) :
    F.leafAnc (m.discr s) = F.chain (m.supDiscr v) := by
  rw [F.leafAnc_eq, hF.superstate_some h]

theorem supAnc_none (hF : Follows m F) {s} (h : m.supSuperstate s = none) :
    F.supAnc (m.supDiscr s) = [] := by
  rw [F.supAnc_eq', hF.supSuperstate_none h]

theorem supAnc_some (hF : Follows m F) {s v back} (h : m.supSuperstate s = some (v, back)) :
    F.supAnc (m.supDiscr s) = F.chain (m.supDiscr v) := by
  rw [F.supAnc_eq', hF.supSuperstate_some h]

theorem superstate_of_nil (hF : Follows m F) {s} (h : F.leafAnc (m.discr s) = []) :
    m.superstate s = none := by
  cases hs : m.superstate s with
  | none => rfl
  | some p => rw [hF.leafAnc_some (v := p.1) (back := p.2) hs] at h; simp [Forest.chain] at h

theorem superstate_of_cons (hF : Follows m F) {s e l} (h : F.leafAnc (m.discr s) = e :: l) :
    ∃ v back, m.superstate s = some (v, back) ∧ m.supDiscr v = e ∧ l = F.supAnc (m.supDiscr v) := by
  cases hs : m.superstate s with
  | none => rw [hF.leafAnc_none hs] at h; simp at h
  | some p =>
    refine ⟨p.1, p.2, rfl, ?_⟩
    rw [hF.leafAnc_some (v := p.1) (back := p.2) hs] at h
    unfold Forest.chain at h
    injection h with h1 h2
    exact ⟨h1, h2.symm⟩

theorem supSuperstate_of_nil (hF : Follows m F) {s} (h : F.supAnc (m.supDiscr s) = []) :
    m.supSuperstate s = none := by
  cases hs : m.supSuperstate s with
  | none => rfl
  | some p => rw [hF.supAnc_some (v := p.1) (back := p.2) hs] at h; simp [Forest.chain] at h

theorem supSuperstate_of_cons (hF : Follows m F) {s e l} (h : F.supAnc (m.supDiscr s) = e :: l) :
    ∃ v back, m.supSuperstate s = some (v, back) ∧ m.supDiscr v = e ∧ l = F.supAnc (m.supDiscr v) := by
  cases hs : m.supSuperstate s with
  | none => rw [hF.supAnc_none hs] at h; simp at h
  | some p =>
    refine ⟨p.1, p.2, rfl, ?_⟩
    rw [hF.supAnc_some (v := p.1) (back := p.2) hs] at h
    unfold Forest.chain at h
    injection h with h1 h2
    exact ⟨h1, h2.symm⟩

end Follows

theorem supDepth_eq (hF : Follows m F) (v : S.Sup) :
    supDepth m v = some ((F.chain (m.supDiscr v)).length) := by
  generalize hl : F.supAnc (m.supDiscr v) = l
  induction l generalizing v with
  | nil =>
    rw [supDepth, hF.supSuperstate_of_nil hl]
    simp [Forest.chain, hl]
  | cons e l ih =>
    obtain ⟨w, back, hw, rfl, rfl⟩ := hF.supSuperstate_of_cons hl
    rw [supDepth, hw]
    simp only [ih w rfl]
    simp [Forest.chain, hl]

theorem depth_eq (hF : Follows m F) (s : S.St) :
    depth m s = some ((F.leafAnc (m.discr s)).length + 1) := by
  unfold depth
  cases hs : m.superstate s with
  | none => simp [hF.leafAnc_none hs]
  | some p =>
    obtain ⟨v, back⟩ := p
    simp [hF.leafAnc_some hs, supDepth_eq hF]

theorem supCommonAncestorDepth_eq (hF : Follows m F) (s t : S.Sup) :
    supCommonAncestorDepth m s t =
      some (((F.chain (m.supDiscr s)).filter (· ∈ F.chain (m.supDiscr t))).length) := by
  generalize hn : (F.supAnc (m.supDiscr s)).length + (F.supAnc (m.supDiscr t)).length = n
  induction n using Nat.strongRecOn generalizing s t with
  | _ n ih =>
  rw [supCommonAncestorDepth, supDepth_eq hF, supDepth_eq hF]
  simp only [Option.bind_eq_bind, Option.bind_some]
  have hlen : ∀ e, (F.chain e).length = (F.supAnc e).length + 1 := fun e => by simp [Forest.chain]
  cases hc : compare (F.chain (m.supDiscr s)).length (F.chain (m.supDiscr t)).length with
  | eq =>
    rw [Nat.compare_eq_eq] at hc
    simp only
    by_cases hsame : m.supDiscr s = m.supDiscr t
    · simp only [supSameState, hsame, beq_self_eq_true]
      rw [List.filter_eq_self.2 (fun a ha => by simpa using ha)]
    · have hsm : supSameState m s t = false := by simp [supSameState, hsame]
      rw [hsm]
      have hnot : m.supDiscr s ∉ F.chain (m.supDiscr t) :=
        F.not_mem_chain_of_length (by omega) hsame
      have hnot' : m.supDiscr t ∉ F.chain (m.supDiscr s) :=
        F.not_mem_chain_of_length (by omega) (Ne.symm hsame)
      have hfil : ((F.chain (m.supDiscr s)).filter (· ∈ F.chain (m.supDiscr t)))
          = (F.supAnc (m.supDiscr s)).filter (· ∈ F.supAnc (m.supDiscr t)) := by
        conv => lhs; arg 2; unfold Forest.chain
        rw [List.filter_cons_of_neg (by simpa using hnot)]
        apply List.filter_congr
        intro a ha
        have : a ≠ m.supDiscr t := by
          rintro rfl; exact hnot' (List.mem_cons_of_mem _ ha)
        simp [Forest.chain, this]
      rw [hfil]
      cases hs : m.supSuperstate s with
      | none => simp [hF.supAnc_none hs]
      | some p =>
        obtain ⟨v, back⟩ := p
        cases ht : m.supSuperstate t with
        | none => simp [hF.supAnc_none ht]
        | some q =>
          obtain ⟨w, back'⟩ := q
          simp only
          have h1 := hF.supAnc_some hs
          have h2 := hF.supAnc_some ht
          rw [ih _ ?_ v w rfl, h1, h2]
          rw [← hn, h1, h2, hlen, hlen]; omega
  | gt =>
    rw [Nat.compare_eq_gt] at hc
    simp only
    have hnot : m.supDiscr s ∉ F.chain (m.supDiscr t) :=
      F.not_mem_chain_of_length (by omega) (by intro h; rw [h] at hc; omega)
    have hfil : ((F.chain (m.supDiscr s)).filter (· ∈ F.chain (m.supDiscr t)))
        = (F.supAnc (m.supDiscr s)).filter (· ∈ F.chain (m.supDiscr t)) := by
      conv => lhs; arg 2; unfold Forest.chain
      rw [List.filter_cons_of_neg (by simpa using hnot)]
    rw [hfil]
    cases hs : m.supSuperstate s with
    | none => simp [hF.supAnc_none hs]
    | some p =>
      obtain ⟨v, back⟩ := p
      simp only
      have h1 := hF.supAnc_some hs
      rw [ih _ ?_ v t rfl, h1]
      rw [← hn, h1, hlen]; omega
  | lt =>
    rw [Nat.compare_eq_lt] at hc
    simp only
    have hnot : m.supDiscr t ∉ F.chain (m.supDiscr s) :=
      F.not_mem_chain_of_length (by omega) (by intro h; rw [h] at hc; omega)
    have hfil : ((F.chain (m.supDiscr s)).filter (· ∈ F.chain (m.supDiscr t)))
        = (F.chain (m.supDiscr s)).filter (· ∈ F.supAnc (m.supDiscr t)) := by
      apply List.filter_congr
      intro a ha
      have : a ≠ m.supDiscr t := by
        rintro rfl; exact hnot ha
      simp [Forest.chain, this]
    rw [hfil]
    cases hs : m.supSuperstate t with
    | none => simp [hF.supAnc_none hs]
    | some p =>
      obtain ⟨v, back⟩ := p
      simp only
      have h1 := hF.supAnc_some hs
      rw [ih _ ?_ s v rfl, h1]
      rw [← hn, h1, hlen]; omega

theorem commonAncestorDepth_of_ne (hF : Follows m F) (s t : S.St) (h : m.discr s ≠ m.discr t) :
    commonAncestorDepth m s t =
      some (((F.leafAnc (m.discr s)).filter (· ∈ F.leafAnc (m.discr t))).length) := by
  have hne : sameState m s t = false := by simp [sameState, h]
  unfold commonAncestorDepth
  rw [hne]
  simp only [Bool.false_eq_true, ↓reduceIte]
  cases hs : m.superstate s with
  | none => simp [hF.leafAnc_none hs]
  | some p =>
    obtain ⟨v, back⟩ := p
    cases ht : m.superstate t with
    | none => simp [hF.leafAnc_none ht]
    | some q =>
      obtain ⟨w, back'⟩ := q
      simp only [supCommonAncestorDepth_eq hF, hF.leafAnc_some hs, hF.leafAnc_some ht]

theorem transitionPath_of_ne (hF : Follows m F) (s t : S.St) (h : m.discr s ≠ m.discr t) :
    transitionPath m s t =
      some (.ok ((F.leafAnc (m.discr s)).length + 1 -
          ((F.leafAnc (m.discr s)).filter (· ∈ F.leafAnc (m.discr t))).length,
        (F.leafAnc (m.discr t)).length + 1 -
          ((F.leafAnc (m.discr s)).filter (· ∈ F.leafAnc (m.discr t))).length)) := by
  have hne : sameState m s t = false := by simp [sameState, h]
  have hc1 : ((F.leafAnc (m.discr s)).filter (· ∈ F.leafAnc (m.discr t))).length
      ≤ (F.leafAnc (m.discr s)).length := List.length_filter_le _ _
  have hc2 : ((F.leafAnc (m.discr s)).filter (· ∈ F.leafAnc (m.discr t))).length
      ≤ (F.leafAnc (m.discr t)).length := by
    rw [Forest.common_length_comm (F.leafAnc_nodup _) (F.leafAnc_nodup _)]
    exact List.length_filter_le _ _
  unfold transitionPath
  rw [hne]
  simp only [Bool.false_eq_true, ↓reduceIte, depth_eq hF, Option.bind_eq_bind, Option.bind_some]
  cases hs : m.superstate s with
  | none => simp [hF.leafAnc_none hs]
  | some p =>
    obtain ⟨v, back⟩ := p
    cases ht : m.superstate t with
    | none => simp [hF.leafAnc_none ht]
    | some q =>
      obtain ⟨w, back'⟩ := q
      have h1 := hF.leafAnc_some hs
      have h2 := hF.leafAnc_some ht
      simp only [supCommonAncestorDepth_eq hF, h1, h2, Option.bind_some]
      rw [h1, h2] at hc1 hc2
      unfold usizeSub
      rw [if_pos (by omega), if_pos (by omega)]

theorem transitionPath_of_eq (s t : S.St) (h : m.discr s = m.discr t) :
    transitionPath m s t = some (.ok (1, 1)) := by
  have : sameState m s t = true := by simp [sameState, h]
  unfold transitionPath
  rw [if_pos this]

/-- The path computed by the code selects exactly the specified exits and entries. -/
theorem transitionPath_spec (hF : Follows m F) (s t : S.St) :
    ∃ x n, transitionPath m s t = some (.ok (x, n)) ∧
      1 ≤ x ∧ x ≤ (F.path (m.discr s)).length ∧ 1 ≤ n ∧ n ≤ (F.path (m.discr t)).length ∧
      F.exits (m.discr s) (m.discr t) = (F.path (m.discr s)).take x ∧
      F.entries (m.discr s) (m.discr t) = ((F.path (m.discr t)).take n).reverse := by
  by_cases h : m.discr s = m.discr t
  · refine ⟨1, 1, transitionPath_of_eq s t h, ?_⟩
    simp [Forest.exits, Forest.entries, h, Forest.path, Forest.up]
  · refine ⟨_, _, transitionPath_of_ne hF s t h, ?_⟩
    have hc1 : ((F.leafAnc (m.discr s)).filter (· ∈ F.leafAnc (m.discr t))).length
        ≤ (F.leafAnc (m.discr s)).length := List.length_filter_le _ _
    have hc2 : ((F.leafAnc (m.discr s)).filter (· ∈ F.leafAnc (m.discr t))).length
        ≤ (F.leafAnc (m.discr t)).length := by
      rw [Forest.common_length_comm (F.leafAnc_nodup _) (F.leafAnc_nodup _)]
      exact List.length_filter_le _ _
    have hl : ∀ d, (F.path d).length = (F.leafAnc d).length + 1 := fun d => by
      simp [Forest.path, Forest.up, Forest.anc]
    refine ⟨by omega, by rw [hl]; omega, by omega, by rw [hl]; omega, F.exits_eq_take h,
      F.entries_eq_take h⟩

end Statig
