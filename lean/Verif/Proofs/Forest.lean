import Verif.Spec.Forest
import Mathlib.Data.List.Nodup
/-! # Facts about forests -/
set_option linter.unusedSectionVars false
namespace Statig.Forest
variable {D E : Type} (F : Forest D E)

/-- A superstate variant and its ancestors. -/
def chain (e : E) : List E := e :: F.supAnc e

theorem leafAnc_eq (d : D) : F.leafAnc d = match F.leafParent d with
    | none => []
    | some p => F.chain p := by
  unfold leafAnc chain; rfl

theorem supAnc_eq' (e : E) : F.supAnc e = match F.supParent e with
    | none => []
    | some p => F.chain p := F.supAnc_eq e

theorem chain_suffix_of_mem {e f : E} (h : e ∈ F.chain f) : F.chain e <:+ F.chain f := by
  generalize hl : F.chain f = l at h
  induction l generalizing f with
  | nil => simp at h
  | cons a l ih =>
    have h1 : a = f ∧ l = F.supAnc f := by
      unfold chain at hl; simp at hl; exact ⟨hl.1.symm, hl.2.symm⟩
    obtain ⟨rfl, rfl⟩ := h1
    simp only [List.mem_cons] at h
    rcases h with rfl | h
    · exact List.suffix_refl _
    · rw [F.supAnc_eq'] at h
      split at h
      · simp at h
      · rename_i p hp
        have hs : F.supAnc a = F.chain p := by rw [F.supAnc_eq', hp]
        have := ih hs.symm (by rw [hs]; exact h)
        rw [hs] at this ⊢
        exact this.trans (List.suffix_cons _ _)

theorem mem_chain_trans {e f g : E} (h1 : e ∈ F.chain f) (h2 : f ∈ F.chain g) : e ∈ F.chain g :=
  (F.chain_suffix_of_mem h2).subset h1

theorem chain_nodup (e : E) : (F.chain e).Nodup := by
  generalize hl : F.chain e = l
  induction l generalizing e with
  | nil => simp
  | cons a l ih =>
    have h1 : a = e ∧ l = F.supAnc e := by
      unfold chain at hl; simp at hl; exact ⟨hl.1.symm, hl.2.symm⟩
    obtain ⟨rfl, rfl⟩ := h1
    rw [List.nodup_cons]
    cases hp : F.supParent a with
    | none => simp [F.supAnc_eq, hp]
    | some p =>
      have hs : F.supAnc a = F.chain p := by rw [F.supAnc_eq', hp]
      refine ⟨?_, ih p hs.symm⟩
      intro hmem
      rw [hs] at hmem
      have := (F.chain_suffix_of_mem hmem).length_le
      rw [hl, hs] at this
      simp only [List.length_cons] at this; omega

theorem not_mem_supAnc (e : E) : e ∉ F.supAnc e := by
  have := F.chain_nodup e
  unfold chain at this
  rw [List.nodup_cons] at this
  exact this.1

theorem leafAnc_suffix {d : D} {e : E} (h : e ∈ F.leafAnc d) : F.chain e <:+ F.leafAnc d := by
  rw [F.leafAnc_eq] at h ⊢
  cases hp : F.leafParent d with
  | none => simp [hp] at h
  | some p => simp only [hp] at h; exact F.chain_suffix_of_mem h

theorem leafAnc_nodup (d : D) : (F.leafAnc d).Nodup := by
  rw [F.leafAnc_eq]
  split
  · simp
  · exact F.chain_nodup _

theorem path_nodup (d : D) : (F.path d).Nodup := by
  unfold path up anc
  rw [List.nodup_cons]
  refine ⟨by simp, ?_⟩
  exact (F.leafAnc_nodup d).map (fun a b h => by injection h)

/-- A list of superstates that is closed under taking ancestors. -/
def Closed (l : List E) : Prop := ∀ e ∈ l, ∀ f ∈ F.chain e, f ∈ l

theorem chain_closed (e : E) : F.Closed (F.chain e) := fun _ hf _ hg => F.mem_chain_trans hg hf

theorem leafAnc_closed (d : D) : F.Closed (F.leafAnc d) := fun _ hf _ hg => (F.leafAnc_suffix hf).subset hg

/-- Every element is followed by its own ancestors. -/
inductive Asc : List E → Prop where
  | nil : Asc []
  | cons {e} : Asc (F.supAnc e) → Asc (e :: F.supAnc e)

theorem asc_chain (e : E) : F.Asc (F.chain e) := by
  generalize hl : F.chain e = l
  induction l generalizing e with
  | nil => exact .nil
  | cons a l ih =>
    have h1 : a = e ∧ l = F.supAnc e := by
      unfold chain at hl; simp at hl; exact ⟨hl.1.symm, hl.2.symm⟩
    obtain ⟨rfl, rfl⟩ := h1
    refine .cons ?_
    cases hp : F.supParent a with
    | none => simp only [F.supAnc_eq, hp]; exact .nil
    | some p =>
      have hs : F.supAnc a = F.chain p := by rw [F.supAnc_eq', hp]
      exact ih p hs.symm

theorem asc_leafAnc (d : D) : F.Asc (F.leafAnc d) := by
  rw [F.leafAnc_eq]
  split
  · exact .nil
  · exact F.asc_chain _

variable [DecidableEq E]

/-- In an ascending list, the elements outside an ancestor-closed set come first. -/
theorem filter_append_filter {l k : List E} (hl : F.Asc l) (hk : F.Closed k) :
    l.filter (· ∉ k) ++ l.filter (· ∈ k) = l := by
  induction hl with
  | nil => simp
  | @cons e h ih =>
    by_cases hm : e ∈ k
    · have hall : ∀ f ∈ e :: F.supAnc e, f ∈ k := fun f hf => hk e hm f hf
      have h1 : (e :: F.supAnc e).filter (· ∉ k) = [] := by
        rw [List.filter_eq_nil_iff]; intro a ha; simp [hall a ha]
      have h2 : (e :: F.supAnc e).filter (· ∈ k) = e :: F.supAnc e := by
        rw [List.filter_eq_self]; intro a ha; simp [hall a ha]
      rw [h1, h2, List.nil_append]
    · rw [List.filter_cons_of_pos (by simpa using hm), List.filter_cons_of_neg (by simpa using hm)]
      rw [List.cons_append, ih]

/-- The common part of two ascending closed lists is the same list. -/
theorem common_length_comm {l k : List E} (hl : l.Nodup) (hk : k.Nodup) :
    (l.filter (· ∈ k)).length = (k.filter (· ∈ l)).length := by
  have hp : (l.filter (· ∈ k)).Perm (k.filter (· ∈ l)) := by
    rw [List.perm_ext_iff_of_nodup (hl.filter _) (hk.filter _)]
    intro a
    simp [and_comm]
  exact hp.length_eq

theorem not_mem_chain_of_length {e f : E} (hlen : (F.chain f).length ≤ (F.chain e).length)
    (hne : e ≠ f) : e ∉ F.chain f := by
  intro h
  have hs := F.chain_suffix_of_mem h
  have := hs.eq_of_length_le hlen
  unfold chain at this
  injection this with h1 h2
  exact hne h1

variable [DecidableEq D]

theorem mem_path_sup {d : D} {e : E} : Node.sup e ∈ F.path d ↔ e ∈ F.leafAnc d := by
  simp [path, up, anc]

theorem mem_path_leaf {d d' : D} : Node.leaf d' ∈ F.path d ↔ d' = d := by
  simp [path, up]

theorem exits_of_ne {d t : D} (h : d ≠ t) :
    F.exits d t = .leaf d :: ((F.leafAnc d).filter (· ∉ F.leafAnc t)).map .sup := by
  unfold exits
  rw [if_neg h]
  conv => lhs; rw [show F.path d = .leaf d :: (F.leafAnc d).map .sup from rfl]
  rw [List.filter_cons_of_pos (by simp [F.mem_path_leaf, h]), List.filter_map]
  congr 3
  funext e
  simp [F.mem_path_sup]

theorem entries_of_ne {d t : D} (h : d ≠ t) :
    F.entries d t = (.leaf t :: ((F.leafAnc t).filter (· ∉ F.leafAnc d)).map .sup).reverse := by
  have := F.exits_of_ne (Ne.symm h)
  unfold exits at this
  rw [if_neg (Ne.symm h)] at this
  unfold entries
  rw [if_neg h, this]

/-- The exits are the innermost part of the source path. -/
theorem exits_eq_take {d t : D} (h : d ≠ t) :
    F.exits d t = (F.path d).take
      ((F.leafAnc d).length + 1 - ((F.leafAnc d).filter (· ∈ F.leafAnc t)).length) := by
  rw [F.exits_of_ne h]
  have hsplit := F.filter_append_filter (F.asc_leafAnc d) (F.leafAnc_closed t)
  have hlen := congrArg List.length hsplit
  rw [List.length_append] at hlen
  have : (F.leafAnc d).length + 1 - ((F.leafAnc d).filter (· ∈ F.leafAnc t)).length
      = ((F.leafAnc d).filter (· ∉ F.leafAnc t)).length + 1 := by omega
  rw [this]
  show _ = (Node.leaf d :: (F.leafAnc d).map .sup).take _
  rw [List.take_succ_cons, ← List.map_take]
  congr 2
  conv => rhs; rw [← hsplit]
  simp

theorem entries_eq_take {d t : D} (h : d ≠ t) :
    F.entries d t = ((F.path t).take
      ((F.leafAnc t).length + 1 - ((F.leafAnc d).filter (· ∈ F.leafAnc t)).length)).reverse := by
  rw [F.entries_of_ne h, ← F.exits_of_ne (Ne.symm h), F.exits_eq_take (Ne.symm h),
    common_length_comm (F.leafAnc_nodup t) (F.leafAnc_nodup d)]

end Statig.Forest
