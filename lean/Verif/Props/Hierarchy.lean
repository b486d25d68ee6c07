import Verif.Proofs.Walk
import Verif.Props.Sample
/-!
# Properties of the hierarchy functions: C23–C27
-/
namespace Statig
variable {S : Sig} {m : Machine S} {F : Forest S.D S.E} {mode : Mode}

/-! ## C23 -/

/-- C23. `depth` of a state or superstate is one plus the number of its ancestors. -/
theorem C23_depth (hF : Follows m F) :
    (∀ s, depth m s = some (1 + (F.leafAnc (m.discr s)).length)) ∧
    (∀ v, supDepth m v = some (1 + (F.supAnc (m.supDiscr v)).length)) := by
  constructor
  · intro s; rw [depth_eq hF, Nat.add_comm]
  · intro v; rw [supDepth_eq hF]; simp [Forest.chain, Nat.add_comm]

/-- C23 applies: the deepest state of the sample has depth 4. -/
example : depth (Sample.machine false) (.s211, 7) = some 4 := (C23_depth (Sample.follows false)).1 _

/-! ## C24 -/

/-- `e` is an ancestor of both variants. -/
def Forest.Shared {D E : Type} (F : Forest D E) (d t : D) (e : E) : Prop := e ∈ F.leafAnc d ∧ e ∈ F.leafAnc t

/-- C24. For different variants `common_ancestor_depth` is the number of superstates that are ancestors of
both, which is the depth of the deepest of them (0 if there is none); it is symmetric; for the same variant it
is the state's depth. -/
theorem C24_common_ancestor_depth (hF : Follows m F) (s t : S.St) :
    (m.discr s ≠ m.discr t → ∃ k, commonAncestorDepth m s t = some k ∧
      k = ((F.leafAnc (m.discr s)).filter (· ∈ F.leafAnc (m.discr t))).length ∧
      ((∃ e, F.Shared (m.discr s) (m.discr t) e ∧ k = 1 + (F.supAnc e).length ∧
          ∀ e', F.Shared (m.discr s) (m.discr t) e' → 1 + (F.supAnc e').length ≤ k) ∨
        ((∀ e, ¬F.Shared (m.discr s) (m.discr t) e) ∧ k = 0))) ∧
    (m.discr s = m.discr t → commonAncestorDepth m s t = depth m s) ∧
    commonAncestorDepth m s t = commonAncestorDepth m t s := by
  refine ⟨fun h => ⟨_, commonAncestorDepth_of_ne hF s t h, rfl, ?_⟩, fun h => ?_, ?_⟩
  · generalize m.discr s = d
    generalize m.discr t = t
    have hsplit := F.filter_append_filter (F.asc_leafAnc d) (F.leafAnc_closed t)
    cases hc : (F.leafAnc d).filter (· ∈ F.leafAnc t) with
    | nil =>
      right
      refine ⟨fun e he => ?_, rfl⟩
      have : e ∈ (F.leafAnc d).filter (· ∈ F.leafAnc t) := List.mem_filter.2 ⟨he.1, by simpa using he.2⟩
      rw [hc] at this; simp at this
    | cons e l =>
      left
      have hmem : e ∈ (F.leafAnc d).filter (· ∈ F.leafAnc t) := by rw [hc]; simp
      have he : F.Shared d t e := by
        have := List.mem_filter.1 hmem
        exact ⟨this.1, by simpa using this.2⟩
      -- the shared part is the chain of `e`
      have hchain : e :: l = F.chain e := by
        have h1 : F.chain e <:+ F.leafAnc d := F.leafAnc_suffix he.1
        have h2 : e :: l <:+ F.leafAnc d := by rw [← hc]; conv => rhs; rw [← hsplit]
                                               exact List.suffix_append _ _
        have hnd := F.leafAnc_nodup d
        rcases List.suffix_or_suffix_of_suffix h1 h2 with h3 | h3
        · obtain ⟨a, ha⟩ := h3
          cases a with
          | nil => exact ha.symm
          | cons x a =>
            exfalso
            have hnd' : (e :: l).Nodup := hnd.sublist h2.sublist
            rw [← ha] at hnd'
            have hx : x = e := by injection ha
            subst hx
            rw [List.cons_append, List.nodup_cons] at hnd'
            exact hnd'.1 (by simp [Forest.chain])
        · obtain ⟨a, ha⟩ := h3
          cases a with
          | nil => exact ha
          | cons x a =>
            exfalso
            have hnd' : (F.chain e).Nodup := F.chain_nodup e
            rw [← ha] at hnd'
            have hx : x = e := by unfold Forest.chain at ha; injection ha
            subst hx
            rw [List.cons_append, List.nodup_cons] at hnd'
            exact hnd'.1 (by simp)
      refine ⟨e, he, ?_, ?_⟩
      · rw [hchain]; simp [Forest.chain, Nat.add_comm]
      · intro e' he'
        have hm : e' ∈ (F.leafAnc d).filter (· ∈ F.leafAnc t) :=
          List.mem_filter.2 ⟨he'.1, by simpa using he'.2⟩
        rw [hc, hchain] at hm
        have := (F.chain_suffix_of_mem hm).length_le
        rw [hchain]
        simpa [Forest.chain, Nat.add_comm] using this
  · unfold commonAncestorDepth
    rw [if_pos (by simp [sameState, h])]
  · by_cases h : m.discr s = m.discr t
    · unfold commonAncestorDepth
      rw [if_pos (by simp [sameState, h]), if_pos (by simp [sameState, h]), depth_eq hF, depth_eq hF, h]
    · rw [commonAncestorDepth_of_ne hF s t h, commonAncestorDepth_of_ne hF t s (Ne.symm h),
        Forest.common_length_comm (F.leafAnc_nodup _) (F.leafAnc_nodup _)]

/-- C24 for superstates: `SuperstateExt::common_ancestor_depth` is the number of superstates that are the
first or an ancestor of it and also the second or an ancestor of it. -/
theorem C24_superstate_common_ancestor_depth (hF : Follows m F) (v w : S.Sup) :
    supCommonAncestorDepth m v w = some (((m.supDiscr v :: F.supAnc (m.supDiscr v)).filter
      (· ∈ m.supDiscr w :: F.supAnc (m.supDiscr w))).length) :=
  supCommonAncestorDepth_eq hF v w

/-- C24 applies: `S11` and `S211` share only `S`; `S11` and `S12` share `S1` and `S`. -/
example : commonAncestorDepth (Sample.machine false) (.s11, 7) (.s211, 0) = some 1 ∧
    commonAncestorDepth (Sample.machine false) (.s11, 7) (.s12, 0) = some 2 ∧
    supCommonAncestorDepth (Sample.machine false) (.s1, 7) (.s21, 0) = some 1 :=
  ⟨commonAncestorDepth_of_ne (Sample.follows false) _ _ (by decide),
    commonAncestorDepth_of_ne (Sample.follows false) _ _ (by decide),
    supCommonAncestorDepth_eq (Sample.follows false) _ _⟩

/-! ## C25 -/

/-- C25. `transition_path` always returns a pair (it never panics), swapping the arguments swaps the pair,
both components are positive and at most the depth, and for different variants the levels not exited and the
levels not entered are both the common ancestor depth. -/
theorem C25_transition_path (hF : Follows m F) (s t : S.St) :
    ∃ x n ds dt, transitionPath m s t = some (.ok (x, n)) ∧ transitionPath m t s = some (.ok (n, x)) ∧
      depth m s = some ds ∧ depth m t = some dt ∧ 1 ≤ x ∧ x ≤ ds ∧ 1 ≤ n ∧ n ≤ dt ∧
      (m.discr s ≠ m.discr t → commonAncestorDepth m s t = some (ds - x) ∧
        commonAncestorDepth m s t = some (dt - n)) ∧
      (m.discr s = m.discr t → x = 1 ∧ n = 1) := by
  by_cases h : m.discr s = m.discr t
  · refine ⟨1, 1, _, _, transitionPath_of_eq s t h, transitionPath_of_eq t s h.symm, depth_eq hF s,
      depth_eq hF t, by omega, by omega, by omega, by omega, fun h' => absurd h h', fun _ => ⟨rfl, rfl⟩⟩
  · have hsym := Forest.common_length_comm (F.leafAnc_nodup (m.discr s)) (F.leafAnc_nodup (m.discr t))
    have h1 : ((F.leafAnc (m.discr s)).filter (· ∈ F.leafAnc (m.discr t))).length ≤
      (F.leafAnc (m.discr s)).length := List.length_filter_le _ _
    have h2 : ((F.leafAnc (m.discr t)).filter (· ∈ F.leafAnc (m.discr s))).length ≤
      (F.leafAnc (m.discr t)).length := List.length_filter_le _ _
    have ht := transitionPath_of_ne hF t s (Ne.symm h)
    rw [← hsym] at ht
    refine ⟨_, _, _, _, transitionPath_of_ne hF s t h, ht, depth_eq hF s,
      depth_eq hF t, by omega, by omega, by omega, by omega, fun _ => ⟨?_, ?_⟩, fun h' => absurd h' h⟩
    · rw [commonAncestorDepth_of_ne hF s t h]; congr 1; omega
    · rw [commonAncestorDepth_of_ne hF s t h]; congr 1; omega

/-- C25 applies. -/
example : transitionPath (Sample.machine false) (.s12, 7) (.s211, 0) = some (.ok (2, 3)) :=
  transitionPath_of_ne (Sample.follows false) _ _ (by decide)

/-! ## C26 -/

/-- C26. `same_state` is an equivalence on states and on superstates. -/
theorem C26_same_state_equivalence :
    (∀ s : S.St, sameState m s s = true) ∧
    (∀ s t : S.St, sameState m s t = true → sameState m t s = true) ∧
    (∀ s t u : S.St, sameState m s t = true → sameState m t u = true → sameState m s u = true) ∧
    (∀ s : S.Sup, supSameState m s s = true) ∧
    (∀ s t : S.Sup, supSameState m s t = true → supSameState m t s = true) ∧
    (∀ s t u : S.Sup, supSameState m s t = true → supSameState m t u = true →
      supSameState m s u = true) := by
  refine ⟨?_, ?_, ?_, ?_, ?_, ?_⟩ <;> simp only [sameState, supSameState, beq_iff_eq]
  · intro s; trivial
  · intro s t h; exact h.symm
  · intro s t u h h'; exact h.trans h'
  · intro s; trivial
  · intro s t h; exact h.symm
  · intro s t u h h'; exact h.trans h'

/-- C26. `same_state` and the transition path depend only on the variants: changing the local storage of the
source or the target never changes which levels a transition exits and enters. -/
theorem C26_only_the_variant_matters (hF : Follows m F) {s s' t t' : S.St} (hs : m.discr s = m.discr s')
    (ht : m.discr t = m.discr t') :
    sameState m s t = sameState m s' t' ∧ transitionPath m s t = transitionPath m s' t' ∧
    depth m s = depth m s' ∧ commonAncestorDepth m s t = commonAncestorDepth m s' t' := by
  refine ⟨by simp [sameState, hs, ht], ?_, by rw [depth_eq hF, depth_eq hF, hs], ?_⟩
  · by_cases h : m.discr s = m.discr t
    · rw [transitionPath_of_eq s t h, transitionPath_of_eq s' t' (by rw [← hs, ← ht, h])]
    · rw [transitionPath_of_ne hF s t h, transitionPath_of_ne hF s' t' (by rw [← hs, ← ht]; exact h), hs, ht]
  · by_cases h : m.discr s = m.discr t
    · unfold commonAncestorDepth
      rw [if_pos (by simp [sameState, h]), if_pos (by simp [sameState, ← hs, ← ht, h]), depth_eq hF,
        depth_eq hF, hs]
    · rw [commonAncestorDepth_of_ne hF s t h,
        commonAncestorDepth_of_ne hF s' t' (by rw [← hs, ← ht]; exact h), hs, ht]

/-- C26 applies: two values of one variant. -/
example : (Sample.machine false).discr (.s11, 7) = (Sample.machine false).discr (.s11, 8) ∧
    ((.s11, 7) : Sample.D × Nat) ≠ (.s11, 8) := ⟨rfl, by decide⟩

/-! ## C27 -/

/-- What a run of one of the library functions may log: `x` returns; if it completes it has logged exactly
`L`, otherwise an initial part of `L`; and the variant is kept. -/
def Logs (m : Machine S) (x : Eff S S.St Unit) (s : S.St) (L : List (Step S.D S.E S.Ev S.St)) : Prop :=
  ∀ g, ∃ o s' g' T, x s g = some (o, s', g') ∧ g'.trace = g.trace ++ T ∧ m.discr s' = m.discr s ∧
    (o = .ok () → m.steps T = L) ∧ m.steps T <+: L

theorem Does.logs {x : Eff S S.St Unit} {s L} (h : Does m m.discr x s (fun L' _ => L' = L)) : Logs m x s L := by
  intro g
  obtain ⟨o, s', g', T, h1, h2, h3, h4, ⟨L', -, rfl, h5⟩, -⟩ := h g
  exact ⟨o, s', g', T, h1, h2, h3, h4 (), h5⟩

/-- C27, exit (both modes): the exit actions of the innermost `min(levels, depth)` nodes, innermost first. -/
theorem C27_exit (hF : Follows m F) (levels : Nat) (s : S.St) :
    Logs m (mode.exit m levels) s (((F.path (m.discr s)).take levels).map .exit) := by
  cases mode with
  | blocking => exact (does_exit hF levels s).logs
  | awaitable => exact (does_awaitExit hF levels s).logs

/-- C27, blocking enter: the entry actions of the innermost `min(levels, depth)` nodes, outermost first. -/
theorem C27_blocking_enter (hF : Follows m F) (levels : Nat) (s : S.St) :
    Logs m (Blocking.enter m levels) s (((F.path (m.discr s)).take levels).reverse.map .entry) :=
  (does_enter hF levels s).logs

/-- C27, awaitable enter: the same, except that if the state has a superstate, the outermost one's entry
action is repeated once more for each level beyond the depth. -/
theorem C27_awaitable_enter (hF : Follows m F) (levels : Nat) (s : S.St) :
    Logs m (Awaitable.enter m levels) s (((match (F.leafAnc (m.discr s)).getLast? with
        | none => []
        | some root => List.replicate (levels - (F.path (m.discr s)).length) (.sup root)) ++
      ((F.path (m.discr s)).take levels).reverse).map .entry) := by
  have := does_awaitEnter' hF levels s
  rw [awaitEntered_eq] at this
  exact this.logs

/-- C27 applies: five levels on a state of depth 3. -/
example : (∃ r, Blocking.enter (Sample.machine false) 5 (.s11, 7)
      { sh := ⟨[], 0⟩, ctx := 0, sched := [], trace := [] } = some r ∧
      r.2.2.sh.path = [.enter (.sup .s), .enter (.sup .s1), .enter (.leaf .s11)]) ∧
    (∃ r, Awaitable.enter (Sample.machine false) 5 (.s11, 7)
      { sh := ⟨[], 0⟩, ctx := 0, sched := [], trace := [] } = some r ∧
      r.2.2.sh.path = [.enter (.sup .s), .enter (.sup .s), .enter (.sup .s), .enter (.sup .s1),
        .enter (.leaf .s11)]) := by
  constructor
  · apply Sample.witness; decide +kernel
  · apply Sample.witness; decide +kernel

end Statig
