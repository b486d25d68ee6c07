import Verif.Model.Impure
import Verif.Proofs.Values
/-! # Machines whose `superstate()` has effects: pure ones are the machines of the rest of the model -/
namespace Statig
namespace Impure
variable {S : Sig} {σ τ ρ α β : Type} {m : Machine S}

section order
open Lean.Order

theorem admissible_le (c : Eff S σ α) : admissible (fun x : Eff S σ α => x ⊑ c) :=
  fun _ hc h => csup_le hc h

theorem le_rfl {x : Eff S σ α} : x ⊑ x := PartialOrder.rel_refl

theorem le_bind {x y : Eff S σ α} {f h : α → Eff S σ β} (hx : x ⊑ y) (hf : ∀ a, f a ⊑ h a) :
    (x >>= f) ⊑ (y >>= h) :=
  PartialOrder.rel_trans (MonoBind.bind_mono_left hx) (MonoBind.bind_mono_right hf)

theorem le_borrow {sup : σ → Option (τ × (τ → σ))} {x y : Eff S τ α} (hx : x ⊑ y) :
    Eff.borrow sup x ⊑ Eff.borrow sup y :=
  Eff.borrow_mono sup (fun z : Eff S τ α => z) (fun _ _ h => h) x y hx

theorem le_climb {sup : σ → Borrowed σ τ} {x y : Eff S τ α} (hx : x ⊑ y) : climb sup x ⊑ climb sup y :=
  climb_mono sup (fun z : Eff S τ α => z) (fun _ _ h => h) x y hx

end order

theorem superstate_none {s : S.St} (h : m.superstate s = none) : m.impure.superstate s = .none s := by
  simp [Machine.impure, h]

theorem superstate_some {s : S.St} {v back} (h : m.superstate s = some (v, back)) :
    m.impure.superstate s = .some v back := by
  simp [Machine.impure, h]

theorem supSuperstate_none {v : S.Sup} (h : m.supSuperstate v = none) : m.impure.supSuperstate v = .none v := by
  simp [Machine.impure, h]

theorem supSuperstate_some {v : S.Sup} {w back} (h : m.supSuperstate v = some (w, back)) :
    m.impure.supSuperstate v = .some w back := by
  simp [Machine.impure, h]

theorem climb_superstate (body : Eff S S.Sup α) :
    climb m.impure.superstate body = Eff.borrow m.superstate body := by
  funext s g
  unfold climb Eff.borrow
  cases h : m.superstate s with
  | none => rw [superstate_none h]
  | some p => rw [superstate_some h]; rfl

theorem climb_supSuperstate (body : Eff S S.Sup α) :
    climb m.impure.supSuperstate body = Eff.borrow m.supSuperstate body := by
  funext s g
  unfold climb Eff.borrow
  cases h : m.supSuperstate s with
  | none => rw [supSuperstate_none h]
  | some p => rw [supSuperstate_some h]; rfl

section
variable (m)

theorem blockingSupHandle_impure (ev : S.Ev) : blockingSupHandle m.impure ev = Blocking.supHandle m ev := by
  apply Lean.Order.PartialOrder.rel_antisymm
  · refine blockingSupHandle.fixpoint_induct m.impure ev _ (admissible_le (Blocking.supHandle m ev)) ?_
    intro x hx
    rw [Blocking.supHandle]
    refine le_bind le_rfl fun r => ?_
    cases r with
    | handled => exact le_rfl
    | transition t => exact le_rfl
    | super =>
      simp only [climb_supSuperstate]
      exact le_bind (le_borrow (le_bind le_rfl fun _ => le_bind hx fun _ => le_rfl)) fun _ => le_rfl
  · refine Blocking.supHandle.fixpoint_induct m ev _ (admissible_le (blockingSupHandle m.impure ev)) ?_
    intro x hx
    rw [blockingSupHandle]
    refine le_bind le_rfl fun r => ?_
    cases r with
    | handled => exact le_rfl
    | transition t => exact le_rfl
    | super =>
      simp only [climb_supSuperstate]
      exact le_bind (le_borrow (le_bind le_rfl fun _ => le_bind hx fun _ => le_rfl)) fun _ => le_rfl

theorem awaitableHandleLoop_impure (ev : S.Ev) :
    awaitableHandleLoop m.impure ev = Awaitable.handleLoop m ev := by
  apply Lean.Order.PartialOrder.rel_antisymm
  · refine awaitableHandleLoop.fixpoint_induct m.impure ev _ (admissible_le (Awaitable.handleLoop m ev)) ?_
    intro x hx
    rw [Awaitable.handleLoop]
    refine le_bind le_rfl fun _ => le_bind le_rfl fun r => le_bind le_rfl fun _ => ?_
    cases r with
    | handled => exact le_rfl
    | transition t => exact le_rfl
    | super =>
      simp only [climb_supSuperstate]
      exact le_bind (le_borrow hx) fun _ => le_rfl
  · refine Awaitable.handleLoop.fixpoint_induct m ev _ (admissible_le (awaitableHandleLoop m.impure ev)) ?_
    intro x hx
    rw [awaitableHandleLoop]
    refine le_bind le_rfl fun _ => le_bind le_rfl fun r => le_bind le_rfl fun _ => ?_
    cases r with
    | handled => exact le_rfl
    | transition t => exact le_rfl
    | super =>
      simp only [climb_supSuperstate]
      exact le_bind (le_borrow hx) fun _ => le_rfl

theorem handle_impure (mode : Mode) (ev : S.Ev) : m.impure.handle mode ev = mode.handle m ev := by
  cases mode
  · show blockingHandle m.impure ev = Blocking.handle m ev
    unfold blockingHandle Blocking.handle
    simp only [climb_superstate, blockingSupHandle_impure]
    rfl
  · show awaitableHandle m.impure ev = Awaitable.handle m ev
    unfold awaitableHandle Awaitable.handle
    simp only [climb_superstate, awaitableHandleLoop_impure]
    rfl

theorem blockingSupEnter_impure : ∀ n, blockingSupEnter m.impure n = Blocking.supEnter m n
  | 0 => rfl
  | 1 => rfl
  | n + 2 => by
    show (climb m.impure.supSuperstate (blockingSupEnter m.impure (n + 1)) >>= _) = _
    rw [climb_supSuperstate, blockingSupEnter_impure (n + 1)]; rfl

theorem blockingSupExit_impure : ∀ n, blockingSupExit m.impure n = Blocking.supExit m n
  | 0 => rfl
  | 1 => rfl
  | n + 2 => by
    show (callSupExit m >>= fun _ => climb m.impure.supSuperstate (blockingSupExit m.impure (n + 1)) >>= _) = _
    rw [climb_supSuperstate, blockingSupExit_impure (n + 1)]; rfl

theorem awaitableClimbEntry_impure : ∀ n, awaitableClimbEntry m.impure n = Awaitable.climbEntry m n
  | 0 => rfl
  | n + 1 => by
    show (climb m.impure.supSuperstate (awaitableClimbEntry m.impure n) >>= _) = _
    rw [climb_supSuperstate, awaitableClimbEntry_impure n]; rfl

theorem awaitableExitLoop_impure : ∀ n, awaitableExitLoop m.impure n = Awaitable.exitLoop m n
  | 0 => rfl
  | 1 => rfl
  | n + 2 => by
    show (callSupExit m >>= fun _ => climb m.impure.supSuperstate (awaitableExitLoop m.impure (n + 1)) >>= _) = _
    rw [climb_supSuperstate, awaitableExitLoop_impure (n + 1)]; rfl

theorem awaitableEnter_impure : ∀ n, awaitableEnter m.impure n = Awaitable.enter m n
  | 0 => rfl
  | 1 => rfl
  | n + 2 => by
    show (climb m.impure.superstate (awaitableClimbEntry m.impure n) >>= fun _ => awaitableEnter m.impure (n + 1)) = _
    rw [climb_superstate, awaitableClimbEntry_impure m n, awaitableEnter_impure (n + 1)]; rfl

theorem enter_impure (mode : Mode) (n : Nat) : m.impure.enter mode n = mode.enter m n := by
  cases mode
  · show blockingEnter m.impure n = Blocking.enter m n
    match n with
    | 0 => rfl
    | 1 => rfl
    | n + 2 =>
      show (climb m.impure.superstate (blockingSupEnter m.impure (n + 1)) >>= _) = _
      rw [climb_superstate, blockingSupEnter_impure]; rfl
  · exact awaitableEnter_impure m n

theorem exit_impure (mode : Mode) (n : Nat) : m.impure.exit mode n = mode.exit m n := by
  cases mode
  · show blockingExit m.impure n = Blocking.exit m n
    match n with
    | 0 => rfl
    | 1 => rfl
    | n + 2 =>
      show (callExit m >>= fun _ => climb m.impure.superstate (blockingSupExit m.impure (n + 1)) >>= _) = _
      rw [climb_superstate, blockingSupExit_impure]; rfl
  · show awaitableExit m.impure n = Awaitable.exit m n
    unfold awaitableExit Awaitable.exit
    simp only [climb_superstate, awaitableExitLoop_impure]
    rfl


/-! ## The hierarchy -/

theorem supDepth_up (v : S.Sup) (g : Glob S) (r) (h : supDepth m.impure v g = some r) :
    ∃ d, Statig.supDepth m v = some d ∧ r = (.ok d, v, g) := by
  refine supDepth.fixpoint_induct m.impure
    (fun x => ∀ v g r, x v g = some r → ∃ d, Statig.supDepth m v = some d ∧ r = (.ok d, v, g))
    (Eff.admissible fun v g r => ∃ d, Statig.supDepth m v = some d ∧ r = (.ok d, v, g)) ?_ v g r h
  intro x hx v g r h
  rw [climb_supSuperstate] at h
  rw [Statig.supDepth]
  cases hs : m.supSuperstate v with
  | none =>
    have e : Eff.borrow m.supSuperstate x v g = some (.ok none, v, g) := by simp [Eff.borrow, hs]
    simp only [Bind.bind, Eff.bind, e] at h
    cases h
    exact ⟨1, rfl, rfl⟩
  | some p =>
    obtain ⟨w, back⟩ := p
    cases hw : x w g with
    | none =>
      have e : Eff.borrow m.supSuperstate x v g = none := by simp [Eff.borrow, hs, hw]
      simp only [Bind.bind, Eff.bind, e] at h
      cases h
    | some q =>
      obtain ⟨d, hd, rfl⟩ := hx w g q hw
      have e : Eff.borrow m.supSuperstate x v g = some (.ok (some d), v, g) := by
        simp [Eff.borrow, hs, hw, Out.map, m.supSuperstate_back v w back hs]
      simp only [Bind.bind, Eff.bind, e] at h
      cases h
      exact ⟨d + 1, by simp [hd], rfl⟩

theorem supDepth_down (v : S.Sup) (d : Nat) (h : Statig.supDepth m v = some d) :
    ∀ g, supDepth m.impure v g = some (.ok d, v, g) := by
  refine Statig.supDepth.partial_correctness m (fun v d => ∀ g, supDepth m.impure v g = some (.ok d, v, g)) ?_ v d h
  intro x hx v d h g
  rw [supDepth, climb_supSuperstate]
  cases hs : m.supSuperstate v with
  | none =>
    rw [hs] at h
    cases h
    have e : Eff.borrow m.supSuperstate (supDepth m.impure) v g = some (.ok none, v, g) := by simp [Eff.borrow, hs]
    simp only [Bind.bind, Eff.bind, e]
    rfl
  | some p =>
    obtain ⟨w, back⟩ := p
    rw [hs] at h
    cases hw : x w with
    | none => simp [hw] at h
    | some d' =>
      have h : d' + 1 = d := by simpa [hw] using h
      subst h
      have e : Eff.borrow m.supSuperstate (supDepth m.impure) v g = some (.ok (some d'), v, g) := by
        simp [Eff.borrow, hs, hx w d' hw g, Out.map, m.supSuperstate_back v w back hs]
      simp only [Bind.bind, Eff.bind, e]
      rfl

theorem supDepth_impure (v : S.Sup) (g : Glob S) :
    supDepth m.impure v g = (Statig.supDepth m v).map fun d => (.ok d, v, g) := by
  cases h : Statig.supDepth m v with
  | some d => exact supDepth_down m v d h g
  | none =>
    cases h' : supDepth m.impure v g with
    | none => rfl
    | some r =>
      obtain ⟨d, hd, -⟩ := supDepth_up m v g r h'
      rw [h] at hd; cases hd

theorem depth_impure (s : S.St) (g : Glob S) :
    depth m.impure s g = (Statig.depth m s).map fun d => (.ok d, s, g) := by
  unfold depth Statig.depth
  rw [climb_superstate]
  cases hs : m.superstate s with
  | none =>
    have e : Eff.borrow m.superstate (supDepth m.impure) s g = some (.ok none, s, g) := by simp [Eff.borrow, hs]
    simp only [Bind.bind, Eff.bind, e]
    rfl
  | some p =>
    obtain ⟨v, back⟩ := p
    have e : Eff.borrow m.superstate (supDepth m.impure) s g =
        (Statig.supDepth m v).map fun d => (.ok (some d), s, g) := by
      simp only [Eff.borrow, hs, supDepth_impure]
      cases Statig.supDepth m v <;> simp [Out.map, m.superstate_back s v back hs]
    simp only [Bind.bind, Eff.bind, e]
    cases Statig.supDepth m v <;> rfl

/-- Compute from `self` without writing it. -/
def reads (f : σ → Option α) : Eff S σ α := fun s g => (f s).map fun a => (.ok a, s, g)

theorem reads_bind (f : σ → Option α) (k : α → σ → Option β) :
    (reads f >>= fun a => reads (k a) : Eff S σ β) = reads fun s => (f s).bind fun a => k a s := by
  funext s g
  show Eff.bind _ _ s g = _
  unfold Eff.bind reads
  cases h : f s <;> simp [h]

theorem reads_pure (a : α) : (pure a : Eff S σ α) = reads fun _ => some a := rfl

theorem reads_self : (Eff.self : Eff S σ σ) = reads fun s => some s := rfl

theorem reads_first (f : σ → Option α) : (first (reads f) : Eff S (σ × τ) α) = reads fun p => f p.1 := by
  funext p g
  unfold first reads
  cases h : f p.1 <;> simp [h]

theorem reads_second (f : σ → Option α) : (second (reads f) : Eff S (τ × σ) α) = reads fun p => f p.2 := by
  funext p g
  unfold second reads
  cases h : f p.2 <;> simp [h]

/-- `sup` only looks, and finds what `next` finds. -/
def Looks (sup : σ → Borrowed σ τ) (next : σ → Option τ) : Prop :=
  ∀ s, match sup s with
    | .some v back => next s = some v ∧ back v = s
    | .none s' => next s = none ∧ s' = s
    | .panic _ => False

theorem reads_climb {sup : σ → Borrowed σ τ} {next : σ → Option τ} (h : Looks sup next) (f : τ → Option α) :
    (climb sup (reads f) : Eff S σ (Option α)) =
      reads fun s => match next s with
        | some v => (f v).map some
        | none => some none := by
  funext s g
  have hs := h s
  unfold climb reads
  cases e : sup s with
  | panic s' => rw [e] at hs; exact hs.elim
  | none s' =>
    rw [e] at hs
    obtain ⟨h1, rfl⟩ := hs
    simp [h1]
  | some v back =>
    rw [e] at hs
    obtain ⟨h1, h2⟩ := hs
    simp only [h1]
    cases f v with
    | none => rfl
    | some a => simp [Out.map, h2]

theorem looks_superstate : Looks m.impure.superstate fun s => (m.superstate s).map (·.1) := by
  intro s
  cases h : m.superstate s with
  | none => rw [superstate_none h]; simp [h]
  | some p =>
    obtain ⟨v, back⟩ := p
    rw [superstate_some h]; exact ⟨by simp [h], m.superstate_back s v back h⟩

theorem looks_supSuperstate : Looks m.impure.supSuperstate fun v => (m.supSuperstate v).map (·.1) := by
  intro s
  cases h : m.supSuperstate s with
  | none => rw [supSuperstate_none h]; simp [h]
  | some p =>
    obtain ⟨v, back⟩ := p
    rw [supSuperstate_some h]; exact ⟨by simp [h], m.supSuperstate_back s v back h⟩

theorem Looks.both {sup : σ → Borrowed σ τ} {next : σ → Option τ} (h : Looks sup next) :
    Looks (both sup) fun p => match next p.1, next p.2 with
      | some v, some w => some (v, w)
      | _, _ => none := by
  rintro ⟨a, b⟩
  have ha := h a
  have hb := h b
  simp only [Impure.both]
  cases ea : sup a with
  | panic _ => rw [ea] at ha; exact ha.elim
  | none _ =>
    rw [ea] at ha; obtain ⟨h1, rfl⟩ := ha
    cases eb : sup b with
    | panic _ => rw [eb] at hb; exact hb.elim
    | none _ => rw [eb] at hb; obtain ⟨h2, rfl⟩ := hb; simp [h1]
    | some w bw => rw [eb] at hb; obtain ⟨h2, h3⟩ := hb; simp [h1, h3]
  | some v bv =>
    rw [ea] at ha; obtain ⟨h1, h1'⟩ := ha
    cases eb : sup b with
    | panic _ => rw [eb] at hb; exact hb.elim
    | none _ => rw [eb] at hb; obtain ⟨h2, rfl⟩ := hb; simp [h1, h1', h2]
    | some w bw => rw [eb] at hb; obtain ⟨h2, h3⟩ := hb; simp [h1, h1', h2, h3]

theorem Looks.left {sup : σ → Borrowed σ τ} {next : σ → Option τ} (h : Looks sup next) :
    Looks (left sup : σ × ρ → _) fun p => (next p.1).map (·, p.2) := by
  rintro ⟨a, b⟩
  have ha := h a
  simp only [Impure.left]
  cases ea : sup a with
  | panic _ => rw [ea] at ha; exact ha.elim
  | none _ => rw [ea] at ha; obtain ⟨h1, rfl⟩ := ha; simp [h1]
  | some v bv => rw [ea] at ha; obtain ⟨h1, h1'⟩ := ha; simp [h1, h1']

theorem Looks.right {sup : σ → Borrowed σ τ} {next : σ → Option τ} (h : Looks sup next) :
    Looks (right sup : ρ × σ → _) fun p => (next p.2).map (p.1, ·) := by
  rintro ⟨a, b⟩
  have hb := h b
  simp only [Impure.right]
  cases eb : sup b with
  | panic _ => rw [eb] at hb; exact hb.elim
  | none _ => rw [eb] at hb; obtain ⟨h1, rfl⟩ := hb; simp [h1]
  | some v bv => rw [eb] at hb; obtain ⟨h1, h1'⟩ := hb; simp [h1, h1']

theorem supDepth_reads : supDepth m.impure = reads (Statig.supDepth m) := by
  funext v g; exact supDepth_impure m v g

theorem depth_reads : depth m.impure = reads (Statig.depth m) := by
  funext s g; exact depth_impure m s g

/-- One unfolding of `Impure.supCommonAncestorDepth`. -/
def commonStep (x : Eff S (S.Sup × S.Sup) Nat) : Eff S (S.Sup × S.Sup) Nat := do
  let ds ← first (supDepth m.impure)
  let dt ← second (supDepth m.impure)
  match compare ds dt with
  | .eq =>
    let (source, target) ← Eff.self
    match supSameState m source target with
    | true => first (supDepth m.impure)
    | false =>
      let r ← climb (both m.impure.supSuperstate) x
      match r with
      | some d => pure d
      | none => pure 0
  | .gt =>
    let r ← climb (left m.impure.supSuperstate) x
    match r with
    | some d => pure d
    | none => pure 0
  | .lt =>
    let r ← climb (right m.impure.supSuperstate) x
    match r with
    | some d => pure d
    | none => pure 0

/-- One unfolding of `Statig.supCommonAncestorDepth`. -/
def commonStep' (f : S.Sup → S.Sup → Option Nat) (source target : S.Sup) : Option Nat := do
  let ds ← Statig.supDepth m source
  let dt ← Statig.supDepth m target
  match compare ds dt with
  | .eq =>
    match supSameState m source target with
    | true => Statig.supDepth m source
    | false =>
      match m.supSuperstate source, m.supSuperstate target with
      | some (source, _), some (target, _) => f source target
      | _, _ => some 0
  | .gt =>
    match m.supSuperstate source with
    | some (superstate, _) => f superstate target
    | none => some 0
  | .lt =>
    match m.supSuperstate target with
    | some (superstate, _) => f source superstate
    | none => some 0

theorem reads_bind_some {f : σ → Option α} {k : α → Eff S σ β} {s : σ} {a : α} (h : f s = some a) (g : Glob S) :
    (reads f >>= k) s g = k a s g := by
  show Eff.bind _ _ s g = _
  simp [Eff.bind, reads, h]

theorem reads_bind_none {f : σ → Option α} {k : α → Eff S σ β} {s : σ} (h : f s = none) (g : Glob S) :
    (reads f >>= k) s g = none := by
  show Eff.bind _ _ s g = _
  simp [Eff.bind, reads, h]

theorem climb_orZero {sup : σ → Borrowed σ τ} {next : σ → Option τ} (h : Looks sup next) (f : τ → Option Nat)
    (s : σ) (g : Glob S) :
    ((climb sup (reads f) : Eff S σ _) >>= fun r => match r with
      | some d => pure d
      | none => pure 0) s g = (match next s with
        | some v => f v
        | none => some 0).map fun d => (.ok d, s, g) := by
  rw [reads_climb h]
  cases hn : next s with
  | none => rw [reads_bind_some (a := none) (by simp [hn])]; rfl
  | some v =>
    cases hf : f v with
    | none => rw [reads_bind_none (by simp [hn, hf])]; simp [hf]
    | some d => rw [reads_bind_some (a := some d) (by simp [hn, hf])]; simp [hf]; rfl

theorem self_bind (k : σ → Eff S σ α) (s : σ) (g : Glob S) : (Eff.self >>= k) s g = k s s g := rfl

theorem commonStep_reads (f : S.Sup → S.Sup → Option Nat) :
    commonStep m (reads fun p => f p.1 p.2) = reads fun p => commonStep' m f p.1 p.2 := by
  funext p g
  obtain ⟨a, b⟩ := p
  unfold commonStep commonStep'
  rw [supDepth_reads, reads_first, reads_second]
  cases h1 : Statig.supDepth m a with
  | none => rw [reads_bind_none (by exact h1)]; simp [reads, h1]
  | some ds =>
    rw [reads_bind_some (a := ds) (by exact h1)]
    cases h2 : Statig.supDepth m b with
    | none => rw [reads_bind_none (by exact h2)]; simp [reads, h1, h2]
    | some dt =>
      rw [reads_bind_some (a := dt) (by exact h2)]
      simp only [reads, h1, h2, Option.bind_eq_bind, Option.bind_some]
      generalize compare ds dt = c
      cases c with
      | lt =>
        refine (climb_orZero (looks_supSuperstate m).right (fun p => f p.1 p.2) (a, b) g).trans ?_
        cases m.supSuperstate b <;> rfl
      | gt =>
        refine (climb_orZero (looks_supSuperstate m).left (fun p => f p.1 p.2) (a, b) g).trans ?_
        cases m.supSuperstate a <;> rfl
      | eq =>
        show (match supSameState m a b with
          | true => _
          | false => _ : Eff S (S.Sup × S.Sup) Nat) (a, b) g = _
        cases supSameState m a b with
        | true => simp [h1, reads]
        | false =>
          refine (climb_orZero (looks_supSuperstate m).both (fun p => f p.1 p.2) (a, b) g).trans ?_
          cases h3 : m.supSuperstate a <;> cases h4 : m.supSuperstate b <;> simp [h3, h4]

theorem le_commonStep {x y : Eff S (S.Sup × S.Sup) Nat} (h : Lean.Order.PartialOrder.rel x y) :
    Lean.Order.PartialOrder.rel (commonStep m x) (commonStep m y) := by
  refine le_bind le_rfl fun ds => le_bind le_rfl fun dt => ?_
  generalize compare ds dt = c
  cases c with
  | lt => exact le_bind (le_climb h) fun _ => le_rfl
  | gt => exact le_bind (le_climb h) fun _ => le_rfl
  | eq =>
    refine le_bind le_rfl fun p => ?_
    show Lean.Order.PartialOrder.rel (match supSameState m p.1 p.2 with
      | true => _
      | false => _ : Eff S (S.Sup × S.Sup) Nat) (match supSameState m p.1 p.2 with
      | true => _
      | false => _)
    cases supSameState m p.1 p.2 with
    | true => exact le_rfl
    | false => exact le_bind (le_climb h) fun _ => le_rfl

theorem supCommonAncestorDepth_reads :
    supCommonAncestorDepth m.impure = reads fun p => Statig.supCommonAncestorDepth m p.1 p.2 := by
  apply Lean.Order.PartialOrder.rel_antisymm
  · refine supCommonAncestorDepth.fixpoint_induct m.impure _
      (admissible_le (reads fun p => Statig.supCommonAncestorDepth m p.1 p.2)) ?_
    intro x hx
    have h := le_commonStep m hx
    rw [commonStep_reads] at h
    have e : (fun p : S.Sup × S.Sup => commonStep' m (Statig.supCommonAncestorDepth m) p.1 p.2) =
        fun p => Statig.supCommonAncestorDepth m p.1 p.2 := by
      funext p; rw [Statig.supCommonAncestorDepth]; rfl
    rw [e] at h
    exact h
  · have key : ∀ a b d, Statig.supCommonAncestorDepth m a b = some d →
        ∀ g, supCommonAncestorDepth m.impure (a, b) g = some (.ok d, (a, b), g) := by
      apply Statig.supCommonAncestorDepth.partial_correctness m
        (fun a b d => ∀ g, supCommonAncestorDepth m.impure (a, b) g = some (.ok d, (a, b), g))
      intro f hf a b d h g
      have h1 : Lean.Order.PartialOrder.rel (reads fun p => f p.1 p.2) (supCommonAncestorDepth m.impure) := by
        intro p g
        show Lean.Order.PartialOrder.rel ((f p.1 p.2).map _) _
        cases hp : f p.1 p.2 with
        | none => exact .bot
        | some d => rw [show p = (p.1, p.2) from rfl, hf _ _ _ hp g]; exact .refl
      have h2 := le_commonStep m h1
      rw [commonStep_reads] at h2
      have h3 : Lean.Order.PartialOrder.rel ((commonStep' m f a b).map fun d => (Out.ok d, (a, b), g))
          (commonStep m (supCommonAncestorDepth m.impure) (a, b) g) := h2 (a, b) g
      rw [supCommonAncestorDepth]
      have e : commonStep' m f a b = some d := h
      rw [e] at h3
      have h4 : ∀ y : Option (Out Nat × (S.Sup × S.Sup) × Glob S),
          Lean.Order.PartialOrder.rel (some (Out.ok d, (a, b), g)) y → y = some (Out.ok d, (a, b), g) := by
        intro y hy; cases hy; rfl
      exact h4 _ h3
    intro p g
    show Lean.Order.PartialOrder.rel ((Statig.supCommonAncestorDepth m p.1 p.2).map _) _
    cases hp : Statig.supCommonAncestorDepth m p.1 p.2 with
    | none => exact .bot
    | some d => rw [show p = (p.1, p.2) from rfl, key _ _ _ hp g]; exact .refl

theorem transitionPath_impure (s t : S.St) (g : Glob S) :
    transitionPath m.impure (s, t) g = (Statig.transitionPath m s t).map fun o => (o, (s, t), g) := by
  unfold transitionPath Statig.transitionPath
  rw [self_bind]
  show (if sameState m s t then _ else _ : Eff S (S.St × S.St) (Nat × Nat)) (s, t) g = _
  cases hsame : sameState m s t with
  | true => rfl
  | false =>
    simp only [Bool.false_eq_true, if_false]
    rw [depth_reads, reads_first, reads_second]
    cases h1 : Statig.depth m s with
    | none => rw [reads_bind_none (by exact h1)]; simp
    | some ds =>
      rw [reads_bind_some (a := ds) (by exact h1)]
      cases h2 : Statig.depth m t with
      | none => rw [reads_bind_none (by exact h2)]; simp
      | some dt =>
        rw [reads_bind_some (a := dt) (by exact h2)]
        rw [supCommonAncestorDepth_reads, reads_climb (looks_superstate m).both]
        cases h3 : m.superstate s with
        | none => rw [reads_bind_some (a := none) (by simp [h3])]; simp; rfl
        | some p =>
          obtain ⟨v, bv⟩ := p
          cases h4 : m.superstate t with
          | none => rw [reads_bind_some (a := none) (by simp [h3, h4])]; simp; rfl
          | some q =>
            obtain ⟨w, bw⟩ := q
            cases h5 : Statig.supCommonAncestorDepth m v w with
            | none => rw [reads_bind_none (by simp [h3, h4, h5])]; simp [h5]
            | some c =>
              rw [reads_bind_some (a := some c) (by simp [h3, h4, h5])]
              simp only [Option.bind_eq_bind, Option.bind_some, h5]
              by_cases h6 : c ≤ ds <;> by_cases h7 : c ≤ dt <;> simp only [usizeSub, h6, h7, if_true, if_false] <;> rfl

/-- `Inner::init_with_context` of the chosen mode. -/
def init' (mode : Mode) : Eff S S.St Unit := do
  let s ← Eff.self
  let enterLevels ← Eff.lift ((Statig.depth m s).map .ok)
  mode.enter m enterLevels

/-- `Inner::transition` of the chosen mode. -/
def transition' (mode : Mode) (target : S.St) : Eff S S.St Unit := do
  let s ← Eff.self
  match mode with
  | .blocking => hookBeforeTransition m target s
  | .awaitable => hookBeforeTransition m s target
  let (exitLevels, enterLevels) ← Eff.lift (Statig.transitionPath m s target)
  mode.exit m exitLevels
  let old ← Eff.swap target
  mode.enter m enterLevels
  let new ← Eff.self
  hookAfterTransition m old new

theorem init_impure (mode : Mode) : m.impure.init mode = init' m mode := by
  funext s g
  unfold init init'
  rw [self_bind, depth_reads]
  cases h : Statig.depth m s with
  | none => rw [reads_bind_none h]; rfl
  | some d => rw [reads_bind_some h, enter_impure]; rfl

theorem transition_impure (mode : Mode) (target : S.St) : m.impure.transition mode target = transition' m mode target := by
  funext s g
  unfold transition transition'
  rw [self_bind, self_bind]
  have key : ∀ g' : Glob S, ((withLocal target (transitionPath m.impure)) >>= fun x => match x with
      | ((exitLevels, enterLevels), target) => do
        m.impure.exit mode exitLevels
        let old ← Eff.swap target
        m.impure.enter mode enterLevels
        let new ← Eff.self
        hookAfterTransition m.impure.base old new : Eff S S.St Unit) s g' =
      (Eff.lift (Statig.transitionPath m s target) >>= fun x => match x with
      | (exitLevels, enterLevels) => do
        mode.exit m exitLevels
        let old ← Eff.swap target
        mode.enter m enterLevels
        let new ← Eff.self
        hookAfterTransition m old new : Eff S S.St Unit) s g' := by
    intro g'
    have e : withLocal target (transitionPath m.impure) s g' =
        (Statig.transitionPath m s target).map fun o => (o.map (·, target), s, g') := by
      unfold withLocal
      rw [transitionPath_impure]
      cases Statig.transitionPath m s target <;> rfl
    show Eff.bind _ _ s g' = Eff.bind _ _ s g'
    unfold Eff.bind
    rw [e]
    cases h : Statig.transitionPath m s target with
    | none => rfl
    | some o =>
      cases o with
      | panic => rfl
      | stopped => rfl
      | ok p => simp only [Option.map_some, Out.map, exit_impure, enter_impure]; rfl
  cases mode with
  | blocking =>
    show Eff.bind (hookBeforeTransition m target s) _ s g = Eff.bind (hookBeforeTransition m target s) _ s g
    unfold Eff.bind
    cases h : hookBeforeTransition m target s s g with
    | none => rfl
    | some r =>
      obtain ⟨o, s', g'⟩ := r
      have : s' = s := by unfold hookBeforeTransition Eff.hook at h; cases h; rfl
      subst this
      cases o with
      | ok u => exact key g'
      | panic => rfl
      | stopped => rfl
  | awaitable =>
    show Eff.bind (hookBeforeTransition m s target) _ s g = Eff.bind (hookBeforeTransition m s target) _ s g
    unfold Eff.bind
    cases h : hookBeforeTransition m s target s g with
    | none => rfl
    | some r =>
      obtain ⟨o, s', g'⟩ := r
      have : s' = s := by unfold hookBeforeTransition Eff.hook at h; cases h; rfl
      subst this
      cases o with
      | ok u => exact key g'
      | panic => rfl
      | stopped => rfl

theorem handleEvent_impure (mode : Mode) (ev : S.Ev) : m.impure.handleEvent mode ev = (do
    let response ← mode.handle m ev
    match response with
    | .super => pure ()
    | .handled => pure ()
    | .transition state => transition' m mode state) := by
  unfold handleEvent
  simp only [handle_impure, transition_impure]
  rfl

theorem inner_init_impure (mode : Mode) (i : Inner S) (ctx : S.Ctx) (sched : List S.In) :
    i.run (m.impure.init mode) ctx sched = i.init mode m ctx sched := by
  rw [init_impure]
  cases mode <;> rfl

theorem inner_handle_impure (mode : Mode) (i : Inner S) (ev : S.Ev) (ctx : S.Ctx) (sched : List S.In) :
    i.run (m.impure.handleEvent mode ev) ctx sched = i.handle mode m ev ctx sched := by
  rw [handleEvent_impure]
  cases mode <;> rfl

theorem initImpure_impure (mode : Mode) (sm : StateMachine S) (ctx : S.Ctx) (sched : List S.In) :
    sm.initImpure mode m.impure ctx sched = sm.initWithContext mode m ctx sched := by
  unfold StateMachine.initImpure StateMachine.initWithContext
  rw [inner_init_impure]
  rfl

theorem handleImpure_impure (mode : Mode) (sm : StateMachine S) (ev : S.Ev) (ctx : S.Ctx) (sched : List S.In) :
    sm.handleImpure mode m.impure ev ctx sched = sm.handleWithContext mode m ev ctx sched := by
  unfold StateMachine.handleImpure StateMachine.handleWithContext
  simp only [inner_init_impure, inner_handle_impure]
  rfl

end
end Impure
end Statig
