import Verif.Spec.Unit
import Verif.Proofs.Contract
/-!
# Proofs about machines without superstates
-/
namespace Statig
variable {M St Ev Ctx In D : Type} [DecidableEq D] {f : UnitMachine M St Ev Ctx In D}

namespace UnitMachine

/-- A program that does nothing but log callbacks of `()`. -/
def Quiet (f : UnitMachine M St Ev Ctx In D) {σ α : Type} (Q : α → Prop) (s : σ)
    (x : Eff (unitSig M St Ev Ctx In D) σ α) : Prop :=
  ∀ g, ∃ a T, Q a ∧ T.filter (f.machine.showsObs fun _ => true) = [] ∧
    x s g = some (.ok a, s, { g with trace := g.trace ++ T })

namespace Quiet
variable {σ α β : Type} {Q : α → Prop} {Q' : β → Prop} {s : σ}

theorem pure {a : α} (h : Q a) : Quiet f Q s (Pure.pure a) := fun g => ⟨a, [], h, rfl, by simp [Eff.pure_def, Eff.pure]⟩

theorem bind {x : Eff (unitSig M St Ev Ctx In D) σ α} {y : α → Eff (unitSig M St Ev Ctx In D) σ β}
    (hx : Quiet f Q s x) (hy : ∀ a, Q a → Quiet f Q' s (y a)) : Quiet f Q' s (x >>= y) := by
  intro g
  obtain ⟨a, T, ha, hT, e⟩ := hx g
  obtain ⟨b, U, hb, hU, e'⟩ := hy a ha { g with trace := g.trace ++ T }
  refine ⟨b, T ++ U, hb, by rw [List.filter_append, hT, hU]; rfl, ?_⟩
  simp only [Eff.bind_def, Eff.bind, e, e', List.append_assoc]

theorem borrow {x : Eff (unitSig M St Ev Ctx In D) Unit α} (hx : Quiet f Q () x) (s : St) :
    Quiet f (fun r => ∀ a, r = some a → Q a) s (Eff.borrow f.machine.superstate x) := by
  intro g
  unfold Eff.borrow UnitMachine.machine
  simp only
  cases f.nested s with
  | false => exact ⟨none, [], nofun, rfl, by simp⟩
  | true =>
    obtain ⟨a, T, ha, hT, e⟩ := hx g
    refine ⟨some a, T, ?_, hT, ?_⟩
    · rintro _ ⟨⟩; exact ha
    · simp only [e, Out.map, if_true]

theorem borrowSup {x : Eff (unitSig M St Ev Ctx In D) Unit α} (v : Unit) :
    Quiet f (fun r => r = none) v (Eff.borrow f.machine.supSuperstate x) :=
  fun g => ⟨none, [], rfl, rfl, by simp [Eff.borrow, UnitMachine.machine, unitSuperstate]⟩

/-- What is done before can be left out. -/
theorem first {x : Eff (unitSig M St Ev Ctx In D) σ α} (hx : Quiet f Q s x) {γ : Type} {P : σ → Prop}
    {A : β → γ → Prop} {y : α → Eff (unitSig M St Ev Ctx In D) σ β} {z : Eff (unitSig M St Ev Ctx In D) σ γ}
    (hy : ∀ a, Q a → Hides f.machine (fun _ => true) P A s (y a) z) :
    Hides f.machine (fun _ => true) P A s (x >>= y) z := by
  intro g g' hg
  obtain ⟨a, T, ha, hT, e⟩ := hx g
  simp only [Eff.bind_def, Eff.bind, e]
  refine hy a ha _ _ ⟨hg.sh, hg.ctx, hg.sched, ?_⟩
  rw [List.filter_append, hT, List.append_nil, hg.trace]

end Quiet

variable (f)

theorem quiet_entry (v : Unit) : Quiet f (fun _ => True) v (callSupEntry f.machine) :=
  fun _ => ⟨(), [.entry (.superstate v)], trivial, rfl, rfl⟩

theorem quiet_exit (v : Unit) : Quiet f (fun _ => True) v (callSupExit f.machine) :=
  fun _ => ⟨(), [.exit (.superstate v)], trivial, rfl, rfl⟩

theorem quiet_handler (ev : Ev) (v : Unit) : Quiet f (fun r => r = .handled) v (callSupHandler f.machine ev) :=
  fun g => ⟨.handled, [.handler (.superstate v) ev, .returned (.superstate v) .handled], rfl, rfl, by
    simp only [callSupHandler, Eff.bind_def, Eff.bind, Eff.callback, Eff.log, UnitMachine.machine, unitCallHandler,
      Fut.run, Eff.pure_def, List.append_assoc, List.cons_append, List.nil_append]⟩

variable {f}

theorem quiet_before (hf : f.HooksForStates) (ev : Ev) (v : Unit) :
    Quiet f (fun _ => True) v (hookSupBeforeDispatch f.machine ev) :=
  fun g => ⟨(), [.beforeDispatch (.superstate v) ev], trivial, rfl, by
    simp [hookSupBeforeDispatch, Eff.hook, UnitMachine.machine, hf.before, Fut.run]⟩

theorem quiet_after (hf : f.HooksForStates) (ev : Ev) (v : Unit) :
    Quiet f (fun _ => True) v (hookSupAfterDispatch f.machine ev) :=
  fun g => ⟨(), [.afterDispatch (.superstate v) ev], trivial, rfl, by
    simp [hookSupAfterDispatch, Eff.hook, UnitMachine.machine, hf.after, Fut.run]⟩

theorem quiet_supEnter (k : Nat) (v : Unit) : Quiet f (fun _ => True) v (Blocking.supEnter f.machine k) := by
  cases k with
  | zero => exact .pure trivial
  | succ k =>
    cases k with
    | zero => exact quiet_entry f v
    | succ k => exact (Quiet.borrowSup v).bind fun _ _ => quiet_entry f v

theorem quiet_supExit (k : Nat) (v : Unit) : Quiet f (fun _ => True) v (Blocking.supExit f.machine k) := by
  cases k with
  | zero => exact .pure trivial
  | succ k =>
    cases k with
    | zero => exact quiet_exit f v
    | succ k =>
      exact (quiet_exit f v).bind fun _ _ => (Quiet.borrowSup v).bind fun _ _ => .pure trivial

theorem quiet_climbEntry (k : Nat) (v : Unit) : Quiet f (fun _ => True) v (Awaitable.climbEntry f.machine k) := by
  cases k with
  | zero => exact quiet_entry f v
  | succ k =>
    refine (Quiet.borrowSup v).bind ?_
    rintro _ rfl
    exact quiet_entry f v

theorem quiet_exitLoop (k : Nat) (v : Unit) : Quiet f (fun _ => True) v (Awaitable.exitLoop f.machine k) := by
  cases k with
  | zero => exact .pure trivial
  | succ k =>
    cases k with
    | zero => exact .pure trivial
    | succ k =>
      exact (quiet_exit f v).bind fun _ _ => (Quiet.borrowSup v).bind fun _ _ => .pure trivial

/-- The two programs do the same, callbacks of `()` apart. -/
abbrev Shows {α β : Type} (f : UnitMachine M St Ev Ctx In D) (A : α → β → Prop) (s : St)
    (x : Eff (unitSig M St Ev Ctx In D) St α) (y : Eff (unitSig M St Ev Ctx In D) St β) : Prop :=
  Hides f.machine (fun _ => true) (fun _ => True) A s x y

theorem all_true {W α : Type} (x : Fut In W α) : x.All fun _ => True := by
  induction x with
  | done w a => exact .done trivial
  | panic w => exact .panic trivial
  | pending w k ih => exact .pending trivial ih

theorem shows_entry (s : St) : Shows f Eq s (callEntry f.machine) (callEntry f.bare.machine) :=
  Hides.callback rfl fun _ _ => all_true _

theorem shows_exit (s : St) : Shows f Eq s (callExit f.machine) (callExit f.bare.machine) :=
  Hides.callback rfl fun _ _ => all_true _

theorem shows_handler (ev : Ev) (s : St) :
    Shows f Eq s (callHandler f.machine ev) (callHandler f.bare.machine ev) := by
  unfold callHandler
  refine Hides.bind (P := fun _ => True) (Hides.callback rfl fun _ _ => all_true _) ?_
  rintro r _ s1 - rfl
  refine Hides.bind (P := fun _ => True) (Hides.log rfl trivial) ?_
  rintro _ _ s2 - -
  exact Hides.pure rfl trivial

/-- Entering a state with or without superstates. -/
theorem shows_enter (mode : Mode) (k : Nat) (s : St) :
    Shows f Eq s (mode.enter f.machine (k + 1)) (callEntry f.bare.machine) := by
  cases mode with
  | blocking =>
    cases k with
    | zero => exact shows_entry s
    | succ k => exact ((quiet_supEnter _ ()).borrow s).first fun _ _ => shows_entry s
  | awaitable =>
    induction k with
    | zero => exact shows_entry s
    | succ k ih => exact ((quiet_climbEntry _ ()).borrow s).first fun _ _ => ih

theorem shows_last {s : St} {α : Type} {Q : α → Prop} {x : Eff (unitSig M St Ev Ctx In D) St Unit}
    {z : Eff (unitSig M St Ev Ctx In D) St Unit} {y : Eff (unitSig M St Ev Ctx In D) St α} (hx : Shows f Eq s x z)
    (hy : ∀ s, Quiet f Q s y) : Shows f Eq s (x >>= fun _ => y >>= fun _ => pure ()) z := by
  have hz : z = (z >>= fun _ => pure ()) := (bind_pure_unit).symm
  rw [hz]
  refine Hides.bind (P := fun _ => True) hx ?_
  rintro _ _ s1 - -
  exact (hy s1).first fun _ _ => Hides.pure rfl trivial

theorem shows_leave (mode : Mode) (k : Nat) (s : St) :
    Shows f Eq s (mode.exit f.machine (k + 1)) (callExit f.bare.machine) := by
  cases mode with
  | blocking =>
    cases k with
    | zero => exact shows_exit s
    | succ k => exact shows_last (shows_exit s) fun s => (quiet_supExit _ ()).borrow s
  | awaitable =>
    show Shows f Eq s (Awaitable.exit f.machine (k + 1)) _
    unfold Awaitable.exit
    rw [if_pos (by omega)]
    exact shows_last (shows_exit s) fun s => (quiet_exitLoop _ ()).borrow s

theorem supDepth_unit (v : Unit) : supDepth f.machine v = some 1 := by
  rw [supDepth]; rfl

theorem superstate_unit (s : St) :
    f.machine.superstate s = if f.nested s then some ((), fun _ => s) else none := rfl

theorem depth_unit (s : St) : ∃ k, depth f.machine s = some (k + 1) := by
  unfold depth
  rw [superstate_unit]
  cases f.nested s with
  | false => exact ⟨0, rfl⟩
  | true =>
    refine ⟨1, ?_⟩
    simp only [if_true, supDepth_unit]
    rfl

theorem path_unit (s t : St) : ∃ a b, transitionPath f.machine s t = some (.ok (a + 1, b + 1)) := by
  unfold transitionPath
  split
  · exact ⟨0, 0, rfl⟩
  · rw [superstate_unit, superstate_unit]
    have hc : supCommonAncestorDepth f.machine () () = some 1 := by
      rw [supCommonAncestorDepth]
      simp only [supDepth_unit, Option.bind_eq_bind, Option.bind_some]
      rfl
    unfold depth
    rw [superstate_unit, superstate_unit]
    cases f.nested s <;> cases f.nested t
    · exact ⟨0, 0, rfl⟩
    · refine ⟨0, 1, ?_⟩; simp [supDepth_unit]
    · refine ⟨1, 0, ?_⟩; simp [supDepth_unit]
    · refine ⟨0, 0, ?_⟩; simp [supDepth_unit, hc, usizeSub]

theorem quiet_supHandle (hf : f.HooksForStates) (ev : Ev) (v : Unit) :
    Quiet f (fun r => r = .handled) v (Blocking.supHandle f.machine ev) := by
  rw [Blocking.supHandle]
  refine (quiet_handler f ev v).bind ?_
  rintro _ rfl
  exact .pure rfl

theorem quiet_handleLoop (hf : f.HooksForStates) (ev : Ev) (v : Unit) :
    Quiet f (fun r => r = .handled) v (Awaitable.handleLoop f.machine ev) := by
  rw [Awaitable.handleLoop]
  refine (quiet_before hf ev v).bind fun _ _ => (quiet_handler f ev v).bind ?_
  rintro _ rfl
  exact (quiet_after hf ev v).bind fun _ _ => .pure rfl

/-- Dispatching, in a machine without superstates. -/
def plainDispatch {S : Sig} (m : Machine S) (ev : S.Ev) : Eff S S.St (Response S.St) := do
  hookBeforeDispatch m ev
  let response ← callHandler m ev
  hookAfterDispatch m ev
  pure response

theorem shows_dispatch (hf : f.HooksForStates) (mode : Mode) (ev : Ev) (s : St) :
    Shows f SameWish s (mode.handle f.machine ev) (plainDispatch f.bare.machine ev) := by
  have main : ∀ (rest : Response St → Eff (unitSig M St Ev Ctx In D) St (Response St))
      (_ : ∀ r s, Shows f (SameWish (S := unitSig M St Ev Ctx In D)) s (rest r)
        (pure r : Eff (unitSig M St Ev Ctx In D) St (Response St))),
      Shows f SameWish s (do
        hookBeforeDispatch f.machine ev
        let response ← callHandler f.machine ev
        hookAfterDispatch f.machine ev
        rest response) (plainDispatch f.bare.machine ev) := by
    intro rest hr
    refine Hides.bind (P := fun _ => True) (A := Eq) (Hides.hook rfl trivial) ?_
    rintro _ _ s1 - -
    refine Hides.bind (shows_handler ev s1) ?_
    rintro r _ s2 - rfl
    refine Hides.bind (P := fun _ => True) (A := Eq) (Hides.hook rfl trivial) ?_
    rintro _ _ s3 - -
    exact hr r s3
  cases mode with
  | blocking =>
    refine main _ ?_
    intro r s
    cases r with
    | handled => exact Hides.pure rfl trivial
    | transition t => exact Hides.pure rfl trivial
    | super =>
      refine (Quiet.borrow (Q := fun r => r = .handled) ((quiet_before hf ev ()).bind fun _ _ =>
        (quiet_supHandle hf ev ()).bind ?_) s).first ?_
      · rintro _ rfl
        exact (quiet_after hf ev ()).bind fun _ _ => .pure rfl
      · intro r hr
        cases r with
        | none => exact Hides.pure rfl trivial
        | some r => rw [hr r rfl]; exact Hides.pure rfl trivial
  | awaitable =>
    refine main _ ?_
    intro r s
    cases r with
    | handled => exact Hides.pure rfl trivial
    | transition t => exact Hides.pure rfl trivial
    | super =>
      refine ((quiet_handleLoop hf ev ()).borrow s).first ?_
      intro r hr
      cases r with
      | none => exact Hides.pure rfl trivial
      | some r => rw [hr r rfl]; exact Hides.pure rfl trivial

/-- The transition part of `plainHandle`. -/
def plainTransition {S : Sig} (m : Machine S) (mode : Mode) (target : S.St) : Eff S S.St Unit := do
  let source ← Eff.self
  mode.before m source target
  callExit m
  let source ← Eff.swap target
  callEntry m
  let target ← Eff.self
  hookAfterTransition m source target

theorem plainHandle_eq {S : Sig} (m : Machine S) (mode : Mode) (ev : S.Ev) :
    plainHandle m mode ev = (plainDispatch m ev >>= fun r => match r with
      | .transition t => plainTransition m mode t
      | _ => pure ()) := by
  unfold plainHandle plainDispatch plainTransition Mode.before
  simp only [bind_assoc, pure_bind]
  congr 1; funext _; congr 1; funext r; congr 1; funext _
  cases r
  · rfl
  · rfl
  · cases mode <;> rfl

theorem shows_transition (mode : Mode) (t s : St) :
    Shows f Eq s (mode.transition f.machine t) (plainTransition f.bare.machine mode t) := by
  obtain ⟨a, b, hp⟩ := path_unit (f := f) s t
  unfold Mode.transition Mode.leave Mode.arrive plainTransition
  simp only [bind_assoc, pure_bind]
  refine Hides.bind (P := fun _ => True) (Hides.self trivial) ?_
  rintro _ _ s1 - ⟨rfl, rfl⟩
  refine Hides.bind (P := fun _ => True) (A := Eq) ?_ ?_
  · have hh : ∀ x y, Shows f Eq s1 (hookBeforeTransition f.machine x y) (hookBeforeTransition f.bare.machine x y) :=
      fun x y => Hides.hook rfl trivial
    cases mode
    · exact hh _ _
    · exact hh _ _
  rintro _ _ s2 - -
  rw [hp]
  have hl : Quiet f (fun r => r = (a + 1, b + 1)) s2
      (Eff.lift (some (.ok (a + 1, b + 1))) : Eff (unitSig M St Ev Ctx In D) St _) :=
    fun g => ⟨_, [], rfl, rfl, by simp [Eff.lift]⟩
  refine hl.first ?_
  rintro _ rfl
  refine Hides.bind (shows_leave mode a s2) ?_
  rintro _ _ s3 - -
  refine Hides.bind (P := fun _ => True) (Hides.swap trivial) ?_
  rintro old _ s4 - rfl
  refine Hides.bind (shows_enter mode b s4) ?_
  rintro _ _ s5 - -
  refine Hides.bind (P := fun _ => True) (Hides.self trivial) ?_
  rintro _ _ s6 - ⟨rfl, rfl⟩
  exact Hides.hook rfl trivial

theorem shows_handle (hf : f.HooksForStates) (mode : Mode) (ev : Ev) (s : St) :
    Shows f Eq s (mode.handleEvent f.machine ev) (plainHandle f.bare.machine mode ev) := by
  rw [plainHandle_eq]
  unfold Mode.handleEvent
  refine Hides.bind (shows_dispatch hf mode ev s) ?_
  rintro r r' s1 - hr
  have pu : Shows f Eq s1 (Pure.pure () : Eff _ St Unit) (Pure.pure ()) := Hides.pure rfl trivial
  cases r <;> cases r' <;> simp only [SameWish, wanted, reduceCtorEq, Option.some.injEq] at hr
  · exact pu
  · exact pu
  · exact pu
  · exact pu
  · subst hr
    exact shows_transition mode _ s1

theorem shows_init (mode : Mode) (s : St) :
    Shows f Eq s (mode.init f.machine) (plainInit f.bare.machine) := by
  obtain ⟨k, hk⟩ := depth_unit (f := f) s
  intro g g' hg
  have := shows_enter (f := f) mode k s g g' hg
  simpa only [Mode.init, plainInit, Eff.bind_def, Eff.bind, Eff.self, hk, Option.map_some, Eff.lift] using this

/-! ## Machines without superstates, whatever the type of superstates -/

section anyBare
variable {S : Sig} {m : Machine S} (hn : ∀ s, m.superstate s = none)
include hn

theorem bare_borrow {α : Type} (x : Eff S S.Sup α) :
    Eff.borrow m.superstate x = pure none := by
  funext s g
  unfold Eff.borrow
  rw [hn]
  rfl

theorem bare_dispatch (mode : Mode) (ev : S.Ev) : mode.handle m ev = plainDispatch m ev := by
  unfold plainDispatch
  cases mode
  · show Blocking.handle _ _ = _
    unfold Blocking.handle
    congr 1; funext _; congr 1; funext r; congr 1; funext _
    rw [bare_borrow hn]
    cases r <;> rfl
  · show Awaitable.handle _ _ = _
    unfold Awaitable.handle
    congr 1; funext _; congr 1; funext r; congr 1; funext _
    rw [bare_borrow hn]
    cases r <;> rfl

theorem bare_path (s t : S.St) : transitionPath m s t = some (.ok (1, 1)) := by
  unfold transitionPath
  split
  · rfl
  · unfold depth
    rw [hn, hn]
    rfl

theorem bare_exit (mode : Mode) : mode.exit m 1 = callExit m := by
  cases mode
  · rfl
  · show Awaitable.exit m 1 = _
    unfold Awaitable.exit
    rw [bare_borrow hn]
    exact bind_pure_unit

theorem bare_transition (mode : Mode) (t : S.St) : mode.transition m t = plainTransition m mode t := by
  unfold Mode.transition Mode.leave Mode.arrive plainTransition
  simp only [bind_assoc, pure_bind]
  congr 1; funext s; congr 1; funext _
  rw [bare_path hn]
  have : ∀ (k : Nat × Nat → Eff S S.St Unit),
      ((Eff.lift (some (.ok (1, 1))) : Eff S S.St (Nat × Nat)) >>= k) = k (1, 1) := fun _ => rfl
  rw [this, bare_exit hn]
  cases mode <;> rfl

theorem bare_handle (mode : Mode) (ev : S.Ev) : mode.handleEvent m ev = plainHandle m mode ev := by
  rw [plainHandle_eq]
  unfold Mode.handleEvent
  rw [bare_dispatch hn]
  congr 1; funext r
  cases r with
  | handled => rfl
  | super => rfl
  | transition t => exact bare_transition hn mode t

theorem bare_init (mode : Mode) : mode.init m = plainInit m := by
  funext s g
  unfold Mode.init plainInit depth
  simp only [Eff.bind_def, Eff.bind, Eff.self, hn, Option.map_some, Eff.lift]
  cases mode <;> rfl

end anyBare

/-! ## `superstate` returns `None` -/

section bare
variable (hn : ∀ s, f.nested s = false)
include hn

theorem superstate_bare (s : St) : f.machine.superstate s = none := by
  rw [superstate_unit, hn]; rfl

theorem handle_bare (mode : Mode) (ev : Ev) : mode.handleEvent f.machine ev = plainHandle f.machine mode ev :=
  bare_handle (m := f.machine) (superstate_bare hn) mode ev

theorem init_bare (mode : Mode) : mode.init f.machine = plainInit f.machine :=
  bare_init (m := f.machine) (superstate_bare hn) mode

end bare
end UnitMachine
end Statig

namespace Statig

/-- The program returns, panics or is dropped. -/
def Eff.Ends {S : Sig} {σ α : Type} (x : Eff S σ α) : Prop := ∀ s g, (x s g).isSome

namespace Eff.Ends
variable {S : Sig} {σ τ α β : Type}

theorem pure (a : α) : (Pure.pure a : Eff S σ α).Ends := fun _ _ => rfl

theorem bind {x : Eff S σ α} {f : α → Eff S σ β} (hx : x.Ends) (hf : ∀ a, (f a).Ends) : (x >>= f).Ends := by
  intro s g
  have := hx s g
  rw [Eff.bind_def]
  unfold Eff.bind
  cases h : x s g with
  | none => rw [h] at this; cases this
  | some r =>
    obtain ⟨o, s', g'⟩ := r
    cases o with
    | ok a => exact hf a s' g'
    | panic => rfl
    | stopped => rfl

theorem borrow {sup : σ → Option (τ × (τ → σ))} {x : Eff S τ α} (hx : x.Ends) : (Eff.borrow sup x).Ends := by
  intro s g
  unfold Eff.borrow
  cases sup s with
  | none => rfl
  | some p =>
    have := hx p.1 g
    show (match x p.1 g with | none => none | some (o, v', g') => some (o.map some, p.2 v', g')).isSome = true
    cases h : x p.1 g with
    | none => rw [h] at this; cases this
    | some r => rfl

theorem callback (o : σ → Obs S) (f : σ → S.M → S.Ctx → Fut S.In (σ × S.M × S.Ctx) α) : (Eff.callback o f).Ends :=
  fun _ _ => rfl

theorem hook (o : σ → Obs S) (f : σ → S.M → Fut S.In S.M Unit) : (Eff.hook o f).Ends := fun _ _ => rfl

theorem log (o : σ → Obs S) : (Eff.log o).Ends := fun _ _ => rfl

end Eff.Ends

namespace UnitMachine
variable {M St Ev Ctx In D : Type} [DecidableEq D] (f : UnitMachine M St Ev Ctx In D)
open Eff

theorem ends_callHandler (ev : Ev) : (callHandler f.machine ev).Ends :=
  .bind (.callback _ _) fun _ => .bind (.log _) fun _ => .pure _

theorem ends_callSupHandler (ev : Ev) : (callSupHandler f.machine ev).Ends :=
  .bind (.callback _ _) fun _ => .bind (.log _) fun _ => .pure _

/-- `()` does not defer events. -/
theorem ends_after_sup {α : Type} (ev : Ev) {k : Response St → Eff (unitSig M St Ev Ctx In D) Unit α}
    (hk : (k .handled).Ends) : (callSupHandler f.machine ev >>= k).Ends := by
  intro v g
  obtain ⟨_, T, rfl, -, e⟩ := quiet_handler f ev v g
  simp only [Eff.bind_def, Eff.bind, e]
  exact hk v _

theorem ends_handle (mode : Mode) (ev : Ev) : (mode.handle f.machine ev).Ends := by
  have hs : (Blocking.supHandle f.machine ev).Ends := by
    rw [Blocking.supHandle]
    exact ends_after_sup f ev (.pure _)
  have hl : (Awaitable.handleLoop f.machine ev).Ends := by
    rw [Awaitable.handleLoop]
    exact .bind (.hook _ _) fun _ => ends_after_sup f ev (.bind (.hook _ _) fun _ => .pure _)
  cases mode with
  | blocking =>
    refine .bind (.hook _ _) fun _ => .bind (ends_callHandler f ev) fun r => .bind (.hook _ _) fun _ => ?_
    cases r with
    | handled => exact .pure _
    | transition t => exact .pure _
    | super =>
      refine .bind (.borrow (.bind (.hook _ _) fun _ => .bind hs fun _ => .bind (.hook _ _) fun _ => .pure _)) fun r => ?_
      cases r <;> exact .pure _
  | awaitable =>
    refine .bind (.hook _ _) fun _ => .bind (ends_callHandler f ev) fun r => .bind (.hook _ _) fun _ => ?_
    cases r with
    | handled => exact .pure _
    | transition t => exact .pure _
    | super =>
      refine .bind (.borrow hl) fun r => ?_
      cases r <;> exact .pure _

theorem ends_enter (mode : Mode) (k : Nat) : (mode.enter f.machine k).Ends := by
  have h1 : ∀ k, (Blocking.supEnter f.machine k).Ends := fun k v g => by
    obtain ⟨_, _, _, _, e⟩ := quiet_supEnter (f := f) k v g
    rw [e]; rfl
  have h2 : ∀ k, (Awaitable.climbEntry f.machine k).Ends := fun k v g => by
    obtain ⟨_, _, _, _, e⟩ := quiet_climbEntry (f := f) k v g
    rw [e]; rfl
  cases mode with
  | blocking =>
    match k with
    | 0 => exact .pure _
    | 1 => exact .callback _ _
    | k + 2 => exact .bind (.borrow (h1 _)) fun _ => .callback _ _
  | awaitable =>
    show (Awaitable.enter f.machine k).Ends
    match k with
    | 0 => exact .pure _
    | k + 1 =>
      induction k with
      | zero => exact .callback _ _
      | succ k ih => exact .bind (.borrow (h2 _)) fun _ => ih

theorem ends_exit (mode : Mode) (k : Nat) : (mode.exit f.machine k).Ends := by
  have h1 : ∀ k, (Blocking.supExit f.machine k).Ends := fun k v g => by
    obtain ⟨_, _, _, _, e⟩ := quiet_supExit (f := f) k v g
    rw [e]; rfl
  have h2 : ∀ k, (Awaitable.exitLoop f.machine k).Ends := fun k v g => by
    obtain ⟨_, _, _, _, e⟩ := quiet_exitLoop (f := f) k v g
    rw [e]; rfl
  cases mode with
  | blocking =>
    match k with
    | 0 => exact .pure _
    | 1 => exact .callback _ _
    | k + 2 => exact .bind (.callback _ _) fun _ => .bind (.borrow (h1 _)) fun _ => .pure _
  | awaitable =>
    show (Awaitable.exit f.machine k).Ends
    unfold Awaitable.exit
    simp only
    split
    · exact .bind (.callback _ _) fun _ => .bind (.borrow (h2 _)) fun _ => .pure _
    · exact .bind (.borrow (h2 _)) fun _ => .pure _

theorem ends_handleEvent (mode : Mode) (ev : Ev) : (mode.handleEvent f.machine ev).Ends := by
  refine .bind (ends_handle f mode ev) fun r => ?_
  cases r with
  | handled => exact .pure _
  | super => exact .pure _
  | transition t =>
    show (mode.transition f.machine t).Ends
    unfold Mode.transition Mode.leave Mode.arrive
    refine .bind ?_ fun _ => .bind (fun _ _ => rfl) fun _ => .bind (ends_enter f mode _) fun _ =>
      .bind (fun _ _ => rfl) fun _ => .hook _ _
    refine .bind (fun _ _ => rfl) fun s => .bind ?_ fun _ => .bind ?_ fun _ => .bind (ends_exit f mode _) fun _ => .pure _
    · cases mode <;> exact fun _ _ => rfl
    · obtain ⟨a, b, h⟩ := path_unit (f := f) s t
      rw [h]
      exact fun _ _ => rfl

theorem ends_init (mode : Mode) : (mode.init f.machine).Ends := by
  refine .bind (fun _ _ => rfl) fun s => .bind ?_ fun _ => ends_enter f mode _
  obtain ⟨k, h⟩ := depth_unit (f := f) s
  rw [h]
  exact fun _ _ => rfl

end UnitMachine
end Statig
