import Verif.Proofs.Macro.Machine
import Verif.Spec.Simulation
/-!
# Evaluating the machines of the examples
-/
namespace Statig.Examples
open Statig.Macro

theorem witness {A : Type} {P : A → Prop} [DecidablePred P] {x : Option A}
    (h : (x.any fun c => decide (P c)) = true) : ∃ c, x = some c ∧ P c := by
  cases x with
  | none => simp at h
  | some c => exact ⟨c, rfl, by simpa using h⟩

theorem _root_.Statig.ListRel.map_eq {A B C : Type} {R : A → B → Prop} {l : List A} {l' : List B} {f : A → C} {g : B → C}
    (h : ListRel R l l') (hfg : ∀ a b, R a b → f a = g b) : l.map f = l'.map g := by
  induction h with
  | nil => rfl
  | cons h _ ih => rw [List.map_cons, List.map_cons, hfg _ _ h, ih]

/-- A superstate without fields borrows nothing. -/
theorem view_unit {I : Iface} {T : Types} {decl : Ident → Option (List Ident)} {t : Ident} {bound : List Ident}
    {s : Val decl T.V} (hn : I.supFields t = some []) :
    ∃ v back, view I ⟨t, []⟩ bound s = some (v, back) ∧ v.variant = t ∧ ∀ w, (back w).variant = s.variant := by
  obtain ⟨v, back, h⟩ := view_of (T := T) (I := I) (target := ⟨t, []⟩) (bound := bound) (s := s) hn
    ⟨by simp, by simp⟩
  obtain ⟨ns, -, -, h1, -, h2, -⟩ := view_some h
  exact ⟨v, back, h, h1, h2⟩

/-- Evaluate a callback of a macro-generated machine. -/
macro "eval_gen" "[" ls:Lean.Parser.Tactic.simpLemma,* "]" : tactic => `(tactic|
  simp [Gen.iface, armOf, fieldsOf, runHandler, runAction, runSuperstate, runHook, callFn, evalArgs,
    Iface.resolve, readArg, writeArg, Fut.mapWorld, $ls,*])

/-- Unfold a call in blocking mode; the functions on superstates are unfolded as often as the depth of the
hierarchy requires by the caller. -/
macro "unfold_blocking" "[" ls:Lean.Parser.Tactic.simpLemma,* "]" : tactic => `(tactic|
  simp only [StateMachine.handleWithContext, InitializedStateMachine.handleWithContext,
    UninitializedStateMachine.initWithContext, Inner.handle, Inner.init,
    Blocking.handleEvent, Blocking.handle, Blocking.transition, Blocking.init, $ls,*])

end Statig.Examples
