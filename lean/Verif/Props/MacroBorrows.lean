import Verif.Proofs.Macro.Borrows
import Verif.Props.MacroTyping
/-!
# The arguments of generated calls can be borrowed together: C79
-/
namespace Statig
open Macro
section
variable {syn : Syn} {ord : Order} {src : Source} {g : Gen}

/-- C79. The arguments of the generated calls, and the fields of the generated superstate expressions, can be borrowed
together iff no method that the generated code calls asks for the shared storage twice: as its receiver, and by a
parameter named `shared_storage`.  Only if both are shared references this is possible. -/
theorem C79_borrow_checks (h : expand syn ord src = .ok g) (hc : g.Compiles)
    (hn : ∀ mth ∈ src.methods, (mth.inputs.filterMap argName).Nodup) :
    g.BorrowChecks ↔ ∀ mth ∈ src.methods, src.Called mth → src.AsksOnce mth := borrowChecks_iff h hc hn

/-- In particular there are no conflicts if each method has at most one receiver and no parameter is named
`shared_storage`, whatever the types of the parameters are. -/
theorem C79_no_conflict (h : expand syn ord src = .ok g) (hc : g.Compiles)
    (hn : ∀ mth ∈ src.methods, (mth.inputs.filterMap argName).Nodup)
    (hr : ∀ mth ∈ src.methods, mth.inputs.Pairwise fun a b => ∀ m m', ¬ (a = .receiver m ∧ b = .receiver m'))
    (hs : ∀ mth ∈ src.methods, src.Called mth → ∀ attrs ty, .typed attrs (.ident "shared_storage") ty ∉ mth.inputs) :
    g.BorrowChecks := by
  rw [C79_borrow_checks h hc hn]
  intro mth hm hk
  refine (hr mth hm).imp_of_mem fun {a b} ha hb hab na nb => ?_
  have only : ∀ x ∈ mth.inputs, x.NamesStorage → ∃ m, x = .receiver m := by
    intro x hx hnx
    cases x with
    | receiver m => exact ⟨m, rfl⟩
    | typed attrs pat ty =>
      cases pat with
      | reference => exact hnx.elim
      | unsupported => exact hnx.elim
      | ident i =>
        cases (show i = "shared_storage" from hnx)
        exact absurd hx (hs mth hm hk attrs ty)
  obtain ⟨m, rfl⟩ := only a ha na
  obtain ⟨m', rfl⟩ := only b hb nb
  exact absurd ⟨rfl, rfl⟩ (hab m m')

end

namespace Macro.Sample

instance (a : FnArg) : Decidable a.NamesStorage := by
  unfold FnArg.NamesStorage
  split <;> infer_instance
instance (src : Source) (mth : Method) : Decidable (src.AsksOnce mth) := by
  unfold Source.AsksOnce
  infer_instance

/-- C79 applies to the sample. -/
example : (result backwards typed typed_ok).BorrowChecks :=
  (C79_borrow_checks (result_eq typed_ok) typed_compiles (by decide +kernel)).2 fun mth hm _ =>
    (by decide +kernel : ∀ mth ∈ typed.methods, typed.AsksOnce mth) mth hm

/-- The sample, where `enter_led` takes the shared storage a second time, by name. -/
def askTwice (first second : Bool) : Source where
  selfTy := .path "Blinky" .nil
  args := source.args
  methods := source.methods.map fun mth =>
    if mth.name = "enter_led" then
      { mth with
        inputs := [.receiver first, .typed [] (.ident "shared_storage") (.ref none second (.path "Blinky" .nil))] }
    else mth

theorem askTwice_ok (a b : Bool) : accepts forwards (askTwice a b) = true := by
  cases a <;> cases b <;> decide +kernel

theorem askTwice_compiles (a b : Bool) : (result forwards (askTwice a b) (askTwice_ok a b)).Compiles := by
  cases a <;> cases b <;> decide +kernel

theorem askTwice_asks (a b : Bool) : (∀ mth ∈ (askTwice a b).methods, (askTwice a b).AsksOnce mth) ↔ a = false ∧ b = false := by
  cases a <;> cases b <;> decide +kernel

theorem askTwice_unshadowed (a b : Bool) : ∀ kind, kind = "state" ∨ kind = "superstate" → ∀ mth ∈ (askTwice a b).methods,
    mth.Has kind → (askTwice a b).Unshadowed kind mth := by
  rintro kind (rfl | rfl) <;> cases a <;> cases b <;> decide +kernel

theorem askTwice_agrees (a b : Bool) : (askTwice a b).Agrees (.path "Event" .nil) (.path "Context" .nil) := by
  refine ⟨?_, ?_, ?_⟩
  · rintro kind (rfl | rfl) <;> cases a <;> cases b <;> decide +kernel
  · rintro kind (rfl | rfl) mth hm am ham hk key (rfl | rfl) <;> revert mth am <;> cases a <;> cases b <;> decide +kernel
  · rintro kind (rfl | rfl) <;> cases a <;> cases b <;> decide +kernel

end Macro.Sample

/-- An action with a receiver and a parameter `shared_storage` is accepted, and the generated code is well-scoped and
has the right types, but it does not pass the borrow checker, unless the action only reads. -/
theorem C79_conflict (a b : Bool) : ∃ g, expand Sample.syn Sample.forwards (Sample.askTwice a b) = .ok g ∧ g.Compiles ∧
    (∀ co, g.TypeChecks co) ∧ (g.BorrowChecks ↔ a = false ∧ b = false) := by
  refine ⟨_, Sample.result_eq (Sample.askTwice_ok a b), Sample.askTwice_compiles a b, fun co => ?_, ?_⟩
  · exact C75_agreeing (Sample.result_eq (Sample.askTwice_ok a b)) (Sample.askTwice_compiles a b) (Sample.askTwice_unshadowed a b)
      (Sample.askTwice_agrees a b) (.inl ⟨.path "Context" .nil, Sample.ledOff, by cases a <;> cases b <;> decide +kernel,
        by decide +kernel, [], none, true,
        by cases a <;> cases b <;> decide +kernel⟩)
  rw [C79_borrow_checks (Sample.result_eq (Sample.askTwice_ok a b)) (Sample.askTwice_compiles a b)
    (by cases a <;> cases b <;> decide +kernel), ← Sample.askTwice_asks]
  constructor
  · intro H
    have : (Sample.askTwice a b).AsksOnce { Sample.enterLed with inputs := [.receiver a,
        .typed [] (.ident "shared_storage") (.ref none b (.path "Blinky" .nil))] } :=
      H _ (by simp [Sample.askTwice, Sample.source, Sample.enterLed]) (.inr (.inr ⟨⟨_, List.mem_cons_self, rfl⟩, Sample.ledOn,
        by cases a <;> cases b <;> decide +kernel, "state", .inl rfl, ⟨_, List.mem_cons_self, rfl⟩, .inl (by show _ = some Sample.enterLed.name; decide +kernel)⟩))
    rw [Sample.askTwice_asks]
    cases a <;> cases b <;> revert this <;> decide +kernel
  · intro H mth hm _
    exact H mth hm

end Statig
