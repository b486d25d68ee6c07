import Verif.Model.Macro.Entry
import Verif.Props.MacroAccept
import Verif.Props.MacroTypes
/-!
# The entry points of the macro crate: C86
-/
namespace Statig
open Macro
variable {syn : Syn} {ord : Order} {args : Tokens (List Setting)} {input : Tokens Macro.Item} {g : Gen} {msg : String}

/-- C86 (what is accepted). `#[state_machine(..)]` generates code only for an impl block, with arguments that are a list of
metas, and then what the declaration consisting of the two gives. -/
theorem C86_accepts : Macro.stateMachine syn ord args input = .ok g ↔
    ∃ settings i, args = .ok settings ∧ input = .ok (.impl i) ∧
      expand syn ord ⟨i.selfTy, i.generics, settings, i.methods⟩ = .ok g := by
  unfold Macro.stateMachine
  constructor
  · intro h
    obtain ⟨settings, h1, h⟩ := Res.bind_ok h
    obtain ⟨i, h2, h⟩ := Res.bind_ok h
    refine ⟨settings, i, ?_, ?_, h⟩
    · cases args with
      | ok a => exact h1
      | error e => cases h1
    · cases input with
      | ok a => cases a with
        | impl j => cases h2; rfl
        | other t => cases h2
      | error e => cases h2
  · rintro ⟨settings, i, rfl, rfl, h⟩
    exact h

/-- C86 (which error is reported). Arguments that cannot be parsed are reported first, then an item that cannot be, then
an item that is not an impl block, whatever its tokens; then the faults of the declaration (C83). -/
theorem C86_errors : Macro.stateMachine syn ord args input = .error msg ↔
    args = .error msg ∨
    (∃ settings, args = .ok settings) ∧
      (input = .error msg ∨ (∃ tokens, input = .ok (.other tokens)) ∧ msg = "expected impl block") ∨
    ∃ settings i, args = .ok settings ∧ input = .ok (.impl i) ∧
      expand syn ord ⟨i.selfTy, i.generics, settings, i.methods⟩ = .error msg := by
  cases args with
  | error e =>
    show (Except.error e : Res Gen) = .error msg ↔ _
    simp
  | ok settings =>
    cases input with
    | error e =>
      show (Except.error e : Res Gen) = .error msg ↔ _
      simp
    | ok it =>
      cases it with
      | other t =>
        show (Except.error "expected impl block" : Res Gen) = .error msg ↔ _
        simp [eq_comm]
      | impl i =>
        show expand syn ord ⟨i.selfTy, i.generics, settings, i.methods⟩ = .error msg ↔ _
        simp

/-- The attributes of a method that do not belong to the crate. -/
def foreignAttrs (mth : Method) : List Attr :=
  mth.attrs.filter fun a => ¬ (a.path = "state" ∨ a.path = "superstate" ∨ a.path = "action")

theorem applyHelpers_eq (mth : Method) (rest done : List Attr) :
    applyHelpers mth done rest = { mth with attrs := done ++ foreignAttrs { mth with attrs := rest } } := by
  induction rest generalizing mth done with
  | nil => simp [applyHelpers, foreignAttrs]
  | cons a rest ih =>
    have h : helperMacro a.path =
        if a.path = "state" ∨ a.path = "superstate" ∨ a.path = "action" then some fun _ input => input else none := by
      unfold helperMacro
      by_cases h1 : a.path = "state" <;> by_cases h2 : a.path = "superstate" <;> by_cases h3 : a.path = "action" <;>
        simp [h1, h2, h3]
    by_cases hp : a.path = "state" ∨ a.path = "superstate" ∨ a.path = "action"
    · rw [if_pos hp] at h
      unfold applyHelpers
      simp only [h]
      rw [ih]
      simp only [foreignAttrs, List.filter_cons, hp, not_true, decide_false, Bool.false_eq_true, if_false,
        List.take_left]
    · rw [if_neg hp] at h
      unfold applyHelpers
      simp only [h]
      rw [ih]
      simp only [foreignAttrs, List.filter_cons, hp, not_false_iff, decide_true, if_true, List.append_assoc,
        List.cons_append, List.nil_append]

/-- C86 (the user's functions). In the code that is compiled, all functions of the impl block are there, in order, each
with its name, asyncness and parameters (but for `#[default]`s, see C52); of its attributes those of the crate are
gone and the others are there, in order. -/
theorem C86_methods {settings : List Setting} {i : ItemImpl} (hd : (i.methods.map (·.name)).Nodup)
    (h : Macro.stateMachine syn ord (.ok settings) (.ok (.impl i)) = .ok g) :
    List.Forall₂ (fun mth out : Method => out.name = mth.name ∧ out.attrs = foreignAttrs mth ∧
        out.generic = mth.generic ∧ out.isAsync = mth.isAsync ∧
        List.Forall₂ (Source.Kept ⟨i.selfTy, i.generics, settings, i.methods⟩ (mth.countAttr "state"))
          mth.inputs out.inputs)
      i.methods (g.methods.map Method.compiled) := by
  have := C52_methods_kept (src := ⟨i.selfTy, i.generics, settings, i.methods⟩) h hd
  rw [List.forall₂_map_right_iff]
  refine this.imp ?_
  rintro mth out ⟨h1, h2, h3, h4, h5⟩
  unfold Method.compiled
  rw [applyHelpers_eq]
  exact ⟨h1, by simp [foreignAttrs, h2], h3, h4, h5⟩

/-! ### Concrete cases -/

namespace Macro.Sample

/-- The sample's impl block. -/
def block : ItemImpl := ⟨source.selfTy, source.generics, source.methods⟩

example : ∃ g, Macro.stateMachine Sample.syn forwards (.ok source.args) (.ok (.impl block)) = .ok g :=
  ⟨result forwards source (by decide +kernel), C86_accepts.2 ⟨_, _, rfl, rfl, by
    show expand Sample.syn forwards source = _
    have h : accepts forwards source = true := by decide +kernel
    exact result_eq h⟩⟩

/-- On a struct (`invalid_input` in `macro/src/parse.rs`). -/
example : Macro.stateMachine Sample.syn forwards (.ok source.args) (.ok (.other "struct Blinky { led: bool }")) =
    .error "expected impl block" := rfl

/-- A function with a foreign attribute between two of the crate. -/
def busy : Method where
  name := "busy"
  attrs := [⟨"inline", none⟩, ⟨"state", none⟩, ⟨"cold", none⟩, ⟨"action", none⟩]
  generic := false
  isAsync := true
  inputs := []

example : busy.compiled = { busy with attrs := [⟨"inline", none⟩, ⟨"cold", none⟩] } := by decide
example : (source.methods.map (·.name)).Nodup := by decide

end Macro.Sample
end Statig
