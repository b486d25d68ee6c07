import Verif.Proofs.Macro.Errors
import Verif.Props.MacroAccept
/-!
# Every error message names a fault of the declaration: C83
-/
namespace Statig
open Macro
variable {syn : Syn} {ord : Order} {src : Source} {msg : String}

/-- Whatever message the macro aborts with, the declaration has a fault that the message describes; the messages
and what they describe are listed in `Source.Fault`.  (A method has at most one `#[state]`, and event and context have
different names.) -/
theorem C83_message (h1 : ∀ mth ∈ src.methods, mth.countAttr "state" ≤ 1) (hne : src.eventIdent ≠ src.contextIdent)
    (h : expand syn ord src = .error msg) : src.Fault syn msg := expand_error h1 hne h

/-- Nothing else is a fault: a declaration is well-formed (the declarations that are accepted, C55) iff it has none of
the listed faults. -/
theorem C83_faults (hd : src.Distinct) (h1 : ∀ mth ∈ src.methods, mth.countAttr "state" ≤ 1)
    (hn : ∀ mth ∈ src.methods, (mth.inputs.filterMap argName).Nodup) (hne : src.eventIdent ≠ src.contextIdent) :
    src.WellFormed syn ↔ ∀ msg, ¬ src.Fault syn msg := by
  constructor
  · intro hw msg hf
    exact hf.not_wellFormed hw
  · intro hf
    by_contra hw
    obtain ⟨e, he⟩ := (C55_rejects (ord := Sample.forwards) hd h1 hn hne).2 hw
    exact hf e (C83_message h1 hne he)

/-- If all faults of a declaration are described by the same message, this is what the macro aborts with, whatever
the order of iteration. -/
theorem C83_only (hd : src.Distinct) (h1 : ∀ mth ∈ src.methods, mth.countAttr "state" ≤ 1)
    (hn : ∀ mth ∈ src.methods, (mth.inputs.filterMap argName).Nodup) (hne : src.eventIdent ≠ src.contextIdent)
    (h : src.Fault syn msg) (ho : ∀ msg', src.Fault syn msg' → msg' = msg) : expand syn ord src = .error msg := by
  obtain ⟨e, he⟩ := (C55_rejects (ord := ord) hd h1 hn hne).2 h.not_wellFormed
  rw [he, ho e (C83_message h1 hne he)]

/-- A fault leads to an error, and the error to a fault (maybe another one, if there are several). -/
theorem C83_rejects (hd : src.Distinct) (h1 : ∀ mth ∈ src.methods, mth.countAttr "state" ≤ 1)
    (hn : ∀ mth ∈ src.methods, (mth.inputs.filterMap argName).Nodup) (hne : src.eventIdent ≠ src.contextIdent)
    (h : src.Fault syn msg) : ∃ msg', expand syn ord src = .error msg' ∧ src.Fault syn msg' := by
  obtain ⟨e, he⟩ := (C55_rejects (ord := ord) hd h1 hn hne).2 h.not_wellFormed
  exact ⟨e, he, C83_message h1 hne he⟩

/-! ## Declarations with these faults -/

namespace Macro.Sample

/-- `?` does not parse as anything, and `1` is not an identifier. -/
def strict : Syn where
  isIdent s := s ≠ "?"
  isExpr s := s ≠ "?"
  isPath s := s ≠ "?"
  isVisibility s := s ≠ "?"
  identNew s := s ≠ "1"
  toUppercase c := [c]

/-- The message for a declaration, if there is one. -/
def message (ord : Order) (src : Source) : String :=
  match expand strict ord src with
  | .error e => e
  | .ok _ => ""

/-- The sample with another argument of `#[state_machine(..)]`. -/
def arg (key : Ident) (v : SettingValue) : Source := { source with args := source.args ++ [⟨key, v⟩] }

/-- The sample with another method. -/
def extra (mth : Method) : Source := { source with methods := source.methods ++ [mth] }

/-- The sample with another state or superstate, with these items in its attribute. -/
def withMeta (kind key : Ident) (v : MetaValue) : Source :=
  extra ⟨"extra", [⟨kind, some [⟨key, v⟩]⟩], false, false, []⟩

/-- The sample with another method with this attribute and parameter. -/
def withArg (kind : Ident) (attrs : List ArgAttr) (pat : Pat) (ty : Ty) : Source :=
  extra ⟨"extra", [⟨kind, none⟩], false, false, [selfArg, .typed attrs pat ty]⟩

/-- For every fault a declaration that has it. -/
def faulty : List (Source × String) := [
  ({ source with selfTy := .compound "()" .nil }, "can not get path of shared storage"),
  (arg "initial" (.lit "?"), "initial state must be an expression"),
  (arg "event_identifier" (.lit "?"), "event identifier must be an ident"),
  (arg "context_identifier" (.lit "?"), "context identifier must be an ident"),
  (arg "before_transition" (.lit "?"), "before transition hook must be a function pointer"),
  (arg "after_transition" (.lit "?"), "after transition hook must be a function pointer"),
  (arg "before_dispatch" (.lit "?"), "before dispatch hook must be a function pointer"),
  (arg "after_dispatch" (.lit "?"), "after dispatch hook must be a function pointer"),
  (arg "visibility" (.lit "?"), "visibility must be a visibility keyword"),
  (arg "initial" .notString, "expected string literal"),
  (arg "initial" .other, "expected name-value pair"),
  (arg "state" .other, "state must contain a list of meta items"),
  (arg "superstate" (.lit "x"), "superstate must contain a list of meta items"),
  (arg "inital" (.lit "x"), "unknown argument for `state_machine` attribute"),
  (noInitial, "no initial state defined"),
  (arg "state" (.list none), "state meta must be a list of meta items"),
  (arg "superstate" (.list none), "superstate meta must be a list of meta items"),
  (arg "state" (.list (some [.name (.lit "?")])), "state type name must be an ident"),
  (arg "superstate" (.list (some [.name (.lit "?")])), "superstate type name must be an ident"),
  (arg "state" (.list (some [.name .notString])), "expected string literal"),
  (arg "superstate" (.list (some [.name .other])), "expected name-value pair"),
  (arg "superstate" (.list (some [.derive none])), "derive must be a list of paths"),
  (arg "state" (.list (some [.unknown])), "unknown argument for `state` attribute"),
  (arg "superstate" (.list (some [.unknown])), "unknown argument for `superstate` attribute"),
  (extra ⟨"extra", [⟨"state", none⟩], true, false, []⟩, "state handlers can not define their generics themselves"),
  (extra ⟨"extra", [⟨"superstate", none⟩], true, false, []⟩,
    "superstate handlers can not define their generics themselves"),
  (extra ⟨"extra", [⟨"action", none⟩], true, false, []⟩, "action handlers can not define their generics themselves"),
  (withArg "state" [] (.unsupported .tuple) (refTo "A"), "tuple pattern is not supported"),
  (withArg "superstate" [] (.unsupported .tupleStruct) (refTo "A"), "tuple struct pattern is not supported"),
  (withArg "state" [] (.unsupported .struct) (refTo "A"), "struct pattern is not supported"),
  (withArg "superstate" [] (.unsupported .wild) (refTo "A"), "wildcard pattern is not supported"),
  (withArg "state" [] (.unsupported .other) (refTo "A"), "patterns are not supported"),
  (withArg "state" [.defaultValue none] (.ident "x") (refTo "A"), "value must be an expression"),
  (withArg "state" [.defaultNotString] (.ident "x") (refTo "A"), "must be string literal"),
  (withArg "state" [.defaultMalformed] (.ident "x") (refTo "A"), "wrong attribute format"),
  (withMeta "state" "superstate" (.lit "?"), "superstate must be an ident"),
  (withMeta "superstate" "entry_action" (.lit "?"), "entry action must be an ident"),
  (withMeta "state" "exit_action" (.lit "?"), "exit action must be an ident"),
  (withMeta "state" "exit_action" .notString, "expected string literal"),
  (withMeta "superstate" "exit_action" .other, "expected name-value pair"),
  (withMeta "state" "local_storage" (.lit "x: u8"), "local storage must be a list of string literals"),
  (withMeta "superstate" "local_storage" (.fields [none]), "local storage entry must be a named field"),
  (extra ⟨"_1", [⟨"state", none⟩], false, false, []⟩, "not an identifier"),
  (withArg "state" [] (.ident "x") (.path "A" .nil), "input must be passed as a reference"),
  (withArg "superstate" [] (.ident "x") (.path "A" .nil), "input must be passed as a reference"),
  (withArg "state" [] .reference (refTo "A"), "all patterns should be verified to be idents"),
  (withArg "action" [] (.unsupported .wild) (refTo "A"), "all patterns should be verified to be idents"),
  (withMeta "state" "superstate" (.lit "stopped"), "superstate not found"),
  (withMeta "superstate" "superstate" (.lit "nothing"), "superstate not found"),
  (withMeta "state" "entry_action" (.lit "changing"), "entry action not found"),
  (withMeta "state" "exit_action" (.lit "nothing"), "exit action not found"),
  (withMeta "superstate" "entry_action" (.lit "nothing"), "action not found"),
  (withMeta "superstate" "exit_action" (.lit "nothing"), "action not found"),
  (withArg "state" [] (.ident "event") (.path "A" .nil), "event must be passed in as a reference"),
  (withArg "superstate" [] (.ident "context") (.path "A" .nil), "context must be passed in as a reference"),
  (tuplePredicate, "can not get ident of shared storage")]

/-- The sample with two faults. -/
def twoFaults : Source :=
  { source with methods := source.methods ++
      [⟨"one", [⟨"state", some [⟨"superstate", .lit "nothing"⟩]⟩], false, false, []⟩,
       ⟨"two", [⟨"state", some [⟨"exit_action", .lit "nothing"⟩]⟩], false, false, []⟩] }

/-- Another order, which differs where states are linked. -/
def linksBackwards : Order where
  perm n l := if n = 3 then l.reverse else l
  perm_perm n l := by
    split
    · exact l.reverse_perm
    · exact .refl _

end Macro.Sample

/-- All messages occur. -/
theorem C83_occur : ∀ p ∈ Sample.faulty, Sample.message Sample.forwards p.1 = p.2 := by decide +kernel

/-- The side conditions hold for these declarations. -/
example : ∀ p ∈ Sample.faulty, Sample.sideConditions p.1 = true := by decide +kernel

/-- With several faults, it depends on the order of iteration which one is reported. -/
theorem C83_order : Sample.message Sample.forwards Sample.twoFaults = "superstate not found" ∧
    Sample.message Sample.linksBackwards Sample.twoFaults = "exit action not found" := by
  constructor <;> decide +kernel

end Statig
