import Verif.Props.MacroOrder
/-!
# Anonymous lifetimes in the types of event and context: C49
-/
namespace Statig
open Macro
variable {syn : Syn} {ord : Order} {src : Source} {g : Gen}

mutual
theorem nameAnonymous_id {new : Ident} (hn : new ≠ "_") : ∀ t : Ty, nameAnonymous new t = t ↔ ¬ t.Anonymous
  | .ref none m t => by simp [nameAnonymous, Ty.Anonymous]
  | .ref (some l) m t => by
    by_cases hl : l = "_"
    · simp [nameAnonymous, Ty.Anonymous, hl, hn]
    · simp [nameAnonymous, Ty.Anonymous, hl, nameAnonymous_id hn t]
  | .path n args => by simp [nameAnonymous, Ty.Anonymous, nameAnonymousArgs_id hn args]
  | .compound _ ts => by simp [nameAnonymous, Ty.Anonymous, nameAnonymousArgs_id hn ts]

theorem nameAnonymousArgs_id {new : Ident} (hn : new ≠ "_") : ∀ l : Args, nameAnonymousArgs new l = l ↔ ¬ l.Anonymous
  | .nil => by simp [nameAnonymousArgs, Args.Anonymous]
  | .lifetime l r => by
    by_cases hl : l = "_"
    · simp [nameAnonymousArgs, Args.Anonymous, hl, hn]
    · simp [nameAnonymousArgs, Args.Anonymous, hl, nameAnonymousArgs_id hn r]
  | .ty t r => by
    simp [nameAnonymousArgs, Args.Anonymous, nameAnonymous_id hn t, nameAnonymousArgs_id hn r]
  | .ident i r => by simp [nameAnonymousArgs, Args.Anonymous, nameAnonymousArgs_id hn r]
end

mutual
theorem renameTy_iff {new : Ident} (hn : new ≠ "_") : ∀ t : Ty, t.Lexed →
    (renameTy new t = nameAnonymous new t ↔ t.Plain new)
  | .ref none m t, _ => by
    simp only [renameTy, nameAnonymous, Ty.Plain, Ty.ref.injEq, true_and, ne_eq, reduceCtorEq, not_false_eq_true]
    rw [eq_comm, nameAnonymous_id hn]
  | .ref (some l) m t, h => by
    have hl : l ≠ "'_" := by simpa using h.1
    simp only [renameTy, hl, ↓reduceIte, nameAnonymous, Ty.Plain, Ty.ref.injEq, true_and, ne_eq, Option.some.injEq]
    rw [eq_comm (a := t), nameAnonymous_id hn]
    refine and_congr_left' ?_
    by_cases hu : l = "_"
    · simp [hu, Ne.symm hn]
    · simp [hu]
  | .path n args, h => by
    simp only [renameTy, nameAnonymous, Ty.Plain, Ty.path.injEq, true_and]
    exact renameArgs_iff hn args h
  | .compound _ ts, h => by
    simp only [renameTy, nameAnonymous, Ty.Plain, Ty.compound.injEq, true_and]
    exact renameArgs_iff hn ts h

theorem renameArgs_iff {new : Ident} (hn : new ≠ "_") : ∀ l : Args, l.Lexed →
    (renameArgs new l = nameAnonymousArgs new l ↔ l.Plain new)
  | .nil, _ => by simp [renameArgs, nameAnonymousArgs, Args.Plain]
  | .lifetime l r, h => by
    simp only [renameArgs, ne_eq, h.1, not_false_eq_true, ↓reduceIte, nameAnonymousArgs, Args.lifetime.injEq, Args.Plain]
    refine and_congr ?_ (renameArgs_iff hn r h.2)
    by_cases hu : l = "_"
    · simp [hu]
    · simp [hu, eq_comm]
  | .ty t r, h => by
    simp only [renameArgs, nameAnonymousArgs, Args.ty.injEq, Args.Plain]
    exact and_congr (renameTy_iff hn t h.1) (renameArgs_iff hn r h.2)
  | .ident i r, h => by
    simp only [renameArgs, nameAnonymousArgs, Args.ident.injEq, true_and, Args.Plain]
    exact renameArgs_iff hn r h
end

/-- The type of events of the generated code is the declared one with anonymous lifetimes named, exactly if the declared
type is `Plain`; and the same for the context. -/
theorem C49_types (h : expand syn ord src = .ok g) (hc : g.Compiles) :
    (∀ ty, src.EventTy ty → (∀ ty', src.EventTy ty' → ty' = ty) → ty.Lexed →
      (g.eventType = nameAnonymous "event" ty ↔ ty.Plain "event")) ∧
    (∀ ty, src.ContextTy ty → (∀ ty', src.ContextTy ty' → ty' = ty) → ty.Lexed →
      (g.contextType = nameAnonymous "context" ty ↔ ty.Plain "context")) := by
  obtain ⟨h1, h2⟩ := C46_types_declared h hc
  constructor
  · intro ty ht hu hx
    rcases h1 with ⟨_, n⟩ | ⟨ty', ht', e⟩
    · exact absurd ht (n ty)
    · rw [e, hu ty' ht']
      exact renameTy_iff (by decide) ty hx
  · intro ty ht hu hx
    rcases h2 with ⟨_, n⟩ | ⟨ty', ht', e⟩
    · exact absurd ht (n ty)
    · rw [e, hu ty' ht']
      exact renameTy_iff (by decide) ty hx

/-- `(Context<'_>, &T, &'static T)` is treated as intended. -/
example : (Ty.compound "()" (.ty (.path "Context" (.lifetime "_" .nil)) (.ty (.ref none false (.path "T" .nil))
    (.ty (.ref (some "static") false (.path "T" .nil)) .nil)))).Plain "event" := by
  simp [Ty.Plain, Args.Plain, Ty.Anonymous, Args.Anonymous]

/-- A declaration with that type of context. -/
def Macro.Sample.lifetimeSource (ty : Ty) : Source where
  args := Macro.Sample.source.args
  methods := Macro.Sample.source.methods.map fun mth =>
    { mth with inputs := mth.inputs.map fun a =>
        if a = Macro.Sample.contextArg then .typed [] (.ident "context") (.ref none true ty) else a }

theorem Macro.Sample.lifetime_ok : Macro.Sample.accepts Macro.Sample.forwards
    (Macro.Sample.lifetimeSource (.path "Context" (.lifetime "static" .nil))) = true := by decide +kernel

/-- Not every type is treated as intended: a named lifetime that is a generic argument is replaced, -/
theorem C49_named_replaced : renameTy "context" (.path "Context" (.lifetime "static" .nil)) =
      .path "Context" (.lifetime "context" .nil) ∧
    nameAnonymous "context" (.path "Context" (.lifetime "static" .nil)) = .path "Context" (.lifetime "static" .nil) := by
  decide

/-- `&'_ T` is left alone, -/
theorem C49_underscore_kept : renameTy "context" (.ref (some "_") false (.path "T" .nil)) =
      .ref (some "_") false (.path "T" .nil) ∧
    nameAnonymous "context" (.ref (some "_") false (.path "T" .nil)) = .ref (some "context") false (.path "T" .nil) := by
  decide

/-- and so is everything under a reference. -/
theorem C49_reference_kept : renameTy "context" (.ref none false (.path "T" (.lifetime "_" .nil))) =
      .ref (some "context") false (.path "T" (.lifetime "_" .nil)) ∧
    nameAnonymous "context" (.ref none false (.path "T" (.lifetime "_" .nil))) =
      .ref (some "context") false (.path "T" (.lifetime "context" .nil)) := by
  decide

/-- The declared context type `Context<'static>` is `Context<'context>` in the generated code. -/
theorem C49_named_replaced_in_code : ∃ g, expand Sample.syn Sample.forwards
      (Sample.lifetimeSource (.path "Context" (.lifetime "static" .nil))) = .ok g ∧ g.Compiles ∧
    (Sample.lifetimeSource (.path "Context" (.lifetime "static" .nil))).ContextTy
      (.path "Context" (.lifetime "static" .nil)) ∧
    g.contextType = .path "Context" (.lifetime "context" .nil) := by
  refine ⟨_, Sample.result_eq Sample.lifetime_ok, by decide +kernel, ?_, by decide +kernel⟩
  refine ⟨{ Sample.ledOff with inputs := .typed [] (.ident "context") (.ref none true
    (.path "Context" (.lifetime "static" .nil))) :: Sample.ledOff.inputs.tail }, by decide +kernel,
    .inl ⟨_, List.mem_cons_self, rfl⟩, [], none, true, by decide +kernel⟩

end Statig
