import Verif.Spec.MacroImpls
import Verif.Props.MacroTypes
import Verif.Props.MacroAccept
/-!
# What the generated impls are for, and whose methods the generated calls call: C58
-/
namespace Statig
open Macro
variable {syn : Syn} {ord : Order} {src : Source} {g : Gen}

/-- The state machine and the state enum are implemented for exactly the type of the impl block, with exactly its
generic parameters and `where` clauses.  The impl of the superstate enum has them too; if, and only if, some
superstate borrows local storage, it has also the lifetime parameter `'sub` and the clause `Self: 'sub`. -/
theorem C58_headers (h : expand syn ord src = .ok g) (hd : src.Distinct) :
    g.selfTy = src.selfTy ∧ g.generics = src.generics ∧ g.stateImpl = src.generics ∧
    (src.SuperstateBorrows → g.superstateImpl.params = src.generics.params ++ [.lifetime "sub" []] ∧
      g.superstateImpl.preds = src.generics.preds ++ [.type (.path "Self" .nil) ["'sub"]]) ∧
    (¬ src.SuperstateBorrows → g.superstateImpl = src.generics) := by
  obtain ⟨sm, L, Lp, hg⟩ := genInfo hd h
  have hl := C51_lifetime h hd
  refine ⟨hg.selfTy.trans hg.machine.selfTy, hg.generics.trans hg.machine.generics,
    hg.stateImpl.trans hg.machine.generics, ?_, ?_⟩
  · intro hb
    rw [hg.superstateImpl, if_pos (hl.2 hb), hg.machine.generics]
    exact ⟨rfl, rfl⟩
  · intro hb
    rw [hg.superstateImpl, if_neg (fun e => hb (hl.1 e)), hg.machine.generics]

theorem Macro.turbofish_eq {gs : Generics} (h : gs.LifetimesFirst) : turbofish gs = gs.asArgs := by
  obtain ⟨ls, os, e, hl, ho⟩ := h
  unfold turbofish Generics.asArgs
  rw [e, List.filterMap_append, List.filterMap_append, List.foldr_append, List.foldr_append]
  have h1 : ls.filterMap GParam.otherName = [] := by
    rw [List.filterMap_eq_nil_iff]
    intro p hp
    have := hl p hp
    cases p <;> first | rfl | cases this
  have h2 : os.filterMap GParam.lifetimeName = [] := by
    rw [List.filterMap_eq_nil_iff]
    intro p hp
    have := ho p hp
    cases p <;> first | rfl | exact absurd trivial this
  have h3 : (os.filterMap GParam.otherName).foldr (fun n => Args.ty (.path n .nil)) .nil =
      os.foldr GParam.asArg .nil := by
    clear h2 e
    induction os with
    | nil => rfl
    | cons p os ih =>
      have := ho p (by simp)
      have ih := ih fun q hq => ho q (by simp [hq])
      cases p with
      | lifetime => exact absurd trivial this
      | type n b =>
        rw [List.filterMap_cons_some (f := GParam.otherName) (b := n) rfl, List.foldr_cons, List.foldr_cons, ih]
        rfl
      | const n b =>
        rw [List.filterMap_cons_some (f := GParam.otherName) (b := n) rfl, List.foldr_cons, List.foldr_cons, ih]
        rfl
  rw [h1, h2, List.foldr_nil, List.foldr_nil, h3, List.foldr_append]
  clear h1 h2 h3 e
  induction ls with
  | nil => rfl
  | cons p ls ih =>
    have := hl p (by simp)
    have ih := ih fun q hq => hl q (by simp [hq])
    cases p with
    | lifetime l b =>
      rw [List.filterMap_cons_some (f := GParam.lifetimeName) (b := l) rfl, List.foldr_cons, List.foldr_cons, ih]
      rfl
    | type => cases this
    | const => cases this

theorem Macro.segments_named {modules : List Ident} {args : Args} (h : args.Proper) :
    (modules.foldr .ident args).segments = modules := by
  induction modules with
  | cons i l ih => simp [Args.segments, ih]
  | nil => cases args with
    | nil => rfl
    | lifetime => rfl
    | ty => rfl
    | ident => cases h

/-- The generated calls of handlers and actions name the type of the impl block, but with the impl block's generic
parameters for generic arguments. -/
theorem C58_callee (h : expand syn ord src = .ok g) (hd : src.Distinct) (hl : src.generics.LifetimesFirst)
    {modules : List Ident} {name : Ident} {args : Args} (hp : args.Proper)
    (ht : src.selfTy = namedType modules name args) (ty : Ty) :
    g.CallsMethodsOf ty ↔ ty = namedType modules name src.generics.asArgs := by
  obtain ⟨sm, L, Lp, hg⟩ := genInfo hd h
  have hargs : g.callArgs = src.generics.asArgs := by
    rw [hg.callArgs, hg.machine.generics, turbofish_eq hl]
  obtain ⟨n, args', e, hpath⟩ := hg.machine.path
  rw [ht] at e
  simp only [namedType, Ty.path.injEq] at e
  obtain ⟨rfl, rfl⟩ := e
  rw [segments_named hp] at hpath
  unfold Gen.CallsMethodsOf
  rw [hg.callPath, hpath, hargs]
  constructor
  · rintro ⟨ms, n, e, rfl⟩
    have := List.append_inj' e rfl
    simp only [List.cons.injEq, and_true] at this
    rw [this.1, this.2]
  · rintro rfl
    exact ⟨_, _, rfl, rfl⟩

theorem Macro.foldr_ident_inj {modules : List Ident} {a b : Args}
    (h : modules.foldr Args.ident a = modules.foldr Args.ident b) : a = b := by
  induction modules with
  | nil => exact h
  | cons i l ih =>
    simp only [List.foldr_cons, Args.ident.injEq, true_and] at h
    exact ih h

/-- So they name the type of the impl block itself iff its generic arguments are the generic parameters in order. -/
theorem C58_callee_is_self (h : expand syn ord src = .ok g) (hd : src.Distinct) (hl : src.generics.LifetimesFirst)
    {modules : List Ident} {name : Ident} {args : Args} (hp : args.Proper)
    (ht : src.selfTy = namedType modules name args) :
    g.CallsMethodsOf src.selfTy ↔ args = src.generics.asArgs := by
  rw [C58_callee h hd hl hp ht, ht]
  unfold namedType
  simp only [Ty.path.injEq, true_and]
  exact ⟨foldr_ident_inj, fun e => e ▸ rfl⟩

namespace Macro.Sample

/-- `impl<'a, 'b: 'a, T: Clone, U, const N: usize> store::Buffer<'a, 'b, T, U, N>`. -/
def buffer : Source :=
  { genericSource with
    selfTy := namedType ["store"] "Buffer" (.lifetime "a" (.lifetime "b"
      (.ty (.path "T" .nil) (.ty (.path "U" .nil) (.ty (.path "N" .nil) .nil))))) }

theorem buffer_ok : accepts backwards buffer = true := by decide +kernel

/-- `impl<'a, 'b: 'a, T: Clone, U, const N: usize> Buffer<'a, 'b, Vec<T>, U, N>`. -/
def nested : Source :=
  { genericSource with
    selfTy := namedType [] "Buffer"
      (.lifetime "a" (.lifetime "b" (.ty (.path "Vec" (.ty (.path "T" .nil) .nil)) (.ty (.path "U" .nil)
        (.ty (.path "N" .nil) .nil))))) }

theorem nested_ok : accepts backwards nested = true := by decide +kernel

/-- `impl &Buffer`. -/
def reference : Source := { genericSource with selfTy := .ref none false (.path "Buffer" .nil) }

theorem generic_first : genericSource.generics.LifetimesFirst :=
  ⟨[.lifetime "a" [], .lifetime "b" ["a"]], [.type "T" ["Clone"], .type "U" [], .const "N" "usize"], by decide +kernel, by simp [GParam.IsLifetime],
    by simp [GParam.IsLifetime]⟩

theorem generic_distinct : genericSource.Distinct := by
  unfold Source.Distinct
  decide +kernel

end Macro.Sample

/-- In the sample the superstate borrows the text, and so the impl for superstates has the additional lifetime. -/
example : Sample.genericSource.SuperstateBorrows ∧
    Sample.genericGen.superstateImpl.params = Sample.genericSource.generics.params ++ [.lifetime "sub" []] := by
  have : Sample.genericSource.SuperstateBorrows :=
    ⟨Sample.owner, by simp [Sample.genericSource], ⟨_, List.mem_cons_self .., rfl⟩, _,
      List.mem_cons_of_mem _ (List.mem_cons_self ..), "text", by decide +kernel⟩
  exact ⟨this, ((C58_headers Sample.generic_eq Sample.generic_distinct).2.2.2.1 this).1⟩

/-- `store::Buffer::<'a, 'b, T, U, N>::fill(..)`. -/
example : ∃ g, expand Sample.syn Sample.backwards Sample.buffer = .ok g ∧ g.CallsMethodsOf Sample.buffer.selfTy :=
  ⟨_, Sample.result_eq Sample.buffer_ok,
    (C58_callee_is_self (Sample.result_eq Sample.buffer_ok) Sample.generic_distinct Sample.generic_first
      (modules := ["store"]) (name := "Buffer") (by simp [Args.Proper]) rfl).2 (by decide +kernel)⟩

/-- For an impl block whose type does not have just the generic parameters for arguments, the generated calls name
another type: for `impl<'a, 'b, T, U, const N: usize> Buffer<'a, 'b, Vec<T>, U, N>` they are
`Buffer::<'a, 'b, T, U, N>::fill(..)`. -/
theorem C58_callee_differs : ∃ g, expand Sample.syn Sample.backwards Sample.nested = .ok g ∧
    ¬ g.CallsMethodsOf Sample.nested.selfTy ∧
    g.CallsMethodsOf (namedType [] "Buffer" (.lifetime "a" (.lifetime "b" (.ty (.path "T" .nil)
      (.ty (.path "U" .nil) (.ty (.path "N" .nil) .nil)))))) := by
  have hp : (Args.lifetime "a" (.lifetime "b" (.ty (.path "Vec" (.ty (.path "T" .nil) .nil)) (.ty (.path "U" .nil)
      (.ty (.path "N" .nil) .nil))))).Proper := by
    simp [Args.Proper]
  refine ⟨_, Sample.result_eq Sample.nested_ok, ?_, ?_⟩
  · rw [C58_callee_is_self (Sample.result_eq Sample.nested_ok) Sample.generic_distinct Sample.generic_first hp rfl]
    decide +kernel
  · rw [C58_callee (Sample.result_eq Sample.nested_ok) Sample.generic_distinct Sample.generic_first hp rfl]
    decide +kernel

/-- An impl block for something else than a path is not accepted. -/
example : ¬ ∃ g, expand Sample.syn Sample.backwards Sample.reference = .ok g := by
  rintro ⟨g, h⟩
  obtain ⟨n, args, e⟩ := (C55_settings h).1
  cases e

end Statig
