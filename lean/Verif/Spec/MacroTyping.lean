import Verif.Spec.Macro
import Verif.Model.Macro.Typing
/-!
# Vocabulary of the properties of `#[state_machine]`: declarations whose types fit together
-/
namespace Statig.Macro

/-- The same type up to lifetimes. -/
def Ty.Same (t u : Ty) : Prop := t.erase = u.erase

/-- The type of a parameter of a method. -/
def Source.argTy (src : Source) : FnArg → Ty
  | .receiver m => .ref none m src.selfTy
  | .typed _ _ ty => ty

/-- What can be given to a callback of the state (`kind` is `state`) or superstate `mth`, by role, if the event is an
`E` and the context a `C`: a shared reference to the event, and mutable references to the shared storage, the context,
and the fields. -/
def Source.roleTy (src : Source) (kind : Ident) (mth : Method) (E C : Ty) : Role → Option Ty
  | .storage => some (.ref none true src.selfTy)
  | .event => some (.ref none false E)
  | .context => some (.ref none true C)
  | .field x => (src.fieldTy kind mth x).map (.ref none true)

/-- The parameters of all callbacks can be given what is available, and the fields of superstates can be borrowed from
those of the states and superstates inside them, if the event is an `E` and the context a `C`. -/
structure Source.WellTyped (src : Source) (co : Coercion) (E C : Ty) : Prop where
  handlers : ∀ kind, kind = "state" ∨ kind = "superstate" → ∀ mth ∈ src.methods, mth.Has kind →
    ∀ a ∈ mth.inputs, ∃ r t, src.role a = some r ∧ src.roleTy kind mth E C r = some t ∧ co.coerces t (src.argTy a)
  actions : ∀ kind, kind = "state" ∨ kind = "superstate" → ∀ mth ∈ src.methods, ∀ am ∈ src.methods,
    am.Has "action" → ∀ key, key = "entry_action" ∨ key = "exit_action" → mth.link kind key = some am.name →
      ∀ a ∈ am.inputs, ∃ r t, src.actionRole a = some r ∧ src.roleTy kind mth E C r = some t ∧
        co.coerces t (src.argTy a)
  superstates : ∀ kind, kind = "state" ∨ kind = "superstate" → ∀ mth ∈ src.methods, ∀ pm ∈ src.methods,
    pm.Has "superstate" → mth.link kind "superstate" = some pm.name →
      ∀ x ∈ src.fields "superstate" pm, ∃ t u, src.fieldTy kind mth x = some t ∧
        src.fieldTy "superstate" pm x = some u ∧ co.coerces (.ref none true t) u

/-- A value that callbacks can be given a reference to: whether it can be written, and its type. -/
structure Place where
  mutable : Bool
  ty : Ty

/-- What a field of a state or superstate is or refers to: the field itself in a state, which can be written; in a
superstate, whose fields are references, what the field refers to. -/
def Source.fieldPlace (src : Source) (kind : Ident) (mth : Method) (x : Ident) : Option Place :=
  (src.fieldTy kind mth x).bind fun
    | .ref l m t => some (if kind = "superstate" then ⟨m, t⟩ else ⟨true, .ref l m t⟩)
    | t => if kind = "superstate" then none else some ⟨true, t⟩

/-- What a role stands for, if the event is an `E` and the context a `C`. -/
def Source.place (src : Source) (kind : Ident) (mth : Method) (E C : Ty) : Role → Option Place
  | .storage => some ⟨true, src.selfTy⟩
  | .event => some ⟨false, E⟩
  | .context => some ⟨true, C⟩
  | .field x => src.fieldPlace kind mth x

/-- A parameter of type `&T` or `&mut T` fits a value of type `T` (up to lifetimes); in the latter case it must be
possible to write the value. -/
def Place.Fits (p : Place) : Ty → Prop
  | .ref _ m t => t.Same p.ty ∧ (m = true → p.mutable = true)
  | _ => False

/-- The declarations agree on the types of what they share, and nobody asks for more access than there is: the event can
only be read, shared storage and context can be written, and so can local storage, except by or through superstates that
declare it as `&T`.

* Every parameter of a state or superstate handler fits what it is to be given.
* Every parameter of an entry or exit action fits what it is to be given, in every state and superstate that uses it.
* Every field of a superstate fits the field of the same name of the states and superstates inside it. -/
structure Source.Agrees (src : Source) (E C : Ty) : Prop where
  handlers : ∀ kind, kind = "state" ∨ kind = "superstate" → ∀ mth ∈ src.methods, mth.Has kind →
    ∀ a ∈ mth.inputs, ∃ r ∈ src.role a, ∃ p ∈ src.place kind mth E C r, p.Fits (src.argTy a)
  actions : ∀ kind, kind = "state" ∨ kind = "superstate" → ∀ mth ∈ src.methods, ∀ am ∈ src.methods,
    am.Has "action" → ∀ key, key = "entry_action" ∨ key = "exit_action" → mth.link kind key = some am.name →
      ∀ a ∈ am.inputs, ∃ r ∈ src.actionRole a, ∃ p ∈ src.place kind mth E C r, p.Fits (src.argTy a)
  superstates : ∀ kind, kind = "state" ∨ kind = "superstate" → ∀ mth ∈ src.methods, ∀ pm ∈ src.methods,
    pm.Has "superstate" → mth.link kind "superstate" = some pm.name →
      ∀ x ∈ src.fields "superstate" pm, ∃ u ∈ src.fieldTy "superstate" pm x, ∃ p ∈ src.fieldPlace kind mth x, p.Fits u

/-- The type is a reference. -/
def Ty.IsRef : Ty → Prop
  | .ref _ _ _ => True
  | _ => False

/-- The type is a reference to something that is not a reference. -/
def Ty.SimpleRef : Ty → Prop
  | .ref _ _ t => ¬ t.IsRef
  | _ => False

/-- There are no references to references: all parameters of handlers and actions are of types `&T` or `&mut T`, where
`T` is not a reference, and so are the fields in `local_storage(..)` of superstates, while those of states are not
references. -/
structure Source.Flat (src : Source) : Prop where
  params : ∀ mth ∈ src.methods, mth.Has "state" ∨ mth.Has "superstate" ∨ mth.Has "action" →
    ∀ attrs pat ty, .typed attrs pat ty ∈ mth.inputs → ty.SimpleRef
  stateFields : ∀ mth ∈ src.methods, ∀ f ∈ mth.storageFields "state", ¬ f.ty.IsRef
  supFields : ∀ mth ∈ src.methods, ∀ f ∈ mth.storageFields "superstate", f.ty.SimpleRef

/-- The coercions between references (The Rust Reference, "Type coercions"): `&mut T` to `&T`, and from a reference to a
reference to what the latter refers to, which can be written only through two mutable references. -/
inductive RefCoerces : Ty → Ty → Prop where
  | refl (t : Ty) : RefCoerces t t
  | share (t : Ty) : RefCoerces (.ref none true t) (.ref none false t)
  | deref {m n : Bool} {t u : Ty} : RefCoerces (.ref none (m && n) t) u →
      RefCoerces (.ref none m (.ref none n t)) u

/-- Only these, up to lifetimes: types that are written differently are different, and no type implements `Deref`. -/
def Coercion.references : Coercion where
  coerces t u := RefCoerces t.erase u.erase
  erase := by
    intro t t' u u' h1 h2 h
    rw [← h1, ← h2]
    exact h
  refl t := .refl _
  share t := .share _
  deref m m' t h := by
    simp only [Ty.erase]
    refine .deref ?_
    cases m <;> cases m' <;> simp at h ⊢
    · exact .refl _
    · exact .share _
    · exact .refl _

end Statig.Macro
