import Verif.Model.Macro.Codegen
/-!
# The entry points of the macro crate

`macro/src/lib.rs` and `macro/src/parse.rs`.  Tokens are represented by what `syn`'s parsers say about them: a value, or
the error they report (which `abort!(error)` turns into the message of the macro).
-/
namespace Statig.Macro

/-- `syn::ItemImpl`, as far as the macro looks at it (see `Source`). -/
structure ItemImpl where
  selfTy : Ty
  generics : Generics
  methods : List Method

/-- `syn::Item`: an impl block, or another item. -/
inductive Item where
  | impl (i : ItemImpl)
  | other (tokens : String)

/-- Tokens, as seen by a parser of `syn`. -/
abbrev Tokens (α : Type) := Except String α

/-- `parse_args`: `macro/src/parse.rs:5-11`. -/
def parseArgs (args : Tokens (List Setting)) : Res (List Setting) :=
  match args with
  | .ok args => .ok args
  | .error error => .error error

/-- `parse_input`: `macro/src/parse.rs:13-24`. -/
def parseInput (item : Tokens Item) : Res ItemImpl :=
  match item with
  | .ok (.impl i) => .ok i
  | .ok (.other _) => .error "expected impl block"
  | .error error => .error error

/-- `state_machine`: `macro/src/lib.rs:23-32`; `analyze`, `lower` and `codegen` are `expand`. -/
def stateMachine (syn : Syn) (ord : Order) (args : Tokens (List Setting)) (input : Tokens Item) : Res Gen := do
  let attributeArgs ← parseArgs args
  let itemImpl ← parseInput input
  expand syn ord { selfTy := itemImpl.selfTy, generics := itemImpl.generics, args := attributeArgs,
                   methods := itemImpl.methods }

/-- The attribute macros `state`, `superstate` and `action`: `macro/src/lib.rs:34-47`.  They ignore their arguments. -/
def helperMacro (path : Ident) : Option (Option (List Meta) → Method → Method) :=
  if path = "state" then some fun _ input => input
  else if path = "superstate" then some fun _ input => input
  else if path = "action" then some fun _ input => input
  else none

/-- What the compiler does with the attributes left on a method in the output of `state_machine`: the first one that is
an attribute macro of `macro/src/lib.rs:34-47` is taken off and applied to the rest, again and again; `done` are the
attributes before that one.  (Other attributes, of the language or of other crates, are left alone here.) -/
def applyHelpers (mth : Method) (done : List Attr) : List Attr → Method
  | [] => { mth with attrs := done }
  | a :: rest =>
    match helperMacro a.path with
    | some f =>
      let out := f a.metas { mth with attrs := done ++ rest }
      applyHelpers out (out.attrs.take done.length) rest
    | none => applyHelpers mth (done ++ [a]) rest

/-- The method as it is compiled. -/
def Method.compiled (mth : Method) : Method := applyHelpers mth [] mth.attrs

end Statig.Macro
