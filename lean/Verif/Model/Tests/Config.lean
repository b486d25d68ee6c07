import Verif.Model.Macro.Rust
/-!
# The impl blocks of the tests of generics and of the arguments of the macro

`statig/tests/generics.rs` and `statig/tests/config_macro.rs`.
-/
namespace Statig.Tests.Generics
open Statig.Macro

/-- `statig/tests/generics.rs:22-27`. -/
def generics : Generics where
  params := [.lifetime "a" [], .type "T" [], .type "A" [], .type "B" [], .const "SIZE" "usize"]
  preds := [.type (.path "T" .nil) ["'static", "Default", "Copy"],
    .type (.path "A" .nil) ["'static", "Deref<Target = B>"], .type (.path "B" .nil) ["'static"]]

/-- `[T; SIZE]`. -/
def array : Ty := .compound "array" (.ty (.path "T" .nil) (.ident "SIZE" .nil))

/-- The annotated impl block: `statig/tests/generics.rs:21-42`. -/
def source : Source where
  selfTy := .path "Counter" (.lifetime "a" (.ty (.path "T" .nil) (.ty (.path "A" .nil) (.ty (.path "B" .nil)
    (.ty (.path "SIZE" .nil) .nil)))))
  generics := generics
  args := [⟨"initial", .lit "State::a()"⟩]
  methods := [
    { name := "a", attrs := [⟨"state", none⟩], generic := false, isAsync := false, inputs := [] },
    { name := "b", attrs := [⟨"state", none⟩], generic := false, isAsync := false,
      inputs := [.typed [] (.ident "array") (.ref none true array)] },
    { name := "c", attrs := [⟨"state", none⟩], generic := false, isAsync := false,
      inputs := [.typed [] (.ident "deref") (.ref none false (.path "B" .nil))] }]

end Statig.Tests.Generics

namespace Statig.Tests.Config
open Statig.Macro

/-- A function with the parameters `my_event: &Event, my_context: &mut Context`. -/
def method (name : Ident) (attr : Attr) : Method where
  name := name
  attrs := [attr]
  generic := false
  isAsync := false
  inputs := [.typed [] (.ident "my_event") (.ref none false (.path "Event" .nil)),
    .typed [] (.ident "my_context") (.ref none true (.path "Context" .nil))]

/-- The annotated impl block: `statig/tests/config_macro.rs:20-43`. -/
def source : Source where
  selfTy := .path "MyStateMachine" .nil
  args := [⟨"initial", .lit "MyState::bar()"⟩,
    ⟨"state", .list (some [.name (.lit "MyState"), .derive (some ["PartialEq", "Eq"])])⟩,
    ⟨"superstate", .list (some [.name (.lit "MySuperstate"), .derive (some ["Clone"])])⟩,
    ⟨"event_identifier", .lit "my_event"⟩, ⟨"context_identifier", .lit "my_context"⟩, ⟨"visibility", .lit "pub(crate)"⟩]
  methods := [method "bar" ⟨"state", some [⟨"superstate", .lit "foo"⟩]⟩, method "foo" ⟨"superstate", none⟩]

end Statig.Tests.Config
