import Verif.Model.Examples.Calculator
/-!
# The user interface of the example `calculator`

`examples/macro/calculator/src/ui.rs` and `main.rs` (in `examples/no_macro/calculator` `ui.rs` is the same file).  Of
`egui` only this is used: it calls `App::update` for every frame, and `Button::new(..)`, when it is rendered, says whether
it was clicked.  Sizes and positions are left out.
-/
namespace Statig.Examples.Calculator

/-- `ui.add_sized(.., Button::new(rich_text(label))).clicked().then(|| self.handle(&event))`, as in
`examples/macro/calculator/src/ui.rs:47-49`. -/
structure Button where
  label : String
  event : Event
deriving DecidableEq

/-- `App::control`: `examples/macro/calculator/src/ui.rs:124-144`. -/
def control : List Button := [⟨"CE", .ce⟩, ⟨"AC", .ac⟩]

/-- `App::numpad`: `examples/macro/calculator/src/ui.rs:39-81`. -/
def numpad : List Button := [
  ⟨"7", .digit 7⟩, ⟨"8", .digit 8⟩, ⟨"9", .digit 9⟩,
  ⟨"4", .digit 4⟩, ⟨"5", .digit 5⟩, ⟨"6", .digit 6⟩,
  ⟨"1", .digit 1⟩, ⟨"2", .digit 2⟩, ⟨"3", .digit 3⟩]

/-- `App::operands`: `examples/macro/calculator/src/ui.rs:84-121`. -/
def operands : List Button := [⟨"÷", .operator .div⟩, ⟨"×", .operator .mul⟩, ⟨"-", .operator .sub⟩, ⟨"+", .operator .add⟩]

/-- `App::zero_point_eq`: `examples/macro/calculator/src/ui.rs:146-168`. -/
def zeroPointEq : List Button := [⟨"0", .digit 0⟩, ⟨",", .point⟩, ⟨"=", .equal⟩]

/-- The buttons as `App::update` renders them: `examples/macro/calculator/src/ui.rs:188-209`. -/
def buttons : List Button := control ++ numpad ++ operands ++ zeroPointEq

section
/- For any machine with these events: `key` makes its events of them, and `ctx` is its context. -/
variable {S : Sig} (m : Machine S) (key : Event → S.Ev) (ctx : S.Ctx)

/-- Render buttons, of which some were clicked; `handle` is called through `DerefMut for App`
(`examples/macro/calculator/src/ui.rs:9-23`).  A panic ends it. -/
def clickAll (clicked : String → Bool) :
    InitializedStateMachine S → List Button → Option (Out Unit × InitializedStateMachine S)
  | sm, [] => some (.ok (), sm)
  | sm, b :: bs =>
    if clicked b.label then do
      let c ← sm.handleWithContext .blocking m (key b.event) ctx []
      match c.out with
      | .ok () => clickAll clicked c.self bs
      | out => some (out, c.self)
    else clickAll clicked sm bs

/-- `App::update` for every frame (`examples/macro/calculator/src/ui.rs:171-211`): in each, first `App::display` is called,
which reads the storage through two `Deref`s (`examples/macro/calculator/src/ui.rs:27-36`), and then the buttons are
rendered.  The result is what is displayed in the frames that are completed, and whether there was a panic. -/
def frames : InitializedStateMachine S → List (String → Bool) → Option (List S.M × Out Unit)
  | _, [] => some ([], .ok ())
  | sm, clicked :: rest => do
    let (out, sm') ← clickAll m key ctx clicked sm buttons
    match out with
    | .ok () =>
      let (texts, out) ← frames sm' rest
      some (sm.inner.shared :: texts, out)
    | out => some ([], out)

/-- `main`: `examples/macro/calculator/src/main.rs:14-28`. -/
def app (storage : S.M) (clicks : List (String → Bool)) : Option (List S.M × Out Unit) := do
  let c ← (uninitializedStateMachine m storage).initWithContext .blocking m ctx []
  match c.self with
  | some sm => frames m key ctx sm clicks
  | none => some ([], c.out)

end

end Statig.Examples.Calculator
