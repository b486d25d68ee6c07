import Verif.Model.Macro.Codegen
/-!
# The `#[state_machine]` macro: what the generated code does

The meaning of the generated items (`macro/src/codegen.rs:149-174, 254-347, 405-504`), as a `Machine`, for
arbitrary user functions.  A value of a generated enum is its variant and a value for each of its fields.  Field
types are not modelled: all field values are of one type `V`, and a field of type `&'sub mut T` of a superstate is
the value it points to.  Code that `rustc` rejects (see `Gen.Compiles`) is given some arbitrary meaning.
-/
namespace Statig.Macro

/-- `match self { pat => body, .. }`: the first arm for the variant. -/
def armOf {B : Type} (arms : List (Arm B)) (v : Ident) : Option (Arm B) :=
  arms.find? fun a => a.pat.variant == v

/-- The field names of a variant of a generated enum (`macro/src/codegen.rs:189-194, 362-367`). -/
def fieldsOf (vs : List Variant) (v : Ident) : Option (List Ident) :=
  (vs.find? fun a => a.name == v).map fun a => a.fields.map (·.name)

/-- What of the generated items matters when they run: enums by variant and `match` expressions by the arm
taken. -/
structure Iface where
  mode : Mode
  initial : Expr
  eventIdent : Ident
  contextIdent : Ident
  beforeTransition : Option Expr
  afterTransition : Option Expr
  beforeDispatch : Option Expr
  afterDispatch : Option Expr
  isAsync : Ident → Bool
  stateFields : Ident → Option (List Ident)
  supFields : Ident → Option (List Ident)
  handler : Ident → Option (Arm FnCall)
  entry : Ident → Option (Arm (Option FnCall))
  exit : Ident → Option (Arm (Option FnCall))
  superstate : Ident → Option (Arm (Option VariantPat))
  supHandler : Ident → Option (Arm FnCall)
  supEntry : Ident → Option (Arm (Option FnCall))
  supExit : Ident → Option (Arm (Option FnCall))
  supSuperstate : Ident → Option (Arm (Option VariantPat))

/-- See `Iface`. `isAsync` says which methods of the impl block, which is kept (`macro/src/codegen.rs:22`), are
`async`. -/
def Gen.iface (g : Gen) : Iface where
  mode := g.mode
  initial := g.initial
  eventIdent := g.eventIdent
  contextIdent := g.contextIdent
  beforeTransition := g.beforeTransition
  afterTransition := g.afterTransition
  beforeDispatch := g.beforeDispatch
  afterDispatch := g.afterDispatch
  isAsync n := (g.methods.find? (·.name == n)).any (·.isAsync)
  stateFields := fieldsOf g.states
  supFields := fieldsOf g.superstates
  handler := armOf g.handlerArms
  entry := armOf g.entryArms
  exit := armOf g.exitArms
  superstate := armOf g.superstateArms
  supHandler := armOf g.supHandlerArms
  supEntry := armOf g.supEntryArms
  supExit := armOf g.supExitArms
  supSuperstate := armOf g.supSuperstateArms

/-- A value of an enum whose variants have the fields `decl`. -/
structure Val (decl : Ident → Option (List Ident)) (V : Type) where
  variant : Ident
  get : Ident → Option V
  ok : ∃ ns, decl variant = some ns ∧ ∀ x, (get x).isSome ↔ x ∈ ns

/-- Writing to a field. -/
def Val.set {decl : Ident → Option (List Ident)} {V : Type} (s : Val decl V) (x : Ident) (v : V) : Val decl V where
  variant := s.variant
  get y := if y = x ∧ (s.get y).isSome then some v else s.get y
  ok := by
    obtain ⟨ns, h, h'⟩ := s.ok
    refine ⟨ns, h, fun y => ?_⟩
    by_cases hy : y = x ∧ (s.get y).isSome
    · simpa [if_pos hy] using (h' y).1 hy.2
    · simpa [if_neg hy] using h' y

/-- The types of the user's program. -/
structure Types where
  M : Type
  Ev : Type
  Ctx : Type
  In : Type
  V : Type

/-- The types of the generated machine. `core::mem::discriminant` is the variant. -/
abbrev Iface.sig (I : Iface) (T : Types) : Sig where
  M := T.M
  St := Val I.stateFields T.V
  Sup := Val I.supFields T.V
  Ev := T.Ev
  Ctx := T.Ctx
  In := T.In
  D := Ident
  E := Ident

/-- What a reference passed to a user function points to. -/
inductive Arg (T : Types) where
  | storage (m : T.M)
  | event (e : T.Ev)
  | context (c : T.Ctx)
  | field (v : T.V)

/-- The user's functions: the methods of the impl block, called with references, so that a run of one ends with
new values for what its arguments point to; the expression `initial`; the hooks, by their path; and whether a
hook is an `async fn`. -/
structure Env (I : Iface) (T : Types) where
  handler : Ident → List (Arg T) → Fut T.In (List (Arg T)) (Response (I.sig T).St)
  action : Ident → List (Arg T) → Fut T.In (List (Arg T)) Unit
  initial : Expr → (I.sig T).St
  dispatchHook : Expr → T.M → StateOrSuperstate (I.sig T).St (I.sig T).Sup → T.Ev → Fut T.In T.M Unit
  transitionHook : Expr → T.M → (I.sig T).St → (I.sig T).St → Fut T.In T.M Unit
  hookAsync : Expr → Bool

/-- The same run, observed through a function of the data it borrows. -/
def _root_.Statig.Fut.mapWorld {In W W' α : Type} (f : W → W') : Fut In W α → Fut In W' α
  | .done w a => .done (f w) a
  | .panic w => .panic (f w)
  | .pending w k => .pending (f w) fun i => (k i).mapWorld f

/-- What an identifier in a generated call refers to. -/
inductive Role where
  | storage
  | event
  | context
  | field (x : Ident)
deriving DecidableEq

/-- Rust's scoping in a match arm of a generated function: the fields bound by the pattern shadow the parameters
`shared_storage`, the event (only of `call_handler`) and the context (`macro/src/codegen.rs:258-289`). -/
def Iface.resolve (I : Iface) (bound : List Ident) (inHandler : Bool) (x : Ident) : Option Role :=
  if x ∈ bound then some (.field x)
  else if x = "shared_storage" then some .storage
  else if inHandler ∧ x = I.eventIdent then some .event
  else if x = I.contextIdent then some .context
  else none

section call
variable {decl : Ident → Option (List Ident)} {T : Types}

/-- The argument passed for a role. -/
def readArg (ev : Option T.Ev) (w : Val decl T.V × T.M × T.Ctx) : Role → Option (Arg T)
  | .storage => some (.storage w.2.1)
  | .event => ev.map .event
  | .context => some (.context w.2.2)
  | .field x => (w.1.get x).map .field

/-- What the callee did to one of its arguments.  Events are passed by shared reference. -/
def writeArg (w : Val decl T.V × T.M × T.Ctx) : Role × Arg T → Val decl T.V × T.M × T.Ctx
  | (.storage, .storage m) => (w.1, m, w.2.2)
  | (.context, .context c) => (w.1, w.2.1, c)
  | (.field x, .field v) => (w.1.set x v, w.2.1, w.2.2)
  | _ => w

/-- The arguments of a call. -/
def evalArgs (I : Iface) (bound : List Ident) (ev : Option T.Ev) (w : Val decl T.V × T.M × T.Ctx)
    (args : List Ident) : Option (List (Role × Arg T)) :=
  args.mapM fun x => do
    let r ← I.resolve bound ev.isSome x
    let a ← readArg ev w r
    some (r, a)

/-- A generated call, in the arm of a pattern that binds `bound`.  An `async fn` that is not awaited does not
run, and only the result of an `async fn` can be awaited. -/
def callFn (I : Iface) {α : Type} (bound : List Ident) (ev : Option T.Ev) (w : Val decl T.V × T.M × T.Ctx)
    (c : FnCall) (f : Ident → List (Arg T) → Fut T.In (List (Arg T)) α) (dflt : α) :
    Fut T.In (Val decl T.V × T.M × T.Ctx) α :=
  match evalArgs I bound ev w c.args with
  | none => .done w dflt
  | some l =>
    if c.await = I.isAsync c.fn then
      (f c.fn (l.map (·.2))).mapWorld fun l' => ((l.map (·.1)).zip l').foldl writeArg w
    else .done w dflt

/-- `match self { pat => call, .., _ => Response::Super }`: `macro/src/codegen.rs:254-265, 407-418`. -/
def runHandler (I : Iface) {α : Type} (arm : Option (Arm FnCall)) (ev : T.Ev) (w : Val decl T.V × T.M × T.Ctx)
    (f : Ident → List (Arg T) → Fut T.In (List (Arg T)) (Response α)) :
    Fut T.In (Val decl T.V × T.M × T.Ctx) (Response α) :=
  match arm with
  | some ⟨pat, call⟩ => callFn I pat.fields (some ev) w call f .super
  | none => .done w .super

/-- `match self { pat => call, .., _ => {} }`: `macro/src/codegen.rs:267-285, 420-438`. -/
def runAction (I : Iface) (arm : Option (Arm (Option FnCall))) (w : Val decl T.V × T.M × T.Ctx)
    (f : Ident → List (Arg T) → Fut T.In (List (Arg T)) Unit) :
    Fut T.In (Val decl T.V × T.M × T.Ctx) Unit :=
  match arm with
  | some ⟨pat, some call⟩ => callFn I pat.fields none w call f ()
  | _ => .done w ()

/-- `Superstate::Variant { field, .. }` is an expression that compiles where `bound` are the fields in scope. -/
def viewOk (ns : List Ident) (target : VariantPat) (bound : List Ident) (get : Ident → Option T.V) : Prop :=
  (∀ x ∈ ns, x ∈ target.fields) ∧ (∀ x ∈ target.fields, x ∈ ns ∧ x ∈ bound ∧ (get x).isSome)

instance (ns : List Ident) (target : VariantPat) (bound : List Ident) (get : Ident → Option T.V) :
    Decidable (viewOk ns target bound get) := inferInstanceAs (Decidable (_ ∧ _))

/-- `Some(Superstate::Variant { field, .. })`: the superstate borrows the fields of `self`; and the backward
function, which writes them. -/
def view (I : Iface) (target : VariantPat) (bound : List Ident) (s : Val decl T.V) :
    Option (Val I.supFields T.V × (Val I.supFields T.V → Val decl T.V)) :=
  match hn : I.supFields target.variant with
  | none => none
  | some ns =>
    if h : viewOk ns target bound s.get then
      some (⟨target.variant, fun x => if x ∈ ns then s.get x else none,
              ⟨ns, hn, fun x => by
                by_cases hx : x ∈ ns
                · simpa [hx] using (h.2 x (h.1 x hx)).2.2
                · simp [hx]⟩⟩,
            fun w =>
              if hw : w.variant = target.variant then
                ⟨s.variant, fun x => if x ∈ ns then w.get x else s.get x, by
                  obtain ⟨ms, hm, hs⟩ := s.ok
                  obtain ⟨ns', hn', hs'⟩ := w.ok
                  rw [hw, hn] at hn'
                  cases hn'
                  refine ⟨ms, hm, fun x => ?_⟩
                  by_cases hx : x ∈ ns
                  · have := (hs x).1 (h.2 x (h.1 x hx)).2.2
                    simpa [hx, this] using (hs' x).2 hx
                  · simpa [hx] using hs x⟩
              else s)
    else none

/-- `match self { pat => superstate, .., _ => None }`: `macro/src/codegen.rs:287-291, 440-444`. -/
def runSuperstate (I : Iface) (arm : Option (Arm (Option VariantPat))) (s : Val decl T.V) :
    Option (Val I.supFields T.V × (Val I.supFields T.V → Val decl T.V)) :=
  match arm with
  | some ⟨pat, some target⟩ => view I target pat.fields s
  | _ => none

theorem view_back (I : Iface) (target : VariantPat) (bound : List Ident) (s : Val decl T.V)
    (v : Val I.supFields T.V) (back : Val I.supFields T.V → Val decl T.V)
    (h : view I target bound s = some (v, back)) : back v = s := by
  unfold view at h
  split at h
  · cases h
  · split at h
    · rename_i ns hn hv
      cases h
      simp only [↓reduceDIte]
      obtain ⟨sv, get, ok⟩ := s
      simp only [Val.mk.injEq, true_and]
      funext x
      by_cases hx : x ∈ ns <;> simp [hx]
    · cases h

theorem runSuperstate_back (I : Iface) (arm : Option (Arm (Option VariantPat))) (s : Val decl T.V)
    (v : Val I.supFields T.V) (back : Val I.supFields T.V → Val decl T.V)
    (h : runSuperstate I arm s = some (v, back)) : back v = s := by
  unfold runSuperstate at h
  split at h
  · exact view_back I _ _ s v back h
  · cases h

end call

/-- A hook method: `macro/src/codegen.rs:60-147`. Without a path, the default method does nothing. In blocking
mode the hook is called as a statement: if it is an `async fn`, the future is dropped without being polled. -/
def runHook {I : Iface} {T : Types} (env : Env I T) (hook : Option Expr) (sh : T.M)
    (f : Expr → T.M → Fut T.In T.M Unit) : Fut T.In T.M Unit :=
  match hook with
  | none => .done sh ()
  | some p => if I.mode = .blocking ∧ env.hookAsync p then .done sh () else f p sh

/-- The generated `impl IntoStateMachine` (`macro/src/codegen.rs:149-174`), `impl State`
(`macro/src/codegen.rs:250-347`) and `impl Superstate` (`macro/src/codegen.rs:403-504`). -/
def Iface.machine (I : Iface) {T : Types} (env : Env I T) : Machine (I.sig T) where
  initial := env.initial I.initial
  discr s := s.variant
  supDiscr v := v.variant
  handler s sh ev c := runHandler I (I.handler s.variant) ev (s, sh, c) env.handler
  entry s sh c := runAction I (I.entry s.variant) (s, sh, c) env.action
  exit s sh c := runAction I (I.exit s.variant) (s, sh, c) env.action
  superstate s := runSuperstate I (I.superstate s.variant) s
  supHandler v sh ev c := runHandler I (I.supHandler v.variant) ev (v, sh, c) env.handler
  supEntry v sh c := runAction I (I.supEntry v.variant) (v, sh, c) env.action
  supExit v sh c := runAction I (I.supExit v.variant) (v, sh, c) env.action
  supSuperstate v := runSuperstate I (I.supSuperstate v.variant) v
  beforeDispatch sh n ev := runHook env I.beforeDispatch sh fun p sh => env.dispatchHook p sh n ev
  afterDispatch sh n ev := runHook env I.afterDispatch sh fun p sh => env.dispatchHook p sh n ev
  beforeTransition sh s t := runHook env I.beforeTransition sh fun p sh => env.transitionHook p sh s t
  afterTransition sh s t := runHook env I.afterTransition sh fun p sh => env.transitionHook p sh s t
  superstate_back s v back h := runSuperstate_back I _ s v back h
  supSuperstate_back v w back h := runSuperstate_back I _ v w back h

/-- A generated constructor (`macro/src/lower.rs:520`) applied to arguments: the variant and the values of the
fields.  `dflt x` is `Default::default()` for the field `x`; the value of an expression depends on the arguments,
which are in scope; `none` if the number of arguments is wrong. -/
def Constructor.apply {V : Type} (k : Constructor) (dflt : Ident → V) (value : Expr → (Ident → Option V) → V)
    (args : List V) : Option (Ident × (Ident → Option V)) :=
  let scope := fun x => ((k.args.map (·.name)).zip args).lookup x
  if args.length = k.args.length then
    some (k.variant, fun x =>
      match k.fields.lookup x with
      | none => none
      | some .default => some (dflt x)
      | some (.value e) => some (value e scope)
      | some .arg => scope x)
  else none

/-- Part of what `rustc` checks of the generated code; what it checks of types is not modelled, and neither are
checks that cannot fail (for instance that patterns name the fields of their variants).

* Variants of an enum, fields of a variant, and methods of the impl block have distinct names.
* The parameters of `call_handler` have distinct names.
* Every argument of a call is in scope.
* A superstate expression uses fields that are in scope. -/
structure Gen.Compiles (g : Gen) : Prop where
  methods : (g.methods.map (·.name)).Nodup
  states : (g.states.map (·.name)).Nodup
  superstates : (g.superstates.map (·.name)).Nodup
  stateFields : ∀ v ∈ g.states, (v.fields.map (·.name)).Nodup
  supFields : ∀ v ∈ g.superstates, (v.fields.map (·.name)).Nodup
  params : ["shared_storage", g.eventIdent, g.contextIdent].Nodup
  handlerArgs : ∀ a ∈ g.handlerArms, ∀ x ∈ a.body.args, (g.iface.resolve a.pat.fields true x).isSome
  entryArgs : ∀ a ∈ g.entryArms, ∀ c ∈ a.body, ∀ x ∈ c.args, (g.iface.resolve a.pat.fields false x).isSome
  exitArgs : ∀ a ∈ g.exitArms, ∀ c ∈ a.body, ∀ x ∈ c.args, (g.iface.resolve a.pat.fields false x).isSome
  superstateFields : ∀ a ∈ g.superstateArms, ∀ p ∈ a.body, ∀ x ∈ p.fields, x ∈ a.pat.fields
  supHandlerArgs : ∀ a ∈ g.supHandlerArms, ∀ x ∈ a.body.args, (g.iface.resolve a.pat.fields true x).isSome
  supEntryArgs : ∀ a ∈ g.supEntryArms, ∀ c ∈ a.body, ∀ x ∈ c.args, (g.iface.resolve a.pat.fields false x).isSome
  supExitArgs : ∀ a ∈ g.supExitArms, ∀ c ∈ a.body, ∀ x ∈ c.args, (g.iface.resolve a.pat.fields false x).isSome
  supSuperstateFields :
    ∀ a ∈ g.supSuperstateArms, ∀ p ∈ a.body, ∀ x ∈ p.fields, x ∈ a.pat.fields

end Statig.Macro
