# Formal model of statig in Lean 4

## What is modelled

The model lives in `lean/Verif/`. Everything is written from reading `/repo`; nothing is executed.

* `Model/Core.lean` – `Response`, `StateOrSuperstate`, the user's side of the traits (`Machine`), the
  observation log, and the effect monad `Eff`.
* `Model/Blocking.lean` – `blocking/{state,superstate,inner,state_machine}.rs`, function by function.
* `Model/Awaitable.lean` – `awaitable/{state,superstate,inner,state_machine}.rs`.
* `Model/Serde.lean` – `Serialize`/`Deserialize` of the machine types over an abstract data model.
* `Model/Api.lean`, `Model/Values.lean` – `StateMachine`, `InitializedStateMachine`,
  `UninitializedStateMachine`: construction, init, handle, step, accessors, `Clone`, `PartialEq`, `Default`.
* `Model/Macro/Syntax.lean` – the part of `syn`'s trees the macro looks at.
  `Model/Macro/{Analyze,Lower,Codegen}.lean` – `macro/src/{analyze,lower,codegen,lib}.rs` function by
  function; `Model/Macro/Lifetimes.lean` – `visitors/lifetime_visitor.rs`.
  `Model/Macro/Rust.lean` – the meaning of the generated items as a `Machine` for arbitrary user functions,
  and when they are well-scoped Rust (`Gen.Compiles`).
* `Model/Examples/*.lean` – programs from `examples/`: the hand-written versions as machines, the macro versions as
  annotated impl blocks with the user's functions; `Spec/Examples/*.lean` – what they are meant to do.
* `Spec/*.lean` – the independent vocabulary of the property statements: `Forest` (tree of nodes, paths),
  `Log` (expected logs), `Walk` (tree walks), `History` (calls, stack replay), `Values` (who writes local
  storage), `Modes`, `Simulation` (relations between two machines), `Threads` (sequential data flow), `Macro`
  (what a declaration declares). Nothing in it mentions the implementation functions, except the API calls
  whose histories it describes.
* `Proofs/*.lean`, `Proofs/Macro/*.lean` – lemmas.  `Props/*.lean` – the property theorems `Cnn_*`, each with
  a non-vacuity example on a concrete machine (`Props/Sample.lean`, the machine of
  `statig/tests/transition.rs` with more features) or declaration (`Props/MacroSample.lean`).

### User code
A user's machine is a value of `Machine S`: arbitrary functions for `initial`, `call_handler`,
`call_entry_action`, `call_exit_action`, `superstate` (states and superstates), and the four hooks.

* `&mut` parameters are returned.  `superstate(&mut self) -> Option<Superstate<'_>>` returns a view that
  mutably borrows from `self`; following the Aeneas translation it is modelled as the view value plus a
  *backward function* giving `self` after the borrow ends.  Views written to at the time of a panic or a
  dropped future are written back too (references write through).
* Every callback returns a `Fut`: `done`, `panic`, or `pending w k`, which has mutated the world to `w`,
  suspends, and continues with `k i` where `i` is whatever the outside world supplies at the next poll.
  A call is run against a finite schedule (list of such inputs); if the schedule ends while the callback
  is suspended the future is dropped (`stopped`).  A blocking callback is the same thing where a suspension is a blocking
  interaction with the outside world and `stopped` a process that is killed there.  So a theorem for all
  schedules covers all interleavings with the executor and all drop points.
* Non-termination: `depth`, `common_ancestor_depth` and `handle` recurse over the superstate chain, which
  may be infinite in user code.  They are defined with `partial_fixpoint`; `none` means "never returns".
* `core::mem::discriminant` is a user-supplied projection `discr`/`supDiscr`.
* Every callback start (with the values passed) and every handler return is appended to a log: the log is
  the observable behaviour, together with the final state, shared storage, context and outcome.

### Assumptions used as hypotheses (never axioms)
* `Follows m F`: the machine follows the static forest `F`: the superstate variant depends only on the
  variant, and callbacks keep the variant of `self`.  (Proved for every macro-generated machine, C44.)
* `Lawful m`: a superstate is a view: writing back and borrowing again gives the written view.
  (Also proved for macro-generated machines.)

### Simplifications
* `usize` is `Nat` (more than 2^64 levels is impossible); `usize` subtraction is checked and panics.
* `initial()` is pure, and so is `superstate()` except in C90: `Model/Impure.lean` models the library again for functions
  `superstate()` that write to `self`, answer inconsistently or panic; `C90_pure` shows that it agrees with the rest of the
  model where they do not.
* Lifetimes, GATs, the `transmute` of discriminants, `Send`/`'static` bounds, the bevy
  component impl and aliasing of the `unsafe` accessors (a write through them is an assignment between calls) are not modelled.
* Generic futures are modelled by their sequence of suspensions; wakers and executors are not modelled.
* Drops (`Model/Drops.lean`): only state values owned by library code are tracked; a user-defined `Drop` has no effect on
  anything else the library looks at.
* Serde: serializers and formats are abstracted to the serde data model (a struct is a map of named
  fields or a sequence), with user-supplied field codecs.
* `Debug`: `core::fmt`'s builders are modelled as documented (text, `#` flag, errors of the user's implementations).
* Macro: the input is the parsed impl block (`Model/Macro/Entry`: or what `syn` reports instead). What `syn` and `proc_macro2` say about the contents of string
  literals is a parameter (`Syn`), and so is the iteration order of every loop over a hash map (`Order`, an
  arbitrary permutation at each place). Types are references, paths (segments and generic arguments), and
  everything else (tuples, arrays, slices, pointers, functions, trait objects, ..) as a kind and a list of parts;
  a leading `::`, a `<T as Trait>::` before a path and the generic arguments of earlier segments are left out; bounds, visibilities, expressions and paths are opaque strings, since the macro only copies them.
  Not modelled: spans, hygiene, raw identifiers, function bodies, non-method items of the impl block; of borrow checking only conflicts between the arguments of one generated call or expression (C79); of type checking only the arguments of generated calls and the fields of generated superstate expressions (`Model/Macro/Typing`, C75)
  (`Gen.Compiles` is about names and scopes only).
* Examples: `examples/macro/calculator/src/ui.rs` is modelled up to `egui` (C95), which is reduced to calling `update` for every frame
  and reporting clicks (layout is left out); the `main` functions of the other examples are covered as sequences of calls, mostly without what they print themselves.
* Values of generated enums: all fields have one value type `V`; a field `&'sub mut T` of a superstate is the
  value it points to.

## Trusted base
Lean 4.33.0 kernel; axioms `propext`, `Classical.choice`, `Quot.sound` only (`partial_fixpoint` uses them).
The faithfulness of the model to `/repo` is by reading; each definition cites file and lines.

## Plan per property
| Property | Modelled by | Proof |
|---|---|---|
| C01–C04, C28, C33 | blocking/awaitable `handle` | induction on the ancestor list; log characterised by a `dispatch` relation over (node, response) lists |
| C05, C06 | same, with hook observations | exact log as a function of the dispatched levels |
| C07, C09, C11, C12, C13, C15, C31 | `transition_path`, `enter`, `exit`, `transition` | arithmetic on ancestor lists + log Hoare logic ("emits L, or a prefix when interrupted") |
| C08 | spec only: walks in the tree of nodes with Top | any walk between leaves has at least that length, and one has it |
| C10, C36 | data-flow lemmas on `enter`/`exit`/`handle` | invariant on the self component through every callback |
| C14 | histories of API calls | invariant: stack replay of the log = path of the state |
| C16–C20, C32 | `StateMachine` API layer | unfolding + C16 log |
| C21, C22 | `partial_fixpoint` semantics | induction on ancestors; fixpoint induction for divergence of `depth`, and of dispatch (a set of superstates that always defer into it) |
| C23–C27 | public `StateExt` functions | induction on ancestor list / levels |
| C29, C30, C34 | both modes related to one sequential reference semantics | re-borrowing law, induction on levels |
| C35, C44 | denotation of macro output is `Follows` and `Lawful` | case analysis of generated arms |
| C38–C40 | `Serde` model | induction on map entries |
| C41 | `Response`, `StateOrSuperstate` equality | case analysis |
| C42, C43, C45–C47, C52, C53 | `analyze`, `lower`, `codegen` model | loop invariants of the folds, list induction, permutation invariance |
| C48 | string function on `List Char` | induction; ASCII identifiers |
| C49, C51 | `LifetimeVisitor` and field types on a type grammar | structural induction; exact condition under which the intended renaming happens, with witnesses |
| C50, C37 | `Spec/Simulation` | the library functions preserve any relation that the callbacks preserve (fixpoint induction both ways) |
| C54 | generic parameters of enums | loop invariant of the visitor, occurrence in a type |
| C55 | acceptance by `expand` | each fold succeeds iff each of its steps does; composed |
| C56 | `Gen.Compiles` | reduced to conditions on the declaration |
| C57 | denotation of cyclic declarations | C22 for the denoted machine |
| C58 | headers of the generated impls, path and turbofish of the generated calls | follow the data through analyze, lower and codegen; a witness where the calls name another type |
| C59 | a call as a function of its list of poll inputs (`Incremental`) | each library function keeps `Incr`; fixpoint induction for the two dispatch recursions, so no hypothesis on the hierarchy |
| C60 | prefixes of an infinite stream of inputs (`EndsWhenPolled`) | `Live`, closed under sequencing by C59; induction on the number of ancestors; a callback is an inductive `Fut`, so ends by itself |
| C61, C62 | `Spec/Tracking`: `Maintains` quantifies over single callbacks, `RecordsSource` is the pattern of the example | sequential data flow of a call (C34), induction over the threaded callbacks and the history |
| C63 | `Model/Examples`: both versions of an example, transcribed; the macro is run on the annotated block | `expand` evaluated once in the kernel, other hash map orders by C46; the callbacks of the two machines respect a relation by cases, so C50 applies |
| C64 | `Spec/Examples/Dishwasher`: the intended appliance | closed forms of the common ancestor and depth from `Follows`, one step by cases, induction over the calls; the macro version by C63 |
| C65 | `Model/Examples/Barrier`, `Spec/Examples/Barrier` | the generated machine is related to one with ordinary enums (C50), whose steps are evaluated by cases; induction over the calls |
| C66 | `Model/Examples/Calculator` (both versions; `f32` is any type with the functions used), `Spec/Examples/Calculator`: numbers as typed and as written, values of expressions | the effect of one event from the handlers and the bubbling (a small program logic `Ends`), inductions over digits and terms; the generated machine by C50 |
| C67 | same; what is assumed of `f32` is the structure `Arith.Sane` | an invariant of the display in each state, induction over the calls |
| C68 | `Spec/Invariants`: `Accounts` says what each single callback has to do to the account, at the nodes that can be active when it is called | log of a call (C14) gives the active nodes at each callback, data flow (C34) the storage; induction over both |
| C69 | `Spec/Invariants`: `Links`, a pair of relations maintained by single callbacks | data flow of a call (C34), induction over callbacks and history |
| C70 | callbacks counted in the trace of a call | exact logs of calls (C01, C07, C16) |
| C71 | `Spec/Life`: everything that can happen to a machine, as an inductive relation; writes through `inner_mut`, `state_mut` in `Model/Values` | replay of one call (C14), induction over the life |
| C72 | `Spec/Contract`: silent superstates, one machine being another without some superstates | simulation of dispatch, entry and exit by induction on the chain of superstates, views composed through those left out; levels of a path counted in the filtered chain |
| C73 | `Spec/Extension`: one machine having all states and superstates of another and more | instance of representation independence (C50) with the graph of the two injections as relation; results equal through `map` |
| C74 | `Spec/MacroExtension`: one impl block having all methods of another, values as values of a wider enum, the same user functions in both programs | what is generated for a method is determined by the method and those it names (`Described.unique`); calls and views commute with widening; then C73 |
| C75 | `Model/Macro/Typing`: the types `rustc` compares in generated calls and superstate expressions, with the coercions as a parameter; `Spec/MacroTyping`: agreeing declarations | what is generated for each method (C42, C44) with declared types; equivalence, then the coercions of references |
| C76 | `Spec/Inline`: what a state and its superstates do together, as one handler (equations for composed callbacks) | dispatch performs the composed handler, by induction on the chain of superstates; the rest of a call does not depend on the log; flat machines by C72 |
| C77 | `Spec/MacroPermute`: `Source.Rearranged` (permutations of methods and arguments) | what a method adds to the hash maps does not depend on the methods before it (distinct names), so permuted methods give permuted maps; then as for C46 |
| C78 | `Spec/Observe`: a projection of the shared storage that handlers and actions look at, hooks that keep it | instance of C50 with equality up to the projection as relation |
| C79 | `Gen.BorrowChecks` (`Model/Macro/Typing`): arguments that are the same variable; `Spec/MacroBorrows` | arguments are the names of the parameters, which are distinct except for the receiver's; induction over the parameter list |
| C80 | `Model/Unit`: `impl Superstate<M> for ()` and machines using it; `Spec/Unit`: an ordinary state machine as a list of callbacks | equality of programs when `superstate` is `None`; for `Some(())` a simulation in which programs on `()` do nothing but log (with the relation of C72) |
| C81 | `Spec/MacroAsync`: impl blocks and generated items without `async` and `.await` | the macro commutes with removing `async` when maps are iterated in insertion order (naturality of every loop), then C46 for other orders; behaviour: both machines extend each other (C74, generalised to functions changing between `async` and not), then C73 and C29 |
| C82 | `Model/Tests/Transition`: the test machines in both versions; `Spec/Tests/Transition`: the path it is meant to record, from a table of transitions and of active nodes; `expected_path` as in the test | the closed forms of `depth` and `transition_path` on this hierarchy, evaluation of one call with an arbitrary path recorded so far, induction over calls; the macro version by C46 and C50 |
| C83 | `Model/Macro/*` with the messages as in the source, and with the distinctions between malformed items that the messages make | `Spec/MacroErrors`: inductive table of messages and faults in terms of the declaration; every failing step of analysis and lowering is traced to the declaration; converse by C55; every message occurs |
| C84 | `Model/Tests/{ExternalContext,Hooks,Local,Config}`: declarations and functions of the tests | `Spec/Tests/*`: counting by parity of timer events, flags by number of events, states by number of events; `Proofs/Tests/Flat`: calls on machines without superstates as functions; induction over the calls; any iteration order by C46 |
| C85 | `Model/Debug`: the four `Debug` implementations over a model of `core::fmt`'s builders and `PadAdapter` | text written in closed form; indentation is injective (induction); cancellation on the left and right, prefix-freeness in the middle |
| C86 | `Model/Macro/Entry`: `lib.rs`, `parse.rs` over results of `syn`'s parsers; the compiler's expansion of the remaining attributes | case analysis; induction over the attributes of a method; C52 |
| C87 | `Model/Serde`, `Model/Tests/Serde` | `Spec/Restore`; effects that change nothing but the log are closed under sequencing and borrowing; with C38 and C16; the test machine follows its hierarchy by C44 |
| C88 | The functions of the core again with the local variables that own states (`Model/Drops.lean`): a response held while a hook runs, the parameter `target`, the machine consumed by `init`; a log of drops. | Simulation in both directions between the versions with and without the log (fixed-point induction for dispatch), case analysis for `transition`, induction over histories for the balance (`Perm`). |
| C89 | The impl block of `examples/macro/async_io` as input of the macro model, its bodies with `write_all` as a future that is driven by the answers of the operating system (`Model/Examples/AsyncIo.lean`); storage: what the connection has taken. | Evaluation of the macro, C46 for the order, C80 for the calls, induction over the bytes of a line and over histories. |
| C90 | A second model of the library functions (`Model/Impure.lean`) in which `superstate()` is any function from `self` to a view with a write-back, `None` with a changed `self`, or a panic with a changed `self`; `depth`, `common_ancestor_depth` and `transition_path` become computations with effects on source and target. | A program logic for relations on `self` and logs, by fixed point induction (`Only`, `Asks`), gives the grammar of calls (`Conduct`); equality with the pure model by antisymmetry of the order of partial computations; a concrete machine whose lazily initialized `superstate()` makes the `usize` subtraction panic. |
| C91 | Model of C90 (`Model/Impure.lean`); `Impure.Static` (`Spec/Impure.lean`): like `Follows`, but data may change | `C91_handle`, `C91_init` (logs of C07/C16 etc.), `C91_history` (C14, C15, C21); program logic `Does` with rules for borrows with effects (`Proofs/ImpureStatic.lean`); `C90_effects_matter` shows that the hypothesis is needed |
| C92 | The impl blocks as tables (`Model/Examples/Bench.lean`), expanded by the modelled macro in both modes; the specification counts transitions (`Spec/Examples/Bench.lean`) | Generic lemma for machines given by tables, simulation by the number of transitions modulo 50, induction on the history |
| C93 | Both examples with hooks that append to standard output, the texts through the modelled `Debug` of `StateOrSuperstate` (`Model/Examples/BlinkyOutput.lean`); table of literal lines (`Spec/Examples/Blinky.lean`) | the generated machines are bisimilar (C50) to a hand-written recorder, evaluated per state and event; induction over the calls |
| C94 | The annotated impl block with its generics, the generated machine for arbitrary `T`, `Debug`, `Default` and `SIZE` (`Model/Examples/Generics.lean`); a table (`Spec/Examples/Generics.lean`) | `expand` evaluated in the kernel; bisimulation (C50) with a hand-written machine with symbolic field values; induction over the calls |
| C95 | The buttons in the order they are rendered, frames as sets of clicked labels, `Deref` to the display, `main` (`Model/Examples/CalculatorApp.lean`); egui is reduced to calling `update` and reporting clicks; a table of labels (`Spec/Examples/CalculatorApp.lean`) | induction over keys and frames from C66, C67; the table of buttons by evaluation in the kernel |

C13 is false of the blocking code: the negation is proved with a witness, and the awaitable half as a
theorem, so it is listed as partial. Where the code deviates from what one would expect (C27, C28, C42, C45, C49, C58)
the property states what the code does, and the deviation is proved with a witness.
