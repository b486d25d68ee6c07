{"id": "C01", "title": "Dispatch climbs from the leaf, one level per Super", "statement": "handle(event) calls the handler of the current leaf state first; each handler that returns Super causes exactly the handler of its direct superstate to be called next; the first handler that returns Handled or Transition is the last one called. No level is skipped or called twice.", "quantifier": "every hierarchy, every current state, every event, every behaviour of the user handlers (including panics and dropped futures), both blocking and awaitable mode", "why_tests_cant": "the number of levels and the responses are unbounded user choices", "anchors": ["statig/src/blocking/state.rs: StateExt::handle", "statig/src/blocking/superstate.rs: SuperstateExt::handle", "statig/src/awaitable/state.rs: StateExt::handle"]}
{"id": "C02", "title": "An event deferred by everyone changes nothing", "statement": "If every handler from the leaf to the root returns Super, the event is consumed silently: no transition hook, no entry or exit action runs and the machine stays in the same state variant.", "quantifier": "every hierarchy, state and event, both modes", "why_tests_cant": "must hold for every depth and every handler", "anchors": ["statig/src/blocking/state.rs: StateExt::handle", "statig/src/blocking/inner.rs: handle_with_context", "statig/src/awaitable/state.rs: StateExt::handle", "statig/src/awaitable/inner.rs: handle_with_context"]}
{"id": "C03", "title": "Handled ends processing without a transition", "statement": "If the last handler called returns Handled, no entry action, exit action or transition hook runs and the state variant is unchanged.", "quantifier": "every hierarchy, state, event and handler behaviour, both modes", "why_tests_cant": "universal over user code", "anchors": ["statig/src/blocking/inner.rs: handle_with_context", "statig/src/awaitable/inner.rs: handle_with_context"]}
{"id": "C04", "title": "At most one transition per event, to exactly the requested target", "statement": "A transition happens iff the last handler called returned Transition(t); then exactly one transition is made and its target variant is that of t. Entry and exit actions cannot start another transition, so a handle call performs run-to-completion with at most one transition.", "quantifier": "every hierarchy, state, event and handler behaviour, both modes", "why_tests_cant": "universal over user code", "anchors": ["statig/src/blocking/inner.rs: handle_with_context, transition", "statig/src/awaitable/inner.rs: handle_with_context, transition"]}
{"id": "C05", "title": "before_dispatch and after_dispatch bracket every handler call", "statement": "In a completed blocking handle call, the leaf is announced, handled and closed (before_dispatch, handler, after_dispatch) before any superstate is announced; superstates are then announced in nesting order: before_dispatch(S1), handler S1, before_dispatch(S2), handler S2, ..., after_dispatch(S2), after_dispatch(S1). Every handler call has exactly one before_dispatch directly before it and exactly one matching after_dispatch, with the same state or superstate and event.", "quantifier": "every hierarchy, state, event and handler behaviour, blocking mode", "why_tests_cant": "nesting depth is unbounded", "anchors": ["statig/src/blocking/state.rs: StateExt::handle", "statig/src/blocking/superstate.rs: SuperstateExt::handle"]}
{"id": "C06", "title": "Async dispatch hooks are sequential per level", "statement": "In a completed awaitable handle call, for every level dispatched to, in order: before_dispatch, handler, after_dispatch of that level, all before the next level is announced.", "quantifier": "every hierarchy, state, event, handler behaviour and poll schedule, awaitable mode", "why_tests_cant": "nesting depth is unbounded", "anchors": ["statig/src/awaitable/state.rs: StateExt::handle"]}
{"id": "C07", "title": "A transition exits and enters exactly the nodes that differ", "statement": "A transition between two different state variants runs the exit action of the source leaf and of every source ancestor that is not an ancestor of the target, innermost first, and then the entry action of every target ancestor that is not an ancestor of the source and of the target leaf, outermost first. Nothing else is entered or exited; shared superstates are untouched.", "quantifier": "every acyclic hierarchy of any depth, every pair of states, every behaviour of the actions, both modes", "why_tests_cant": "the hierarchy is unbounded user data", "anchors": ["statig/src/blocking/state.rs: transition_path, enter, exit", "statig/src/blocking/superstate.rs: common_ancestor_depth, enter, exit", "statig/src/awaitable/state.rs: transition_path, enter, exit", "statig/src/blocking/inner.rs: transition", "statig/src/awaitable/inner.rs: transition"]}
{"id": "C08", "title": "The transition path is the shortest path in the state tree", "statement": "The number of exits plus entries in a transition between different leaves is the length of the shortest path between the two leaves in the tree of states, superstates and the implicit top.", "quantifier": "every acyclic hierarchy, every pair of different leaves", "why_tests_cant": "ranges over all trees and all walks", "anchors": ["README.md: Implementation", "statig/src/blocking/state.rs: transition_path", "statig/src/blocking/superstate.rs: common_ancestor_depth"]}
{"id": "C09", "title": "A self-transition re-enters only the leaf", "statement": "A transition whose target is the current state variant (whatever the local storage) runs exactly the leaf's exit action and then the leaf's entry action; no superstate action runs.", "quantifier": "every hierarchy, state and target value of the same variant, both modes", "why_tests_cant": "universal over states and depth", "anchors": ["statig/src/blocking/state.rs: transition_path", "statig/src/awaitable/state.rs: transition_path"]}
{"id": "C10", "title": "Exit actions see the source, entry actions see the target", "statement": "Exit actions never influence the target's local storage: if no entry action writes to local storage, state() after a completed transition is exactly the value passed to Transition(..), whatever exit actions do; and if no exit action or before_transition writes it, after_transition receives the source exactly as the handler left it.", "quantifier": "every hierarchy, source, target and action behaviour, both modes", "why_tests_cant": "universal over user code and data", "anchors": ["README.md: 'Entry and exit actions also have access to state-local storage'", "statig/src/blocking/inner.rs: transition", "statig/src/awaitable/inner.rs: transition"]}
{"id": "C11", "title": "Transition hooks surround the actions, once each", "statement": "Every completed transition calls before_transition exactly once before any exit action, and after_transition exactly once after the last entry action; no transition hook is called when no transition happens.", "quantifier": "every hierarchy, source, target and action behaviour, both modes", "why_tests_cant": "universal over user code", "anchors": ["statig/src/blocking/inner.rs: transition", "statig/src/awaitable/inner.rs: transition"]}
{"id": "C12", "title": "after_transition receives (source, target)", "statement": "after_transition is called with the state that was left as first argument and the state that was entered as second argument.", "quantifier": "every hierarchy, source and target, both modes", "why_tests_cant": "universal over states", "anchors": ["statig/src/blocking/inner.rs: transition", "statig/src/awaitable/inner.rs: transition", "statig/src/blocking/into_state_machine.rs: after_transition"]}
{"id": "C13", "title": "before_transition receives (source, target)", "statement": "before_transition is called with the state being left as first argument and the requested state as second argument. (True in awaitable mode; the pinned blocking code passes them swapped.)", "quantifier": "every hierarchy, source and target", "why_tests_cant": "the existing hook test ignores the arguments", "anchors": ["statig/src/blocking/inner.rs: transition (line 42)", "statig/src/awaitable/inner.rs: transition (line 44)", "statig/src/blocking/into_state_machine.rs: before_transition"]}
{"id": "C14", "title": "The entry/exit log is a stack discipline that mirrors state()", "statement": "After initialization and any sequence of events, replaying the log of entry and exit actions as pushes and pops never pops a node that is not on top and never underflows, and the resulting stack is exactly the root-to-leaf path of the current state. So entries and exits are balanced: a node is active iff it lies on the path of state().", "quantifier": "every acyclic hierarchy and every finite history of events, both modes", "why_tests_cant": "an invariant over unbounded histories", "anchors": ["statig/src/blocking/inner.rs: init_with_context, transition", "statig/src/awaitable/inner.rs: init_with_context, transition"]}
{"id": "C15", "title": "Library code never panics by itself", "statement": "Computing the transition path never underflows, so handle and init only panic if a user callback panics; every transition exits at least one and enters at least one level.", "quantifier": "every acyclic hierarchy, source and target, both modes", "why_tests_cant": "subtraction safety for all depths", "anchors": ["statig/src/blocking/state.rs: transition_path (lines 77-80)", "statig/src/awaitable/state.rs: transition_path"]}
{"id": "C16", "title": "Init enters from the root down to the initial state", "statement": "Initialization runs the entry actions of all ancestors of the initial state, outermost first, and then of the initial state itself, each exactly once; no handler, exit action or hook runs.", "quantifier": "every acyclic hierarchy and initial state, both modes", "why_tests_cant": "depth is unbounded", "anchors": ["statig/src/blocking/inner.rs: init_with_context", "statig/src/awaitable/inner.rs: init_with_context"]}
{"id": "C17", "title": "Lazy initialization happens exactly once", "statement": "For a StateMachine, the entry actions of the initial state run during the first completed init or handle call and never again: a later init is a no-op without any callback, and later handle calls do not initialize.", "quantifier": "every machine and every history of init and handle calls", "why_tests_cant": "quantifies over histories", "anchors": ["statig/src/blocking/state_machine.rs: StateMachine::init_with_context, handle_with_context", "statig/src/awaitable/state_machine.rs: same"]}
{"id": "C18", "title": "Lazy and explicit initialization are equivalent", "statement": "StateMachine::handle_with_context on a fresh machine produces the same callbacks, state, shared storage and context as UninitializedStateMachine::init_with_context followed by InitializedStateMachine::handle_with_context with the same context; from then on both machines behave identically on every further event sequence.", "quantifier": "every machine and every event sequence", "why_tests_cant": "quantifies over histories", "anchors": ["statig/src/blocking/state_machine.rs: StateMachine, InitializedStateMachine, UninitializedStateMachine", "statig/src/awaitable/state_machine.rs: same"]}
{"id": "C19", "title": "Construction runs no user callback and starts at initial()", "statement": "state_machine(), uninitialized_state_machine() and default() call no handler, action or hook; state() is initial() and inner() is the given storage until the machine is first initialized.", "quantifier": "every machine", "why_tests_cant": "universal over machines", "anchors": ["statig/src/blocking/state_machine.rs: IntoStateMachineExt, Default", "statig/src/awaitable/state_machine.rs: same"]}
{"id": "C20", "title": "handle, step and the _with_context variants agree", "statement": "With unit context handle(e) behaves as handle_with_context(e, ()), and with unit event step behaves as handle(()), on StateMachine and InitializedStateMachine.", "quantifier": "every machine with the respective unit types, every state", "why_tests_cant": "universal", "anchors": ["statig/src/blocking/state_machine.rs: step, step_with_context, handle", "statig/src/awaitable/state_machine.rs: same"]}
{"id": "C21", "title": "handle terminates on acyclic hierarchies", "statement": "If every user callback returns and the superstate relation is acyclic, init and handle return; no library loop or recursion is unbounded.", "quantifier": "every acyclic hierarchy, both modes", "why_tests_cant": "termination for all inputs", "anchors": ["statig/src/blocking/superstate.rs: depth, common_ancestor_depth, handle", "statig/src/awaitable/state.rs: handle, enter, exit"]}
{"id": "C22", "title": "A cyclic superstate chain never returns from init, dispatch or transition", "statement": "If the superstate chain of the initial state never ends, init (and so the first handle) never returns, because the depth computation recurses forever; the macro does not reject such a declaration. On an initialized machine, an event that is deferred by every level of an endless chain never returns from handle, and neither does a transition between different variants of which one has an endless chain: if callbacks can panic or suspend, such a call can still be interrupted, the transition only in before_transition.", "quantifier": "every machine with an unending superstate chain, both modes", "why_tests_cant": "non-termination is not observable by a test", "anchors": ["statig/src/blocking/superstate.rs: depth", "statig/src/awaitable/superstate.rs: depth", "macro/src/lower.rs: lower (linking)"]}
{"id": "C23", "title": "depth counts the state and its ancestors", "statement": "StateExt::depth and SuperstateExt::depth return one plus the number of ancestors.", "quantifier": "every acyclic hierarchy and state", "why_tests_cant": "unbounded depth", "anchors": ["statig/src/blocking/state.rs: depth", "statig/src/blocking/superstate.rs: depth", "statig/src/awaitable/state.rs: depth", "statig/src/awaitable/superstate.rs: depth"]}
{"id": "C24", "title": "common_ancestor_depth is the depth of the deepest shared ancestor", "statement": "For two states of different variants common_ancestor_depth returns the number of superstates that are ancestors of both, which is the depth of their deepest common superstate (0 if none), and is symmetric; for the same variant it returns the state's depth.", "quantifier": "every acyclic hierarchy, every pair", "why_tests_cant": "unbounded depth", "anchors": ["statig/src/blocking/state.rs: common_ancestor_depth", "statig/src/blocking/superstate.rs: common_ancestor_depth", "statig/src/awaitable/superstate.rs: common_ancestor_depth"]}
{"id": "C25", "title": "transition_path is symmetric and consistent with depth", "statement": "transition_path(s,t) = (x,n) implies transition_path(t,s) = (n,x), 1 <= x <= depth(s), 1 <= n <= depth(t) and, for different variants, depth(s) - x = depth(t) - n = common_ancestor_depth(s,t).", "quantifier": "every acyclic hierarchy, every pair", "why_tests_cant": "unbounded depth", "anchors": ["statig/src/blocking/state.rs: transition_path", "statig/src/awaitable/state.rs: transition_path"]}
{"id": "C26", "title": "Sameness of states ignores local storage and is an equivalence", "statement": "same_state is reflexive, symmetric, transitive and depends only on the enum variant, so changing local storage never turns a self-transition into a different kind of transition.", "quantifier": "all states and superstates", "why_tests_cant": "universal", "anchors": ["statig/src/blocking/state.rs: same_state", "statig/src/blocking/superstate.rs: same_state"]}
{"id": "C27", "title": "enter and exit with an arbitrary number of levels", "statement": "StateExt::exit(levels) runs the first min(levels, depth) exit actions of the path innermost first; blocking StateExt::enter(levels) runs the same number of entry actions outermost first. Awaitable enter(levels) agrees for levels <= depth, but if the state has a superstate it repeats the root superstate's entry action once for each level beyond the depth.", "quantifier": "every acyclic hierarchy, state and level count", "why_tests_cant": "unbounded", "anchors": ["statig/src/blocking/state.rs: enter, exit", "statig/src/blocking/superstate.rs: enter, exit", "statig/src/awaitable/state.rs: enter, exit"]}
{"id": "C28", "title": "StateExt::handle reports how the event ended", "statement": "Blocking StateExt::handle returns the response of the last handler called (Super if everyone deferred). Awaitable StateExt::handle returns Handled instead of Super when everyone deferred and the leaf has at least one superstate; otherwise the response of the last handler.", "quantifier": "every acyclic hierarchy, state, event and handlers", "why_tests_cant": "unbounded", "anchors": ["statig/src/blocking/state.rs: handle", "statig/src/awaitable/state.rs: handle (line 144)"]}
{"id": "C29", "title": "Awaitable and blocking machines behave alike", "statement": "For a machine whose hooks do nothing, the same handlers and actions run in the same order with the same data in both modes, leaving the same state, shared storage and context, for init and for every event.", "quantifier": "every lawful acyclic machine (superstates borrow their data from the state), every event history, every poll schedule", "why_tests_cant": "equivalence over all machines", "anchors": ["statig/src/blocking", "statig/src/awaitable"]}
{"id": "C30", "title": "Poll schedules cannot reorder callbacks", "statement": "Whatever the number of suspensions and whatever values the outside world supplies at each poll, the callbacks started by a handle future are a prefix of a sequence that is allowed for an uninterrupted call, and dropping the future only truncates it.", "quantifier": "every machine, every poll schedule and drop point", "why_tests_cant": "schedules are unbounded", "anchors": ["statig/src/awaitable/state.rs", "statig/src/awaitable/inner.rs"]}
{"id": "C31", "title": "Interrupted transitions leave source or target, never anything else", "statement": "If a handle call is cut short in a transition (a callback panics, or the future is dropped), the machine is left in the source variant if no entry action was started and in the target variant otherwise.", "quantifier": "every machine, every interruption point, both modes", "why_tests_cant": "crash points are unbounded", "anchors": ["statig/src/blocking/inner.rs: transition", "statig/src/awaitable/inner.rs: transition"]}
{"id": "C32", "title": "Interrupted initialization starts over", "statement": "If initialization inside init or handle of a StateMachine is cut short, the machine remains uninitialized: the next init or handle runs all the entry actions of the current state again from the root.", "quantifier": "every machine, every interruption point, both modes", "why_tests_cant": "crash points are unbounded", "anchors": ["statig/src/blocking/state_machine.rs: init_with_context, handle_with_context", "statig/src/awaitable/state_machine.rs: same"]}
{"id": "C33", "title": "Interrupted dispatch causes no transition", "statement": "If a handler or dispatch hook panics or its future is dropped, no entry action, exit action or transition hook of that event runs, and the state variant is unchanged.", "quantifier": "every machine, every interruption point, both modes", "why_tests_cant": "crash points are unbounded", "anchors": ["statig/src/blocking/state.rs: handle", "statig/src/awaitable/state.rs: handle", "statig/src/blocking/inner.rs: handle_with_context"]}
{"id": "C34", "title": "Shared storage, context and event are threaded through every callback", "statement": "All callbacks of one call act in sequence on one shared storage and one context: each callback sees the effects of all earlier ones, and handlers of one call all receive the same event.", "quantifier": "every lawful machine, both modes", "why_tests_cant": "universal over user code", "anchors": ["statig/src/blocking/inner.rs", "statig/src/awaitable/inner.rs", "statig/src/blocking/state.rs", "statig/src/awaitable/state.rs"]}
{"id": "C35", "title": "Superstates share the local storage of the state", "statement": "A superstate's handler or action that writes to its borrowed local storage writes to the current state: the write is visible to later callbacks of the leaf and of other ancestors and in state() afterwards.", "quantifier": "every machine generated by the macro, any depth", "why_tests_cant": "universal over declarations", "anchors": ["macro/src/lower.rs: lower (superstate_pat)", "statig/src/blocking/superstate.rs: handle, enter, exit", "statig/src/lib.rs: superstate docs"]}
{"id": "C36", "title": "Untouched local storage is preserved", "statement": "If an event is handled or ignored and no called handler writes local storage, state() is exactly the same value as before.", "quantifier": "every lawful machine, both modes", "why_tests_cant": "universal", "anchors": ["statig/src/blocking/state.rs: handle", "statig/src/awaitable/state.rs: handle"]}
{"id": "C37", "title": "Equality of machines and determinism", "statement": "Two machines that compare equal behave identically on every sequence of calls; equality of StateMachine also compares the initialized flag; clone yields an equal machine.", "quantifier": "every machine with lawful user equality, every call sequence", "why_tests_cant": "quantifies over histories", "anchors": ["statig/src/blocking/state_machine.rs: PartialEq, Clone", "statig/src/blocking/inner.rs: PartialEq, Clone"]}
{"id": "C38", "title": "Serde round trip restores storage and state as an uninitialized machine", "statement": "Deserializing a serialized machine, in a map or a sequence format, yields shared storage and state of the original and an uninitialized machine; for StateMachine the round trip equals the original iff the original was not initialized.", "quantifier": "every machine value with round-tripping fields", "why_tests_cant": "universal over values", "anchors": ["statig/src/blocking/inner.rs: Serialize, Deserialize", "statig/src/blocking/state_machine.rs: Serialize, Deserialize"]}
{"id": "C39", "title": "A deserialized machine re-enters its state", "statement": "The first handle or init on a deserialized machine runs the entry actions of the restored state from the root before the event is dispatched.", "quantifier": "every machine and restored state", "why_tests_cant": "universal", "anchors": ["statig/src/blocking/state_machine.rs: Deserialize for StateMachine"]}
{"id": "C40", "title": "Deserialization accepts exactly well-formed input", "statement": "Map input is accepted iff it consists of exactly one shared_storage and one state entry, in either order; duplicate, missing or unknown fields are rejected. Sequence input needs at least two elements and uses the first two.", "quantifier": "every sequence of map entries or elements", "why_tests_cant": "universal over inputs", "anchors": ["statig/src/blocking/inner.rs: InnerVisitor::visit_map, visit_seq, FieldVisitor"]}
{"id": "C41", "title": "Response and StateOrSuperstate equality is structural", "statement": "Response equality distinguishes Handled, Super and Transition and compares targets; StateOrSuperstate equality distinguishes states from superstates; both are equivalence relations when the element equality is.", "quantifier": "all values", "why_tests_cant": "universal", "anchors": ["statig/src/response.rs", "statig/src/state_or_superstate.rs"]}
{"id": "C42", "title": "The macro picks async mode iff something is async", "statement": "The generated machine is awaitable iff at least one state, superstate or action function is async; async hooks alone do not switch modes.", "quantifier": "every declaration", "why_tests_cant": "universal over declarations", "anchors": ["macro/src/lower.rs: lower (mode)"]}
{"id": "C43", "title": "Declared links are honoured and dangling links rejected", "statement": "If the macro accepts a declaration, every state's and superstate's handler, entry action, exit action and superstate are exactly those named in its attribute (none means a no-op, or no superstate); naming an undeclared superstate or action is a compile error.", "quantifier": "every declaration", "why_tests_cant": "universal over declarations", "anchors": ["macro/src/lower.rs: lower (linking)", "macro/src/codegen.rs"]}
{"id": "C44", "title": "Macro-generated machines follow a static hierarchy", "statement": "Callbacks of a macro-generated machine cannot change the state variant, the superstate of a state depends only on its variant, and superstates are views of the state's fields. Hence all the transition guarantees hold for every accepted acyclic declaration.", "quantifier": "every well-formed declaration and all user functions", "why_tests_cant": "universal over declarations", "anchors": ["macro/src/lower.rs", "macro/src/codegen.rs", "macro/src/analyze.rs"]}
{"id": "C45", "title": "Constructors fill fields from arguments and defaults", "statement": "The generated constructor of a state with one #[state] attribute takes the fields without default in declaration order and produces the state's variant with each field set to its argument, its default expression, or Default::default(). (With a second #[state] attribute the defaults are lost.)", "quantifier": "every declaration and arguments", "why_tests_cant": "universal over declarations", "anchors": ["macro/src/lower.rs: lower_state"]}
{"id": "C46", "title": "Macro output does not depend on hash order", "statement": "Whether a declaration is accepted, and how the generated machine behaves, is independent of the iteration order of the macro's hash maps; and so are the event and context types if the handlers agree on them. (Only the order of enum variants, constructors and match arms depends on it.)", "quantifier": "every declaration and every iteration order", "why_tests_cant": "hash order is random per run", "anchors": ["macro/src/lower.rs: lower", "macro/src/codegen.rs"]}
{"id": "C47", "title": "Handler arguments are wired by name", "statement": "Generated calls pass, position by position, the shared storage for the receiver, the event and context for the configured identifiers, and the state's field of the same name for every other argument, provided that no local storage field has the name of one of these (such a field shadows it).", "quantifier": "every declaration", "why_tests_cant": "universal over declarations", "anchors": ["macro/src/analyze.rs: analyze_state, analyze_superstate", "macro/src/lower.rs: fn_arg_to_ident, lower_action"]}
{"id": "C48", "title": "Variant names are PascalCase of handler names", "statement": "The variant of a handler is its name without underscores, with the first letter of each part capitalized; distinct snake_case handler names (non-empty parts separated by single underscores, starting with a lower-case letter, without upper-case letters) get distinct variants. (Other names may collide, e.g. _a and a, and then the generated code does not compile.)", "quantifier": "all identifiers", "why_tests_cant": "universal over strings", "anchors": ["macro/src/lower.rs: snake_case_to_pascal_case"]}
{"id": "C49", "title": "When only anonymous lifetimes are renamed", "statement": "In the event and context type the macro replaces anonymous lifetimes by the GAT lifetime and leaves all others alone exactly if no named lifetime is a generic argument (outside of references), there is no `&'_ T`, and there is no anonymous lifetime under a reference. (So not in general: Context<'static> becomes Context<'context>.)", "quantifier": "all types", "why_tests_cant": "universal over types", "anchors": ["macro/src/visitors/lifetime_visitor.rs"]}
{"id": "C50", "title": "Behaviour is independent of the representation of data", "statement": "If all callbacks of two machines (e.g. a hand-written and a generated one) respect a relation between their states, superstates, storage, events and contexts, then related machines given related calls run the same callbacks in the same order with related data, end alike and stay related, and a call returns on one iff it returns on the other.", "quantifier": "all pairs of machines, relations respected by their callbacks, sequences of calls and poll schedules, both modes, also cyclic hierarchies", "why_tests_cant": "a relational (bisimulation) property over all machines and histories", "anchors": ["statig/src/blocking/inner.rs", "statig/src/awaitable/inner.rs", "statig/src/blocking/state_machine.rs StateMachine"]}
{"id": "C51", "title": "Fields of the generated enums have the declared types", "statement": "A field of a state's variant has the type that its parameter refers to (x: &mut T gives a field x: T), a field of a superstate's variant the reference itself with the lifetime 'sub and the same mutability; a type given in local_storage(..) takes precedence (the last one counts); the constructor of a state takes arguments of the same types. The superstate enum has the lifetime parameter 'sub iff some superstate handler has a local storage parameter.", "quantifier": "all declarations for which generated code compiles, all iteration orders of hash maps", "why_tests_cant": "universal over declarations", "anchors": ["macro/src/lower.rs: fn_arg_to_state_field, fn_arg_to_superstate_field, lower_state, lower_superstate", "macro/src/codegen.rs: codegen_state, codegen_superstate"]}
{"id": "C52", "title": "The impl block is kept", "statement": "All methods of the impl block stay, in order, with unchanged name, attributes, asyncness and parameters; the only change is that a #[default] attribute of a local storage parameter of a state handler is removed (one for each #[state] attribute). Methods without #[state] do not change at all.", "quantifier": "all declarations that are accepted", "why_tests_cant": "universal over declarations", "anchors": ["macro/src/analyze.rs: analyze_state", "macro/src/codegen.rs: codegen"]}
{"id": "C53", "title": "Settings reach the generated items", "statement": "The enums have the names, derives and visibility, and the machine the initial state, hooks and identifiers, that #[state_machine(..)] declares; defaults are State, Superstate, pub, event and context; the last value of a repeated setting counts, several derive(..) add up.", "quantifier": "all declarations that are accepted", "why_tests_cant": "universal over declarations", "anchors": ["macro/src/analyze.rs: analyze_state_machine", "macro/src/codegen.rs"]}
{"id": "C54", "title": "Generic parameters of the generated enums", "statement": "The state (superstate) enum has, in declaration order, exactly those generic parameters of the impl block that occur in the type of a local storage parameter of a state (superstate) handler, or in its name; the superstate enum also has 'sub if needed. Without local_storage(..), lifetime bounds and parameters named like generics these are exactly the parameters that its fields use. (A lifetime with bounds is never included, even if needed.)", "quantifier": "all declarations that are accepted, all iteration orders", "why_tests_cant": "universal over declarations and generics", "anchors": ["macro/src/lower.rs: lower, map_generics", "macro/src/visitors/generic_param_visitor.rs"]}
{"id": "C55", "title": "The macro accepts exactly the well-formed declarations", "statement": "Expansion succeeds, for every iteration order, iff: every setting is known and has a value of the right form, and initial is given; annotated methods are not generic; known items of #[state(..)] and #[superstate(..)] have values of the right form; parameters of handlers are identifiers passed by reference, and those of actions identifiers; defaults are well-formed; named superstates and actions are declared as such; variants have valid names; and no where clause bounds a type that is not a path if there are generic types. Otherwise it aborts.", "quantifier": "all declarations with distinct names of methods and parameters and at most one #[state] per method, all iteration orders", "why_tests_cant": "universal over declarations; both directions", "anchors": ["macro/src/analyze.rs", "macro/src/lower.rs"]}
{"id": "C56", "title": "When generated code is well-scoped", "statement": "The code generated for an accepted declaration compiles, as far as names and scopes are concerned, iff method, variant and field names are distinct; event, context and shared_storage have different names; each state or superstate has all the fields of its superstate; and the parameters of each entry or exit action are fields of the states that use it, the context or shared_storage (in particular not the event).", "quantifier": "all accepted declarations, all iteration orders", "why_tests_cant": "universal over declarations; both directions", "anchors": ["macro/src/codegen.rs: codegen_state_impl_state, codegen_superstate_impl_superstate", "macro/src/lower.rs"]}
{"id": "C57", "title": "Cyclic superstate declarations", "statement": "A declaration whose superstates form a cycle is accepted like any other, and a machine in a state below the cycle never returns from initialization (init or the first handle), whatever the user's functions do. Nor does handle return once a transition to or from such a state (and another one) has begun: the before_transition hook is the last thing called.", "quantifier": "all declarations, user functions, modes, storage, contexts, events and schedules", "why_tests_cant": "divergence cannot be observed by a test", "anchors": ["macro/src/lower.rs: lower", "statig/src/blocking/superstate.rs: depth", "statig/src/blocking/inner.rs: init_with_context"]}
{"id": "C58", "title": "Impl headers and callees of generated code", "statement": "The generated state machine and state impls are for exactly the type of the impl block, with exactly its generic parameters and where clauses; the superstate impl has the same, plus a lifetime 'sub with Self: 'sub iff some superstate handler has a local storage parameter. Generated calls of handlers and actions name the path of the impl block's type with the impl block's generic parameters as arguments, so they name the type itself iff its arguments are its parameters in order; for impl<T> Foo<Vec<T>> they name Foo::<T>.", "quantifier": "all accepted declarations with any generics and any self type, all iteration orders", "why_tests_cant": "universal over generic parameter lists and types; deviation only shows in unusual impl headers", "anchors": ["macro/src/lower.rs: lower, lower_state, lower_superstate, lower_action", "macro/src/analyze.rs: get_shared_storage_path", "macro/src/codegen.rs: codegen_state_machine_impl, codegen_state_impl_state, codegen_superstate_impl_superstate"]}
{"id": "C59", "title": "Calls can be polled on", "statement": "If a call (init or handle) has ended after being polled with some inputs, further inputs change nothing and are left unused. If it is suspended, it has used every input it was polled with, and however it is polled on, the callbacks it makes from then on come after exactly those it has already made: none is repeated, dropped or replaced.", "quantifier": "all machines, modes, machine contents, events, contexts, poll inputs and continuations", "why_tests_cant": "universal over suspension points and continuations", "anchors": ["statig/src/awaitable/state.rs: StateExt", "statig/src/awaitable/inner.rs: Inner", "statig/src/awaitable/state_machine.rs"]}
{"id": "C60", "title": "Calls end when polled often enough", "statement": "On a machine whose superstates form an acyclic hierarchy, every call of init or handle ends after finitely many polls, whatever the polled callbacks receive, provided that each callback by itself does; if no callback panics it returns normally, and later polls would not have changed the result.", "quantifier": "all machines following an acyclic hierarchy, modes, machine contents, events, contexts and infinite input streams", "why_tests_cant": "liveness over infinite streams of inputs", "anchors": ["statig/src/awaitable/state.rs: StateExt::handle, enter, exit", "statig/src/awaitable/inner.rs: Inner"]}
{"id": "C61", "title": "Invariants of the shared storage can be checked one callback at a time", "statement": "If each single callback (handlers, entry and exit actions, the dispatch and transition hooks) maintains a relation between the callbacks started so far and the shared storage, at every point at which it returns, panics or is suspended, then the relation holds after every history of init and handle calls, whether they returned, panicked or were dropped. The library itself never writes to the shared storage.", "quantifier": "all machines, modes, relations, histories of calls", "why_tests_cant": "universal over invariants and over histories with interruptions", "anchors": ["statig/src/blocking/inner.rs: Inner", "statig/src/awaitable/inner.rs: Inner", "statig/src/blocking/state.rs: StateExt", "statig/src/awaitable/state.rs: StateExt"]}
{"id": "C62", "title": "The history pattern", "statement": "If after_transition stores the state that was left in a part of the shared storage that no other callback changes (as in the history example), then after every history, interrupted or not, that part holds the state given to the last after_transition, or its original value if there was none; that state is of the variant the machine was in when the call that made the transition was made.", "quantifier": "all machines whose hooks follow the pattern, modes, histories", "why_tests_cant": "universal over machines and histories", "anchors": ["examples/macro/history/src/main.rs: after_transition", "examples/no_macro/history/src/main.rs", "statig/src/blocking/inner.rs: Inner::transition"]}
{"id": "C63", "title": "The macro and the hand-written examples behave alike", "statement": "For the examples that exist with and without the macro and are meant to be the same machine, the macro accepts the annotated impl block and generates code that compiles, whatever the iteration order of its hash maps; and whatever sequence of calls is made on the generated and on the hand-written machine, the calls have the same outcomes and run the same callbacks, in the same order, on corresponding states. (The calculators differ in one text, see C67; the macro version is compared with the hand-written one with that text replaced.)", "quantifier": "all sequences of calls, all hash map orders, for each of the examples", "why_tests_cant": "universal over event sequences; the examples are not tested against each other", "anchors": ["examples/{macro,no_macro}/history/src/main.rs", "examples/{macro,no_macro}/bench/src/main.rs", "examples/{macro,no_macro}/blinky/src/main.rs", "examples/{macro,no_macro}/basic/src/main.rs", "examples/{macro,no_macro}/calculator/src/state.rs", "macro/src/codegen.rs"]}
{"id": "C64", "title": "The dishwasher resumes its program", "statement": "Whatever sequence of calls is made on the dishwasher of the history example, with or without the macro, every call returns and the machine is then in the state that shows the intended appliance: a program that advances with the timer, is paused while the door is open, and goes on in the same step when the door is closed.", "quantifier": "all sequences of calls", "why_tests_cant": "universal over event sequences", "anchors": ["examples/macro/history/src/main.rs", "examples/no_macro/history/src/main.rs"]}
{"id": "C65", "title": "The barrier opens exactly when all events have been received", "statement": "Whatever sequence of calls is made on the machine of the barrier example, every call returns, and the machine is then in the state initialized exactly if B and C have been received (A counts as received from the start), and otherwise in the state initializing with local storage recording which of B and C have been received: the superstate sees what its state has just written to local storage, in the same call.", "quantifier": "all sequences of calls, all hash map orders of the macro", "why_tests_cant": "universal over event sequences", "anchors": ["examples/macro/barrier/src/main.rs"]}
{"id": "C66", "title": "The calculator computes what is typed", "statement": "On a fresh calculator (examples/macro/calculator), typing a number, any number of operators each followed by a number, and `=`: all calls return, and the display then shows the value of the expression computed from left to right on what f32 parses from the typed texts; the same on a calculator that shows a result, if the expression does not start with a minus. Whatever the calculator shows and in whatever state it is, pressing AC twice returns and leaves the initial state and a display of 0. (Numbers: an optional minus, digits not starting with a zero, an optional point and digits; with a point the digits before it can be left out.)", "quantifier": "all numbers, lengths of expressions, states and displays, any f32 arithmetic", "why_tests_cant": "universal over key sequences and arithmetic", "anchors": ["examples/macro/calculator/src/state.rs"]}
{"id": "C67", "title": "When the calculator crashes, and where its two versions differ", "statement": "Whatever calls have been made on a fresh calculator (examples/macro/calculator), a key makes `handle` panic exactly if the first operand is being entered, no digit is on the display, and the key is an operator or `=` (after a minus: only `=`); in all other cases the call returns. This happens: 0 followed by an operator or `=` on a fresh calculator panics. The hand-written version is not the same calculator: after a minus it shows `- 0` instead of `-0`, and `=` then panics. In the macro version a minus is lost in front of a number that starts with a zero.", "quantifier": "all sequences of calls, any f32 parsing that accepts numerals and printed numbers and rejects the empty text and a single point", "why_tests_cant": "exact characterisation of panics over all histories", "anchors": ["examples/macro/calculator/src/state.rs", "examples/no_macro/calculator/src/state.rs"]}
{"id": "C68", "title": "Resources acquired on entry and released on exit", "statement": "Let a relation between the list of active nodes and the shared storage be given. If every entry action, started when the ancestors of its node are accounted for, adds its node, every exit action, started when its node is the innermost active one, takes it away again, and handlers and hooks, in the situations in which they can be called, leave it alone, then after any history of completed calls on a new machine the shared storage accounts for exactly the active nodes of state() (the state and all its superstates).", "quantifier": "all machines following a static hierarchy, modes, relations, histories of completed init and handle calls", "why_tests_cant": "universal over machines, relations and histories", "anchors": ["statig/src/blocking/inner.rs: Inner::init_with_context, transition", "statig/src/blocking/state.rs: StateExt::enter, exit", "statig/src/awaitable/state.rs: StateExt::enter, exit"]}
{"id": "C69", "title": "Invariants that link state and shared storage", "statement": "Let one relation between state() (with its local storage) and the shared storage hold outside of transitions and another one, which also mentions the target, hold from the moment a handler requests a transition until it is made. If every callback maintains them, however it ends, superstates acting through their view of the state, and if both making and giving up a requested transition lead from the second to the first, then the first holds after every history of init and handle calls, whether they returned, panicked or were dropped.", "quantifier": "all machines following a static hierarchy, modes, pairs of relations, histories of calls", "why_tests_cant": "universal over invariants and over histories with interruptions", "anchors": ["statig/src/blocking/inner.rs: Inner", "statig/src/awaitable/inner.rs: Inner", "statig/src/blocking/superstate.rs: Superstate", "statig/src/response.rs: Response"]}
{"id": "C70", "title": "Bounded work per call", "statement": "A handle call on an initialized machine, however it ends, calls at most one handler and at most one exit action per active node of the state it started in and at most one entry action per active node of the state it ended in; with the hooks at most 3 d callbacks if no transition was requested, and at most 4 d + t + 2 if one was, where d and t are the numbers of active nodes of the state it started in and of the requested target. If no state has more than n active nodes then no call makes more than 6 n + 2 callbacks.", "quantifier": "all machines following a static hierarchy, modes, states, events, schedules and interruptions", "why_tests_cant": "universal over hierarchies of any depth, events and interruptions", "anchors": ["statig/src/blocking/state.rs: StateExt", "statig/src/blocking/superstate.rs: SuperstateExt", "statig/src/awaitable/state.rs: StateExt", "statig/src/blocking/inner.rs: Inner::transition"]}
{"id": "C71", "title": "The active nodes mirror state() whatever happens between calls", "statement": "Take a machine that was constructed or loaded (deserialized) from any input, and since then was called, was called with calls cut short before their first action, had its shared storage overwritten, had its state overwritten (by a state of the same variant, or by any state while it was not initialized), or was cloned, in any order. Replaying the entry and exit actions run since then (entering only directly inside the parent, leaving only the innermost) succeeds and leaves exactly the path of state() active, or nothing if the machine is not initialized; if a further call is cut short anywhere, an outer part of that path is left. If state_mut is used to put an initialized machine in a state of another variant this is lost, and the next transition leaves a state that was never entered.", "quantifier": "all machines following a static hierarchy, modes, sequences of calls, writes, clones and loads, all loaded contents", "why_tests_cant": "universal over interleavings of calls, writes, clones and loads", "anchors": ["statig/src/blocking/state_machine.rs: StateMachine::inner_mut, state_mut, Clone, Deserialize", "statig/src/awaitable/state_machine.rs: StateMachine::inner_mut, state_mut, Clone, Deserialize", "statig/src/blocking/inner.rs: Inner::transition"]}
{"id": "C72", "title": "Superstates without behaviour can be removed", "statement": "If some superstates of a machine only group states (their handlers return Super for every event and change nothing, their entry and exit actions change nothing, and the dispatch hooks change nothing when called for them), then the machine in which the superstate of every state and superstate is the nearest one that is not left out behaves the same in both modes: every sequence of calls from every machine value ends call by call in the same way (return, panic, drop), with the same machine, context and unused poll inputs, and with the same callbacks on the same data in the same order, except the callbacks of the superstates left out. For every machine and every choice of superstates to leave out such a machine exists, and the ancestors of each of its states are the old ones that are not left out.", "quantifier": "all machines following a static hierarchy, all sets of silent superstates (including the outermost, innermost and adjacent ones), both modes, all machine values, all sequences of calls, schedules and panics", "why_tests_cant": "universal over hierarchies, sets of superstates left out, histories and schedules", "anchors": ["statig/src/blocking/superstate.rs: SuperstateExt::{handle, enter, exit, depth, common_ancestor_depth}", "statig/src/blocking/state.rs: StateExt::{handle, enter, exit, transition_path}", "statig/src/awaitable/state.rs: StateExt::{handle, enter, exit, transition_path}", "statig/src/blocking/inner.rs: Inner::transition", "statig/src/awaitable/inner.rs: Inner::transition"]}
{"id": "C73", "title": "Adding states and superstates does not change what is there", "statement": "If a machine has all the states and superstates of another one (with the same local data, the same callbacks and hooks, the same superstate for each of them and the same equality of variants) and possibly further states and superstates, then, started in one of the old states, every sequence of calls has the same results on both machines: the same outcome, machine, context and unused poll inputs after each call and the same callbacks on the same data in the same order. In particular state() is always one of the old states: a state to which no reachable handler transitions is never entered, whatever it contains.", "quantifier": "all pairs of machines of which one extends the other, both modes, all machine values in an old state (initialized or not), all sequences of calls, schedules and panics", "why_tests_cant": "universal over the machines, what is added to them, histories and schedules", "anchors": ["statig/src/blocking/inner.rs: Inner::{init, handle, transition}", "statig/src/awaitable/inner.rs: Inner::{init, handle, transition}", "statig/src/blocking/state_machine.rs: StateMachine", "statig/src/awaitable/state_machine.rs: StateMachine"]}
{"id": "C74", "title": "Adding methods to the impl block does not change what is there", "statement": "Take an impl block annotated with #[state_machine(..)] and add methods to it (states, superstates, actions or others, anywhere), keeping the arguments of the attribute. If the macro accepts both and the generated code is well-scoped, then the larger enums have all old variants with the same fields, and the generated machine for the larger block extends the old one in the sense of C73: handlers, entry and exit actions, superstates and hooks of the old states and superstates are the same, so that a machine constructed from the larger program behaves in every sequence of calls as one constructed from the smaller program. (If an addition is async and makes a blocking machine awaitable, this holds if no hook is an async function.) It does not matter in which orders the macro iterates its hash maps in the two runs.", "quantifier": "all impl blocks and additions accepted by the macro, all iteration orders, all user functions, all sequences of calls, schedules and panics", "why_tests_cant": "universal over programs, additions, hash orders and histories", "anchors": ["macro/src/analyze.rs: analyze, analyze_state, analyze_superstate, analyze_action", "macro/src/lower.rs: lower, lower_state, lower_superstate, lower_action", "macro/src/codegen.rs: codegen_state_impl_state, codegen_superstate_impl_superstate"]}
{"id": "C75", "title": "Declarations that agree on types generate well-typed code", "statement": "For a declaration that the macro accepts and whose generated code is well-scoped, all arguments of generated calls and all fields of generated superstate expressions have the types rustc expects, if the declarations agree: every parameter `&T` or `&mut T` of a state or superstate handler or of an entry or exit action has the type of what it is named after (event, context, local storage of every state that uses it; the receiver stands for shared storage), the fields of a superstate have the types of the fields of the same name of the states and superstates inside it, and nobody asks for more access than there is (the event can only be read; through a superstate that takes a field as `&T` it can only be read). If there are no references to references and no implementations of Deref, this is also necessary. So well-typedness does not depend on the order in which the macro iterates its hash maps. The macro does not check it: it accepts a superstate that takes as `&mut T` what a superstate inside it takes as `&T`.", "quantifier": "all impl blocks accepted by the macro, all orders of iteration, all further coercions", "why_tests_cant": "universal over programs and hash orders", "anchors": ["macro/src/analyze.rs: analyze", "macro/src/lower.rs: lower_state, lower_superstate, lower_action, fn_arg_to_state_field, fn_arg_to_superstate_field", "macro/src/codegen.rs: codegen_state_impl_state, codegen_superstate_impl_superstate"]}
{"id": "C76", "title": "Superstates are only a way of sharing behaviour", "statement": "It does not matter how the handling of events is divided between a state and its superstates. Two machines without dispatch hooks that differ only in their handlers, and whose states do the same with every event together with their superstates (own handler first, then, as long as the response is Super, the handler of the superstate on its view of the local storage), give the same result, machine, context and unused poll inputs in every sequence of calls, and run the same entry and exit actions and transition hooks on the same data in the same order. So a handler can be moved from a superstate into its states or, if it is common to them, from the states to the superstate. If the superstates have no entry and exit actions, the machine behaves like one without superstates.", "quantifier": "all pairs of machines that differ only in handlers, both modes, all machine values, all sequences of calls, schedules and panics", "why_tests_cant": "universal over machines, ways of dividing the handling, histories and schedules", "anchors": ["statig/src/blocking/state.rs: StateExt::handle", "statig/src/blocking/superstate.rs: SuperstateExt::handle", "statig/src/awaitable/state.rs: StateExt::handle", "statig/src/blocking/inner.rs: Inner::handle_with_context", "statig/src/awaitable/inner.rs: Inner::handle_with_context"]}
{"id": "C77", "title": "The order in which an impl block is written does not matter", "statement": "Write the methods of an impl block in another order, and the arguments of #[state_machine(..)], no two of which have the same key, in another order. Then the macro accepts both or rejects both; the generated items are the same up to their order; the generated code compiles for both or for neither; and if it compiles, it does the same when it runs: the same variants with the same fields, handlers, actions, superstates, hooks and initial state, in the same mode. If the handlers agree on the types of event and context, these are the same too.", "quantifier": "all impl blocks whose methods have distinct names, all permutations of methods and arguments, all iteration orders of hash maps in both runs", "why_tests_cant": "universal over declarations and their permutations", "anchors": ["macro/src/analyze.rs: analyze, analyze_state_machine, analyze_state, analyze_superstate, analyze_action", "macro/src/lower.rs: lower", "macro/src/codegen.rs: codegen"]}
{"id": "C78", "title": "Hooks that only observe do not interfere", "statement": "Suppose the four hooks return at once (an async hook without awaiting) and write only to a part of the shared storage, such as a log, that handlers and actions do not depend on. Then every sequence of calls goes as it would with the hooks left at their defaults, except for that part of the storage: same results, states, context, unused poll inputs, and same callbacks on the same data in the same order, also if a call panics or is dropped.", "quantifier": "all machines, all ways of splitting shared storage into a part that is looked at and a part that is not, both modes, all machine values, all sequences of calls, schedules and panics", "why_tests_cant": "universal over machines, hooks, histories and schedules", "anchors": ["statig/src/blocking/into_state_machine.rs: IntoStateMachine::{before_transition, after_transition, before_dispatch, after_dispatch}", "statig/src/awaitable/into_state_machine.rs", "statig/src/blocking/inner.rs", "statig/src/awaitable/inner.rs", "statig/src/blocking/state.rs", "statig/src/awaitable/state.rs"]}
{"id": "C79", "title": "When the arguments of generated calls can be borrowed together", "statement": "If the generated code is well-scoped, then no generated call passes a variable for two parameters of which one is not a shared reference, and no superstate expression borrows a variable twice, exactly if no handler, and no action that a state or superstate uses, asks for the shared storage twice: by its receiver and by a parameter named shared_storage, unless both are shared references. In particular there is no conflict if no parameter is named shared_storage. An action with `&mut self` and `shared_storage: &mut T` is accepted by the macro, but rejected by the borrow checker.", "quantifier": "all impl blocks whose methods have distinct parameter names, all types, all hash orders", "why_tests_cant": "universal over programs the macro is applied to", "anchors": ["macro/src/lower.rs: lower_state, lower_superstate, lower_action, fn_arg_to_ident", "macro/src/codegen.rs: codegen_state_impl, codegen_superstate_impl"]}
{"id": "C80", "title": "A machine without superstates is an ordinary state machine", "statement": "If no state has a superstate, for instance because the superstate type is () and superstate() returns None, initialization is exactly the entry action of the initial state, and an event is exactly: before_dispatch, the state's handler, after_dispatch and, if the answer is a transition, before_transition, the exit action of the source, the entry action of the target and after_transition, also when source and target are the same state; a deferred event does nothing. If the superstate type is (), returning Some(()) for some states, even depending on local data, makes no difference to the results, states, storage, contexts and callbacks of any history of calls, if the dispatch hooks ignore it. Every call ends.", "quantifier": "all machines none of whose states has a superstate, all machines with superstate type (), all states, events, contexts, histories, both modes, panics and dropped futures included", "why_tests_cant": "universal over machines and histories", "anchors": ["statig/src/blocking/superstate.rs: impl Superstate<M> for ()", "statig/src/awaitable/superstate.rs: impl Superstate<M> for ()", "statig/src/blocking/state.rs: StateExt", "statig/src/blocking/inner.rs: Inner::transition"]}
{"id": "C81", "title": "Making functions async changes only the mode", "statement": "Two impl blocks that differ only in which functions are async are both accepted by #[state_machine] or both rejected. If accepted, the generated items are the same up to order, async, .await and the choice between blocking and awaitable traits: same enums with the same variants and fields, same constructors, callbacks, superstates, hooks and event and context types; and one is well-scoped iff the other is. Without hooks and with an acyclic hierarchy the two programs behave the same from construction on: whatever sequence of init and handle calls is made, the calls end alike, leave the same state, storage and context, and run the same handlers and actions, in the same order, with the same arguments and responses.", "quantifier": "all impl blocks, all choices of async functions, all hash map iteration orders, all user functions, all histories of calls", "why_tests_cant": "universal over programs, choices of async and histories; a test compares a few machines on a few events", "anchors": ["macro/src/analyze.rs: analyze_state, analyze_superstate, analyze_action (is_async)", "macro/src/lower.rs: lower (mode), lower_state, lower_superstate, lower_action (await)", "macro/src/codegen.rs: codegen", "statig/examples/macro/async_blinky", "statig/examples/macro/async_bench"]}
{"id": "C82", "title": "The transition tests, for every sequence of events", "statement": "Whatever sequence of init and handle calls is made on the machine of the transition tests, in its four versions (hand-written or generated by the macro, blocking or async), every call returns and the path the machine has recorded is the intended one: on initialization the entries from the outside in, and for each transition the exits of what is left from the inside out and the entries of what is entered from the outside in, where a self-transition leaves and enters the state again. The events of test_transition_path give the path the test expects.", "quantifier": "all sequences of calls, both modes, all hash map orders of the macro", "why_tests_cant": "the tests check one sequence of four events per version", "anchors": ["statig/tests/transition.rs", "statig/tests/async_transition.rs", "statig/tests/transition_macro.rs", "statig/tests/async_transition_macro.rs"]}
{"id": "C83", "title": "Error messages of #[state_machine] name an actual fault", "statement": "Whenever the macro aborts on a declaration, the declaration has a fault of the kind that the message describes (a table of 50-odd messages: 'superstate not found' means that some state or superstate names a superstate that is not declared, 'event must be passed in as a reference' that some handler takes the event by value, ...). The listed faults are exactly the reasons for rejection: a declaration without any of them is accepted. If all faults of a declaration have the same message, exactly this message is reported, whatever the iteration order of hash maps.", "quantifier": "all declarations (with at most one #[state] per method and different names for event and context), all parsers of string literals, all iteration orders of the macro's hash maps", "why_tests_cant": "There are infinitely many declarations and combinations of faults, and the reported message depends on the iteration order of hash maps.", "anchors": ["macro/src/analyze.rs: analyze_state_machine, analyze_state, analyze_superstate, analyze_action, analyze_local_storage_default, meta_require_name_lit_str", "macro/src/lower.rs: lower, lower_state, lower_superstate, fn_arg_to_ident, fn_arg_to_state_field, fn_arg_to_superstate_field, get_generic_argument_ident, snake_case_to_pascal_case"]}
{"id": "C84", "title": "The machines of the remaining tests, for all histories", "statement": "The machines of tests/external_context, hooks, async_hooks, state_local_storage and default, declared and implemented as there, do what the tests expect, for every sequence of calls: the counter of external_context counts the button presses in the context given to each call, up after an even and down after an odd number of timer events, saturating at both ends; in hooks and async_hooks all four hooks have run once an event was handled, and none after an initialization only; in state_local_storage the local storage is 23, then alternates as the transitions set it; in default the fields have the default 0 and the declared default 100 and keep them. For tests/generics and tests/config_macro the generated items are the ones by which the test refers to them: state generics T, B, SIZE; names, derives, visibility and parameter names as configured.", "quantifier": "all sequences of calls with all contexts, all sizes of usize that can hold the start value, both modes where the test has both, all iteration orders of the macro's hash maps", "why_tests_cant": "The tests run one sequence of at most ten events from one context, with one iteration order.", "anchors": ["statig/tests/external_context.rs", "statig/tests/hooks.rs", "statig/tests/async_hooks.rs", "statig/tests/state_local_storage.rs", "statig/tests/default.rs", "statig/tests/generics.rs", "statig/tests/config_macro.rs"]}
{"id": "C85", "title": "Debug output tells values apart", "statement": "{:?} of a Response is Handled, Super or Transition(..) around what the state's Debug prints, {:#?} puts the state on lines of its own, indented; two responses are printed alike only if they are the same variant and their targets are printed alike; the values given to the dispatch hooks are printed as State(..) or Superstate(..) and likewise told apart; initialized and uninitialized machines are never printed alike, both show storage and state in this order, and two machines of a type are printed alike exactly if storage and state are (if printed storages are prefix-free). A failing Debug of the user makes the whole fail.", "quantifier": "all responses, states, superstates and machines; all user Debug implementations, including ones that fail; both {:?} and {:#?}", "why_tests_cant": "There is no test of Debug; injectivity ranges over all pairs of values and all user implementations.", "anchors": ["statig/src/response.rs: impl Debug for Response", "statig/src/state_or_superstate.rs: impl Debug for StateOrSuperstate", "statig/src/blocking/state_machine.rs: impl Debug for InitializedStateMachine, UninitializedStateMachine", "statig/src/awaitable/state_machine.rs: the same"]}
{"id": "C86", "title": "Entry points of the macro crate", "statement": "#[state_machine] generates code only for an impl block whose arguments are a list of metas, and then the code of the declaration; otherwise it reports, in this order, that the arguments cannot be parsed, that the item cannot be parsed, or \"expected impl block\"; the attributes state, superstate and action that remain on the functions vanish without changing them, whatever their arguments, so the functions that are compiled are the user's, with all foreign attributes in order.", "quantifier": "all arguments and items, parsable or not; all impl blocks, all attribute lists", "why_tests_cant": "The tests parse one impl block, one struct and one argument list.", "anchors": ["macro/src/lib.rs: state_machine, state, superstate, action", "macro/src/parse.rs: parse_args, parse_input"]}
{"id": "C87", "title": "Saving and loading is invisible", "statement": "If the entry actions do nothing, a machine saved at any point of its life and loaded again answers every sequence of calls exactly as if it had not been saved (outcomes, callbacks and their arguments, storage, state, context), except that its first call begins with the entry actions from the root to its state; an InitializedStateMachine saved, loaded as uninitialized and initialized is the same machine; an uninitialized machine is loaded as it was saved. The assertions of tests/serde hold for every content, format and state.", "quantifier": "all machines that follow a hierarchy and have idle entry actions, all formats and codecs that restore storage and state, all later call sequences, both modes", "why_tests_cant": "The test saves three machines and only compares the loaded values; it never calls a loaded machine and has no way to range over histories.", "anchors": ["statig/src/blocking/state_machine.rs: Serialize, Deserialize", "statig/src/blocking/inner.rs: Serialize, Deserialize, init_with_context", "statig/tests/serde.rs"]}
{"id": "C88", "title": "State values are dropped exactly once, and never before the call ends", "statement": "A call of init or handle drops at most one state value. If no handler returned a transition, the library drops none, whatever else happens. If one did, exactly one state is dropped, and only after every callback of the call has run: when the transition completes it is the source, with the very value that was shown to after_transition; when the call is interrupted (a panic, or the future is dropped) before an entry action was started it is the target just as the handler returned it, and the machine keeps its state; when it is interrupted later it is the source, and the machine is in the target. Over any sequence of calls, interrupted or not, the states dropped together with the current one are exactly the initial one and those returned by handlers: none is lost, duplicated or dropped twice. Interrupting UninitializedStateMachine::init drops the state with the machine.", "quantifier": "all machines, modes, hierarchies, histories of calls, and every point at which a call can be interrupted", "why_tests_cant": "The number and time of drops must be right for every combination of hierarchy, response and interruption point, over unbounded histories.", "anchors": ["statig/src/blocking/inner.rs: Inner::transition, Inner::handle_with_context", "statig/src/awaitable/inner.rs: Inner::transition", "statig/src/blocking/state.rs: StateExt::handle", "statig/src/awaitable/state.rs: StateExt::handle", "statig/src/blocking/state_machine.rs: UninitializedStateMachine::init_with_context"]}
{"id": "C89", "title": "The example async_io sends each line once, whatever interrupts it", "statement": "The machine of examples/macro/async_io writes to a connection from an async entry action and an async handler. Whatever calls are made on it, and whether they return, panic because the connection fails, or their future is dropped while it waits, every call returns or is interrupted, and what the peer has received is determined by the state, up to beginnings of lines whose sending was broken off: before initialization only beginnings of the first line; in On the whole first line and beginnings of the second; in Off both lines and nothing after. If all calls return, the peer has received exactly the two lines (the first if there was no event). All calls return if the operating system keeps taking bytes, however few at a time. In Off an event returns without waiting and nothing more is sent.", "quantifier": "all sequences of init and handle calls, all answers of the operating system to each attempt to write, all points at which a future is dropped, all iteration orders of the macro's hash maps", "why_tests_cant": "The number of ways the operating system can split two lines, fail or be abandoned, over unbounded histories, cannot be enumerated; the example needs a network.", "anchors": ["examples/macro/async_io/src/main.rs: Receiver::enter_on, Receiver::on, Receiver::off", "statig/src/awaitable/state_machine.rs: StateMachine::init_with_context, StateMachine::handle_with_context", "statig/src/awaitable/inner.rs: Inner::transition"]}
{"id": "C90", "title": "What holds whatever superstate() does, and what needs it to be without effects", "statement": "superstate(&mut self) is an ordinary user function: it may write to the state, return different answers, or panic. Whatever it does, a call of handle gives the event to one handler after the other, the next one only if the one before it returned Super; only if the last handler asked for a transition do before_transition, exit actions, the replacement of the state by the target, entry actions and after_transition follow, in this order, a call that is cut short at any point (also by a panic of superstate()) having done a beginning of this; the state is replaced only then. So every relation between states that callbacks and superstate() respect holds between the state before and after a call, or between the requested target and the state after; every invariant of the state they maintain holds after any history; and if they do not change variants, the variant after a call is the old one or that of the requested target. Initialization starts entry actions only, and leaves the machine initialized exactly if it returns. For a superstate() without effects all this coincides with the model the other properties are about. For one with effects, other properties can fail: the library can panic by itself while it computes the path of a transition.", "quantifier": "all machines with arbitrary functions superstate() (writing, inconsistent, panicking), both modes, all respected relations and invariants, all states, events, poll schedules, interruptions and histories of calls", "why_tests_cant": "The functions superstate() that a user can write, and the points at which they panic, cannot be enumerated; tests fix one hierarchy that never changes.", "anchors": ["statig/src/blocking/state.rs: State::superstate, StateExt::depth, StateExt::transition_path, StateExt::handle, StateExt::enter, StateExt::exit", "statig/src/blocking/superstate.rs: Superstate::superstate, SuperstateExt::common_ancestor_depth, SuperstateExt::handle", "statig/src/awaitable/state.rs: StateExt::handle, StateExt::enter, StateExt::exit", "statig/src/blocking/inner.rs: Inner::transition", "statig/src/awaitable/inner.rs: Inner::transition"]}
{"id": "C91", "title": "A superstate() that only changes data does not disturb the machine", "statement": "The trait lets superstate(&mut self) change self. If it changes data only - it does not panic, which superstate it returns depends on the variant of self alone, along an acyclic hierarchy, and it and whatever is written back to the view keep the variant - then everything promised about handlers, actions and hooks holds as if it had no effects: every call returns; a completed handle has exactly the dispatch log along the path of the state and, if the last handler asked for a transition, exactly the exit actions, entry actions and transition hooks of that transition; a call that is cut short has a part of such a log; the state changes variant exactly if an entry action was started, to the variant of the target; initialization enters exactly the path of the initial state; the library never panics by itself; and over any history of completed calls the entry and exit actions replay to the path of state(). This is although superstate() is called, and its changes are made, in the computation of the transition path too, on the source and on the target.", "quantifier": "every machine whose superstate() functions are arbitrary functions that keep variants and follow a forest of any size and depth, both modes, every state, event, context, schedule of wake-ups, panic and drop point, and every history of calls", "why_tests_cant": "The library calls superstate() a number of times that depends on the depth and on where source and target meet, and the changes made to data feed into what handlers and actions see later; tests with a superstate() that only borrows never exercise this, and no set of tests covers all forests and all effects.", "anchors": ["statig/src/blocking/state.rs: StateExt::{depth, common_ancestor_depth, transition_path, handle, enter, exit}", "statig/src/blocking/superstate.rs: SuperstateExt", "statig/src/awaitable/state.rs: StateExt", "statig/src/awaitable/superstate.rs: SuperstateExt", "statig/src/blocking/inner.rs: Inner::transition", "statig/src/awaitable/inner.rs: Inner::transition"]}
{"id": "C92", "title": "The benchmark machines, for all histories", "statement": "The machines of examples/macro/bench and async_bench (a CD player) and of bench_complex and async_bench_complex (51 states in a ring) are accepted by the macro. Whatever calls of init and handle are made on a fresh one, under whatever schedule, all return. In the ring an event is a transition iff it is the one the current state waits for, so that the state is determined by the number of transitions so far; the initial state s1 is never entered again once it was left; sending all events in order any number of times makes 50 transitions each time and ends in idle; and whatever random numbers the benchmark draws, one pass of its loop makes at most 50 transitions. The CD player, blocking or async, follows the transitions of the hand-written version, and the loop of the benchmark ends where it started however often it is run.", "quantifier": "all sequences of calls of init and handle, all events, all numbers of loops, all random choices, all schedules, both modes, all hash map orders", "why_tests_cant": "The benchmarks draw random numbers and print a duration; they assert nothing, and sample one of 2^51 passes per loop.", "anchors": ["examples/macro/bench/src/main.rs", "examples/macro/async_bench/src/main.rs", "examples/macro/bench_complex/src/main.rs", "examples/macro/async_bench_complex/src/main.rs"]}
{"id": "C93", "title": "What the blinky examples print", "statement": "The hooks of examples/macro/blinky and examples/macro/async_blinky print a line whenever they run. Whatever calls of init and handle are made on a fresh machine, each returns, and afterwards standard output consists of what was there before and exactly the lines a table assigns to the events and the states they met: which state or superstate was asked, in order, and the transition, by name, with nothing printed by init, nothing for an event nobody wants but the dispatches, and in awaitable mode every line twice (before and after).", "quantifier": "all sequences of calls of init and handle, all earlier output, all hash map orders, the blocking and the awaitable example (which mixes async and plain handlers and actions)", "why_tests_cant": "The examples print one run and compare it with nothing; hooks could be missing, doubled or in another order after other histories.", "anchors": ["examples/macro/blinky/src/main.rs", "examples/macro/async_blinky/src/main.rs", "statig/src/state_or_superstate.rs", "statig/src/blocking/inner.rs", "statig/src/awaitable/inner.rs"]}
{"id": "C94", "title": "The generics example", "statement": "The impl block of examples/macro/generics, which has a lifetime, two type parameters, a constant parameter and a where clause, is accepted whatever the order of the hash maps; what is generated compiles, the type State keeps exactly the parameters T and SIZE its fields use, and the generated functions foo and bar make the states with the given fields. Whatever T, its Debug, its Default and SIZE are and whatever calls of init and handle are made on a fresh machine, each returns with the outcome, state and printed values of a three line table: Bar(v) is taken only when nothing is held, keeps v and SIZE defaults and prints v once through the entry action (panicking exactly if v cannot be printed, but being in state bar afterwards), Foo takes away what is held, and nothing else changes anything.", "quantifier": "all types T, all Debug implementations (which may fail), all defaults and sizes, all sequences of calls, all hash map orders", "why_tests_cant": "The example runs one event for one instantiation and never reads the stored value or buffer.", "anchors": ["examples/macro/generics/src/main.rs", "macro/src/lower.rs", "macro/src/codegen.rs", "statig/src/blocking/inner.rs"]}
{"id": "C95", "title": "The calculator application", "statement": "In the user interface of the calculator every key (ten digits, point, four operators, =, AC, CE) has exactly one button, labelled with what it means, so every sequence of keys can be typed. Whatever buttons are clicked in whatever frames, several in one frame included: a frame is completed exactly if no key pressed up to and including it crashes the calculator (the first operand has no digit, and an operator or = is pressed), otherwise the application panics in it; and a completed frame displays what the calculator shows after the keys of the frames before it, 0 in the first frame, its own clicks being visible only in the next one. If the frames type an expression, in whatever portions, the next frame displays its value. The application with the hand-written machine, which has the same user interface, is not the same: if - and then = is clicked, it panics, and the other does not.", "quantifier": "all sequences of frames, all sets of clicked buttons in each, all expressions, any f32 parsing that accepts numerals and printed numbers and rejects the empty text and a single point", "why_tests_cant": "The user interface is not tested at all; the claim is about all histories of clicks, and a swapped label or event shows only for that button.", "anchors": ["examples/macro/calculator/src/ui.rs", "examples/macro/calculator/src/main.rs", "examples/no_macro/calculator/src/ui.rs", "statig/src/blocking/state_machine.rs"]}
