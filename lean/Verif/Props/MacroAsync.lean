import Verif.Proofs.Macro.Async
import Verif.Props.MacroExtension
import Verif.Props.MacroHierarchy
import Verif.Props.MacroLinks
import Verif.Props.Modes
/-!
# Making functions `async`: C81
-/
namespace Statig
open Macro
section
variable {syn : Syn} {ord ord' : Order} {src src' : Source} {g g' : Gen} {T : Types}

theorem Macro.Gen.SameItems.trans {a b c : Gen} (h : a.SameItems b) (h' : b.SameItems c) : a.SameItems c := by
  constructor <;> first | exact (h.1.trans h'.1) | skip
  all_goals first
    | exact h.selfTy.trans h'.selfTy | exact h.callPath.trans h'.callPath | exact h.callArgs.trans h'.callArgs
    | exact h.generics.trans h'.generics | exact h.stateImpl.trans h'.stateImpl
    | exact h.superstateImpl.trans h'.superstateImpl | exact h.mode.trans h'.mode | exact h.initial.trans h'.initial
    | exact h.beforeTransition.trans h'.beforeTransition | exact h.afterTransition.trans h'.afterTransition
    | exact h.beforeDispatch.trans h'.beforeDispatch | exact h.afterDispatch.trans h'.afterDispatch
    | exact h.visibility.trans h'.visibility | exact h.eventIdent.trans h'.eventIdent
    | exact h.contextIdent.trans h'.contextIdent | exact h.stateIdent.trans h'.stateIdent
    | exact h.stateDerives.trans h'.stateDerives | exact h.stateGenerics.trans h'.stateGenerics
    | exact h.superstateIdent.trans h'.superstateIdent | exact h.superstateDerives.trans h'.superstateDerives
    | exact h.superstateLifetime.trans h'.superstateLifetime | exact h.superstateGenerics.trans h'.superstateGenerics
    | exact h.states.trans h'.states | exact h.constructors.trans h'.constructors
    | exact h.handlerArms.trans h'.handlerArms | exact h.entryArms.trans h'.entryArms
    | exact h.exitArms.trans h'.exitArms | exact h.superstateArms.trans h'.superstateArms
    | exact h.superstates.trans h'.superstates | exact h.supHandlerArms.trans h'.supHandlerArms
    | exact h.supEntryArms.trans h'.supEntryArms | exact h.supExitArms.trans h'.supExitArms
    | exact h.supSuperstateArms.trans h'.supSuperstateArms

theorem Macro.Gen.SameItems.sync (h : g.SameItems g') : g.sync.SameItems g'.sync where
  methods := congrArg (List.map Method.sync) h.methods
  selfTy := h.selfTy
  callPath := h.callPath
  callArgs := h.callArgs
  generics := h.generics
  stateImpl := h.stateImpl
  superstateImpl := h.superstateImpl
  mode := rfl
  initial := h.initial
  beforeTransition := h.beforeTransition
  afterTransition := h.afterTransition
  beforeDispatch := h.beforeDispatch
  afterDispatch := h.afterDispatch
  visibility := h.visibility
  eventIdent := h.eventIdent
  contextIdent := h.contextIdent
  stateIdent := h.stateIdent
  stateDerives := h.stateDerives
  stateGenerics := h.stateGenerics
  superstateIdent := h.superstateIdent
  superstateDerives := h.superstateDerives
  superstateLifetime := h.superstateLifetime
  superstateGenerics := h.superstateGenerics
  states := h.states
  constructors := h.constructors
  handlerArms := h.handlerArms.map _
  entryArms := h.entryArms.map _
  exitArms := h.exitArms.map _
  superstateArms := h.superstateArms
  superstates := h.superstates
  supHandlerArms := h.supHandlerArms.map _
  supEntryArms := h.supEntryArms.map _
  supExitArms := h.supExitArms.map _
  supSuperstateArms := h.supSuperstateArms

/-- C81. If a declaration is accepted, so is every other one that differs from it only in which functions are `async`;
and the generated items are the same up to their order, `async`, `.await` and the mode. -/
theorem C81_items (hs : src'.sync = src.sync) (h : expand syn ord src = .ok g) (ord' : Order) :
    ∃ g', expand syn ord' src' = .ok g' ∧ g.sync.SameItems g'.sync := by
  obtain ⟨g₁, h₁, i₁⟩ := C46_items h inOrder
  have e := expand_sync (syn := syn) src
  rw [h₁, ← hs, expand_sync] at e
  cases h₂ : expand syn inOrder src' with
  | error e' => rw [h₂] at e; cases e
  | ok g₂ =>
    rw [h₂] at e
    have e' : g₂.sync = g₁.sync := Except.ok.inj e
    obtain ⟨g', h', i'⟩ := C46_items h₂ ord'
    exact ⟨g', h', i₁.sync.trans (e' ▸ i'.sync)⟩

/-- So it is rejected with `async` iff it is rejected without. -/
theorem C81_rejected (hs : src'.sync = src.sync) (ord ord' : Order) :
    (∃ msg, expand syn ord src = .error msg) ↔ ∃ msg, expand syn ord' src' = .error msg := by
  constructor
  · rintro ⟨msg, h⟩
    cases h' : expand syn ord' src' with
    | error msg' => exact ⟨msg', rfl⟩
    | ok g' =>
      obtain ⟨g, hg, _⟩ := C81_items hs.symm h' ord
      rw [hg] at h
      cases h
  · rintro ⟨msg, h⟩
    cases h' : expand syn ord src with
    | error msg' => exact ⟨msg', rfl⟩
    | ok g' =>
      obtain ⟨g, hg, _⟩ := C81_items hs h' ord'
      rw [hg] at h
      cases h

theorem compiles_sync : g.sync.Compiles ↔ g.Compiles := by
  have hr : ∀ bound b x, g.sync.iface.resolve bound b x = g.iface.resolve bound b x := fun _ _ _ => rfl
  have ha : ∀ (arms : List (Arm FnCall)) (P : VariantPat → List Ident → Prop),
      (∀ a ∈ arms.map Arm.sync, P a.pat a.body.args) ↔ ∀ a ∈ arms, P a.pat a.body.args := by
    intro arms P
    rw [List.forall_mem_map]
    exact Iff.rfl
  have hb : ∀ (arms : List (Arm (Option FnCall))) (P : VariantPat → List Ident → Prop),
      (∀ a ∈ arms.map Arm.syncs, ∀ c ∈ a.body, P a.pat c.args) ↔ ∀ a ∈ arms, ∀ c ∈ a.body, P a.pat c.args := by
    intro arms P
    rw [List.forall_mem_map]
    refine forall₂_congr fun a _ => ?_
    obtain ⟨p, b⟩ := a
    cases b with
    | none => simp [Arm.syncs]
    | some c => simp [Arm.syncs, FnCall.sync]
  have hm : (g.sync.methods.map (·.name)) = g.methods.map (·.name) := by
    show (g.methods.map Method.sync).map _ = _
    rw [List.map_map]
    rfl
  have h1 := ha g.handlerArms fun p args => ∀ x ∈ args, (g.iface.resolve p.fields true x).isSome
  have h2 := hb g.entryArms fun p args => ∀ x ∈ args, (g.iface.resolve p.fields false x).isSome
  have h3 := hb g.exitArms fun p args => ∀ x ∈ args, (g.iface.resolve p.fields false x).isSome
  have h4 := ha g.supHandlerArms fun p args => ∀ x ∈ args, (g.iface.resolve p.fields true x).isSome
  have h5 := hb g.supEntryArms fun p args => ∀ x ∈ args, (g.iface.resolve p.fields false x).isSome
  have h6 := hb g.supExitArms fun p args => ∀ x ∈ args, (g.iface.resolve p.fields false x).isSome
  constructor
  · rintro ⟨c1, c2, c3, c4, c5, c6, c7, c8, c9, c10, c11, c12, c13, c14⟩
    exact ⟨hm ▸ c1, c2, c3, c4, c5, c6, h1.1 c7, h2.1 c8, h3.1 c9, c10, h4.1 c11, h5.1 c12, h6.1 c13, c14⟩
  · rintro ⟨c1, c2, c3, c4, c5, c6, c7, c8, c9, c10, c11, c12, c13, c14⟩
    exact ⟨hm ▸ c1, c2, c3, c4, c5, c6, h1.2 c7, h2.2 c8, h3.2 c9, c10, h4.2 c11, h5.2 c12, h6.2 c13, c14⟩

/-- The generated code is well-scoped with `async` iff it is without. -/
theorem C81_compiles (hs : src'.sync = src.sync) (h : expand syn ord src = .ok g) (h' : expand syn ord' src' = .ok g')
    (hc : g.Compiles) : g'.Compiles := by
  obtain ⟨g₁, h₁, i⟩ := C81_items hs h ord'
  rw [h'] at h₁
  cases h₁
  exact compiles_sync.1 (i.compiles (compiles_sync.2 hc))

theorem covers_of_sync (hs : src'.sync = src.sync) : src'.Covers src where
  args := by
    have := congrArg Source.args hs
    exact this
  methods mth hm := by
    have : src'.methods.map Method.sync = src.methods.map Method.sync := congrArg Source.methods hs
    have hm' : mth.sync ∈ src'.methods.map Method.sync := this ▸ List.mem_map.2 ⟨mth, hm, rfl⟩
    obtain ⟨mth', h1, h2⟩ := List.mem_map.1 hm'
    refine ⟨mth'.isAsync, ?_⟩
    have e : { mth with isAsync := mth'.isAsync } = mth' := by
      cases mth
      cases mth'
      simp only [Method.sync, Method.mk.injEq, true_and] at h2 ⊢
      obtain ⟨rfl, rfl, rfl, rfl⟩ := h2
      exact ⟨rfl, rfl, rfl, rfl⟩
    exact e ▸ h1

/-- C81. Both have the same states and superstates with the same fields. -/
theorem C81_variants (hs : src'.sync = src.sync) (h : expand syn ord src = .ok g) (h' : expand syn ord' src' = .ok g')
    (hc : g.Compiles) : g'.iface.stateFields = g.iface.stateFields ∧ g'.iface.supFields = g.iface.supFields := by
  have hc' := C81_compiles hs h h' hc
  obtain ⟨a, b⟩ := C74_variants (covers_of_sync hs) h hc h' hc'
  obtain ⟨a', b'⟩ := C74_variants (covers_of_sync hs.symm) h' hc' h hc
  exact ⟨funext fun v => Option.ext fun ns => ⟨a' v ns, a v ns⟩, funext fun v => Option.ext fun ns => ⟨b' v ns, b v ns⟩⟩

theorem eventTy_of_covers (h : src'.Covers src) {ty : Ty} :
    (src.EventTy ty → src'.EventTy ty) ∧ (src.ContextTy ty → src'.ContextTy ty) := by
  have e1 : src'.eventIdent = src.eventIdent := by unfold Source.eventIdent Source.setting; rw [h.args]
  have e2 : src'.contextIdent = src.contextIdent := by unfold Source.contextIdent Source.setting; rw [h.args]
  constructor
  · rintro ⟨mth, hm, hk, ht⟩
    obtain ⟨b, hb⟩ := h.methods mth hm
    exact ⟨_, hb, hk, e1 ▸ ht⟩
  · rintro ⟨mth, hm, hk, ht⟩
    obtain ⟨b, hb⟩ := h.methods mth hm
    exact ⟨_, hb, hk, e2 ▸ ht⟩

/-- If all handlers agree on the types of event and context, these are the same too. -/
theorem C81_types (hs : src'.sync = src.sync) (h : expand syn ord src = .ok g) (h' : expand syn ord' src' = .ok g')
    (hc : g.Compiles) (he : ∀ ty ty', src.EventTy ty → src.EventTy ty' → ty = ty')
    (hcx : ∀ ty ty', src.ContextTy ty → src.ContextTy ty' → ty = ty') :
    g'.eventType = g.eventType ∧ g'.contextType = g.contextType := by
  have e1 : ∀ ty, src'.EventTy ty ↔ src.EventTy ty := fun ty =>
    ⟨(eventTy_of_covers (covers_of_sync hs.symm)).1, (eventTy_of_covers (covers_of_sync hs)).1⟩
  have e2 : ∀ ty, src'.ContextTy ty ↔ src.ContextTy ty := fun ty =>
    ⟨(eventTy_of_covers (covers_of_sync hs.symm)).2, (eventTy_of_covers (covers_of_sync hs)).2⟩
  obtain ⟨h1, h2⟩ := C46_types_declared h hc
  obtain ⟨h1', h2'⟩ := C46_types_declared h' (C81_compiles hs h h' hc)
  simp only [e1, e2] at h1' h2'
  constructor
  · rcases h1 with ⟨e, n⟩ | ⟨ty, ht, e⟩ <;> rcases h1' with ⟨e', n'⟩ | ⟨ty', ht', e'⟩
    · rw [e, e']
    · exact absurd ht' (n _)
    · exact absurd ht (n' _)
    · rw [e, e', he _ _ ht ht']
  · rcases h2 with ⟨e, n⟩ | ⟨ty, ht, e⟩ <;> rcases h2' with ⟨e', n'⟩ | ⟨ty', ht', e'⟩
    · rw [e, e']
    · exact absurd ht' (n _)
    · exact absurd ht (n' _)
    · rw [e, e', hcx _ _ ht ht']

theorem hooks_eq (h : expand syn ord src = .ok g) (hc : g.Compiles) (hn : src.NoHooks) :
    g.beforeDispatch = none ∧ g.afterDispatch = none ∧ g.beforeTransition = none ∧ g.afterTransition = none := by
  obtain ⟨sm, L, Lp, hg⟩ := genInfo (hc.distinct h) h
  obtain ⟨h1, h2, h3, h4⟩ := hn
  rw [hg.beforeDispatch, hg.afterDispatch, hg.beforeTransition, hg.afterTransition, hg.machine.beforeDispatch,
    hg.machine.afterDispatch, hg.machine.beforeTransition, hg.machine.afterTransition]
  exact ⟨h1, h2, h3, h4⟩

theorem noHooks_of (h : expand syn ord src = .ok g) (hc : g.Compiles) (hn : src.NoHooks) (env : Env g.iface T) :
    (g.iface.machine env).NoHooks := by
  obtain ⟨h1, h2, h3, h4⟩ := hooks_eq h hc hn
  constructor
  · intro sh n ev
    show runHook env g.beforeDispatch sh (fun p sh => env.dispatchHook p sh n ev) = .done sh ()
    rw [h1]
    rfl
  · intro sh n ev
    show runHook env g.afterDispatch sh (fun p sh => env.dispatchHook p sh n ev) = .done sh ()
    rw [h2]
    rfl
  · intro sh n ev
    show runHook env g.beforeTransition sh (fun p sh => env.transitionHook p sh n ev) = .done sh ()
    rw [h3]
    rfl
  · intro sh n ev
    show runHook env g.afterTransition sh (fun p sh => env.transitionHook p sh n ev) = .done sh ()
    rw [h4]
    rfl

theorem SameCall.refl {S : Sig} (c : Call S (Statig.StateMachine S)) : SameCall c c := ⟨rfl, rfl, rfl, rfl, rfl⟩

theorem SameCall.symm {S : Sig} {c d : Call S (Statig.StateMachine S)} (h : SameCall c d) : SameCall d c :=
  ⟨h.out.symm, h.self.symm, h.ctx.symm, h.sched.symm, h.callbacks.symm⟩

theorem callbacksOf_grown {S : Sig} {St Sup D E : Type} [DecidableEq D] [DecidableEq E] (st : S.St → St)
    (sup : S.Sup → Sup) (l : List (Obs S)) :
    callbacksOf (l.map (Obs.grown st sup) : List (Obs (S.grow St Sup D E))) = (callbacksOf l).map (Obs.grown st sup) := by
  unfold callbacksOf
  rw [List.filter_map]
  congr 2
  funext o
  cases o <;> rfl

theorem listRel_self {α : Type} {R : α → α → Prop} (hR : ∀ a, R a a) : ∀ l : List α, ListRel R l l
  | [] => .nil
  | a :: l => .cons (hR a) (listRel_self hR l)

theorem listRel_symm {α β : Type} {R : α → β → Prop} {Q : β → α → Prop} (hR : ∀ a b, R a b → Q b a) {l : List α}
    {l' : List β} (h : ListRel R l l') : ListRel Q l' l := by
  induction h with
  | nil => exact .nil
  | cons h _ ih => exact .cons (hR _ _ h) ih

/-- C81. Without hooks and with an acyclic hierarchy, a program behaves the same if any of its functions become, or cease
to be, `async`: whatever is called, the calls end alike, leave the same state and data, and run the same handlers and
actions with the same arguments and responses, whether the generated machine is blocking or awaitable. -/
theorem C81_behaviour (hs : src'.sync = src.sync) (ha : src.Acyclic) (hn : src.NoHooks) (h : expand syn ord src = .ok g)
    (hc : g.Compiles) (h' : expand syn ord' src' = .ok g') (hst : Widens g.iface.stateFields g'.iface.stateFields)
    (hsup : Widens g.iface.supFields g'.iface.supFields) {env : Env g.iface T} {env' : Env g'.iface T}
    (he : env.Same src hst hsup env') (self : T.M) (cmds : List (Command (g.iface.sig T))) :
    ListRel (fun c c' => SameCall (c.grown (Val.widen hst) (Val.widen hsup)) c')
      (callAll g.mode (g.iface.machine env) (stateMachine (g.iface.machine env) self) cmds)
      (callAll g'.mode (g'.iface.machine env') (stateMachine (g'.iface.machine env') self)
        (cmds.map Command.grown)) := by
  have hc' := C81_compiles hs h h' hc
  have hu := hooks_eq h hc hn
  have hx : (g.iface.machine env).ExtendedBy (Val.widen hst) (Val.widen hsup) (g'.iface.machine env') :=
    C74_extends (covers_of_sync hs) h hc h' hc' hst hsup he (.inr fun p hp => by
      obtain ⟨u1, u2, u3, u4⟩ := hu
      unfold Gen.Uses at hp
      rw [u1, u2, u3, u4] at hp
      simp at hp)
  have hi := initial_covers (covers_of_sync hs) h hc h' hc' he
  have hsm : stateMachine (g'.iface.machine env') self =
      (stateMachine (g.iface.machine env) self).grown (Val.widen hst) := by
    unfold stateMachine StateMachine.grown
    rw [hi]
  rw [hsm, C73_adding_states hx]
  obtain ⟨F, hF, -⟩ := C44_follows h hc ha
  have hsame := C29_modes_alike (hF T env).1 (hF T env).2 (noHooks_of h hc hn env)
    (stateMachine (g.iface.machine env) self) cmds
  have key : ListRel SameCall (callAll g.mode (g.iface.machine env) (stateMachine (g.iface.machine env) self) cmds)
      (callAll g'.mode (g.iface.machine env) (stateMachine (g.iface.machine env) self) cmds) := by
    cases hm : g.mode <;> cases hm' : g'.mode
    · exact listRel_self SameCall.refl _
    · exact hsame
    · exact listRel_symm (fun _ _ => SameCall.symm) hsame
    · exact listRel_self SameCall.refl _
  revert key
  generalize callAll g.mode (g.iface.machine env) (stateMachine (g.iface.machine env) self) cmds = x
  generalize callAll g'.mode (g.iface.machine env) (stateMachine (g.iface.machine env) self) cmds = y
  intro key
  induction key with
  | nil => exact .nil
  | cons hd _ ih =>
    refine .cons ?_ ih
    refine ⟨hd.out, ?_, hd.ctx, hd.sched, ?_⟩
    · show StateMachine.grown _ _ = StateMachine.grown _ _
      rw [hd.self]
    · show callbacksOf (List.map _ _) = callbacksOf (List.map _ _)
      rw [callbacksOf_grown, callbacksOf_grown, hd.callbacks]

end

/-! ## The hypotheses are met -/

namespace Macro.Sample

/-- The sample without its hooks. -/
def hookless : Source where
  args := [⟨"initial", .lit "State::led_on(true, 7)"⟩]
  methods := source.methods

theorem hookless_ok : accepts forwards hookless = true := by decide +kernel
theorem hookless_sync_ok : accepts backwards hookless.sync = true := by decide +kernel

theorem hookless_acyclic : hookless.Acyclic := acyclic

theorem hookless_noHooks : hookless.NoHooks := by
  unfold Source.NoHooks
  decide +kernel

end Macro.Sample

/-- C81 applies to the sample, which is awaitable, and to the sample without `async`, which is blocking. -/
example : ∃ g g', expand Sample.syn Sample.forwards Sample.hookless = .ok g ∧ g.Compiles ∧ g.mode = .awaitable ∧
    expand Sample.syn Sample.backwards Sample.hookless.sync = .ok g' ∧ g'.mode = .blocking ∧
    Sample.hookless.sync.sync = Sample.hookless.sync ∧ Sample.hookless.Acyclic ∧ Sample.hookless.NoHooks ∧
    g'.iface.stateFields "LedOn" = some ["led", "counter", "extra"] ∧
    ∃ (hst : Widens g.iface.stateFields g'.iface.stateFields) (hsup : Widens g.iface.supFields g'.iface.supFields),
      ∀ (T : Types) (env : Env g.iface T), ∃ env' : Env g'.iface T, env.Same Sample.hookless hst hsup env' := by
  have hc : (Sample.result _ _ Sample.hookless_ok).Compiles := by decide +kernel
  have hs : Sample.hookless.sync.sync = Sample.hookless.sync := by
    unfold Source.sync
    simp only [List.map_map]
    rfl
  have h1 := Sample.result_eq Sample.hookless_ok
  have h2 := Sample.result_eq Sample.hookless_sync_ok
  obtain ⟨hst, hsup⟩ := C74_variants (covers_of_sync hs) h1 hc h2 (C81_compiles hs h1 h2 hc)
  refine ⟨_, _, h1, hc, by decide +kernel, h2, by decide +kernel, hs, Sample.hookless_acyclic,
    Sample.hookless_noHooks, by decide +kernel, hst, hsup, fun T env => exists_same hst hsup env⟩

end Statig
