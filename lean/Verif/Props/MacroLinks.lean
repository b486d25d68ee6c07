import Verif.Proofs.Macro.Calls
import Verif.Props.MacroSample
/-!
# Mode, links, variants and calls of generated machines: C42, C43, C47

In all theorems the generated code compiles (`Gen.Compiles`).
-/
namespace Statig
open Macro
variable {syn : Syn} {ord : Order} {src : Source} {g : Gen} {T : Types}

/-! ## C42: The macro picks async mode iff something is async -/

/-- The generated machine is awaitable iff a state, superstate or action function is async. -/
theorem C42_mode (h : expand syn ord src = .ok g) (hc : g.Compiles) :
    g.mode = .awaitable ↔
      ∃ mth ∈ src.methods, mth.isAsync = true ∧ (mth.Has "state" ∨ mth.Has "superstate" ∨ mth.Has "action") := by
  obtain ⟨sm, L, Lp, hg⟩ := genInfo (hc.distinct h) h
  exact hg.mode

example : Sample.gen.mode = .awaitable :=
  (C42_mode Sample.gen_eq Sample.compiles).2
    ⟨Sample.ledOff, by simp [Sample.source], rfl, .inl ⟨⟨"state", _⟩, List.mem_cons_self, rfl⟩⟩

/-- The hooks of the generated machine are those named in `#[state_machine(..)]`; but if the machine is blocking, a
hook that is an async function never runs. -/
theorem C42_hooks (h : expand syn ord src = .ok g) (hc : g.Compiles) (env : Env g.iface T) (sh : T.M)
    (n : StateOrSuperstate (Val g.iface.stateFields T.V) (Val g.iface.supFields T.V)) (ev : T.Ev)
    (s t : Val g.iface.stateFields T.V) :
    let runs (hook : String) (call : Expr → Fut T.In T.M Unit) : Fut T.In T.M Unit :=
      match src.setting hook with
      | none => .done sh ()
      | some p => if g.mode = .blocking ∧ env.hookAsync p = true then .done sh () else call p
    (g.iface.machine env).beforeDispatch sh n ev = runs "before_dispatch" (fun p => env.dispatchHook p sh n ev) ∧
    (g.iface.machine env).afterDispatch sh n ev = runs "after_dispatch" (fun p => env.dispatchHook p sh n ev) ∧
    (g.iface.machine env).beforeTransition sh s t = runs "before_transition" (fun p => env.transitionHook p sh s t) ∧
    (g.iface.machine env).afterTransition sh s t = runs "after_transition" (fun p => env.transitionHook p sh s t) := by
  obtain ⟨sm, L, Lp, hg⟩ := genInfo (hc.distinct h) h
  have h1 : g.iface.beforeDispatch = src.setting "before_dispatch" := hg.beforeDispatch.trans hg.machine.beforeDispatch
  have h2 : g.iface.afterDispatch = src.setting "after_dispatch" := hg.afterDispatch.trans hg.machine.afterDispatch
  have h3 : g.iface.beforeTransition = src.setting "before_transition" :=
    hg.beforeTransition.trans hg.machine.beforeTransition
  have h4 : g.iface.afterTransition = src.setting "after_transition" :=
    hg.afterTransition.trans hg.machine.afterTransition
  have hm : g.iface.mode = g.mode := rfl
  simp only [Iface.machine, runHook, h1, h2, h3, h4, hm]
  exact ⟨rfl, rfl, rfl, rfl⟩

/-- The machine is blocking although the hook `handled` is async, and this hook does not run. -/
example : ∃ g, expand Sample.syn Sample.forwards Sample.blockingSource = .ok g ∧ g.Compiles ∧ g.mode = .blocking ∧
    ∀ env : Env g.iface Sample.types, env.hookAsync "Self::handled" = true →
      ∀ sh n ev, (g.iface.machine env).afterDispatch sh n ev = .done sh () := by
  have hc : (Sample.result _ _ Sample.blocking_ok).Compiles := by decide +kernel
  have hm : (Sample.result _ _ Sample.blocking_ok).mode = .blocking := by decide +kernel
  refine ⟨_, Sample.result_eq Sample.blocking_ok, hc, hm, fun env ha sh n ev => ?_⟩
  rw [(C42_hooks (Sample.result_eq Sample.blocking_ok) hc env sh n ev (env.initial "") (env.initial "")).2.1]
  have : Sample.blockingSource.setting "after_dispatch" = some "Self::handled" := by decide +kernel
  simp [this, hm, ha]

/-- In the awaitable sample it does. -/
example (sh n ev) : (Sample.gen.iface.machine Sample.env).afterDispatch sh n ev = .done (sh ++ ["Self::handled"]) () := by
  rw [(C42_hooks Sample.gen_eq Sample.compiles Sample.env sh n ev Sample.vStopped Sample.vStopped).2.1]
  have h1 : Sample.source.setting "after_dispatch" = some "Self::handled" := by decide +kernel
  have h2 : Sample.gen.mode = .awaitable := by decide +kernel
  simp [h1, h2, Sample.env]

/-! ## C43: Declared links are honoured and dangling links rejected -/

/-- The variants of the generated enums are those of the declared states and superstates, and their fields are the
declared local storage. -/
theorem C43_variants (h : expand syn ord src = .ok g) (hc : g.Compiles) (v : Ident) (fs : List Ident) :
    (g.iface.stateFields v = some fs ↔
      ∃ mth ∈ src.methods, mth.Has "state" ∧ v = variantName syn mth.name ∧ fs = src.fields "state" mth) ∧
    (g.iface.supFields v = some fs ↔
      ∃ mth ∈ src.methods, mth.Has "superstate" ∧ v = variantName syn mth.name ∧ fs = src.fields "superstate" mth) := by
  obtain ⟨sm, L, Lp, hg⟩ := genInfo (hc.distinct h) h
  rw [hg.iface_stateFields hc, hg.iface_supFields hc]
  refine ⟨⟨fun e => ?_, ?_⟩, ⟨fun e => ?_, ?_⟩⟩
  · obtain ⟨ls, e', rfl⟩ := Option.map_eq_some_iff.1 e
    obtain ⟨mth, hm, hk, hv, _, hd⟩ := hg.of_stateOf hc e'
    exact ⟨mth, hm, hk, hv, hd.lowered.fields⟩
  · rintro ⟨mth, hm, hk, rfl, rfl⟩
    obtain ⟨ls, e, _, hd, _⟩ := hg.stateOf hc hm hk
    rw [e]
    exact congrArg some hd.lowered.fields
  · obtain ⟨ls, e', rfl⟩ := Option.map_eq_some_iff.1 e
    obtain ⟨mth, hm, hk, hv, _, hd⟩ := hg.of_supOf hc e'
    exact ⟨mth, hm, hk, hv, hd.lowered.fields⟩
  · rintro ⟨mth, hm, hk, rfl, rfl⟩
    obtain ⟨ls, e, _, hd⟩ := hg.supOf hc hm hk
    rw [e]
    exact congrArg some hd.lowered.fields

example : Sample.gen.iface.stateFields "LedOn" = some ["led", "counter", "extra"] :=
  (C43_variants Sample.gen_eq Sample.compiles _ _).1.2
    ⟨Sample.ledOn, by simp [Sample.source], ⟨_, List.mem_cons_self, rfl⟩, by decide +kernel, by decide +kernel⟩

/-- The initial state is the value of the expression `initial`. -/
theorem C43_initial (h : expand syn ord src = .ok g) (hc : g.Compiles) (env : Env g.iface T) :
    ∃ e, src.setting "initial" = some e ∧ (g.iface.machine env).initial = env.initial e := by
  obtain ⟨sm, L, Lp, hg⟩ := genInfo (hc.distinct h) h
  refine ⟨_, hg.machine.initial, ?_⟩
  show env.initial g.initial = _
  rw [hg.initial]

/-- Entry and exit actions of a state are those named in its attribute. -/
theorem C43_actions (h : expand syn ord src = .ok g) (hc : g.Compiles) (env : Env g.iface T) {mth : Method}
    (hm : mth ∈ src.methods) (hk : mth.Has "state") (hu : src.Unshadowed "state" mth)
    (s : Val g.iface.stateFields T.V) (hs : s.variant = variantName syn mth.name) (sh : T.M) (c : T.Ctx) :
    src.Performs env.action (mth.link "state" "entry_action") (s, sh, c) ((g.iface.machine env).entry s sh c) ∧
    src.Performs env.action (mth.link "state" "exit_action") (s, sh, c) ((g.iface.machine env).exit s sh c) := by
  obtain ⟨sm, L, Lp, hg⟩ := genInfo (hc.distinct h) h
  obtain ⟨ls, e, hmem, hd, _⟩ := hg.stateOf hc hm hk
  have hf : g.iface.stateFields s.variant = some (src.fields "state" mth) := by
    rw [hs]
    exact (C43_variants h hc _ _).1.2 ⟨mth, hm, hk, rfl, rfl⟩
  have h1 : g.iface.entry s.variant = some ⟨ls.pat, ls.entryActionCall⟩ := by
    rw [hg.iface_entry hc, hs, e]
    rfl
  have h2 : g.iface.exit s.variant = some ⟨ls.pat, ls.exitActionCall⟩ := by
    rw [hg.iface_exit hc, hs, e]
    rfl
  simp only [Iface.machine, h1, h2]
  refine ⟨hg.runAction_calls hc hd.lowered hd.entry hu ?_ (s, sh, c) hf env.action,
    hg.runAction_calls hc hd.lowered hd.exit hu ?_ (s, sh, c) hf env.action⟩
  · exact hc.entryArgs ⟨ls.pat, ls.entryActionCall⟩ (hg.entryArms.mem_iff.2 (List.mem_map.2 ⟨_, hmem, rfl⟩))
  · exact hc.exitArgs ⟨ls.pat, ls.exitActionCall⟩ (hg.exitArms.mem_iff.2 (List.mem_map.2 ⟨_, hmem, rfl⟩))

example : ∃ run, (Sample.gen.iface.machine Sample.env).entry (Sample.vLedOn 1 2 3) [] 7 = run ∧
    Sample.source.Performs Sample.env.action (some "enter_led") (Sample.vLedOn 1 2 3, [], 7) run := by
  refine ⟨_, rfl, ?_⟩
  have := (C43_actions (mth := Sample.ledOn) Sample.gen_eq Sample.compiles Sample.env (by simp [Sample.source])
    ⟨_, List.mem_cons_self, rfl⟩ Sample.unshadowed.1 (Sample.vLedOn 1 2 3) (by decide +kernel) [] 7).1
  rwa [show Sample.ledOn.link "state" "entry_action" = some "enter_led" by decide +kernel] at this

/-- Entry and exit actions of a superstate are those named in its attribute. -/
theorem C43_sup_actions (h : expand syn ord src = .ok g) (hc : g.Compiles) (env : Env g.iface T) {mth : Method}
    (hm : mth ∈ src.methods) (hk : mth.Has "superstate") (hu : src.Unshadowed "superstate" mth)
    (v : Val g.iface.supFields T.V) (hs : v.variant = variantName syn mth.name) (sh : T.M) (c : T.Ctx) :
    src.Performs env.action (mth.link "superstate" "entry_action") (v, sh, c) ((g.iface.machine env).supEntry v sh c) ∧
    src.Performs env.action (mth.link "superstate" "exit_action") (v, sh, c) ((g.iface.machine env).supExit v sh c) := by
  obtain ⟨sm, L, Lp, hg⟩ := genInfo (hc.distinct h) h
  obtain ⟨ls, e, hmem, hd⟩ := hg.supOf hc hm hk
  have hf : g.iface.supFields v.variant = some (src.fields "superstate" mth) := by
    rw [hs]
    exact (C43_variants h hc _ _).2.2 ⟨mth, hm, hk, rfl, rfl⟩
  have h1 : g.iface.supEntry v.variant = some ⟨ls.pat, ls.entryActionCall⟩ := by
    rw [hg.iface_supEntry hc, hs, e]
    rfl
  have h2 : g.iface.supExit v.variant = some ⟨ls.pat, ls.exitActionCall⟩ := by
    rw [hg.iface_supExit hc, hs, e]
    rfl
  simp only [Iface.machine, h1, h2]
  refine ⟨hg.runAction_calls hc hd.lowered hd.entry hu ?_ (v, sh, c) hf env.action,
    hg.runAction_calls hc hd.lowered hd.exit hu ?_ (v, sh, c) hf env.action⟩
  · exact hc.supEntryArgs ⟨ls.pat, ls.entryActionCall⟩ (hg.supEntryArms.mem_iff.2 (List.mem_map.2 ⟨_, hmem, rfl⟩))
  · exact hc.supExitArgs ⟨ls.pat, ls.exitActionCall⟩ (hg.supExitArms.mem_iff.2 (List.mem_map.2 ⟨_, hmem, rfl⟩))

example : Sample.source.Performs Sample.env.action (some "leave_blinking") (Sample.vBlinking 4, [], 7)
    ((Sample.gen.iface.machine Sample.env).supExit (Sample.vBlinking 4) [] 7) := by
  have := (C43_sup_actions (mth := Sample.blinking) Sample.gen_eq Sample.compiles Sample.env (by simp [Sample.source])
    ⟨_, List.mem_cons_self, rfl⟩ Sample.unshadowed.2.2.2.1 (Sample.vBlinking 4) (by decide +kernel) [] 7).2
  rwa [show Sample.blinking.link "superstate" "exit_action" = some "leave_blinking" by decide +kernel] at this

theorem borrows_of {sm : Macro.StateMachine} {L : HMap LState} {Lp : HMap LSuperstate} (hg : GenInfo syn src g sm L Lp)
    (hc : g.Compiles) {decl : Ident → Option (List Ident)} {link : Option Ident} {pat : VariantPat}
    {target : Option VariantPat} (hl : SupLink syn src link target) (hok : ∀ p ∈ target, ∀ x ∈ p.fields, x ∈ pat.fields)
    (s : Val decl T.V) (hs : decl s.variant = some pat.fields) :
    src.Borrows syn link s (runSuperstate g.iface (some ⟨pat, target⟩) s) := by
  cases link with
  | none =>
    cases (hl : target = none)
    rfl
  | some p =>
    obtain ⟨pm, hpm, rfl, hpk, rfl⟩ := hl
    obtain ⟨ls, e, _, hd⟩ := hg.supOf hc hpm hpk
    have hf : g.iface.supFields (variantName syn pm.name) = some (src.fields "superstate" pm) := by
      rw [hg.iface_supFields hc, e]
      exact congrArg some hd.lowered.fields
    obtain ⟨ns, hn, hget⟩ := s.ok
    rw [hs] at hn
    cases hn
    have hsome : ∀ x ∈ src.fields "superstate" pm, (s.get x).isSome :=
      fun x hx => (hget x).2 (hok _ rfl x hx)
    obtain ⟨v, back, hv⟩ := view_of (I := g.iface) (target := ⟨variantName syn pm.name, src.fields "superstate" pm⟩)
      (bound := pat.fields) (s := s) hf ⟨fun x hx => hx, fun x hx => ⟨hx, hok _ rfl x hx, hsome x hx⟩⟩
    obtain ⟨ns, hn, _, h1, h2, h3, h4⟩ := view_some hv
    rw [hf] at hn
    cases hn
    exact ⟨pm, hpm, rfl, hpk, v, back, hv, h1, h2, hsome, fun w hw => ⟨h3 w, h4 w hw⟩⟩

/-- The superstate of a state is the one named in its attribute. -/
theorem C43_superstate (h : expand syn ord src = .ok g) (hc : g.Compiles) (env : Env g.iface T) {mth : Method}
    (hm : mth ∈ src.methods) (hk : mth.Has "state") (s : Val g.iface.stateFields T.V)
    (hs : s.variant = variantName syn mth.name) :
    src.Borrows syn (mth.link "state" "superstate") s ((g.iface.machine env).superstate s) := by
  obtain ⟨sm, L, Lp, hg⟩ := genInfo (hc.distinct h) h
  obtain ⟨ls, e, hmem, hd, _⟩ := hg.stateOf hc hm hk
  have hf : g.iface.stateFields s.variant = some ls.pat.fields := by
    rw [hs, hd.lowered.patFields]
    exact (C43_variants h hc _ _).1.2 ⟨mth, hm, hk, rfl, rfl⟩
  have h1 : g.iface.superstate s.variant = some ⟨ls.pat, ls.superstatePat⟩ := by
    rw [hg.iface_superstate hc, hs, e]
    rfl
  simp only [Iface.machine, h1]
  exact borrows_of hg hc hd.superstate (hc.superstateFields ⟨ls.pat, ls.superstatePat⟩
    (hg.superstateArms.mem_iff.2 (List.mem_map.2 ⟨_, hmem, rfl⟩))) s hf

example : ∃ v back, (Sample.gen.iface.machine Sample.env).superstate (Sample.vLedOn 1 2 3) = some (v, back) ∧
    v.variant = "Blinking" ∧ v.get "led" = some 1 ∧ v.get "counter" = none := by
  have := C43_superstate (mth := Sample.ledOn) Sample.gen_eq Sample.compiles Sample.env (by simp [Sample.source])
    ⟨_, List.mem_cons_self, rfl⟩ (Sample.vLedOn 1 2 3) (by decide +kernel)
  rw [show Sample.ledOn.link "state" "superstate" = some "blinking" by decide +kernel] at this
  obtain ⟨pm, hpm, hn, _, v, back, h1, h2, h3, _⟩ := this
  have hp : pm = Sample.blinking :=
    (Sample.compiles.distinct Sample.gen_eq).eq hpm (by simp [Sample.source]) hn
  subst hp
  refine ⟨v, back, h1, h2.trans (by decide +kernel), ?_, ?_⟩
  · rw [h3]
    decide +kernel
  · rw [h3]
    decide +kernel

/-- The superstate of a superstate is the one named in its attribute. -/
theorem C43_sup_superstate (h : expand syn ord src = .ok g) (hc : g.Compiles) (env : Env g.iface T) {mth : Method}
    (hm : mth ∈ src.methods) (hk : mth.Has "superstate") (v : Val g.iface.supFields T.V)
    (hs : v.variant = variantName syn mth.name) :
    src.Borrows syn (mth.link "superstate" "superstate") v ((g.iface.machine env).supSuperstate v) := by
  obtain ⟨sm, L, Lp, hg⟩ := genInfo (hc.distinct h) h
  obtain ⟨ls, e, hmem, hd⟩ := hg.supOf hc hm hk
  have hf : g.iface.supFields v.variant = some ls.pat.fields := by
    rw [hs, hd.lowered.patFields]
    exact (C43_variants h hc _ _).2.2 ⟨mth, hm, hk, rfl, rfl⟩
  have h1 : g.iface.supSuperstate v.variant = some ⟨ls.pat, ls.superstatePat⟩ := by
    rw [hg.iface_supSuperstate hc, hs, e]
    rfl
  simp only [Iface.machine, h1]
  exact borrows_of hg hc hd.superstate (hc.supSuperstateFields ⟨ls.pat, ls.superstatePat⟩
    (hg.supSuperstateArms.mem_iff.2 (List.mem_map.2 ⟨_, hmem, rfl⟩))) v hf

example : ∃ v back, (Sample.gen.iface.machine Sample.env).supSuperstate (Sample.vBlinking 4) = some (v, back) ∧
    v.variant = "Powered" := by
  have := C43_sup_superstate (mth := Sample.blinking) Sample.gen_eq Sample.compiles Sample.env (by simp [Sample.source])
    ⟨_, List.mem_cons_self, rfl⟩ (Sample.vBlinking 4) (by decide +kernel)
  rw [show Sample.blinking.link "superstate" "superstate" = some "powered" by decide +kernel] at this
  obtain ⟨pm, hpm, hn, _, v, back, h1, h2, h3, _⟩ := this
  exact ⟨v, back, h1, h2.trans (by decide +kernel)⟩

/-- The macro rejects a declaration in which a state or superstate names an undeclared superstate, entry action or
exit action. -/
theorem C43_dangling (hd : src.Distinct) {mth : Method} (hm : mth ∈ src.methods) {kind key target : Ident}
    (hk : mth.Has kind) (hl : mth.link kind key = some target) (hkind : kind = "state" ∨ kind = "superstate")
    (hkey : (key = "superstate" ∧ ∀ t ∈ src.methods, t.name = target → ¬ t.Has "superstate") ∨
      ((key = "entry_action" ∨ key = "exit_action") ∧ ∀ t ∈ src.methods, t.name = target → ¬ t.Has "action")) :
    ∃ msg, expand syn ord src = .error msg := by
  cases he : expand syn ord src with
  | error msg => exact ⟨msg, rfl⟩
  | ok g =>
    exfalso
    obtain ⟨sm, L, Lp, hg⟩ := genInfo hd he
    have key' : ∀ {variant pat handler entry exit sup},
        Described syn src kind mth variant pat handler entry exit sup → False := by
      intro variant pat handler entry exit sup hdesc
      rcases hkey with ⟨rfl, hno⟩ | ⟨rfl | rfl, hno⟩
      · have := hdesc.superstate
        rw [hl] at this
        obtain ⟨t, ht, hn, hk, _⟩ := this
        exact hno t ht hn hk
      · have := hdesc.entry
        rw [hl] at this
        obtain ⟨t, ht, hn, hk, _⟩ := this
        exact hno t ht hn hk
      · have := hdesc.exit
        rw [hl] at this
        obtain ⟨t, ht, hn, hk, _⟩ := this
        exact hno t ht hn hk
    rcases hkind with rfl | rfl
    · obtain ⟨ls, hls⟩ := hg.statesMap.complete mth hm hk
      obtain ⟨mth', hm', hn', _, hdesc, _⟩ := hg.statesMap.sound _ _ hls
      cases hd.eq hm' hm hn'
      exact key' hdesc
    · obtain ⟨ls, hls⟩ := hg.superstatesMap.complete mth hm hk
      obtain ⟨mth', hm', hn', _, hdesc⟩ := hg.superstatesMap.sound _ _ hls
      cases hd.eq hm' hm hn'
      exact key' hdesc

/-- The sample without the superstate `powered`. -/
example : ∃ msg, expand Sample.syn Sample.forwards { Sample.source with methods := Sample.source.methods.eraseIdx 6 } =
    .error msg :=
  C43_dangling (mth := Sample.blinking) (by unfold Source.Distinct; decide +kernel)
    (by simp [Sample.source]) (kind := "superstate") (key := "superstate") (target := "powered")
    ⟨_, List.mem_cons_self, rfl⟩ (by decide +kernel) (.inr rfl)
    (.inl ⟨rfl, fun t ht hn => by
      have : ∀ t ∈ Sample.source.methods.eraseIdx 6, t.name ≠ "powered" := by decide +kernel
      exact absurd hn (this t ht)⟩)

/-! ## C47: Handler arguments are wired by name -/

/-- The handler of a state is the method of that name, called with the shared storage for `self`, the event, the
context, and for every other parameter the field of its name; what it writes there is what the caller sees.
(`Calls` also says that the method is run, i.e. awaited if it is async.) -/
theorem C47_handler (h : expand syn ord src = .ok g) (hc : g.Compiles) (env : Env g.iface T) {mth : Method}
    (hm : mth ∈ src.methods) (hk : mth.Has "state") (hu : src.Unshadowed "state" mth)
    (s : Val g.iface.stateFields T.V) (hs : s.variant = variantName syn mth.name) (sh : T.M) (ev : T.Ev) (c : T.Ctx) :
    ∃ roles, mth.inputs.mapM src.role = some roles ∧
      Calls (env.handler mth.name) roles (some ev) (s, sh, c) ((g.iface.machine env).handler s sh ev c) := by
  obtain ⟨sm, L, Lp, hg⟩ := genInfo (hc.distinct h) h
  obtain ⟨ls, e, hmem, hd, _⟩ := hg.stateOf hc hm hk
  have hf : g.iface.stateFields s.variant = some (src.fields "state" mth) := by
    rw [hs]
    exact (C43_variants h hc _ _).1.2 ⟨mth, hm, hk, rfl, rfl⟩
  have h1 : g.iface.handler s.variant = some ⟨ls.pat, ls.handlerCall⟩ := by
    rw [hg.iface_handler hc, hs, e]
    rfl
  simp only [Iface.machine, h1, runHandler]
  exact hg.handler_calls hc hm hd.lowered hu (s, sh, c) hf ev env.handler .super

/-- `led_on(&mut self, event, led, counter)` with event 1. -/
example : ((Sample.gen.iface.machine Sample.env).handler (Sample.vLedOn 1 2 3) ["x"] 1 7).All
    (fun w => w.1.get "led" = some 2 ∧ w.1.get "counter" = some 3 ∧ w.1.get "extra" = some 3 ∧
      w.2.1 = ["x", "led_on"] ∧ w.2.2 = 7) := by
  obtain ⟨roles, hr, args, write, ha, hw, e⟩ := C47_handler (mth := Sample.ledOn) Sample.gen_eq Sample.compiles Sample.env
    (by simp [Sample.source]) ⟨_, List.mem_cons_self, rfl⟩ Sample.unshadowed.1 (Sample.vLedOn 1 2 3)
    (by decide +kernel) ["x"] 1 7
  rw [show Sample.ledOn.inputs.mapM Sample.source.role =
    some [.storage, .event, .field "led", .field "counter"] by decide +kernel] at hr
  cases hr
  obtain ⟨_, _, h1, h2, rfl⟩ := List.forall₂_cons_left_iff.1 ha
  obtain ⟨_, _, h3, h4, rfl⟩ := List.forall₂_cons_left_iff.1 h2
  obtain ⟨_, _, h5, h6, rfl⟩ := List.forall₂_cons_left_iff.1 h4
  obtain ⟨_, _, h7, h8, rfl⟩ := List.forall₂_cons_left_iff.1 h6
  cases List.forall₂_nil_left_iff.1 h8
  cases h1
  cases h3 with | event h =>
  cases h
  cases h5 with | field h5 =>
  cases h7 with | field h7 =>
  cases (h5 : some 1 = some _)
  cases (h7 : some 2 = some _)
  rw [e]
  exact .done ⟨(hw _).field "led", (hw _).field "counter", (hw _).field "extra", (hw _).storage, (hw _).context⟩

/-- The same for superstates. -/
theorem C47_sup_handler (h : expand syn ord src = .ok g) (hc : g.Compiles) (env : Env g.iface T) {mth : Method}
    (hm : mth ∈ src.methods) (hk : mth.Has "superstate") (hu : src.Unshadowed "superstate" mth)
    (v : Val g.iface.supFields T.V) (hs : v.variant = variantName syn mth.name) (sh : T.M) (ev : T.Ev) (c : T.Ctx) :
    ∃ roles, mth.inputs.mapM src.role = some roles ∧
      Calls (env.handler mth.name) roles (some ev) (v, sh, c) ((g.iface.machine env).supHandler v sh ev c) := by
  obtain ⟨sm, L, Lp, hg⟩ := genInfo (hc.distinct h) h
  obtain ⟨ls, e, hmem, hd⟩ := hg.supOf hc hm hk
  have hf : g.iface.supFields v.variant = some (src.fields "superstate" mth) := by
    rw [hs]
    exact (C43_variants h hc _ _).2.2 ⟨mth, hm, hk, rfl, rfl⟩
  have h1 : g.iface.supHandler v.variant = some ⟨ls.pat, ls.handlerCall⟩ := by
    rw [hg.iface_supHandler hc, hs, e]
    rfl
  simp only [Iface.machine, h1, runHandler]
  exact hg.handler_calls hc hm hd.lowered hu (v, sh, c) hf ev env.handler .super

/-- `powered(event)` with event 9. -/
example : ((Sample.gen.iface.machine Sample.env).supHandler Sample.vPowered ["x"] 9 7).All
    (fun w => w.1.variant = "Powered" ∧ w.2.1 = ["x"] ∧ w.2.2 = 7) := by
  obtain ⟨roles, hr, args, write, ha, hw, e⟩ := C47_sup_handler (mth := Sample.powered) Sample.gen_eq Sample.compiles Sample.env
    (by simp [Sample.source]) ⟨_, List.mem_cons_self, rfl⟩ Sample.unshadowed.2.2.2.2 Sample.vPowered
    (by decide +kernel) ["x"] 9 7
  rw [show Sample.powered.inputs.mapM Sample.source.role = some [.event] by decide +kernel] at hr
  cases hr
  obtain ⟨_, _, h1, h2, rfl⟩ := List.forall₂_cons_left_iff.1 ha
  cases List.forall₂_nil_left_iff.1 h2
  cases h1 with | event h =>
  cases h
  rw [e]
  exact .done ⟨(hw _).variant, (hw _).storage, (hw _).context⟩

/-- Not so if a field of the local storage has the name of the event: the sample with `local_storage("event: Event")`
in `led_on` is accepted and compiles, but `led_on` is given this field instead of the event. -/
theorem C47_shadowed : ∃ g, expand Sample.syn Sample.forwards Sample.shadowedSource = .ok g ∧ g.Compiles ∧
    ∀ (env : Env g.iface Sample.types) (s : Val g.iface.stateFields Nat) sh ev c, s.variant = "LedOn" →
      Calls (env.handler "led_on") [.storage, .field "event", .field "led", .field "counter"] (some ev) (s, sh, c)
        ((g.iface.machine env).handler s sh ev c) := by
  have hc : (Sample.result _ _ Sample.shadowed_ok).Compiles := by decide +kernel
  refine ⟨_, Sample.result_eq Sample.shadowed_ok, hc, fun env s sh ev c hs => ?_⟩
  have hd : (Sample.result _ _ Sample.shadowed_ok).iface.stateFields "LedOn" = some ["led", "counter", "event"] := by
    decide +kernel
  rw [← hs] at hd
  have ha : (Sample.result _ _ Sample.shadowed_ok).iface.handler "LedOn" = some ⟨⟨"LedOn", ["led", "counter", "event"]⟩,
      ⟨"led_on", ["shared_storage", "event", "led", "counter"], false⟩⟩ := by rfl
  simp only [Iface.machine, hs, ha, runHandler]
  refine callFn_calls (.cons ⟨by rw [Option.isSome_some]; decide +kernel, _, .storage⟩
    (.cons ⟨by rw [Option.isSome_some]; decide +kernel, exists_field hd (by simp)⟩
    (.cons ⟨by rw [Option.isSome_some]; decide +kernel, exists_field hd (by simp)⟩
    (.cons ⟨by rw [Option.isSome_some]; decide +kernel, exists_field hd (by simp)⟩ .nil))))
    (by decide +kernel)

end Statig
