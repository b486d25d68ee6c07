import Verif.Spec.MacroExtension
import Verif.Proofs.Macro.Calls
/-!
# Adding methods to the impl block
-/
namespace Statig.Macro

/-! ## What is generated for a method depends on the method and the methods it names -/

section
variable {syn : Syn} {src src' : Source}

theorem Source.Covers.fields (h : src'.Covers src) : src'.fields = src.fields := by
  obtain ⟨t, gen, args, ms⟩ := src
  obtain ⟨t', gen', args', ms'⟩ := src'
  cases h.args
  rfl

theorem VariantPat.ext {a b : VariantPat} (h1 : a.variant = b.variant) (h2 : a.fields = b.fields) : a = b := by
  cases a; cases b; cases h1; cases h2; rfl

/-- Two calls of the same function with the same arguments. -/
def FnCall.Like (c c' : FnCall) : Prop := c'.fn = c.fn ∧ c'.args = c.args

/-- The same for the calls of actions, where there may be none. -/
inductive FnCall.Likes : Option FnCall → Option FnCall → Prop where
  | none : Likes none none
  | some {c c'} : c.Like c' → Likes (some c) (some c')

theorem ActionLink.unique (h : src'.Covers src) (hd : src'.Distinct) {link : Option Ident} {c c' : Option FnCall}
    (h1 : ActionLink src link c) (h2 : ActionLink src' link c') : FnCall.Likes c c' := by
  cases link with
  | none =>
    rw [show c = none from h1, show c' = none from h2]
    exact .none
  | some a =>
    obtain ⟨m1, hm1, hn1, -, d, rfl, hd1⟩ := h1
    obtain ⟨m2, hm2, hn2, -, d', rfl, hd2⟩ := h2
    obtain ⟨b, hb⟩ := h.methods _ hm1
    cases hd.eq hb hm2 (hn1.trans hn2.symm)
    refine .some ⟨hd2.fn.trans hd1.fn.symm, ?_⟩
    exact Except.ok.inj (hd2.args.symm.trans hd1.args)

theorem SupLink.unique (h : src'.Covers src) (hd : src'.Distinct) {link : Option Ident} {p p' : Option VariantPat}
    (h1 : SupLink syn src link p) (h2 : SupLink syn src' link p') : p = p' := by
  cases link with
  | none => rw [show p = none from h1, show p' = none from h2]
  | some a =>
    obtain ⟨m1, hm1, hn1, -, rfl⟩ := h1
    obtain ⟨m2, hm2, hn2, -, rfl⟩ := h2
    obtain ⟨b, hb⟩ := h.methods _ hm1
    cases hd.eq hb hm2 (hn1.trans hn2.symm)
    rw [h.fields]
    rfl

theorem Described.unique (h : src'.Covers src) (hd : src'.Distinct) {kind : Ident} {mth : Method} {b : Bool}
    {v v' : Variant} {p p' : VariantPat} {c c' : FnCall} {en en' ex ex' : Option FnCall} {s s' : Option VariantPat}
    (h1 : Described syn src kind mth v p c en ex s)
    (h2 : Described syn src' kind { mth with isAsync := b } v' p' c' en' ex' s') :
    v.fields.map (·.name) = v'.fields.map (·.name) ∧ p = p' ∧ c.Like c' ∧ FnCall.Likes en en' ∧ FnCall.Likes ex ex' ∧
      s = s' := by
  refine ⟨?_, ?_, ?_, ActionLink.unique h hd h1.entry h2.entry, ActionLink.unique h hd h1.exit h2.exit,
    SupLink.unique h hd h1.superstate h2.superstate⟩
  · rw [h1.lowered.fields, h2.lowered.fields, h.fields]
    rfl
  · refine VariantPat.ext (h1.lowered.patVariant.trans h2.lowered.patVariant.symm) ?_
    rw [h1.lowered.patFields, h2.lowered.patFields, h.fields]
    rfl
  · refine ⟨h2.lowered.handlerFn.trans h1.lowered.handlerFn.symm, ?_⟩
    exact Except.ok.inj (h2.lowered.handlerArgs.symm.trans h1.lowered.handlerArgs)

end

/-! ## Calls on wider enums -/

section
variable {decl decl' : Ident → Option (List Ident)} {T : Types}

/-- The world of a callback, with a wider enum. -/
def wide (h : Widens decl decl') (w : Val decl T.V × T.M × T.Ctx) : Val decl' T.V × T.M × T.Ctx :=
  (w.1.widen h, w.2)

theorem readArg_wide (h : Widens decl decl') (ev : Option T.Ev) (w : Val decl T.V × T.M × T.Ctx) (r : Role) :
    readArg ev (wide h w) r = readArg ev w r := by cases r <;> rfl

theorem writeArg_wide (h : Widens decl decl') (w : Val decl T.V × T.M × T.Ctx) (p : Role × Arg T) :
    writeArg (wide h w) p = wide h (writeArg w p) := by
  obtain ⟨r, a⟩ := p
  cases r <;> cases a <;> rfl

theorem foldl_writeArg_wide (h : Widens decl decl') (l : List (Role × Arg T)) :
    ∀ w : Val decl T.V × T.M × T.Ctx, l.foldl writeArg (wide h w) = wide h (l.foldl writeArg w) := by
  induction l with
  | nil => intro w; rfl
  | cons p l ih => intro w; rw [List.foldl_cons, List.foldl_cons, writeArg_wide, ih]

theorem image_mapWorld {In W W' W'' A B : Type} (f : W → W') (f' : W' → W'') (g : A → B) (x : Fut In W A) :
    (x.mapWorld f).image f' g = (x.image id g).mapWorld (f' ∘ f) := by
  induction x with
  | done w a => rfl
  | panic w => rfl
  | pending w k ih => simp only [Fut.mapWorld, Fut.image, ih, Function.comp, id]

theorem image_id {In W A : Type} (x : Fut In W A) : x.image id id = x := by
  induction x with
  | done w a => rfl
  | panic w => rfl
  | pending w k ih => simp only [Fut.image, ih, id]

theorem evalArgs_wide {I I' : Iface} (hr : I'.resolve = I.resolve) (h : Widens decl decl') (bound : List Ident)
    (ev : Option T.Ev) (w : Val decl T.V × T.M × T.Ctx) (args : List Ident) :
    evalArgs I' bound ev (wide h w) args = evalArgs I bound ev w args := by
  unfold evalArgs
  simp only [hr, readArg_wide]

theorem callFn_wide {I I' : Iface} {A B : Type} (hr : I'.resolve = I.resolve) (h : Widens decl decl')
    (bound : List Ident) (ev : Option T.Ev) (w : Val decl T.V × T.M × T.Ctx) {c c' : FnCall} (hl : c.Like c')
    (ha : c.await = I.isAsync c.fn) (ha' : c'.await = I'.isAsync c'.fn) (g : A → B)
    (f : Ident → List (Arg T) → Fut T.In (List (Arg T)) A) (f' : Ident → List (Arg T) → Fut T.In (List (Arg T)) B)
    (hf : ∀ l, f' c.fn l = (f c.fn l).image id g) (dflt : A) :
    callFn I' bound ev (wide h w) c' f' (g dflt) = (callFn I bound ev w c f dflt).image (wide h) g := by
  unfold callFn
  rw [hl.2, evalArgs_wide hr h]
  cases evalArgs I bound ev w c.args with
  | none => rfl
  | some l =>
    simp only
    rw [if_pos ha', if_pos ha, hl.1, image_mapWorld, hf]
    congr 1
    funext l'
    exact foldl_writeArg_wide h _ w

theorem runHandler_wide {I I' : Iface} {A B : Type} (hr : I'.resolve = I.resolve) (h : Widens decl decl')
    (pat : VariantPat) {c c' : FnCall} (hl : c.Like c') (ev : T.Ev) (w : Val decl T.V × T.M × T.Ctx)
    (ha : c.await = I.isAsync c.fn) (ha' : c'.await = I'.isAsync c'.fn) (g : A → B)
    (f : Ident → List (Arg T) → Fut T.In (List (Arg T)) (Response A))
    (f' : Ident → List (Arg T) → Fut T.In (List (Arg T)) (Response B))
    (hf : ∀ l, f' c.fn l = (f c.fn l).image id (Response.image g)) :
    runHandler I' (some ⟨pat, c'⟩) ev (wide h w) f' =
      (runHandler I (some ⟨pat, c⟩) ev w f).image (wide h) (Response.image g) :=
  callFn_wide hr h _ _ _ hl ha ha' (Response.image g) f f' hf .super

theorem runAction_wide {I I' : Iface} (hr : I'.resolve = I.resolve) (h : Widens decl decl')
    (pat : VariantPat) {c c' : Option FnCall} (hl : FnCall.Likes c c') (w : Val decl T.V × T.M × T.Ctx)
    (ha : ∀ d ∈ c, d.await = I.isAsync d.fn) (ha' : ∀ d ∈ c', d.await = I'.isAsync d.fn)
    (f f' : Ident → List (Arg T) → Fut T.In (List (Arg T)) Unit)
    (hf : ∀ d ∈ c, ∀ l, f' d.fn l = f d.fn l) :
    runAction I' (some ⟨pat, c'⟩) (wide h w) f' = (runAction I (some ⟨pat, c⟩) w f).image (wide h) id := by
  cases hl with
  | none => rfl
  | some hl =>
    exact callFn_wide hr h _ _ _ hl (ha _ rfl) (ha' _ rfl) id f f' (fun l => by rw [image_id]; exact hf _ rfl l) ()

theorem view_wide_none {I I' : Iface} (h : Widens decl decl') {target : VariantPat} {bound : List Ident}
    {ns : List Ident} (hn : I.supFields target.variant = some ns) (hn' : I'.supFields target.variant = some ns)
    {s : Val decl T.V} (hv : view I target bound s = none) : view I' target bound (s.widen h) = none := by
  cases hv' : view I' target bound (s.widen h) with
  | none => rfl
  | some p =>
    obtain ⟨v, back⟩ := p
    obtain ⟨ns', h1, h2, -⟩ := view_some hv'
    rw [hn'] at h1
    cases h1
    obtain ⟨v', back', hvb⟩ := view_of (T := T) (s := s) (bound := bound) hn h2
    rw [hv] at hvb
    cases hvb

theorem view_wide_some {I I' : Iface} (h : Widens decl decl') (hsup : Widens I.supFields I'.supFields)
    {target : VariantPat} {bound : List Ident} {s : Val decl T.V} {v : Val I.supFields T.V}
    {back : Val I.supFields T.V → Val decl T.V} (hv : view I target bound s = some (v, back)) :
    ∃ back', view I' target bound (s.widen h) = some (v.widen hsup, back') ∧
      ∀ w, back' (w.widen hsup) = (back w).widen h := by
  obtain ⟨ns, h1, h2, h3, h4, h5, h6⟩ := view_some hv
  obtain ⟨v', back', hvb⟩ := view_of (T := T) (I := I') (s := s.widen h) (bound := bound) (hsup _ _ h1) h2
  obtain ⟨ns', h1', h2', h3', h4', h5', h6'⟩ := view_some hvb
  rw [hsup _ _ h1] at h1'
  cases h1'
  have hvv : v' = v.widen hsup := by
    refine Val.ext (h3'.trans h3.symm) fun x => ?_
    rw [h4']
    exact (h4 x).symm
  subst hvv
  refine ⟨back', hvb, fun w => ?_⟩
  by_cases hw : w.variant = target.variant
  · refine Val.ext ((h5' _).trans (h5 w).symm) fun x => ?_
    rw [h6' _ hw]
    exact (h6 w hw x).symm
  · have e1 : back w = s := by
      unfold view at hv
      split at hv
      · cases hv
      · split at hv
        · cases hv
          simp only [hw, ↓reduceDIte]
        · cases hv
    have e2 : back' (w.widen hsup) = s.widen h := by
      have hw' : ¬ (w.widen hsup).variant = target.variant := hw
      unfold view at hvb
      split at hvb
      · cases hvb
      · split at hvb
        · simp only [Option.some.injEq, Prod.mk.injEq] at hvb
          rw [← hvb.2]
          simp only [hw', ↓reduceDIte]
        · cases hvb
    rw [e1, e2]

end

/-! ## The generated machines -/

section
variable {syn : Syn} {src src' : Source} {g g' : Gen} {sm sm' : StateMachine} {L L' : HMap LState}
  {Lp Lp' : HMap LSuperstate}

theorem GenInfo.resolve_adds (ha : src'.Covers src) (h : GenInfo syn src g sm L Lp) (h' : GenInfo syn src' g' sm' L' Lp') :
    g'.iface.resolve = g.iface.resolve := by
  have e1 : src'.eventIdent = src.eventIdent := by unfold Source.eventIdent Source.setting; rw [ha.args]
  have e2 : src'.contextIdent = src.contextIdent := by unfold Source.contextIdent Source.setting; rw [ha.args]
  funext bound b x
  rw [h.resolve, h'.resolve, e1, e2]

/-- What two programs generate for a state. -/
theorem GenInfo.state_adds (ha : src'.Covers src) (h : GenInfo syn src g sm L Lp) (hc : g.Compiles)
    (h' : GenInfo syn src' g' sm' L' Lp') (hc' : g'.Compiles) {v : Ident} {ns : List Ident}
    (hv : g.iface.stateFields v = some ns) :
    ∃ mth ∈ src.methods, mth.Has "state" ∧ ∃ ls ls', Macro.stateOf L v = some ls ∧ Macro.stateOf L' v = some ls' ∧
      Described syn src "state" mth ls.variant ls.pat ls.handlerCall ls.entryActionCall ls.exitActionCall
        ls.superstatePat ∧
      (∃ b, { mth with isAsync := b } ∈ src'.methods ∧ Described syn src' "state" { mth with isAsync := b } ls'.variant
        ls'.pat ls'.handlerCall ls'.entryActionCall ls'.exitActionCall ls'.superstatePat) ∧
      ls.variant.fields.map (·.name) = ls'.variant.fields.map (·.name) ∧ ls.pat = ls'.pat ∧
      ls.handlerCall.Like ls'.handlerCall ∧ FnCall.Likes ls.entryActionCall ls'.entryActionCall ∧
      FnCall.Likes ls.exitActionCall ls'.exitActionCall ∧ ls.superstatePat = ls'.superstatePat := by
  rw [h.iface_stateFields hc] at hv
  obtain ⟨ls, e, -⟩ := Option.map_eq_some_iff.1 hv
  obtain ⟨mth, hm, hk, rfl, -, hd⟩ := h.of_stateOf hc e
  obtain ⟨b, hb⟩ := ha.methods _ hm
  obtain ⟨ls', e', -, hd', -⟩ := h'.stateOf hc' hb hk
  exact ⟨mth, hm, hk, ls, ls', e, e', hd, ⟨b, hb, hd'⟩, Described.unique ha (h'.src_distinct hc') hd hd'⟩

/-- What two programs generate for a superstate. -/
theorem GenInfo.sup_adds (ha : src'.Covers src) (h : GenInfo syn src g sm L Lp) (hc : g.Compiles)
    (h' : GenInfo syn src' g' sm' L' Lp') (hc' : g'.Compiles) {v : Ident} {ns : List Ident}
    (hv : g.iface.supFields v = some ns) :
    ∃ mth ∈ src.methods, mth.Has "superstate" ∧ ∃ ls ls', Macro.supOf Lp v = some ls ∧ Macro.supOf Lp' v = some ls' ∧
      Described syn src "superstate" mth ls.variant ls.pat ls.handlerCall ls.entryActionCall ls.exitActionCall
        ls.superstatePat ∧
      (∃ b, { mth with isAsync := b } ∈ src'.methods ∧ Described syn src' "superstate" { mth with isAsync := b } ls'.variant
        ls'.pat ls'.handlerCall ls'.entryActionCall ls'.exitActionCall ls'.superstatePat) ∧
      ls.variant.fields.map (·.name) = ls'.variant.fields.map (·.name) ∧ ls.pat = ls'.pat ∧
      ls.handlerCall.Like ls'.handlerCall ∧ FnCall.Likes ls.entryActionCall ls'.entryActionCall ∧
      FnCall.Likes ls.exitActionCall ls'.exitActionCall ∧ ls.superstatePat = ls'.superstatePat := by
  rw [h.iface_supFields hc] at hv
  obtain ⟨ls, e, -⟩ := Option.map_eq_some_iff.1 hv
  obtain ⟨mth, hm, hk, rfl, -, hd⟩ := h.of_supOf hc e
  obtain ⟨b, hb⟩ := ha.methods _ hm
  obtain ⟨ls', e', -, hd'⟩ := h'.supOf hc' hb hk
  exact ⟨mth, hm, hk, ls, ls', e, e', hd, ⟨b, hb, hd'⟩, Described.unique ha (h'.src_distinct hc') hd hd'⟩

theorem GenInfo.widens (ha : src'.Covers src) (h : GenInfo syn src g sm L Lp) (hc : g.Compiles)
    (h' : GenInfo syn src' g' sm' L' Lp') (hc' : g'.Compiles) :
    Widens g.iface.stateFields g'.iface.stateFields ∧ Widens g.iface.supFields g'.iface.supFields := by
  constructor
  · intro v ns hv
    obtain ⟨mth, hm, hk, ls, ls', e, e', hd, -, h1, -⟩ := h.state_adds ha hc h' hc' hv
    rw [h.iface_stateFields hc, e] at hv
    rw [h'.iface_stateFields hc', e', ← hv]
    exact congrArg some h1.symm
  · intro v ns hv
    obtain ⟨mth, hm, hk, ls, ls', e, e', hd, -, h1, -⟩ := h.sup_adds ha hc h' hc' hv
    rw [h.iface_supFields hc, e] at hv
    rw [h'.iface_supFields hc', e', ← hv]
    exact congrArg some h1.symm

theorem ActionLink.fn {link : Option Ident} {c : Option FnCall} (h : ActionLink src link c) (d : FnCall) (hd : d ∈ c) :
    ∃ mth ∈ src.methods, d.fn = mth.name := by
  cases link with
  | none => rw [show c = none from h] at hd; cases hd
  | some a =>
    obtain ⟨mth, hm, -, -, d', rfl, hc⟩ := h
    cases hd
    exact ⟨mth, hm, hc.fn⟩

theorem ActionLink.awaits (h : GenInfo syn src g sm L Lp) (hc : g.Compiles) {link : Option Ident} {c : Option FnCall}
    (hl : ActionLink src link c) (d : FnCall) (hd : d ∈ c) : d.await = g.iface.isAsync d.fn := by
  cases link with
  | none => rw [show c = none from hl] at hd; cases hd
  | some a =>
    obtain ⟨mth, hm, -, -, d', rfl, hc'⟩ := hl
    cases hd
    rw [hc'.await, hc'.fn, h.isAsync (h.src_distinct hc) hm]

/-- The calls of a handler in two programs. -/
structure HandlerPair (I I' : Iface) (c c' : FnCall) : Prop where
  like : c.Like c'
  awaits : c.await = I.isAsync c.fn
  awaits' : c'.await = I'.isAsync c'.fn

/-- The calls of an action in two programs. -/
structure ActionPair (src : Source) (I I' : Iface) (c c' : Option FnCall) : Prop where
  likes : FnCall.Likes c c'
  fn : ∀ d ∈ c, ∃ mth ∈ src.methods, d.fn = mth.name
  awaits : ∀ d ∈ c, d.await = I.isAsync d.fn
  awaits' : ∀ d ∈ c', d.await = I'.isAsync d.fn

/-- The arms for a state. -/
theorem GenInfo.state_arms (ha : src'.Covers src) (h : GenInfo syn src g sm L Lp) (hc : g.Compiles)
    (h' : GenInfo syn src' g' sm' L' Lp') (hc' : g'.Compiles) {v : Ident} {ns : List Ident}
    (hv : g.iface.stateFields v = some ns) :
    ∃ mth ∈ src.methods, ∃ pat call call' en en' ex ex' sup, call.fn = mth.name ∧
      HandlerPair g.iface g'.iface call call' ∧ ActionPair src g.iface g'.iface en en' ∧
      ActionPair src g.iface g'.iface ex ex' ∧ (∃ link, SupLink syn src link sup) ∧
      g.iface.handler v = some ⟨pat, call⟩ ∧ g'.iface.handler v = some ⟨pat, call'⟩ ∧
      g.iface.entry v = some ⟨pat, en⟩ ∧ g'.iface.entry v = some ⟨pat, en'⟩ ∧
      g.iface.exit v = some ⟨pat, ex⟩ ∧ g'.iface.exit v = some ⟨pat, ex'⟩ ∧
      g.iface.superstate v = some ⟨pat, sup⟩ ∧ g'.iface.superstate v = some ⟨pat, sup⟩ := by
  obtain ⟨mth, hm, hk, ls, ls', e, e', hd, ⟨b, hb, hd'⟩, -, h2, h3, h4, h5, h6⟩ := h.state_adds ha hc h' hc' hv
  refine ⟨mth, hm, ls.pat, ls.handlerCall, ls'.handlerCall, ls.entryActionCall, ls'.entryActionCall, ls.exitActionCall,
    ls'.exitActionCall, ls.superstatePat, hd.lowered.handlerFn, ⟨h3, ?_, ?_⟩,
    ⟨h4, hd.entry.fn, hd.entry.awaits h hc, hd'.entry.awaits h' hc'⟩,
    ⟨h5, hd.exit.fn, hd.exit.awaits h hc, hd'.exit.awaits h' hc'⟩, ⟨_, hd.superstate⟩, ?_⟩
  · rw [hd.lowered.handlerAwait, hd.lowered.handlerFn, h.isAsync (h.src_distinct hc) hm]
  · rw [hd'.lowered.handlerAwait, hd'.lowered.handlerFn, h'.isAsync (h'.src_distinct hc') hb]
  rw [h.iface_handler hc, h.iface_entry hc, h.iface_exit hc, h.iface_superstate hc, h'.iface_handler hc',
    h'.iface_entry hc', h'.iface_exit hc', h'.iface_superstate hc', e, e']
  simp [h2, h6]

/-- The arms for a superstate. -/
theorem GenInfo.sup_arms (ha : src'.Covers src) (h : GenInfo syn src g sm L Lp) (hc : g.Compiles)
    (h' : GenInfo syn src' g' sm' L' Lp') (hc' : g'.Compiles) {v : Ident} {ns : List Ident}
    (hv : g.iface.supFields v = some ns) :
    ∃ mth ∈ src.methods, ∃ pat call call' en en' ex ex' sup, call.fn = mth.name ∧
      HandlerPair g.iface g'.iface call call' ∧ ActionPair src g.iface g'.iface en en' ∧
      ActionPair src g.iface g'.iface ex ex' ∧ (∃ link, SupLink syn src link sup) ∧
      g.iface.supHandler v = some ⟨pat, call⟩ ∧ g'.iface.supHandler v = some ⟨pat, call'⟩ ∧
      g.iface.supEntry v = some ⟨pat, en⟩ ∧ g'.iface.supEntry v = some ⟨pat, en'⟩ ∧
      g.iface.supExit v = some ⟨pat, ex⟩ ∧ g'.iface.supExit v = some ⟨pat, ex'⟩ ∧
      g.iface.supSuperstate v = some ⟨pat, sup⟩ ∧ g'.iface.supSuperstate v = some ⟨pat, sup⟩ := by
  obtain ⟨mth, hm, hk, ls, ls', e, e', hd, ⟨b, hb, hd'⟩, -, h2, h3, h4, h5, h6⟩ := h.sup_adds ha hc h' hc' hv
  refine ⟨mth, hm, ls.pat, ls.handlerCall, ls'.handlerCall, ls.entryActionCall, ls'.entryActionCall, ls.exitActionCall,
    ls'.exitActionCall, ls.superstatePat, hd.lowered.handlerFn, ⟨h3, ?_, ?_⟩,
    ⟨h4, hd.entry.fn, hd.entry.awaits h hc, hd'.entry.awaits h' hc'⟩,
    ⟨h5, hd.exit.fn, hd.exit.awaits h hc, hd'.exit.awaits h' hc'⟩, ⟨_, hd.superstate⟩, ?_⟩
  · rw [hd.lowered.handlerAwait, hd.lowered.handlerFn, h.isAsync (h.src_distinct hc) hm]
  · rw [hd'.lowered.handlerAwait, hd'.lowered.handlerFn, h'.isAsync (h'.src_distinct hc') hb]
  rw [h.iface_supHandler hc, h.iface_supEntry hc, h.iface_supExit hc, h.iface_supSuperstate hc, h'.iface_supHandler hc',
    h'.iface_supEntry hc', h'.iface_supExit hc', h'.iface_supSuperstate hc', e, e']
  simp [h2, h6]

theorem runHook_wide {I I' : Iface} {T : Types} {env : Env I T} {env' : Env I' T} {p p' : Option Expr} (hp : p' = p)
    (hmode : I'.mode = I.mode ∨ ∀ q ∈ p, env.hookAsync q = false) (hasync : ∀ p, env'.hookAsync p = env.hookAsync p)
    (sh : T.M) (f f' : Expr → T.M → Fut T.In T.M Unit) (hf : ∀ p sh, f' p sh = f p sh) :
    runHook env' p' sh f' = runHook env p sh f := by
  subst hp
  unfold runHook
  cases p' with
  | none => rfl
  | some p =>
    simp only [hasync, hf]
    rcases hmode with h | h
    · rw [h]
    · simp [h p rfl]

/-- The machine with further methods extends the other one. -/
theorem GenInfo.extendedBy (ha : src'.Covers src) (h : GenInfo syn src g sm L Lp) (hc : g.Compiles)
    (h' : GenInfo syn src' g' sm' L' Lp') (hc' : g'.Compiles) (hst : Widens g.iface.stateFields g'.iface.stateFields)
    (hsup : Widens g.iface.supFields g'.iface.supFields) {T : Types} {env : Env g.iface T} {env' : Env g'.iface T}
    (he : env.Same src hst hsup env') (hmode : g'.mode = g.mode ∨ ∀ p, g.Uses p → env.hookAsync p = false) :
    (g.iface.machine env).ExtendedBy (Val.widen hst) (Val.widen hsup) (g'.iface.machine env') := by
  have hr := h.resolve_adds ha h'
  have arms := fun s : Val g.iface.stateFields T.V => h.state_arms ha hc h' hc' s.ok.choose_spec.1
  have arms' := fun s : Val g.iface.supFields T.V => h.sup_arms ha hc h' hc' s.ok.choose_spec.1
  have action : ∀ {c c'}, ActionPair src g.iface g'.iface c c' → ∀ d ∈ c, ∀ l, env'.action d.fn l = env.action d.fn l := by
    intro c c' hl d hd l
    obtain ⟨mth, hm, e⟩ := hl.fn d hd
    rw [e]
    exact he.action _ hm l
  constructor
  · intro a b; exact Iff.rfl
  · intro a b; exact Iff.rfl
  · intro s x e c
    obtain ⟨mth, hm, pat, call, call', en, en', ex, ex', sup, hfn, hp, -, -, -, h1, h2, -⟩ := arms s
    show runHandler g'.iface (g'.iface.handler s.variant) e _ _ = (runHandler g.iface (g.iface.handler s.variant) e _ _).image _ _
    rw [h1, h2]
    exact runHandler_wide hr hst pat hp.like e (s, x, c) hp.awaits hp.awaits' _ _ _
      (fun l => by rw [hfn]; exact he.handler _ hm l)
  · intro s x c
    obtain ⟨mth, hm, pat, call, call', en, en', ex, ex', sup, hfn, -, hl, -, -, -, -, h1, h2, -⟩ := arms s
    show runAction g'.iface (g'.iface.entry s.variant) _ _ = (runAction g.iface (g.iface.entry s.variant) _ _).image _ _
    rw [h1, h2]
    exact runAction_wide hr hst pat hl.likes (s, x, c) hl.awaits hl.awaits' _ _ (action hl)
  · intro s x c
    obtain ⟨mth, hm, pat, call, call', en, en', ex, ex', sup, hfn, -, -, hl, -, -, -, -, -, h1, h2, -⟩ := arms s
    show runAction g'.iface (g'.iface.exit s.variant) _ _ = (runAction g.iface (g.iface.exit s.variant) _ _).image _ _
    rw [h1, h2]
    exact runAction_wide hr hst pat hl.likes (s, x, c) hl.awaits hl.awaits' _ _ (action hl)
  · intro s x e c
    obtain ⟨mth, hm, pat, call, call', en, en', ex, ex', sup, hfn, hp, -, -, -, h1, h2, -⟩ := arms' s
    show runHandler g'.iface (g'.iface.supHandler s.variant) e _ _ = (runHandler g.iface (g.iface.supHandler s.variant) e _ _).image _ _
    rw [h1, h2]
    exact runHandler_wide hr hsup pat hp.like e (s, x, c) hp.awaits hp.awaits' _ _ _
      (fun l => by rw [hfn]; exact he.handler _ hm l)
  · intro s x c
    obtain ⟨mth, hm, pat, call, call', en, en', ex, ex', sup, hfn, -, hl, -, -, -, -, h1, h2, -⟩ := arms' s
    show runAction g'.iface (g'.iface.supEntry s.variant) _ _ = (runAction g.iface (g.iface.supEntry s.variant) _ _).image _ _
    rw [h1, h2]
    exact runAction_wide hr hsup pat hl.likes (s, x, c) hl.awaits hl.awaits' _ _ (action hl)
  · intro s x c
    obtain ⟨mth, hm, pat, call, call', en, en', ex, ex', sup, hfn, -, -, hl, -, -, -, -, -, h1, h2, -⟩ := arms' s
    show runAction g'.iface (g'.iface.supExit s.variant) _ _ = (runAction g.iface (g.iface.supExit s.variant) _ _).image _ _
    rw [h1, h2]
    exact runAction_wide hr hsup pat hl.likes (s, x, c) hl.awaits hl.awaits' _ _ (action hl)
  · intro s hs
    obtain ⟨mth, hm, pat, call, call', en, en', ex, ex', sup, hfn, -, -, -, ⟨_, hl⟩, -, -, -, -, -, -, h1, h2⟩ := arms s
    change runSuperstate g.iface (g.iface.superstate s.variant) s = none at hs
    show runSuperstate g'.iface (g'.iface.superstate s.variant) _ = none
    rw [h1] at hs
    rw [h2]
    cases sup with
    | none => rfl
    | some target =>
      have hn := SupLink.fields h hc hl
      exact view_wide_none hst hn (hsup _ _ hn) hs
  · intro s v back hs
    obtain ⟨mth, hm, pat, call, call', en, en', ex, ex', sup, hfn, -, -, -, -, -, -, -, -, -, -, h1, h2⟩ := arms s
    change runSuperstate g.iface (g.iface.superstate s.variant) s = _ at hs
    show ∃ back', runSuperstate g'.iface (g'.iface.superstate s.variant) _ = _ ∧ _
    rw [h1] at hs
    rw [h2]
    cases sup with
    | none => cases hs
    | some target => exact view_wide_some hst hsup hs
  · intro s hs
    obtain ⟨mth, hm, pat, call, call', en, en', ex, ex', sup, hfn, -, -, -, ⟨_, hl⟩, -, -, -, -, -, -, h1, h2⟩ := arms' s
    change runSuperstate g.iface (g.iface.supSuperstate s.variant) s = none at hs
    show runSuperstate g'.iface (g'.iface.supSuperstate s.variant) _ = none
    rw [h1] at hs
    rw [h2]
    cases sup with
    | none => rfl
    | some target =>
      have hn := SupLink.fields h hc hl
      exact view_wide_none hsup hn (hsup _ _ hn) hs
  · intro s v back hs
    obtain ⟨mth, hm, pat, call, call', en, en', ex, ex', sup, hfn, -, -, -, -, -, -, -, -, -, -, h1, h2⟩ := arms' s
    change runSuperstate g.iface (g.iface.supSuperstate s.variant) s = _ at hs
    show ∃ back', runSuperstate g'.iface (g'.iface.supSuperstate s.variant) _ = _ ∧ _
    rw [h1] at hs
    rw [h2]
    cases sup with
    | none => cases hs
    | some target => exact view_wide_some hsup hsup hs
  all_goals
    have hset : ∀ key, src'.setting key = src.setting key := fun key => by unfold Source.setting; rw [ha.args]
  · intro x k e
    exact runHook_wide (by
      show g'.beforeDispatch = g.beforeDispatch
      rw [h.beforeDispatch, h'.beforeDispatch, h.machine.beforeDispatch, h'.machine.beforeDispatch, hset])
      (hmode.imp_right fun h p hp => h p (.inl hp)) he.hookAsync x _ _ fun p sh => he.dispatchHook p sh k e
  · intro x k e
    exact runHook_wide (by
      show g'.afterDispatch = g.afterDispatch
      rw [h.afterDispatch, h'.afterDispatch, h.machine.afterDispatch, h'.machine.afterDispatch, hset])
      (hmode.imp_right fun h p hp => h p (.inr (.inl hp))) he.hookAsync x _ _ fun p sh => he.dispatchHook p sh k e
  · intro x s t
    exact runHook_wide (by
      show g'.beforeTransition = g.beforeTransition
      rw [h.beforeTransition, h'.beforeTransition, h.machine.beforeTransition, h'.machine.beforeTransition, hset])
      (hmode.imp_right fun h p hp => h p (.inr (.inr (.inl hp)))) he.hookAsync x _ _ fun p sh => he.transitionHook p sh s t
  · intro x s t
    exact runHook_wide (by
      show g'.afterTransition = g.afterTransition
      rw [h.afterTransition, h'.afterTransition, h.machine.afterTransition, h'.machine.afterTransition, hset])
      (hmode.imp_right fun h p hp => h p (.inr (.inr (.inr hp)))) he.hookAsync x _ _ fun p sh => he.transitionHook p sh s t

end
end Statig.Macro
