import Verif.Props.Transition
import Verif.Props.Init
import Verif.Props.MacroLinks
/-!
# Generated machines follow the declared hierarchy: C44
-/
namespace Statig
open Macro
variable {syn : Syn} {ord : Order} {src : Source} {g : Gen} {T : Types}

/-- Generated machines follow a static hierarchy, the declared one, whatever the user's functions do; and their
superstates are views of the state's fields. Hence everything proved for machines with `Follows` and `Lawful` holds
for them. -/
theorem C44_follows (h : expand syn ord src = .ok g) (hc : g.Compiles) (ha : src.Acyclic) :
    ∃ F : Forest Ident Ident,
      (∀ (T : Types) (env : Env g.iface T), Follows (g.iface.machine env) F ∧ Lawful (g.iface.machine env)) ∧
      (∀ mth ∈ src.methods, mth.Has "state" →
        F.leafParent (variantName syn mth.name) = (mth.link "state" "superstate").map (variantName syn)) ∧
      (∀ mth ∈ src.methods, mth.Has "superstate" →
        F.supParent (variantName syn mth.name) = (mth.link "superstate" "superstate").map (variantName syn)) := by
  obtain ⟨sm, L, Lp, hg⟩ := genInfo (hc.distinct h) h
  obtain ⟨F, h1, h2⟩ := exists_forest (fun v => armTarget (g.iface.superstate v))
    (fun v => armTarget (g.iface.supSuperstate v)) (supParent_wf hg hc ha)
  refine ⟨F, fun T env => ⟨hg.follows hc env F h1 h2, machine_lawful _ env⟩, fun mth hm hk => ?_, fun mth hm hk => ?_⟩
  · rw [h1]
    exact hg.leafParent hc hm hk
  · rw [h2]
    exact hg.supParent hc hm hk

/-- In an acyclic declaration that is accepted there are finitely many superstates above every state. -/
theorem C44_above (h : expand syn ord src = .ok g) (hc : g.Compiles) (ha : src.Acyclic) {mth : Method}
    (hm : mth ∈ src.methods) (hk : mth.Has "state") : ∃ l, src.Above (mth.link "state" "superstate") l := by
  obtain ⟨sm, L, Lp, hg⟩ := genInfo (hc.distinct h) h
  have wf := supParent_wf hg hc ha
  have key : ∀ v, ∀ pm ∈ src.methods, pm.Has "superstate" → v = variantName syn pm.name →
      ∃ l, src.Above (some pm.name) l := by
    intro v
    induction v using wf.induction with
    | h v ih =>
      rintro pm hpm hpk rfl
      cases hl : pm.link "superstate" "superstate" with
      | none => exact ⟨_, .some hpm hpk (by rw [hl]; exact .none)⟩
      | some q =>
        obtain ⟨qm, hqm, rfl, hqk⟩ := hg.link_declared hc hpm hpk hl
        obtain ⟨l, h⟩ := ih (variantName syn qm.name) (by rw [hg.supParent hc hpm hpk, hl]; rfl) qm hqm hqk rfl
        exact ⟨_, .some hpm hpk (hl ▸ h)⟩
  cases hl : mth.link "state" "superstate" with
  | none => exact ⟨[], .none⟩
  | some p =>
    obtain ⟨ls, _, _, hd, _⟩ := hg.stateOf hc hm hk
    have := hd.superstate
    rw [hl] at this
    obtain ⟨pm, hpm, rfl, hpk, _⟩ := this
    exact key _ pm hpm hpk rfl

theorem above_path {F : Forest Ident Ident}
    (hs : ∀ mth ∈ src.methods, mth.Has "superstate" →
      F.supParent (variantName syn mth.name) = (mth.link "superstate" "superstate").map (variantName syn))
    {link : Option Ident} {l : List Ident} (h : src.Above link l) :
    (match link.map (variantName syn) with
      | none => []
      | some p => p :: F.supAnc p) = l.map (variantName syn) := by
  induction h with
  | none => rfl
  | @some pm l hm hk _ ih =>
    simp only [Option.map_some, List.map_cons, List.cons.injEq, true_and]
    rw [F.supAnc_eq, hs pm hm hk, ← ih]
    cases pm.link "superstate" "superstate" <;> rfl

theorem above_mem {link : Option Ident} {l : List Ident} (h : src.Above link l) :
    ∀ x ∈ l, ∃ pm ∈ src.methods, pm.Has "superstate" ∧ pm.name = x := by
  induction h with
  | none => simp
  | some hm hk _ ih =>
    intro x hx
    rcases List.mem_cons.1 hx with rfl | hx
    · exact ⟨_, hm, hk, rfl⟩
    · exact ih x hx

theorem filter_path {la lb : List Ident} {va vb : Ident} (hab : va ≠ vb)
    (hinj : ∀ x ∈ la, ∀ y ∈ lb, variantName syn x = variantName syn y → x = y) :
    ((.leaf va :: la.map fun x => .sup (variantName syn x)).filter
      fun n : Node Ident Ident => n ∉ (.leaf vb :: lb.map fun x => .sup (variantName syn x) : List _)) =
    .leaf va :: (la.filter (· ∉ lb)).map fun x => .sup (variantName syn x) := by
  rw [List.filter_cons_of_pos (by simp [hab]), List.filter_map]
  congr 2
  apply List.filter_congr
  intro x hx
  simp only [Function.comp_apply, decide_eq_decide]
  apply not_congr
  simp only [List.mem_cons, reduceCtorEq, false_or, List.mem_map, Node.sup.injEq]
  constructor
  · rintro ⟨y, hy, e⟩
    exact hinj x hx y hy e.symm ▸ hy
  · exact fun hx => ⟨x, hx, rfl⟩

/-- Transitions of a generated machine between two declared states: the exit actions of the state and of its declared
superstates that are not superstates of the target, innermost first; then the entry actions of the target's
superstates that are not superstates of the state, outermost first, and of the target. -/
theorem C44_transition (h : expand syn ord src = .ok g) (hc : g.Compiles) (ha : src.Acyclic) (env : Env g.iface T)
    {a b : Method} (ham : a ∈ src.methods) (hbm : b ∈ src.methods) (hak : a.Has "state") (hbk : b.Has "state")
    (hne : a ≠ b) {la lb : List Ident} (hla : src.Above (a.link "state" "superstate") la)
    (hlb : src.Above (b.link "state" "superstate") lb)
    {sm : InitializedStateMachine (g.iface.sig T)} {ev ctx sched c}
    (hr : sm.handleWithContext g.mode (g.iface.machine env) ev ctx sched = some c) {n t}
    (ht : (responsesOf ((g.iface.machine env).steps c.trace)).getLast? = some (n, .transition t))
    (hsa : sm.state.variant = variantName syn a.name) (hsb : t.variant = variantName syn b.name) :
    let plan : List (Act Ident Ident) :=
      .leave (.leaf (variantName syn a.name)) ::
        (la.filter (· ∉ lb)).map (fun x => .leave (.sup (variantName syn x))) ++
      (lb.filter (· ∉ la)).reverse.map (fun x => .enter (.sup (variantName syn x))) ++
        [.enter (.leaf (variantName syn b.name))]
    (c.out = .ok () → actionsOf ((g.iface.machine env).steps c.trace) = plan) ∧
    actionsOf ((g.iface.machine env).steps c.trace) <+: plan := by
  obtain ⟨sm', L, Lp, hg⟩ := genInfo (hc.distinct h) h
  obtain ⟨F, hF, hl, hs⟩ := C44_follows h hc ha
  have hinj : ∀ {l l' link link'}, src.Above link l → src.Above link' l' →
      ∀ x ∈ l, ∀ y ∈ l', variantName syn x = variantName syn y → x = y := by
    intro l l' link link' h1 h2 x hx y hy e
    obtain ⟨xm, hxm, hxk, rfl⟩ := above_mem h1 x hx
    obtain ⟨ym, hym, hyk, rfl⟩ := above_mem h2 y hy
    rw [hg.sup_inj hc hxm hym hxk hyk e]
  have hv : variantName syn a.name ≠ variantName syn b.name := fun e => hne (hg.state_inj hc ham hbm hak hbk e)
  have hpath : ∀ {m l}, m ∈ src.methods → m.Has "state" → src.Above (m.link "state" "superstate") l →
      F.path (variantName syn m.name) = .leaf (variantName syn m.name) :: l.map fun x => .sup (variantName syn x) := by
    intro m l hm hk hab
    have := above_path hs hab
    unfold Forest.path Forest.up Forest.anc Forest.leafAnc
    simp only
    rw [hl m hm hk]
    generalize m.link "state" "superstate" = link at this
    have e : ∀ l' : List Ident, l' = l.map (variantName syn) →
        l'.map Node.sup = l.map fun x => (Node.sup (variantName syn x) : Node Ident Ident) := by
      rintro _ rfl
      rw [List.map_map]
      rfl
    rw [List.cons.injEq]
    refine ⟨rfl, e _ ?_⟩
    cases link <;> exact this
  have key := C07_exits_and_entries (hF T env).1 hr ht (by
    show sm.state.variant ≠ t.variant
    rw [hsa, hsb]
    exact hv)
  have e1 : (g.iface.machine env).discr sm.state = variantName syn a.name := hsa
  have e2 : (g.iface.machine env).discr t = variantName syn b.name := hsb
  rw [e1, e2, hpath ham hak hla, hpath hbm hbk hlb, filter_path hv (hinj hla hlb), filter_path hv.symm (hinj hlb hla)]
    at key
  simpa [Function.comp_def] using key

/-! ### The sample -/

namespace Macro.Sample

theorem supParent_powered {e p : Ident} (h : armTarget (gen.iface.supSuperstate e) = some p) : p = "Powered" := by
  have key : ∀ a ∈ gen.supSuperstateArms, ∀ p ∈ a.body, p.variant = "Powered" := by decide +kernel
  unfold armTarget at h
  obtain ⟨q, hq, rfl⟩ := Option.map_eq_some_iff.1 h
  obtain ⟨a, ha, hq⟩ := Option.bind_eq_some_iff.1 hq
  have ha' : armOf gen.supSuperstateArms e = some a := ha
  unfold armOf at ha'
  exact key a (List.mem_of_find?_eq_some ha') q hq

/-- The hierarchy of the sample. -/
def forest : Forest Ident Ident where
  leafParent v := armTarget (gen.iface.superstate v)
  supParent v := armTarget (gen.iface.supSuperstate v)
  supAnc e := (armTarget (gen.iface.supSuperstate e)).toList
  supAnc_eq e := by
    cases h : armTarget (gen.iface.supSuperstate e) with
    | none => rfl
    | some p =>
      cases supParent_powered h
      have : armTarget (gen.iface.supSuperstate "Powered") = none := by decide +kernel
      simp [this]

theorem follows : Follows (gen.iface.machine env) forest := by
  obtain ⟨sm, L, Lp, hg⟩ := genInfo (compiles.distinct gen_eq) gen_eq
  exact hg.follows compiles env forest rfl rfl

def closedPath (s t : Val gen.iface.stateFields Nat) : Option (Out (Nat × Nat)) :=
  if s.variant = t.variant then some (.ok (1, 1))
  else
    let c := ((forest.leafAnc s.variant).filter (· ∈ forest.leafAnc t.variant)).length
    some (.ok ((forest.leafAnc s.variant).length + 1 - c, (forest.leafAnc t.variant).length + 1 - c))

theorem transitionPath_closed : transitionPath (gen.iface.machine env) = closedPath := by
  funext s t
  unfold closedPath
  split
  · next h => exact transitionPath_of_eq s t h
  · next h => exact transitionPath_of_ne follows s t h

theorem depth_closed :
    depth (gen.iface.machine env) = fun s => some ((forest.leafAnc s.variant).length + 1) := by
  funext s
  exact depth_eq follows s

/-- Evaluate a call on the generated machine of the sample. -/
macro "eval_macro_sample" : tactic => `(tactic| (
  simp only [InitializedStateMachine.handleWithContext, UninitializedStateMachine.initWithContext,
    StateMachine.handleWithContext, StateMachine.initWithContext, Inner.handle, Inner.init,
    Blocking.handleEvent, Blocking.handle, Blocking.transition, Blocking.init,
    Awaitable.handleEvent, Awaitable.handle, Awaitable.transition, Awaitable.init,
    transitionPath_closed, depth_closed];
  (try rw [Blocking.supHandle, Blocking.supHandle, Blocking.supHandle, Blocking.supHandle]);
  (try rw [Awaitable.handleLoop, Awaitable.handleLoop, Awaitable.handleLoop, Awaitable.handleLoop]);
  decide +kernel))

/-- The variant that the last handler asked for. -/
def lastTarget (c : Call (gen.iface.sig types) (InitializedStateMachine (gen.iface.sig types))) :
    Option (Node Ident Ident × Option Ident) :=
  ((responsesOf ((gen.iface.machine env).steps c.trace)).getLast?).map fun p =>
    (p.1, match p.2 with | .transition t => some t.variant | _ => none)

/-- From `led_on` (event 2, handled by `powered`) to `stopped`. -/
theorem run : ∃ c, InitializedStateMachine.handleWithContext gen.mode (gen.iface.machine env)
      (⟨⟨[], vLedOn 1 2 3⟩⟩ : InitializedStateMachine (gen.iface.sig types)) 2 7 [] = some c ∧
    c.out = .ok () ∧ lastTarget c = some (.sup "Powered", some "Stopped") ∧
    c.self.inner.shared = ["led_on", "Self::handled", "blinking", "Self::handled", "Self::handled", "Self::changing",
      "leave_blinking"] := by
  have : gen.mode = .awaitable := by decide +kernel
  rw [this]
  apply Statig.Sample.witness
  eval_macro_sample

theorem above : source.Above (ledOn.link "state" "superstate") ["blinking", "powered"] ∧
    source.Above (stopped.link "state" "superstate") [] := by
  constructor
  · rw [show ledOn.link "state" "superstate" = some "blinking" by decide +kernel]
    refine .some (pm := blinking) (by simp [source]) ⟨_, List.mem_cons_self, rfl⟩ ?_
    rw [show blinking.link "superstate" "superstate" = some "powered" by decide +kernel]
    refine .some (pm := powered) (by simp [source]) ⟨_, List.mem_cons_self, rfl⟩ ?_
    rw [show powered.link "superstate" "superstate" = none by decide +kernel]
    exact .none
  · rw [show stopped.link "state" "superstate" = none by decide +kernel]
    exact .none

end Macro.Sample

end Statig
