import Verif.Props.MacroHierarchy
import Verif.Props.Endless
/-!
# Declarations whose superstates form a cycle: C57
-/
namespace Statig
open Macro
variable {syn : Syn} {ord : Order} {src : Source} {g : Gen} {T : Types}

theorem above_parent (hd : src.Distinct) {p n : Ident} {l : List Ident} (h : src.SupParent p n)
    (ha : src.Above (some n) l) : ∃ l', src.Above (some p) l' ∧ l'.length < l.length := by
  obtain ⟨mth, hm, rfl, hk, hl⟩ := h
  cases hs : some mth.name with
  | none => cases hs
  | some k =>
    rw [hs] at ha
    cases ha with
    | some hpm hpk hrest =>
      rename_i pm l
      cases hd.eq hpm hm (Option.some.inj hs).symm
      rw [hl] at hrest
      exact ⟨l, hrest, by simp⟩

theorem above_transGen (hd : src.Distinct) {p n : Ident} (h : Relation.TransGen src.SupParent p n) :
    ∀ {l : List Ident}, src.Above (some n) l → ∃ l', src.Above (some p) l' ∧ l'.length < l.length := by
  induction h with
  | single h => exact above_parent hd h
  | tail _ h ih =>
    intro l ha
    obtain ⟨l', h1, h2⟩ := above_parent hd h ha
    obtain ⟨l'', h3, h4⟩ := ih h1
    exact ⟨l'', h3, by omega⟩

theorem above_cycle (hd : src.Distinct) {n : Ident} (h : Relation.TransGen src.SupParent n n) :
    ∀ k, ∀ l : List Ident, l.length < k → ¬ src.Above (some n) l
  | 0, _, hl, _ => absurd hl (by omega)
  | k + 1, l, hl, ha => by
    obtain ⟨l', h1, h2⟩ := above_transGen hd h ha
    exact above_cycle hd h k l' (by omega) h1

/-- Then there is no finite list of superstates above `p`. -/
theorem not_above (hd : src.Distinct) {p : Ident} (h : src.Cyclic p) (l : List Ident) : ¬ src.Above (some p) l := by
  intro ha
  obtain ⟨n, h1, h2⟩ := h
  rcases Relation.reflTransGen_iff_eq_or_transGen.1 h2 with rfl | h2
  · exact above_cycle hd h1 _ l (Nat.lt_succ_self _) ha
  · obtain ⟨l', h3, _⟩ := above_transGen hd h2 ha
    exact above_cycle hd h1 _ l' (Nat.lt_succ_self _) h3

/-- The values of superstates form an endless chain. -/
theorem endless_of_not_above (h : expand syn ord src = .ok g) (hc : g.Compiles) (env : Env g.iface T) {mth : Method}
    (hm : mth ∈ src.methods) (hk : mth.Has "state") (hn : ∀ l, ¬ src.Above (mth.link "state" "superstate") l)
    (s : Val g.iface.stateFields T.V) (hs : s.variant = variantName syn mth.name) :
    ∃ up, Endless (g.iface.machine env) s up := by
  let Node := { v : Val g.iface.supFields T.V //
    ∃ pm ∈ src.methods, pm.Has "superstate" ∧ v.variant = variantName syn pm.name ∧ ∀ l, ¬ src.Above (some pm.name) l }
  have next : ∀ v : Node, ∃ w : Node, ((g.iface.machine env).supSuperstate v.1).map (·.1) = some w.1 := by
    rintro ⟨v, pm, hpm, hpk, hv, hna⟩
    have hb := C43_sup_superstate h hc env hpm hpk v hv
    cases hl : pm.link "superstate" "superstate" with
    | none => exact absurd (.some hpm hpk (by rw [hl]; exact .none)) (hna [pm.name])
    | some q =>
      rw [hl] at hb
      obtain ⟨qm, hqm, rfl, hqk, w, back, e, hw, _⟩ := hb
      refine ⟨⟨w, qm, hqm, hqk, hw, fun l ha => ?_⟩, by rw [e]; rfl⟩
      exact hna (pm.name :: l) (.some hpm hpk (by rw [hl]; exact ha))
  have first : ∃ w : Node, ((g.iface.machine env).superstate s).map (·.1) = some w.1 := by
    have hb := C43_superstate h hc env hm hk s hs
    cases hl : mth.link "state" "superstate" with
    | none => exact absurd (by rw [hl]; exact .none) (hn [])
    | some q =>
      rw [hl] at hb
      obtain ⟨qm, hqm, rfl, hqk, w, back, e, hw, _⟩ := hb
      exact ⟨⟨w, qm, hqm, hqk, hw, fun l ha => hn l (by rw [hl]; exact ha)⟩, by rw [e]; rfl⟩
  choose step hstep using next
  obtain ⟨w, hw⟩ := first
  refine ⟨fun n => (step^[n] w).1, hw, fun n => ?_⟩
  rw [hstep]
  exact congrArg (fun v : Node => some v.1) (Function.iterate_succ_apply' step n w).symm

/-- A declaration whose superstates form a cycle is accepted like any other (C55 does not mention it), and a machine in
a state below the cycle never finishes to initialize. -/
theorem C57_cyclic_never_returns (h : expand syn ord src = .ok g) (hc : g.Compiles) (env : Env g.iface T)
    {mth : Method} (hm : mth ∈ src.methods) (hk : mth.Has "state") {p : Ident}
    (hl : mth.link "state" "superstate" = some p) (hp : src.Cyclic p) (mode : Mode) :
    (∀ (sm : UninitializedStateMachine (g.iface.sig T)) ctx sched, sm.state.variant = variantName syn mth.name →
      sm.initWithContext mode (g.iface.machine env) ctx sched = none) ∧
    (∀ (sm : StateMachine (g.iface.sig T)) (cmd : Command (g.iface.sig T)), sm.initialized = false →
      sm.state.variant = variantName syn mth.name → cmd.exec mode (g.iface.machine env) sm = none) := by
  have key : ∀ s : Val g.iface.stateFields T.V, s.variant = variantName syn mth.name →
      ∃ up, Endless (g.iface.machine env) s up := fun s hs =>
    endless_of_not_above h hc env hm hk (by rw [hl]; exact not_above (hc.distinct h) hp) s hs
  constructor
  · intro sm ctx sched hs
    obtain ⟨up, hup⟩ := key _ hs
    exact C22_endless_chain_never_returns.1 sm ctx sched hup
  · intro sm cmd h0 hs
    obtain ⟨up, hup⟩ := key _ hs
    exact C22_endless_chain_never_returns.2 sm cmd h0 hup

/-- C57 (transition). Nor does a machine ever finish a transition to a state below the cycle, or away from it: once the
hook before a transition between different states has been called, of which one is below the cycle, that hook is the last
thing that is called and `handle` does not return. -/
theorem C57_cyclic_transition (h : expand syn ord src = .ok g) (hc : g.Compiles) (env : Env g.iface T)
    {mth : Method} (hm : mth ∈ src.methods) (hk : mth.Has "state") {p : Ident}
    (hl : mth.link "state" "superstate" = some p) (hp : src.Cyclic p) {mode : Mode}
    {sm : InitializedStateMachine (g.iface.sig T)} {ev : T.Ev} {ctx : T.Ctx} {sched : List T.In}
    {c : Call (g.iface.sig T) (InitializedStateMachine (g.iface.sig T))}
    (hh : sm.handleWithContext mode (g.iface.machine env) ev ctx sched = some c)
    {a b : Val g.iface.stateFields T.V} (hab : .beforeTransition a b ∈ c.trace) (hne : a.variant ≠ b.variant)
    (hs : a.variant = variantName syn mth.name ∨ b.variant = variantName syn mth.name) :
    c.out ≠ .ok () ∧ c.trace.getLast? = some (.beforeTransition a b) ∧
      ¬ ((g.iface.machine env).NoPanic ∧ (g.iface.machine env).NoSuspend) := by
  have key : ∀ s : Val g.iface.stateFields T.V, s.variant = variantName syn mth.name →
      ∃ up, Endless (g.iface.machine env) s up := fun s hs =>
    endless_of_not_above h hc env hm hk (by rw [hl]; exact not_above (hc.distinct h) hp) s hs
  rcases hs with hs | hs
  · obtain ⟨up, hup⟩ := key a hs
    exact C22_transition_forever hh hab hne (.inl hup)
  · obtain ⟨up, hup⟩ := key b hs
    exact C22_transition_forever hh hab hne (.inr hup)

namespace Macro.Sample

/-- The sample, where `powered` names `blinking` as its superstate, and takes `led`. -/
def cyclicSource : Source :=
  { source with methods := source.methods.map fun mth =>
      if mth.name = "powered" then
        { mth with
          attrs := [⟨"superstate", some [⟨"superstate", .lit "blinking"⟩]⟩]
          inputs := [eventArg, ledArg] }
      else mth }

theorem cyclic_ok : accepts forwards cyclicSource = true := by decide +kernel

theorem cyclic_compiles : (result forwards cyclicSource cyclic_ok).Compiles := by decide +kernel

theorem cyclic : cyclicSource.Cyclic "blinking" := by
  have h1 : cyclicSource.SupParent "powered" "blinking" :=
    ⟨blinking, by decide +kernel, rfl, ⟨_, List.mem_cons_self, rfl⟩, by decide +kernel⟩
  have h2 : cyclicSource.SupParent "blinking" "powered" :=
    ⟨{ powered with
        attrs := [⟨"superstate", some [⟨"superstate", .lit "blinking"⟩]⟩]
        inputs := [eventArg, ledArg] }, by decide +kernel, rfl, ⟨_, List.mem_cons_self, rfl⟩, by decide +kernel⟩
  exact ⟨"blinking", .tail (.single h2) h1, .refl⟩

end Macro.Sample

/-- The cyclic sample is accepted, its code compiles, and no machine in the state `led_on` finishes to initialize. -/
example : ∃ g, expand Sample.syn Sample.forwards Sample.cyclicSource = .ok g ∧ g.Compiles ∧
    ∀ (env : Env g.iface Sample.types) (mode : Mode) (sm : UninitializedStateMachine (g.iface.sig Sample.types)) ctx sched,
      sm.state.variant = "LedOn" → sm.initWithContext mode (g.iface.machine env) ctx sched = none := by
  refine ⟨_, Sample.result_eq Sample.cyclic_ok, Sample.cyclic_compiles, fun env mode sm ctx sched hs => ?_⟩
  refine (C57_cyclic_never_returns (Sample.result_eq Sample.cyclic_ok) Sample.cyclic_compiles env (mth := Sample.ledOn)
    (by decide +kernel) ⟨_, List.mem_cons_self, rfl⟩ (by decide +kernel) Sample.cyclic mode).1 sm ctx sched ?_
  rw [hs]
  decide +kernel

namespace Macro.Sample

/-- What the macro generates for the cyclic sample. -/
def cyclicGen : Gen := result forwards cyclicSource cyclic_ok

theorem cyclic_stopped_fields : cyclicGen.iface.stateFields "Stopped" = some [] := by decide +kernel
theorem cyclic_ledOn_fields : cyclicGen.iface.stateFields "LedOn" = some ["led", "counter", "extra"] := by decide +kernel

def cyclicStopped : Val cyclicGen.iface.stateFields Nat := val "Stopped" [] cyclic_stopped_fields
def cyclicLedOn : Val cyclicGen.iface.stateFields Nat :=
  val "LedOn" [("led", 1), ("counter", 2), ("extra", 3)] cyclic_ledOn_fields

/-- Every handler asks for a transition to `led_on`; the hook before it panics. -/
def cyclicEnv : Env cyclicGen.iface types where
  handler _ args := .done args (.transition cyclicLedOn)
  action _ args := .done args ()
  initial _ := cyclicLedOn
  dispatchHook _ sh _ _ := .done sh ()
  transitionHook _ sh _ _ := .panic sh
  hookAsync name := name == "Self::handled"

/-- A transition from `stopped` to `led_on`, interrupted by the hook. -/
example : ∃ (c : Call (cyclicGen.iface.sig types) (InitializedStateMachine (cyclicGen.iface.sig types)))
      (a b : Val cyclicGen.iface.stateFields Nat),
    InitializedStateMachine.handleWithContext .awaitable (cyclicGen.iface.machine cyclicEnv)
      ⟨⟨[], cyclicStopped⟩⟩ 0 0 [] = some c ∧
    .beforeTransition a b ∈ c.trace ∧ a.variant ≠ b.variant ∧ b.variant = variantName Sample.syn ledOn.name := by
  have : ∃ c, InitializedStateMachine.handleWithContext .awaitable (cyclicGen.iface.machine cyclicEnv)
      ⟨⟨[], cyclicStopped⟩⟩ 0 0 [] = some c ∧
      (c.trace.getLast?.any fun
        | .beforeTransition a b => decide (a.variant = "Stopped" ∧ b.variant = "LedOn")
        | _ => false) = true := by
    apply Statig.Sample.witness
    simp only [InitializedStateMachine.handleWithContext, Inner.handle, Awaitable.handleEvent, Awaitable.handle,
      Awaitable.transition]
    decide +kernel
  obtain ⟨c, h, h2⟩ := this
  cases hl : c.trace.getLast? with
  | none => rw [hl] at h2; cases h2
  | some ob =>
    rw [hl] at h2
    have hm := List.mem_of_getLast? hl
    cases ob with
    | beforeTransition a b =>
      simp only [Option.any_some, decide_eq_true_eq] at h2
      refine ⟨c, a, b, h, hm, by rw [h2.1, h2.2]; decide, ?_⟩
      rw [h2.2]
      decide +kernel
    | _ => cases h2

end Macro.Sample
end Statig
