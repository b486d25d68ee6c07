import Verif.Proofs.Untouched
import Verif.Props.Transition
/-!
# Local storage that no called handler writes: C36
-/
namespace Statig
variable {S : Sig} {m : Machine S} {F : Forest S.D S.E} {mode : Mode} {sm : InitializedStateMachine S} {ev : S.Ev}
  {ctx : S.Ctx} {sched : List S.In} {c : Call S (InitializedStateMachine S)}

/-- C36, for what is actually called. If none of the handlers that were called with `ev` writes local storage, then
`state()` is the same value after a call that made no transition (even if it was cut short); what other handlers would
have done does not matter. -/
theorem C36_untouched_by_called (hF : Follows m F) (h : sm.handleWithContext mode m ev ctx sched = some c)
    (hk : ∀ n, .handler n ev ∈ c.trace → m.HandlerKeeps ev n)
    (hno : ∀ n t, (responsesOf (m.steps c.trace)).getLast? ≠ some (n, .transition t)) :
    c.self.state = sm.state := by
  rcases handle_values hF (handle_inv h) with ⟨T, hT, -, -, -, -, o', h1, -⟩ |
    ⟨t', s1, g1, T1, T2, -, -, h3, h3', h4, h5, h5', h6, h7, h8, h9, h10⟩
  · obtain ⟨T', e, k⟩ := keepsOn_handle mode _ _ _ _ _ h1
    refine k fun ob hob n hn => hk n ?_
    subst hn
    have e' : c.trace = T' := by simpa using e
    rw [e']
    exact hob
  · exfalso
    have e : c.trace = T1 ++ .beforeTransition (mode.beforeArgs s1 t').1 (mode.beforeArgs s1 t').2 :: T2 := by
      simpa using h5
    have hmem : m.step (.beforeTransition (mode.beforeArgs s1 t').1 (mode.beforeArgs s1 t').2) ∈
        m.steps c.trace := by rw [e]; simp [Machine.steps]
    have := (no_transition hF h hno).1 _ hmem
    simp [Machine.step, Step.ofTransition] at this

namespace Sample

/-- The sample machine, where `S12` handles the event `bump`, on which the handler of `S` writes local storage. -/
def guarded : Machine sig :=
  { machine false with
    handler := fun s sh ev c =>
      if s.1 = .s12 ∧ ev = .bump then .done (s, sh, c) .handled else leafHandler false s sh ev c }

/-- C36 for what is called applies where the theorem about all handlers does not: `S12` handles `bump`, so `S`, whose
handler would write local storage, is not asked. -/
example : Follows guarded forest ∧ ¬ guarded.HandlersKeep .bump ∧
    ∃ c, InitializedStateMachine.handleWithContext .blocking guarded (at_ .s12) .bump 0 [] = some c ∧
      (∀ n, .handler n .bump ∈ c.trace → guarded.HandlerKeeps .bump n) ∧
      (responsesOf (guarded.steps c.trace)).getLast? = some (.leaf .s12, .handled) := by
  refine ⟨{ follows false with handler := ?_ }, fun h => ?_, ?_⟩
  · intro s sh ev c
    show (if s.1 = .s12 ∧ ev = .bump then _ else leafHandler false s sh ev c : Fut Unit _ _).All _
    split
    · exact .done rfl
    · exact (follows false).handler s sh ev c
  · have := h.sup (.s, 0) ⟨[], 0⟩ 0
    cases this with
    | done h => exact absurd h (by decide)
  · refine ⟨_, rfl, ?_, rfl⟩
    intro n hn
    have hn : Obs.handler n .bump ∈ ([.beforeDispatch (.state (.s12, 7)) .bump, .handler (.state (.s12, 7)) .bump,
      .returned (.state (.s12, 7)) .handled, .afterDispatch (.state (.s12, 7)) .bump] : List (Obs sig)) := hn
    simp only [List.mem_cons, List.not_mem_nil, or_false, reduceCtorEq, false_or, Obs.handler.injEq, and_true] at hn
    subst hn
    exact fun sh c => .done rfl

end Sample
end Statig
