import Verif.Proofs.Debug
/-!
# Properties of `Debug`: C85
-/
namespace Statig
variable {S : Sig} {T Sup : Type}

/-- C85 (one line). `{:?}` of a response is `Handled`, `Super` or `Transition(..)` around what the user's
`Debug` prints for the target; it fails exactly if the user's `Debug` does. -/
theorem C85_response_text (ds : Dbg T) (r : Response T) :
    match r with
    | .handled => (r.debug ds false).Full "Handled".toList
    | .super => (r.debug ds false).Full "Super".toList
    | .transition s => (r.debug ds false).ok = (ds false s).ok ∧
        ∀ t, (ds false s).Full t → (r.debug ds false).Full ("Transition(".toList ++ t ++ ")".toList) := by
  cases r with
  | handled => exact ⟨rfl, rfl⟩
  | super => exact ⟨rfl, rfl⟩
  | transition s =>
    constructor
    · show (((debugTuple false "Transition").field ds s).finish).ok = _
      rw [debugTuple_one _ _ (by decide)]
      cases h : (ds false s).ok <;> simp
    · rintro t ⟨h1, h2⟩
      show Printed.Full (((debugTuple false "Transition").field ds s).finish) _
      rw [debugTuple_one _ _ (by decide), h1, h2]
      exact ⟨rfl, rfl⟩

/-- C85 (several lines). With `{:#?}` the target is printed on lines of its own, every line of it indented by
four spaces and the last one followed by a comma. -/
theorem C85_response_pretty (ds : Dbg T) (s : T) {t last : List Char} {ls : List (List Char)}
    (h : (ds true s).Full t) (hl : LinesOf t ls last) :
    (Response.debug ds true .handled).Full "Handled".toList ∧
    (Response.debug ds true .super).Full "Super".toList ∧
    (Response.debug ds true (.transition s)).Full
      (indentedLines "" ["Transition(".toList] ++ indentedLines "    " (ls ++ [last ++ [',']]) ++ ")".toList) := by
  refine ⟨⟨rfl, rfl⟩, ⟨rfl, rfl⟩, ?_⟩
  show Printed.Full (((debugTuple true "Transition").field ds s).finish) _
  rw [debugTuple_one _ _ (by decide), h.1, h.2]
  refine ⟨rfl, ?_⟩
  have e : t ++ ",\n".toList = indentedLines "" (ls ++ [last ++ [',']]) := by
    rw [hl.text]
    simp [indentedLines]
  have := (Printed.pad_lines (ls ++ [last ++ [',']]) (by
    intro l hm
    rcases List.mem_append.1 hm with hm | hm
    · exact hl.noNewline l hm
    · simp only [List.mem_singleton] at hm
      subst hm
      simpa using hl.noNewlineLast)).1
  simp only [e, this, if_true]
  rfl

/-- C85 (responses are told apart). Two responses are printed alike, on one line or on several, only if they are
the same variant and, for transitions, the user's `Debug` prints the targets alike. -/
theorem C85_response_distinct (ds : Dbg T) (alternate : Bool) (r r' : Response T) :
    r.debug ds alternate = r'.debug ds alternate ↔
      (r = .handled ∧ r' = .handled) ∨ (r = .super ∧ r' = .super) ∨
      ∃ s s', r = .transition s ∧ r' = .transition s' ∧ ds alternate s = ds alternate s' := by
  have hh : Response.debug ds alternate .handled = ⟨"Handled".toList, true⟩ := by cases alternate <;> rfl
  have hs : Response.debug ds alternate .super = ⟨"Super".toList, true⟩ := by cases alternate <;> rfl
  have ht : ∀ s, Response.debug ds alternate (.transition s) = _ :=
    fun s => debugTuple_one alternate "Transition" (by decide) ds s
  have hhead : ∀ s, ∃ l, (Response.debug ds alternate (.transition s)).text = 'T' :: l := by
    intro s; rw [ht]
    cases alternate <;> cases h : (ds _ s).ok <;> exact ⟨_, rfl⟩
  cases r with
  | handled =>
    cases r' with
    | handled => simp
    | super => rw [hh, hs]; simp
    | transition s' =>
      simp only [reduceCtorEq, and_false, false_and, exists_false, or_false, iff_false]
      intro h
      obtain ⟨l, hl⟩ := hhead s'
      rw [← h, hh] at hl
      exact absurd (List.cons.inj hl).1 (by decide)
  | super =>
    cases r' with
    | handled => rw [hh, hs]; simp
    | super => simp
    | transition s' =>
      simp only [reduceCtorEq, and_false, false_and, exists_false, or_false, iff_false]
      intro h
      obtain ⟨l, hl⟩ := hhead s'
      rw [← h, hs] at hl
      exact absurd (List.cons.inj hl).1 (by decide)
  | transition s =>
    cases r' with
    | handled =>
      simp only [reduceCtorEq, and_false, false_and, exists_false, or_false, iff_false]
      intro h
      obtain ⟨l, hl⟩ := hhead s
      rw [h, hh] at hl
      exact absurd (List.cons.inj hl).1 (by decide)
    | super =>
      simp only [reduceCtorEq, and_false, false_and, exists_false, or_false, iff_false]
      intro h
      obtain ⟨l, hl⟩ := hhead s
      rw [h, hs] at hl
      exact absurd (List.cons.inj hl).1 (by decide)
    | transition s' =>
      constructor
      · intro h
        refine .inr (.inr ⟨s, s', rfl, rfl, ?_⟩)
        rw [ht, ht] at h
        exact debugTuple_one_inj h
      · rintro (h | h | ⟨a, b, h1, h2, h3⟩)
        · simp at h
        · simp at h
        · cases h1; cases h2
          rw [ht, ht, h3]

/-- C85 (states and superstates are told apart). The value handed to `before_dispatch` and `after_dispatch` is
printed as `State(..)` or `Superstate(..)`; two of them are printed alike only if both are states or both are
superstates, and the user's `Debug` prints them alike. -/
theorem C85_state_or_superstate (ds : Dbg T) (dv : Dbg Sup) (alternate : Bool)
    (x x' : StateOrSuperstate T Sup) :
    ((∀ s t, x = .state s → (ds false s).Full t → (x.debug ds dv false).Full ("State(".toList ++ t ++ ")".toList)) ∧
     (∀ v t, x = .superstate v → (dv false v).Full t →
        (x.debug ds dv false).Full ("Superstate(".toList ++ t ++ ")".toList))) ∧
    (x.debug ds dv alternate = x'.debug ds dv alternate ↔
      (∃ s s', x = .state s ∧ x' = .state s' ∧ ds alternate s = ds alternate s') ∨
      (∃ v v', x = .superstate v ∧ x' = .superstate v' ∧ dv alternate v = dv alternate v')) := by
  have hs : ∀ s, StateOrSuperstate.debug ds dv alternate (.state s) = _ :=
    fun s => debugTuple_one alternate "State" (by decide) ds s
  have hv : ∀ v, StateOrSuperstate.debug ds dv alternate (.superstate v) = _ :=
    fun v => debugTuple_one alternate "Superstate" (by decide) dv v
  have heads : ∀ s, ∃ l, (StateOrSuperstate.debug ds dv alternate (.state s)).text = 'S' :: 't' :: l := by
    intro s; rw [hs]
    cases alternate <;> cases h : (ds _ s).ok <;> exact ⟨_, rfl⟩
  have headv : ∀ v, ∃ l, (StateOrSuperstate.debug ds dv alternate (.superstate v)).text = 'S' :: 'u' :: l := by
    intro v; rw [hv]
    cases alternate <;> cases h : (dv _ v).ok <;> exact ⟨_, rfl⟩
  refine ⟨⟨?_, ?_⟩, ?_⟩
  · rintro s t rfl ⟨h1, h2⟩
    show Printed.Full (((debugTuple false "State").field ds s).finish) _
    rw [debugTuple_one _ _ (by decide), h1, h2]
    exact ⟨rfl, rfl⟩
  · rintro v t rfl ⟨h1, h2⟩
    show Printed.Full (((debugTuple false "Superstate").field dv v).finish) _
    rw [debugTuple_one _ _ (by decide), h1, h2]
    exact ⟨rfl, rfl⟩
  · have cross : ∀ s v, StateOrSuperstate.debug ds dv alternate (.state s) ≠
        StateOrSuperstate.debug ds dv alternate (.superstate v) := by
      intro s v h
      obtain ⟨l, hl⟩ := heads s
      obtain ⟨l', hl'⟩ := headv v
      rw [h, hl'] at hl
      exact absurd (List.cons.inj (List.cons.inj hl).2).1 (by decide)
    cases x with
    | state s =>
      cases x' with
      | state s' =>
        constructor
        · intro h
          rw [hs, hs] at h
          exact .inl ⟨s, s', rfl, rfl, debugTuple_one_inj h⟩
        · rintro (⟨a, b, h1, h2, h3⟩ | ⟨a, b, h1, h2, h3⟩)
          · cases h1; cases h2; rw [hs, hs, h3]
          · cases h1
      | superstate v' => simpa using cross s v'
    | superstate v =>
      cases x' with
      | state s' => simpa using fun h => cross s' v h.symm
      | superstate v' =>
        constructor
        · intro h
          rw [hv, hv] at h
          exact .inr ⟨v, v', rfl, rfl, debugTuple_one_inj h⟩
        · rintro (⟨a, b, h1, h2, h3⟩ | ⟨a, b, h1, h2, h3⟩)
          · cases h1
          · cases h1; cases h2; rw [hv, hv, h3]

/-- C85 (machines). `{:?}` of a machine shows its storage and its state, in this order, behind a name that tells
initialized from uninitialized machines. -/
theorem C85_machine_text (dm : Dbg S.M) (ds : Dbg S.St) (i : Inner S) {t u : List Char}
    (hm : (dm false i.shared).Full t) (hs : (ds false i.state).Full u) :
    (InitializedStateMachine.debug dm ds false { inner := i }).Full
      ("InitializedStateMachine { shared_storage: ".toList ++ t ++ ", state: ".toList ++ u ++ " }".toList) ∧
    (UninitializedStateMachine.debug dm ds false { inner := i }).Full
      ("UnInitializedStateMachine { shared_storage: ".toList ++ t ++ ", state: ".toList ++ u ++ " }".toList) := by
  constructor
  · unfold InitializedStateMachine.debug
    rw [debugStruct_two _ _ _ _ _ _ _ _ hm.1 hs.1]
    refine ⟨rfl, ?_⟩
    simp [hm.2, hs.2]
  · unfold UninitializedStateMachine.debug
    rw [debugStruct_two _ _ _ _ _ _ _ _ hm.1 hs.1]
    refine ⟨rfl, ?_⟩
    simp [hm.2, hs.2]

/-- C85 (machines are told apart). An initialized and an uninitialized machine are never printed alike; and two
initialized machines are printed alike exactly if their storages and their states are, provided the printed
storages are prefix-free (as those of derived implementations are). -/
theorem C85_machine_distinct (dm : Dbg S.M) (ds : Dbg S.St) (alternate : Bool)
    (a b : InitializedStateMachine S) (c d : UninitializedStateMachine S) :
    (a.debug dm ds alternate).text ≠ (c.debug dm ds alternate).text ∧
    (PrefixFree (dm alternate) → (∀ s, (ds alternate s).ok = true) →
      ((a.debug dm ds alternate = b.debug dm ds alternate ↔
          dm alternate a.inner.shared = dm alternate b.inner.shared ∧
          ds alternate a.inner.state = ds alternate b.inner.state) ∧
       (c.debug dm ds alternate = d.debug dm ds alternate ↔
          dm alternate c.inner.shared = dm alternate d.inner.shared ∧
          ds alternate c.inner.state = ds alternate d.inner.state))) := by
  constructor
  · obtain ⟨l, hl⟩ := debugStruct_prefix alternate "InitializedStateMachine" "shared_storage" "state" dm ds
      a.inner.shared a.inner.state
    obtain ⟨l', hl'⟩ := debugStruct_prefix alternate "UnInitializedStateMachine" "shared_storage" "state" dm ds
      c.inner.shared c.inner.state
    unfold InitializedStateMachine.debug UninitializedStateMachine.debug
    rw [← hl, ← hl']
    intro h
    exact absurd (List.cons.inj h).1 (by decide)
  · intro hm hs
    exact ⟨debugStruct_two_inj _ _ _ hm hs _ _ _ _, debugStruct_two_inj _ _ _ hm hs _ _ _ _⟩

/-! ### A concrete case -/

namespace DebugSample

/-- Numbers, printed in decimal. -/
def num : Dbg Nat := fun _ n => .write (toString n)

/-- A state whose `Debug` fails on the number 7. -/
def picky : Dbg Nat := fun _ n => if n = 7 then ⟨['?'], false⟩ else .write (toString n)

example : (Response.debug num false (.transition 12)).text = "Transition(12)".toList := by decide
example : (Response.debug num true (.transition 12)).text = "Transition(\n    12,\n)".toList := by decide
example : (Response.debug picky false (.transition 7)) = ⟨"Transition(?".toList, false⟩ := by decide
example : LinesOf "a\nb".toList ["a".toList] "b".toList := ⟨by decide, by decide, by decide⟩

/-- Printing that always ends with a full stop, and has none before, is prefix-free. -/
example : PrefixFree (fun n : Nat => Printed.mk (List.replicate n 'x' ++ ['.']) true) := by
  refine ⟨fun _ => rfl, fun a b => ?_⟩
  induction a generalizing b with
  | zero =>
    cases b with
    | zero => intro _; rfl
    | succ b => rintro ⟨t, h⟩; exact absurd (List.cons.inj h).1 (by decide)
  | succ a ih =>
    cases b with
    | zero => rintro ⟨t, h⟩; exact absurd (List.cons.inj h).1 (by decide)
    | succ b =>
      rintro ⟨t, h⟩
      have := ih b ⟨t, (List.cons.inj h).2⟩
      simp only [List.replicate_succ, List.cons_append]
      rw [show List.replicate a 'x' ++ ['.'] = List.replicate b 'x' ++ ['.'] from this]

end DebugSample
end Statig
