import Verif.Proofs.Examples.Bench
import Verif.Props.MacroSample
import Verif.Props.MacroOrder
/-!
# The benchmarks: C92
-/
namespace Statig.Examples.Bench
open Statig.Macro
set_option maxRecDepth 4000

theorem ring_eq (a : Bool) : expand Sample.syn Sample.forwards (ring.source a) = .ok (ring.gen a) := by
  revert a; decide +kernel
theorem ring_compiles (a : Bool) : (ring.gen a).Compiles := by revert a; decide +kernel
theorem cd_eq (a : Bool) : expand Sample.syn Sample.forwards (cd.source a) = .ok (cd.gen a) := by
  revert a; decide +kernel
theorem cd_compiles (a : Bool) : (cd.gen a).Compiles := by revert a; decide +kernel

instance {Ev : Type} [DecidableEq Ev] : DecidableEq (Row Ev) := fun r r' =>
  decidable_of_iff (r.name = r'.name ∧ r.variant = r'.variant ∧ r.arms = r'.arms ∧ r.handled = r'.handled)
    ⟨fun h => by cases r; cases r'; simp_all, fun h => by simp [h]⟩
instance : DecidableEq ring.Ev := inferInstanceAs (DecidableEq Event)
instance : DecidableEq cd.Ev := inferInstanceAs (DecidableEq CdPlayer.Event)

theorem ring_good : ring.Good := ⟨by decide +kernel, by decide +kernel⟩
theorem cd_good : cd.Good := ⟨by decide +kernel, by decide +kernel⟩
theorem ring_closed : ring.Closed := by unfold Table.Closed; decide +kernel
theorem cd_closed : cd.Closed := by unfold Table.Closed; decide +kernel

/-- The names, needed events and next names, for one time around. -/
theorem ring_rows : ∀ n < 51, ∃ r ∈ ring.rows, r.variant = ringState n ∧
    ∃ target r', r.arms.map (fun a => (a.1.number, a.2)) = [(wanted n, target)] ∧
      ring.rows.find? (·.name == target) = some r' ∧ r'.variant = ringState (n + 1) := by
  have : ∀ n < 51, ∃ r ∈ ring.rows, r.variant = ringState n ∧
      r.arms.map (fun a => (a.1.number, (ring.rows.find? (·.name == a.2)).map (·.variant))) =
        [(wanted n, some (ringState (n + 1)))] := by decide +kernel
  intro n hn
  obtain ⟨r, h1, h2, h3⟩ := this n hn
  refine ⟨r, h1, h2, ?_⟩
  match h : r.arms with
  | [] => rw [h] at h3; cases h3
  | [a] =>
    rw [h] at h3
    simp only [List.map_cons, List.map_nil, List.cons.injEq, and_true, Prod.mk.injEq] at h3
    obtain ⟨r', h4, h5⟩ := Option.map_eq_some_iff.1 h3.2
    exact ⟨a.2, r', by simp [h3.1], h4, h5⟩
  | a :: b :: l => rw [h] at h3; simp at h3

theorem periodic (n : Nat) (h : 0 < n) : ringState (n + 50) = ringState n ∧ wanted (n + 50) = wanted n := by
  unfold ringState wanted
  rw [Nat.add_mod_right]
  constructor <;> simp [Nat.ne_of_gt h]

theorem ring_rows' (n : Nat) : ∃ r ∈ ring.rows, r.variant = ringState n ∧
    ∃ target r', r.arms.map (fun a => (a.1.number, a.2)) = [(wanted n, target)] ∧
      ring.rows.find? (·.name == target) = some r' ∧ r'.variant = ringState (n + 1) := by
  induction n using Nat.strongRecOn with
  | ind n ih =>
    by_cases h : n < 51
    · exact ring_rows n h
    · obtain ⟨m, rfl⟩ : ∃ m, n = m + 50 := ⟨n - 50, by omega⟩
      have := ih m (by omega)
      rw [(periodic m (by omega)).1, (periodic m (by omega)).2, show m + 50 + 1 = (m + 1) + 50 by omega,
        (periodic (m + 1) (by omega)).1]
      exact this

theorem lookup_self {A B : Type} (dec : DecidableEq A) (a : A) (b : B) :
    @List.lookup _ _ (@instBEqOfDecidableEq _ dec) a [(a, b)] = some b := by
  simp [List.lookup]

theorem lookup_other {A B : Type} (dec : DecidableEq A) {a a' : A} {b : B} (h : a ≠ a') :
    @List.lookup _ _ (@instBEqOfDecidableEq _ dec) a [(a', b)] = none := by
  simp [List.lookup, beq_eq_false_iff_ne.2 h]

theorem ring_next (n : Nat) : ∃ r ∈ ring.rows, r.variant = ringState n ∧ ∀ e, ring.next r e = ringState (ringStep n e) := by
  obtain ⟨r, h1, h2, target, r', h3, h4, h5⟩ := ring_rows' n
  refine ⟨r, h1, h2, fun e => ?_⟩
  match ha : r.arms with
  | [] => rw [ha] at h3; cases h3
  | a :: b :: l => rw [ha] at h3; simp at h3
  | [a] =>
    rw [ha] at h3
    simp only [List.map_cons, List.map_nil, List.cons.injEq, and_true, Prod.mk.injEq] at h3
    obtain ⟨⟨k, hk⟩, tgt⟩ := a
    obtain ⟨h3, rfl⟩ := h3
    have h3 : k = wanted n := h3
    unfold Table.next ringStep
    rw [ha]
    by_cases he : e.number = wanted n
    · have : e = ⟨k, hk⟩ := by
        obtain ⟨x, hx⟩ := e
        have he : x = wanted n := he
        subst h3; subst he; rfl
      rw [if_pos he, this]
      have hl : @List.lookup _ _ (@instBEqOfDecidableEq _ ring.dec) (⟨k, hk⟩ : Event) [((⟨k, hk⟩ : Event), tgt)] = some tgt := by
        exact lookup_self _ _ _
      rw [hl]
      simp only
      rw [h4]
      exact h5
    · rw [if_neg he]
      have hl : @List.lookup _ _ (@instBEqOfDecidableEq _ ring.dec) e [((⟨k, hk⟩ : Event), tgt)] = none := by
        exact lookup_other _ fun h => he (h ▸ h3)
      rw [hl]
      exact h2

/-- All events. -/
def cdEvents : List CdPlayer.Event :=
  [.startPlayback, .resumePlayback, .closeDrawer, .openDrawer, .stopAndOpen, .stoppedAgain, .storeCdInfo, .pausePlayback,
    .stopPlayback, .play, .endPause, .stop, .pause2, .openClose, .cdDetected]

theorem cd_next (s : CdPlayer.State) : ∃ r ∈ cd.rows, r.variant = cdName s ∧ ∀ e, cd.next r e = cdName (cdStep s e) := by
  have key : ∃ r ∈ cd.rows, r.variant = cdName s ∧
      (cdEvents.all fun e => decide (cd.next r e = cdName (cdStep s e))) = true := by
    cases s <;> decide +kernel
  obtain ⟨r, h1, h2, h3⟩ := key
  refine ⟨r, h1, h2, fun e => of_decide_eq_true (List.all_eq_true.1 h3 e ?_)⟩
  have : ∀ e : CdPlayer.Event, e ∈ cdEvents := by intro e; cases e <;> decide
  exact this e

end Statig.Examples.Bench

namespace Statig
open Examples.Bench Statig.Macro
variable {In : Type}

/-- C92.  In whatever order the macro iterates over its hash maps, it accepts the impl blocks of the four benchmarks, and
what it generates compiles; with `async` functions it is a machine for awaitable mode, otherwise for blocking mode. -/
theorem C92_accepted (isAsync : Bool) (ord) :
    (∃ g, expand Sample.syn ord (ring.source isAsync) = .ok g ∧ g.Compiles ∧ g.iface = (ring.gen isAsync).iface) ∧
    (∃ g, expand Sample.syn ord (cd.source isAsync) = .ok g ∧ g.Compiles ∧ g.iface = (cd.gen isAsync).iface) ∧
    (ring.gen isAsync).mode = (if isAsync then .awaitable else .blocking) ∧
    (cd.gen isAsync).mode = (if isAsync then .awaitable else .blocking) := by
  refine ⟨?_, ?_, rfl, rfl⟩
  · obtain ⟨g, h, -⟩ := C46_items (ring_eq isAsync) ord
    obtain ⟨h1, h2⟩ := C46_behaviour (ring_eq isAsync) h (ring_compiles isAsync)
    exact ⟨g, h, h1, h2⟩
  · obtain ⟨g, h, -⟩ := C46_items (cd_eq isAsync) ord
    obtain ⟨h1, h2⟩ := C46_behaviour (cd_eq isAsync) h (cd_compiles isAsync)
    exact ⟨g, h, h1, h2⟩

/-- C92, `bench_complex` and `async_bench_complex`.  Whatever calls are made on a fresh machine, whatever the schedule:
all return, and the state after each is determined by the number of transitions so far, where an event is a transition
iff it is the one that is waited for. -/
theorem C92_ring (isAsync : Bool) (dflt : ring.MState isAsync)
    (cmds : List (Command ((ring.gen isAsync).iface.sig (ring.types In)))) :
    (callAll (ring.gen isAsync).mode (Table.machine dflt In) (stateMachine (Table.machine dflt In) ()) cmds).map
        (fun c => (c.out, c.self.inner.state.variant)) = ringExpected (fun e => e) 0 cmds := by
  refine Table.calls ring_good ring_closed dflt _ ringState ringStep ring_next (ringExpected fun e => e) (fun _ => rfl)
    (fun _ _ _ _ => rfl) (fun _ _ _ _ _ => rfl) _ 0 ?_ cmds
  obtain ⟨r, hr, hn, hv⟩ : ∃ r ∈ ring.rows, r.name = ring.start ∧ r.variant = "S1" := by decide +kernel
  show (Table.construct dflt ring.start).variant = "S1"
  rw [← hn, Table.construct_variant ring_good dflt hr, hv]

/-- C92.  Once it has been left, the initial state is never entered again; `Idle` is reached after every 50
transitions. -/
theorem C92_ring_never_again (n : Nat) : ringState (n + 1) ≠ "S1" ∧ (ringState n = "Idle" ↔ 0 < n ∧ n % 50 = 0) := by
  have key : ∀ k < 50, ("S" ++ toString (k + 1) = "S1" → k = 0) ∧ "S" ++ toString (k + 1) ≠ "Idle" := by decide +kernel
  constructor
  · unfold ringState
    rw [if_neg (Nat.succ_ne_zero n)]
    split
    · decide +kernel
    · rename_i h
      intro h'
      exact h ((key _ (Nat.mod_lt _ (by decide))).1 h')
  · unfold ringState
    split
    · rename_i h
      subst h
      simp
    · rename_i h
      split
      · rename_i h'
        simp [h', Nat.pos_of_ne_zero h]
      · rename_i h'
        exact ⟨fun e => absurd e (key _ (Nat.mod_lt n (by decide : 0 < 50))).2, fun e => absurd e.2 h'⟩

theorem Examples.Bench.ringStep_shift (n : Nat) (h : 0 < n) (e : Event) : ringStep (n + 50) e = ringStep n e + 50 := by
  unfold ringStep
  rw [(periodic n h).2]
  split <;> omega

theorem Examples.Bench.ringStep_le (n : Nat) (e : Event) : n ≤ ringStep n e ∧ ringStep n e ≤ n + 1 := by
  unfold ringStep; split <;> omega

theorem Examples.Bench.fold_shift (es : List Event) (n : Nat) (h : 0 < n) :
    es.foldl ringStep (n + 50) = es.foldl ringStep n + 50 := by
  induction es generalizing n with
  | nil => rfl
  | cons e es ih =>
    rw [List.foldl_cons, List.foldl_cons, ringStep_shift n h, ih]
    exact Nat.lt_of_lt_of_le h (ringStep_le n e).1

theorem Examples.Bench.fold_round (q : Nat) : round.foldl ringStep (50 * q) = 50 * (q + 1) := by
  match q with
  | 0 => decide +kernel
  | 1 => decide +kernel
  | q + 2 =>
    have := fold_round (q + 1)
    rw [show 50 * (q + 2) = 50 * (q + 1) + 50 by omega, fold_shift _ _ (by omega), this]
    omega

/-- C92.  If all events are sent in order, any number of times, the machine makes 50 transitions each time and ends in
`Idle`. -/
theorem C92_ring_rounds (loops : Nat) :
    ringMoves (List.replicate loops round).flatten = 50 * loops ∧
      (0 < loops → ringState (ringMoves (List.replicate loops round).flatten) = "Idle") := by
  have key : ∀ q, (List.replicate loops round).flatten.foldl ringStep (50 * q) = 50 * (q + loops) := by
    induction loops with
    | zero => intro q; rfl
    | succ n ih =>
      intro q
      rw [List.replicate_succ, List.flatten_cons, List.foldl_append, fold_round, ih]
      omega
  have h : ringMoves (List.replicate loops round).flatten = 50 * loops := by
    have := key 0
    rw [Nat.zero_add] at this
    exact this
  refine ⟨h, fun hl => ?_⟩
  rw [h]
  exact (C92_ring_never_again _).2.2 ⟨by omega, by omega⟩

theorem Examples.Bench.wanted_ne_two {n : Nat} (h : 0 < n) : wanted n ≠ 2 := by
  unfold wanted
  rw [if_neg (by omega)]
  split <;> omega

theorem Examples.Bench.fold_late (es : List Event) (n b : Nat) (hs : es.Pairwise fun e e' => e.number < e'.number)
    (hb : ∀ e ∈ es, b ≤ e.number) : es.foldl ringStep n ≤ n + (52 - b) := by
  induction es generalizing n b with
  | nil => exact Nat.le_add_right _ _
  | cons e es ih =>
    rw [List.pairwise_cons] at hs
    have h1 := hb e (by simp)
    have h2 := ih (ringStep n e) (e.number + 1) hs.2 fun e' he' => hs.1 e' he'
    have h3 := (ringStep_le n e).2
    have h4 := e.ok.2
    rw [List.foldl_cons]
    omega

theorem Examples.Bench.fold_second (es : List Event) (n : Nat) (hn : 0 < n)
    (hs : es.Pairwise fun e e' => e.number < e'.number) (hb : ∀ e ∈ es, 2 ≤ e.number) : es.foldl ringStep n ≤ n + 49 := by
  cases es with
  | nil => exact Nat.le_add_right _ _
  | cons e es =>
    have h1 := hb e (by simp)
    have hs' := List.pairwise_cons.1 hs
    by_cases h2 : e.number = 2
    · have h3 : ringStep n e = n := by
        unfold ringStep
        rw [if_neg fun h => wanted_ne_two hn (h2 ▸ h.symm)]
      have := fold_late es n 3 hs'.2 fun e' he' => by have := hs'.1 e' he'; omega
      rw [List.foldl_cons, h3]
      omega
    · exact fold_late (e :: es) n 3 hs fun e' he' => by
        rcases List.mem_cons.1 he' with rfl | he'
        · omega
        · have := hs'.1 e' he'; omega

/-- C92.  Whatever random numbers the benchmark draws, one time around its loop makes at most 50 transitions, whatever
happened before. -/
theorem C92_ring_at_most (before es : List Event) (h : Round es) : ringMoves (before ++ es) ≤ ringMoves before + 50 := by
  have hs : es.Pairwise fun e e' => e.number < e'.number := List.Pairwise.sublist h (by decide +kernel)
  unfold ringMoves
  rw [List.foldl_append]
  generalize before.foldl ringStep 0 = n
  cases es with
  | nil => exact Nat.le_add_right _ _
  | cons e es =>
    have hs' := List.pairwise_cons.1 hs
    have h1 := e.ok.1
    by_cases h2 : e.number = 1
    · rw [List.foldl_cons]
      have hb : ∀ e' ∈ es, 2 ≤ e'.number := fun e' he' => by have := hs'.1 e' he'; omega
      by_cases hn : 0 < n
      · have := fold_second es (ringStep n e) (Nat.lt_of_lt_of_le hn (ringStep_le n e).1) hs'.2 hb
        have := (ringStep_le n e).2
        omega
      · have hn : n = 0 := by omega
        subst hn
        have h3 : ringStep 0 e = 0 := by
          unfold ringStep
          rw [if_neg (by rw [h2]; decide)]
        rw [h3]
        exact fold_late es 0 2 hs'.2 hb
    · exact fold_late (e :: es) n 2 hs fun e' he' => by
        rcases List.mem_cons.1 he' with rfl | he'
        · omega
        · have := hs'.1 e' he'; omega

/-- C92, `bench` and `async_bench`.  Whatever calls are made on a fresh machine, whatever the schedule: all return, and
the states are those that the hand-written version of the example prescribes. -/
theorem C92_cd (isAsync : Bool) (dflt : cd.MState isAsync)
    (cmds : List (Command ((cd.gen isAsync).iface.sig (cd.types In)))) :
    (callAll (cd.gen isAsync).mode (Table.machine dflt In) (stateMachine (Table.machine dflt In) ()) cmds).map
        (fun c => (c.out, c.self.inner.state.variant)) = cdExpected (fun e => e) .empty cmds := by
  refine Table.calls cd_good cd_closed dflt _ cdName cdStep cd_next (cdExpected fun e => e) (fun _ => rfl)
    (fun _ _ _ _ => rfl) (fun _ _ _ _ _ => rfl) _ .empty ?_ cmds
  obtain ⟨r, hr, hn, hv⟩ : ∃ r ∈ cd.rows, r.name = cd.start ∧ r.variant = "Empty" := by decide +kernel
  show (Table.construct dflt cd.start).variant = "Empty"
  rw [← hn, Table.construct_variant cd_good dflt hr, hv]

/-- C92.  The loop of these benchmarks, run any number of times, ends where it started. -/
theorem C92_cd_loop (loops : Nat) : (List.replicate loops cdLoop).flatten.foldl cdStep .empty = .empty := by
  induction loops with
  | zero => rfl
  | succ n ih => rw [List.replicate_succ, List.flatten_cons, List.foldl_append, show cdLoop.foldl cdStep .empty = .empty by decide, ih]

/-- C92 at work: calls on the machine of `async_bench_complex`, with events out of order. -/
example (dflt : ring.MState true) :
    (callAll .awaitable (Table.machine dflt Empty) (stateMachine (Table.machine dflt Empty) ())
      [.init () [], .handle (⟨1, by decide⟩ : Event) () [], .handle (⟨2, by decide⟩ : Event) () [],
        .handle (⟨2, by decide⟩ : Event) () [], .handle (⟨3, by decide⟩ : Event) () []]).map
        (fun c => (c.out, c.self.inner.state.variant)) =
      [(.ok (), "S1"), (.ok (), "S1"), (.ok (), "S2"), (.ok (), "S2"), (.ok (), "S3")] := by
  refine (C92_ring (In := Empty) true dflt _).trans ?_
  decide +kernel

example (dflt : cd.MState true) :
    (callAll .awaitable (Table.machine dflt Empty) (stateMachine (Table.machine dflt Empty) ())
      (cdLoop.map fun e => .handle e () [])).map (fun c => c.self.inner.state.variant) =
      ["Open", "Empty", "Stopped", "Playing", "Pause", "Playing", "Pause", "Stopped", "Stopped", "Open", "Empty"] := by
  have := congrArg (List.map (·.2)) (C92_cd (In := Empty) true dflt (cdLoop.map fun e => .handle e () []))
  rw [List.map_map] at this
  exact this.trans (by decide +kernel)

/-- There is a state to stand in, and the loop of `bench_complex` can leave out events. -/
example : Nonempty (ring.MState true) := ⟨⟨"S1", fun _ => none, [], by decide +kernel, by simp⟩⟩
example : Round [⟨2, by decide⟩, ⟨3, by decide⟩, ⟨7, by decide⟩] := by unfold Round; decide +kernel

end Statig
