import Verif.Spec.Tracking
import Verif.Props.Threads
import Verif.Props.History
import Verif.Props.Transition
/-!
# Invariants of the shared storage and the history pattern: C61, C62
-/
namespace Statig
variable {S : Sig} {mode : Mode} {m : Machine S} {F : Forest S.D S.E}

/-! ## C61 -/

theorem started_append (T U : List (Obs S)) : started (T ++ U) = started T ++ started U := List.filter_append ..

theorem started_handler (n : StateOrSuperstate S.St S.Sup) (ev : S.Ev) (n') (o : Out (Response S.St)) :
    started (Obs.handler n ev :: returnedObs n' o) = [.handler n ev] := by
  cases o <;> rfl

theorem runs1_maintains {P : List (Obs S) → S.M → Prop} (hP : Maintains m P) {ev w T o w'}
    (h : Runs1 mode m ev w T o w') {T0} (h0 : P T0 w.shared) : P (T0 ++ started T) w'.shared := by
  have key : ∀ {W α : Type} {Q : W → Prop} {f : Fut S.In W α} {o w' l' l}, f.All Q → f.run l = (o, w', l') → Q w' := by
    intro W α Q f o w' l' l hf hr
    have := Fut.run_all hf l
    rw [hr] at this; exact this
  cases h with
  | handler he hp hr => rw [started_handler]; have h2 := key (hP.handler T0 _ _ _ _ h0) hr; exact h2
  | supHandler he hp hv hr => rw [started_handler]; have h2 := key (hP.supHandler T0 _ _ _ _ h0) hr; exact h2
  | entry hp hr => have h2 := key (hP.entry T0 _ _ _ h0) hr; exact h2
  | supEntry hp hv hr => have h2 := key (hP.supEntry T0 _ _ _ h0) hr; exact h2
  | exit hp hr => have h2 := key (hP.exit T0 _ _ _ h0) hr; exact h2
  | supExit hp hv hr => have h2 := key (hP.supExit T0 _ _ _ h0) hr; exact h2
  | beforeDispatch he hp hr => have h2 := key (hP.beforeDispatch T0 _ _ _ h0) hr; exact h2
  | supBeforeDispatch he hp hv hr => have h2 := key (hP.beforeDispatch T0 _ _ _ h0) hr; exact h2
  | afterDispatch he hr => have h2 := key (hP.afterDispatch T0 _ _ _ h0) hr; exact h2
  | supAfterDispatch he hv hr => have h2 := key (hP.afterDispatch T0 _ _ _ h0) hr; exact h2
  | beforeTransition hp hr =>
    cases mode with
    | blocking => have h2 := key (hP.beforeTransition T0 _ _ _ h0) hr; exact h2
    | awaitable => have h2 := key (hP.beforeTransition T0 _ _ _ h0) hr; exact h2
  | afterTransition hp hl hr => have h2 := key (hP.afterTransition T0 _ _ _ h0) hr; exact h2

theorem threads_maintains {P : List (Obs S) → S.M → Prop} (hP : Maintains m P) {ev w T o w'}
    (h : Threads mode m ev w T o w') : ∀ {T0}, P T0 w.shared → P (T0 ++ started T) w'.shared := by
  induction h with
  | nil => intro T0 h0; simpa [started] using h0
  | call h _ ih =>
    intro T0 h0
    rw [started_append, ← List.append_assoc]
    exact ih (runs1_maintains hP h h0)
  | cut h => intro T0 h0; exact runs1_maintains hP h h0
  | swap _ _ ih => intro T0 h0; exact ih h0

/-- C61, one call. -/
theorem exec_maintains (hF : Follows m F) (hL : Lawful m) {P : List (Obs S) → S.M → Prop} (hP : Maintains m P)
    {sm : StateMachine S} {cmd c} (h : Command.exec mode m sm cmd = some c) {T0} (h0 : P T0 sm.shared) :
    P (T0 ++ started c.trace) c.self.shared := by
  cases cmd with
  | init ctx sched =>
    obtain ⟨w', h1, -, h2, -⟩ := C34_init hF hL h
    have := threads_maintains hP h1 (T0 := T0) h0
    rwa [h2] at this
  | handle ev ctx sched =>
    obtain ⟨w', h1, -, h2, -⟩ := C34_lazy_handle hF hL h
    have := threads_maintains hP h1 (T0 := T0) h0
    rwa [h2] at this

/-- C61.  If every single callback maintains a relation between the callbacks started so far and the shared
storage, then it holds after every history of calls, whether they returned, panicked or were dropped. -/
theorem C61_storage_invariant (hF : Follows m F) (hL : Lawful m) {P : List (Obs S) → S.M → Prop}
    (hP : Maintains m P) {sm sm' : StateMachine S} {l} (h : History mode m sm l sm') {T0}
    (h0 : P T0 sm.shared) : P (T0 ++ historyStarted l) sm'.shared := by
  induction h generalizing T0 with
  | nil => simpa [historyStarted] using h0
  | @cons sm cmd c l sm' h _ ih =>
    have := ih (exec_maintains hF hL hP h h0)
    simpa [historyStarted] using this

/-- C61 without the callbacks: a property of the shared storage that no callback breaks. -/
theorem C61_storage_predicate (hF : Follows m F) (hL : Lawful m) {P : S.M → Prop}
    (hP : Maintains m fun _ => P) {sm sm' : StateMachine S} {l} (h : History mode m sm l sm')
    (h0 : P sm.shared) : P sm'.shared :=
  C61_storage_invariant hF hL hP (T0 := []) h h0

namespace Sample

/-- The action whose start is observed. -/
def actionOf : Obs Sample.sig → Option (Act D E)
  | .entry (.state s) => some (.enter (.leaf s.1))
  | .entry (.superstate v) => some (.enter (.sup v.1))
  | .exit (.state s) => some (.leave (.leaf s.1))
  | .exit (.superstate v) => some (.leave (.sup v.1))
  | _ => none

/-- The sample machine keeps a log of its actions in the shared storage. -/
theorem keeps_log : Maintains (machine false) fun T sh => sh.path = T.filterMap actionOf where
  handler T s sh ev c h := .done (by simp [h, actionOf])
  entry T s sh c h := .done (by simp [h, actionOf])
  exit T s sh c h := .done (by simp [h, actionOf])
  supHandler T v sh ev c h := by
    show (supHandler v sh ev c).All _
    unfold supHandler
    split <;> exact .done (by simp [h, actionOf])
  supEntry T v sh c h := .done (by simp [h, actionOf])
  supExit T v sh c h := .done (by simp [h, actionOf])
  beforeDispatch T sh n ev h := .done (by simp [h, actionOf])
  afterDispatch T sh n ev h := .done (by simp [h, actionOf])
  beforeTransition T sh a b h := .done (by simp [h, actionOf])
  afterTransition T sh a b h := .done (by simp [h, actionOf])

end Sample

/-- C61 applies: after any history the log in the shared storage of the sample machine lists exactly the actions
that were started, in order. -/
example {l sm'} (h : History mode (Sample.machine false) (stateMachine (Sample.machine false) ⟨[], 0⟩) l sm') :
    sm'.shared.path = (historyStarted l).filterMap Sample.actionOf :=
  C61_storage_invariant (Sample.follows false) (Sample.lawful false) Sample.keeps_log h (T0 := []) rfl

/-! ## C62 -/

theorem lastLeft_append (T U : List (Obs S)) : lastLeft (T ++ U) = (lastLeft U).or (lastLeft T) := by
  simp [lastLeft, List.filterMap_append, List.getLast?_append]

theorem lastLeft_started (T : List (Obs S)) : lastLeft (started T) = lastLeft T := by
  unfold lastLeft started
  rw [List.filterMap_filter]
  congr 1
  apply List.filterMap_congr
  intro o _
  cases o <;> rfl

theorem recordsSource_maintains {prev : S.M → S.St} (hr : RecordsSource m prev) (p : S.St) :
    Maintains m fun T sh => prev sh = (lastLeft T).getD p := by
  have mono : ∀ {In W α : Type} {P Q : W → Prop} {f : Fut In W α}, f.All P → (∀ w, P w → Q w) → f.All Q := by
    intro In W α P Q f h hpq
    induction h with
    | done h => exact .done (hpq _ h)
    | panic h => exact .panic (hpq _ h)
    | pending h _ ih => exact .pending (hpq _ h) ih
  have key : ∀ (T : List (Obs S)) (o : Obs S), leftState o = none → lastLeft (T ++ [o]) = lastLeft T := by
    intro T o h
    rw [lastLeft_append]
    simp [lastLeft, h]
  exact {
    handler := fun T s sh ev c h0 => mono (hr.handler s sh ev c) fun w hw => by rw [key _ _ rfl, hw, h0]
    entry := fun T s sh c h0 => mono (hr.entry s sh c) fun w hw => by rw [key _ _ rfl, hw, h0]
    exit := fun T s sh c h0 => mono (hr.exit s sh c) fun w hw => by rw [key _ _ rfl, hw, h0]
    supHandler := fun T s sh ev c h0 => mono (hr.supHandler s sh ev c) fun w hw => by rw [key _ _ rfl, hw, h0]
    supEntry := fun T s sh c h0 => mono (hr.supEntry s sh c) fun w hw => by rw [key _ _ rfl, hw, h0]
    supExit := fun T s sh c h0 => mono (hr.supExit s sh c) fun w hw => by rw [key _ _ rfl, hw, h0]
    beforeDispatch := fun T sh n ev h0 => mono (hr.beforeDispatch sh n ev) fun w hw => by rw [key _ _ rfl, hw, h0]
    afterDispatch := fun T sh n ev h0 => mono (hr.afterDispatch sh n ev) fun w hw => by rw [key _ _ rfl, hw, h0]
    beforeTransition := fun T sh a b h0 =>
      mono (hr.beforeTransition sh a b) fun w hw => by rw [key _ _ rfl, hw, h0]
    afterTransition := fun T sh a b h0 => mono (hr.afterTransition sh a b) fun w hw => by
      rw [lastLeft_append]; simpa [lastLeft, leftState] using hw }

theorem historyStarted_lastLeft (l : List (Command S × Call S (StateMachine S))) :
    lastLeft (historyStarted l) = lastLeft (l.flatMap fun p => p.2.trace) := by
  induction l with
  | nil => rfl
  | cons p l ih =>
    have : historyStarted (p :: l) = started p.2.trace ++ historyStarted l := rfl
    rw [this, List.flatMap_cons, lastLeft_append, lastLeft_append, ih, lastLeft_started]

/-- C62.  If `after_transition` stores the state that was left in a part of the shared storage that no other
callback changes, then after every history of calls, interrupted or not, that part holds the state left by the last
transition that was completed as far as its hook, and its original value if there was none. -/
theorem C62_history_pattern (hF : Follows m F) (hL : Lawful m) {prev : S.M → S.St} (hr : RecordsSource m prev)
    {sm sm' : StateMachine S} {l} (h : History mode m sm l sm') :
    prev sm'.shared = (lastLeft (l.flatMap fun p => p.2.trace)).getD (prev sm.shared) := by
  have := C61_storage_invariant hF hL (recordsSource_maintains hr (prev sm.shared)) h (T0 := []) rfl
  rwa [List.nil_append, historyStarted_lastLeft] at this

/-- What `after_transition` is given, also in the call that initializes the machine. -/
theorem exec_afterTransition (hF : Follows m F) {sm : StateMachine S} {cmd c}
    (h : Command.exec mode m sm cmd = some c) {a b : S.St} (hab : .afterTransition a b ∈ c.trace) :
    b = c.self.state ∧ m.discr a = m.discr sm.state := by
  have hno : ∀ {i : Inner S} {ctx l c0}, i.init mode m ctx l = some c0 → .afterTransition a b ∉ c0.trace := by
    intro i ctx l c0 h0 hab
    obtain ⟨c', h0', -, h1, -⟩ := init_call hF mode i ctx l
    rw [h0] at h0'; cases h0'
    have := h1.subset (List.mem_map_of_mem (f := m.step) hab)
    simp [initLog, Machine.step] at this
  cases cmd with
  | init ctx sched =>
    exfalso
    cases hs : sm.initialized with
    | true =>
      have h : sm.initWithContext mode m ctx sched = some c := h
      rw [sm_init_initialized hs] at h; cases h; cases hab
    | false =>
      obtain ⟨c0, h1, rfl⟩ := (sm_init_uninitialized hs ctx sched).1 h
      exact hno h1 hab
  | handle ev ctx sched =>
    cases hs : sm.initialized with
    | true =>
      obtain ⟨d, h1, rfl⟩ := (sm_handle_initialized hs ev ctx sched).1 h
      obtain ⟨h2, h3, -⟩ := C12_after_transition_arguments hF h1 hab
      exact ⟨h2, h3⟩
    | false =>
      obtain ⟨c0, h1, h2⟩ := (sm_handle_uninitialized hs ev ctx sched).1 h
      rcases h2 with ⟨-, rfl⟩ | ⟨-, d, h3, rfl⟩
      · exact absurd hab (hno h1)
      · rcases List.mem_append.1 hab with hab | hab
        · exact absurd hab (hno h1)
        · obtain ⟨h4, h5, -⟩ := C12_after_transition_arguments hF h3 hab
          obtain ⟨c', h0', -, -, h6, -⟩ := init_call hF mode sm.inner ctx sched
          rw [h1] at h0'; cases h0'
          exact ⟨h4, h5.trans h6⟩

/-- C62, where to resume: if a call made a transition and no later one did, the recorded state is of the variant of
the state the machine was in when that call was made. -/
theorem C62_resume (hF : Follows m F) (hL : Lawful m) {prev : S.M → S.St} (hr : RecordsSource m prev)
    {sm sm' : StateMachine S} {cmd c l} (h1 : Command.exec mode m sm cmd = some c) {a b : S.St}
    (hab : .afterTransition a b ∈ c.trace) (h2 : History mode m c.self l sm')
    (hno : ∀ p ∈ l, ∀ x y, .afterTransition x y ∉ p.2.trace) :
    m.discr (prev sm'.shared) = m.discr sm.state := by
  have h3 := C62_history_pattern hF hL hr (.cons h1 h2)
  have h4 : lastLeft (l.flatMap fun p => p.2.trace) = none := by
    unfold lastLeft
    rw [List.getLast?_eq_none_iff, List.filterMap_eq_nil_iff]
    intro o ho
    obtain ⟨p, hp, ho⟩ := List.mem_flatMap.1 ho
    cases o <;> first | rfl | exact absurd ho (hno p hp _ _)
  rw [List.flatMap_cons, lastLeft_append, h4, Option.none_or] at h3
  cases h5 : lastLeft c.trace with
  | none =>
    unfold lastLeft at h5
    rw [List.getLast?_eq_none_iff, List.filterMap_eq_nil_iff] at h5
    exact absurd (h5 _ hab) (by simp [leftState])
  | some x =>
    have h6 := List.mem_of_getLast? h5
    obtain ⟨o, ho, hx⟩ := List.mem_filterMap.1 h6
    rw [h3, h5]
    cases o <;> cases hx
    exact (exec_afterTransition hF h1 ho).2

end Statig
