import Verif.Proofs.Invariants
import Verif.Props.Tracking
import Verif.Props.Sample
/-!
# Invariants that involve the state, and bounded work: C68, C69, C70
-/
namespace Statig
variable {S : Sig} {mode : Mode} {m : Machine S} {F : Forest S.D S.E}

/-! ## C68 -/

/-- C68, `init` of a machine that was built uninitialized. -/
theorem C68_init (hF : Follows m F) (hL : Lawful m) {I : List (Node S.D S.E) → S.M → Prop} (hI : Accounts m F I)
    {sm : UninitializedStateMachine S} {ctx sched c} (h : sm.initWithContext mode m ctx sched = some c)
    (h0 : I [] sm.inner.shared) {ism} (hc : c.self = some ism) :
    I (F.path (m.discr ism.state)) ism.inner.shared := by
  obtain ⟨c0, h1, rfl⟩ := (uninit_init ctx sched).1 h
  cases ho : c0.out.isOk with
  | false => simp [ho] at hc
  | true =>
    simp only [ho, ↓reduceIte, Option.some.injEq] at hc
    subst hc
    exact init_accounts hF hL hI h1 (isOk_iff.1 ho) h0

/-- C68, `handle` of an initialized machine. -/
theorem C68_handle (hF : Follows m F) (hL : Lawful m) {I : List (Node S.D S.E) → S.M → Prop} (hI : Accounts m F I)
    {sm : InitializedStateMachine S} {ev ctx sched c} (h : sm.handleWithContext mode m ev ctx sched = some c)
    (ho : c.out = .ok ()) (h0 : I (F.path (m.discr sm.state)) sm.inner.shared) :
    I (F.path (m.discr c.self.state)) c.self.inner.shared :=
  handle_accounts hF hL hI h ho h0

theorem exec_accounts (hF : Follows m F) (hL : Lawful m) {I : List (Node S.D S.E) → S.M → Prop}
    (hI : Accounts m F I) {sm : StateMachine S} {cmd c} (h : Command.exec mode m sm cmd = some c)
    (ho : c.out = .ok ()) (h0 : I (if sm.initialized then F.path (m.discr sm.state) else []) sm.shared) :
    I (F.path (m.discr c.self.state)) c.self.shared := by
  cases hs : sm.initialized with
  | true =>
    rw [hs] at h0
    cases cmd with
    | init ctx sched =>
      have h : sm.initWithContext mode m ctx sched = some c := h
      rw [sm_init_initialized hs] at h; cases h; exact h0
    | handle ev ctx sched =>
      obtain ⟨d, h1, rfl⟩ := (sm_handle_initialized hs ev ctx sched).1 h
      exact handle_accounts hF hL hI h1 ho h0
  | false =>
    rw [hs] at h0
    cases cmd with
    | init ctx sched =>
      obtain ⟨c0, h1, rfl⟩ := (sm_init_uninitialized hs ctx sched).1 h
      exact init_accounts hF hL hI h1 ho h0
    | handle ev ctx sched =>
      obtain ⟨c0, h1, (⟨h2, rfl⟩ | ⟨h2, d, h3, rfl⟩)⟩ := (sm_handle_uninitialized hs ev ctx sched).1 h
      · exact absurd ho h2
      · exact handle_accounts hF hL hI h3 ho (init_accounts hF hL hI h1 h2 h0)

/-- C68.  Resources acquired on entry and released on exit: if every entry action accounts for its node in the shared
storage, every exit action undoes that, and nothing else interferes, then after any history of completed calls on a new
machine the storage accounts for exactly the active nodes of the current state. -/
theorem C68_storage_accounts_for_active_nodes (hF : Follows m F) (hL : Lawful m)
    {I : List (Node S.D S.E) → S.M → Prop} (hI : Accounts m F I) {sm sm' : StateMachine S} {l}
    (h0 : sm.initialized = false) (h : History mode m sm l sm') (hne : l ≠ [])
    (hok : ∀ p ∈ l, p.2.out = .ok ()) (hI0 : I [] sm.shared) : I (F.path (m.discr sm'.state)) sm'.shared := by
  have key : ∀ sm l sm', History mode m sm l sm' → (∀ p ∈ l, p.2.out = .ok ()) → sm.initialized = true →
      I (F.path (m.discr sm.state)) sm.shared → I (F.path (m.discr sm'.state)) sm'.shared := by
    intro sm l sm' h
    induction h with
    | nil => exact fun _ _ h => h
    | @cons sm cmd c l sm' h _ ih =>
      intro hok hs hi
      have ho := hok (cmd, c) (by simp)
      refine ih (fun p hp => hok p (by simp [hp])) ((C17_initialized_once h).2.2.2 ho) ?_
      exact exec_accounts hF hL hI h ho (by rw [hs]; exact hi)
  cases h with
  | nil => exact absurd rfl hne
  | @cons _ cmd c l _ h1 h2 =>
    have ho := hok (cmd, c) (by simp)
    exact key _ _ _ h2 (fun p hp => hok p (by simp [hp])) ((C17_initialized_once h1).2.2.2 ho)
      (exec_accounts hF hL hI h1 ho (by rw [h0]; exact hI0))

namespace Sample

theorem action_returns {σ : Type} {fragile : Bool} {x : Act D E} {s : σ} {sh : M} {c : Nat}
    {Q : Unit → σ × M × Nat → Prop} (h : Q () (s, ⟨sh.path ++ [x], sh.fuse - 1⟩, c + 1)) :
    (action fragile x s sh c).Returns Q := by
  intro l a w l' hr
  unfold action at hr
  split at hr
  · cases hr
  · cases hr; exact h

/-- The log that the sample machine keeps in its storage accounts for the active nodes. -/
theorem accounts (fragile : Bool) :
    Accounts (machine fragile) forest fun nodes sh => replay forest sh.path [] = some nodes where
  entry s sh c h := action_returns (by
    show replay forest (sh.path ++ [_]) [] = _
    rw [replay_append, h]; rcases s with ⟨_ | _ | _, _⟩ <;> rfl)
  supEntry v sh c h := action_returns (by
    show replay forest (sh.path ++ [_]) [] = _
    rw [replay_append, h]; rcases v with ⟨_ | _ | _ | _, _⟩ <;> rfl)
  exit s sh c h := action_returns (by
    show replay forest (sh.path ++ [_]) [] = _
    rw [replay_append, h]; rcases s with ⟨_ | _ | _, _⟩ <;> rfl)
  supExit v sh c h := action_returns (by
    show replay forest (sh.path ++ [_]) [] = _
    rw [replay_append, h]; rcases v with ⟨_ | _ | _ | _, _⟩ <;> rfl)
  handler s sh ev c h := by
    intro l a w l' hr
    have hr : (leafHandler fragile s sh ev c).run l = _ := hr
    unfold leafHandler at hr
    split at hr
    · cases hr
    · split at hr
      · cases l <;> cases hr <;> exact h
      · cases hr; exact h
  supHandler v sh ev c d _ h := by
    intro l a w l' hr
    have hr : (supHandler v sh ev c).run l = _ := hr
    unfold supHandler at hr
    split at hr <;> cases hr <;> exact h
  beforeDispatch sh n ev d _ h := by intro l a w l' hr; cases hr; exact h
  afterDispatch sh n ev d _ h := by intro l a w l' hr; cases hr; exact h
  beforeTransition sh a b d _ h := by intro l a w l' hr; cases hr; exact h
  afterTransition sh a b h := by intro l a w l' hr; cases hr; exact h

end Sample

/-- C68 applies: the log the sample machine keeps in its storage replays to the path of the current state. -/
example {fragile l sm'} (h : History mode (Sample.machine fragile) (stateMachine (Sample.machine fragile) ⟨[], 9⟩) l sm')
    (hne : l ≠ []) (hok : ∀ p ∈ l, p.2.out = .ok ()) :
    replay Sample.forest sm'.shared.path [] = some (Sample.forest.path sm'.state.1) :=
  C68_storage_accounts_for_active_nodes (Sample.follows fragile) (Sample.lawful fragile) (Sample.accounts fragile)
    rfl h hne hok rfl

/-! ## C69 -/

/-- What holds in a world, depending on whether a transition has been requested. -/
def World.Linked (J : S.St → S.M → Prop) (K : S.St → S.St → S.M → Prop) (w : World S) : Prop :=
  match w.pending with
  | some t => K t w.state w.shared
  | none => J w.state w.shared

theorem runs1_links {J : S.St → S.M → Prop} {K : S.St → S.St → S.M → Prop} (hJ : Links mode m J K) {ev w T o w'}
    (h : Runs1 mode m ev w T o w') (h0 : w.Linked J K) : w'.Linked J K := by
  unfold World.Linked at h0 ⊢
  cases h with
  | handler he hp hr => rw [hp] at h0; exact hJ.handler _ _ _ _ h0 _ _ _ _ hr
  | supHandler he hp hv hr => rw [hp] at h0; exact hJ.supHandler _ _ _ _ _ _ _ hv h0 _ _ _ _ hr
  | entry hp hr => rw [hp] at h0 ⊢; exact hJ.entry _ _ _ h0 _ _ _ _ hr
  | supEntry hp hv hr => rw [hp] at h0 ⊢; exact hJ.supEntry _ _ _ _ _ _ hv h0 _ _ _ _ hr
  | exit hp hr =>
    obtain ⟨t, ht⟩ := Option.ne_none_iff_exists'.1 hp
    rw [ht] at h0 ⊢; exact hJ.exit _ _ _ _ h0 _ _ _ _ hr
  | supExit hp hv hr =>
    obtain ⟨t, ht⟩ := Option.ne_none_iff_exists'.1 hp
    rw [ht] at h0 ⊢; exact hJ.supExit _ _ _ _ _ _ _ hv h0 _ _ _ _ hr
  | beforeDispatch he hp hr => rw [hp] at h0 ⊢; exact hJ.beforeDispatch _ _ _ _ h0 _ _ _ _ hr
  | supBeforeDispatch he hp hv hr => rw [hp] at h0 ⊢; exact hJ.beforeDispatch _ _ _ _ h0 _ _ _ _ hr
  | afterDispatch he hr =>
    cases ht : w.pending with
    | none => rw [ht] at h0; exact hJ.afterDispatch _ _ _ _ h0 _ _ _ _ hr
    | some t => rw [ht] at h0; exact hJ.afterDispatch_requested _ _ _ _ _ h0 _ _ _ _ hr
  | supAfterDispatch he hv hr =>
    cases ht : w.pending with
    | none => rw [ht] at h0; exact hJ.afterDispatch _ _ _ _ h0 _ _ _ _ hr
    | some t => rw [ht] at h0; exact hJ.afterDispatch_requested _ _ _ _ _ h0 _ _ _ _ hr
  | beforeTransition hp hr => rw [hp] at h0 ⊢; exact hJ.beforeTransition _ _ _ h0 _ _ _ _ hr
  | afterTransition hp hl hr => rw [hp] at h0 ⊢; exact hJ.afterTransition _ _ _ h0 _ _ _ _ hr

theorem threads_links {J : S.St → S.M → Prop} {K : S.St → S.St → S.M → Prop} (hJ : Links mode m J K) {ev w T o w'}
    (h : Threads mode m ev w T o w') : w.Linked J K → w'.Linked J K := by
  induction h with
  | nil => exact id
  | call h _ ih => exact fun h0 => ih (runs1_links hJ h h0)
  | cut h _ => exact runs1_links hJ h
  | swap hp _ ih =>
    intro h0
    refine ih ?_
    unfold World.Linked at h0 ⊢
    rw [hp] at h0
    exact hJ.made _ _ _ h0

theorem World.Linked.idle {J : S.St → S.M → Prop} {K : S.St → S.St → S.M → Prop} (hJ : Links mode m J K)
    {w : World S} (h : w.Linked J K) : J w.state w.shared := by
  unfold World.Linked at h
  cases ht : w.pending with
  | none => rw [ht] at h; exact h
  | some t => rw [ht] at h; exact hJ.givenUp _ _ _ h

/-- C69, one call of an initialized machine. -/
theorem C69_handle (hF : Follows m F) (hL : Lawful m) {J : S.St → S.M → Prop} {K : S.St → S.St → S.M → Prop}
    (hJ : Links mode m J K) {sm : InitializedStateMachine S} {ev ctx sched c}
    (h : sm.handleWithContext mode m ev ctx sched = some c) (h0 : J sm.state sm.inner.shared) :
    J c.self.state c.self.inner.shared := by
  obtain ⟨w', h1, h2, h3, -⟩ := C34_handle hF hL h
  have := (threads_links hJ h1 h0).idle hJ
  rwa [h2, h3] at this

/-- C69.  If state and shared storage are linked in the initial state, every single callback maintains the link and
handlers only request transitions to states that fit the storage, then they are linked after every history of calls,
whether they returned, panicked or were dropped. -/
theorem C69_state_and_storage_linked (hF : Follows m F) (hL : Lawful m) {J : S.St → S.M → Prop}
    {K : S.St → S.St → S.M → Prop} (hJ : Links mode m J K) {sm sm' : StateMachine S} {l}
    (h : History mode m sm l sm') (h0 : J sm.state sm.shared) : J sm'.state sm'.shared := by
  induction h with
  | nil => exact h0
  | @cons sm cmd c l sm' h _ ih =>
    refine ih ?_
    cases cmd with
    | init ctx sched =>
      obtain ⟨w', h1, h2, h3, -⟩ := C34_init hF hL h
      have := (threads_links hJ h1 h0).idle hJ
      rwa [h2, h3] at this
    | handle ev ctx sched =>
      obtain ⟨w', h1, h2, h3, -⟩ := C34_lazy_handle hF hL h
      have := (threads_links hJ h1 h0).idle hJ
      rwa [h2, h3] at this

namespace Tally

/-- A state that counts events in its local storage, inside a superstate that counts them there as well; the shared
storage counts all events. -/
abbrev sig : Sig where
  M := Nat
  St := Nat
  Sup := Nat
  Ev := Bool
  Ctx := Unit
  In := Unit
  D := Unit
  E := Unit

/-- On `true` both the state's handler and, after a suspension, that of the superstate count; on `false` the
superstate's handler requests to start again at 0.  The exit action panics if the shared storage is odd. -/
def machine : Machine sig where
  initial := 0
  discr _ := ()
  supDiscr _ := ()
  handler n sh ev _ := if ev then .done (n + 1, sh + 1, ()) .super else .done (n, sh, ()) .super
  entry n sh _ := .done (n, sh + 1, ()) ()
  exit n sh _ := if sh % 2 = 1 then .panic (n, sh, ()) else .done (n, sh, ()) ()
  superstate n := some (n, id)
  supHandler n sh ev _ :=
    if ev then .pending (n, sh + 1, ()) fun _ => .done (n + 1, sh + 1, ()) .handled else .done (n, sh, ()) (.transition 0)
  supEntry n sh _ := .done (n, sh, ()) ()
  supExit n sh _ := .done (n, sh, ()) ()
  supSuperstate _ := none
  beforeDispatch sh _ _ := .done sh ()
  afterDispatch sh _ _ := .done sh ()
  beforeTransition sh _ _ := .done sh ()
  afterTransition sh _ _ := .done sh ()
  superstate_back := by intro s v back h; cases h; rfl
  supSuperstate_back := by intro v w back h; cases h

def forest : Forest Unit Unit where
  leafParent _ := some ()
  supParent _ := none
  supAnc _ := []
  supAnc_eq _ := rfl

theorem follows : Follows machine forest where
  leaf _ := rfl
  sup _ := rfl
  leaf_back _ _ _ _ _ _ := rfl
  sup_back _ _ _ _ _ _ := rfl
  handler n sh ev _ := by cases ev <;> exact .done rfl
  entry _ _ _ := .done rfl
  exit n sh _ := by
    show (if sh % 2 = 1 then _ else _ : Fut _ _ _).All _
    split
    · exact .panic rfl
    · exact .done rfl
  supHandler n sh ev _ := by cases ev <;> first | exact .done rfl | exact .pending rfl fun _ => .done rfl
  supEntry _ _ _ := .done rfl
  supExit _ _ _ := .done rfl

theorem lawful : Lawful machine where
  leaf s v back w h _ := by cases h; exact ⟨id, rfl, fun _ _ => rfl⟩
  sup u v back w h _ := by cases h

theorem view_eq {k : Nat} {s v : Nat} {put : Nat → Nat} (h : machine.view k s = some (v, put)) : v = s ∧ put = id := by
  cases k with
  | zero => cases h; exact ⟨rfl, rfl⟩
  | succ k =>
    simp only [Machine.view] at h
    split at h
    · cases h
    · cases h

/-- The local count never exceeds the shared one, and transitions start again at 0. -/
theorem links (mode : Mode) : Links mode machine (fun n sh => n ≤ sh) (fun t n sh => t = 0 ∧ n ≤ sh) where
  handler n sh ev _ h := by
    intro l o w l' hr
    cases ev <;> cases hr <;> simpa [requested] using h
  supHandler k s v put sh ev _ hv h := by
    obtain ⟨rfl, rfl⟩ := view_eq hv
    intro l o w l' hr
    cases ev with
    | false => cases hr; simpa [requested] using h
    | true =>
      cases l with
      | nil => cases hr; exact Nat.le_succ_of_le h
      | cons i l => cases hr; exact Nat.succ_le_succ h
  entry n sh _ h := by intro l o w l' hr; cases hr; exact Nat.le_succ_of_le h
  supEntry k s v put sh _ hv h := by
    obtain ⟨rfl, rfl⟩ := view_eq hv; intro l o w l' hr; cases hr; exact h
  exit t n sh _ h := by
    intro l o w l' hr
    have hr : (if sh % 2 = 1 then .panic (n, sh, ()) else .done (n, sh, ()) () : Fut Unit (Nat × Nat × Unit) Unit).run l
      = _ := hr
    split at hr <;> cases hr <;> exact h
  supExit t k s v put sh _ hv h := by
    obtain ⟨rfl, rfl⟩ := view_eq hv; intro l o w l' hr; cases hr; exact h
  beforeDispatch s sh n ev h := by intro l o w l' hr; cases hr; exact h
  afterDispatch s sh n ev h := by intro l o w l' hr; cases hr; exact h
  afterDispatch_requested t s sh n ev h := by intro l o w l' hr; cases hr; exact h
  beforeTransition t s sh h := by intro l o w l' hr; cases mode <;> cases hr <;> exact h
  afterTransition _ s sh h := by intro l o w l' hr; cases hr; exact h
  made t s sh h := by show t ≤ sh; rw [h.1]; exact Nat.zero_le _
  givenUp t s sh h := h.2

end Tally

/-- C69 applies: whatever happens, the local count never exceeds the shared one. -/
example {l sm'} (h : History mode Tally.machine (stateMachine Tally.machine 0) l sm') : sm'.state ≤ sm'.shared :=
  C69_state_and_storage_linked Tally.follows Tally.lawful (Tally.links mode) h (Nat.le_refl 0)

/-! ## C70 -/

/-- The step is the start of a callback. -/
def Step.isStart {D E V T : Type} : Step D E V T → Bool
  | .returned _ _ => false
  | _ => true

theorem started_length (T : List (Obs S)) : (started T).length = ((m.steps T).filter Step.isStart).length := by
  induction T with
  | nil => rfl
  | cons o T ih =>
    have e : m.steps (o :: T) = m.step o :: m.steps T := rfl
    unfold started at ih ⊢
    rw [e, List.filter_cons, List.filter_cons]
    have : (m.step o).isStart = o.isStart := by cases o <;> rfl
    rw [this]
    split <;> simp [ih]

section
variable {D E V T : Type}

theorem sequentialLog_starts (ev : V) (cl : List (Node D E × Response T)) :
    ((sequentialLog ev cl).filter Step.isStart).length = 3 * cl.length := by
  induction cl with
  | nil => rfl
  | cons p cl ih => simp [sequentialLog, List.filter_cons, Step.isStart, ih]; omega

theorem nestedLog_starts (ev : V) (cl : List (Node D E × Response T)) :
    ((nestedLog ev cl).filter Step.isStart).length = 3 * cl.length := by
  induction cl with
  | nil => rfl
  | cons p cl ih => simp [nestedLog, List.filter_cons, Step.isStart, ih]; omega

theorem dispatchLog_starts (mode : Mode) (ev : V) (cl : List (Node D E × Response T)) :
    ((dispatchLog mode ev cl).filter Step.isStart).length = 3 * cl.length := by
  cases mode with
  | awaitable => exact sequentialLog_starts ev cl
  | blocking =>
    cases cl with
    | nil => rfl
    | cons p cl => simp [dispatchLog, blockingLog, List.filter_cons, Step.isStart, nestedLog_starts]; omega

theorem Climb.length_le {path : List (Node D E)} {cl : List (Node D E × Response T)} (h : Climb path cl) :
    cl.length ≤ path.length := by
  induction h with
  | stop _ => simp
  | top => simp
  | up _ ih => simpa using ih

theorem initLog_starts (F : Forest D E) (d : D) :
    ((initLog (V := V) (T := T) F d).filter Step.isStart).length = (F.path d).length := by
  unfold initLog
  rw [List.filter_eq_self.2]
  · simp
  · intro x hx
    obtain ⟨n, -, rfl⟩ := List.mem_map.1 hx
    rfl

theorem transitionLog_starts [DecidableEq D] [DecidableEq E] (mode : Mode) (F : Forest D E) (d t : D) :
    ((transitionLog (V := V) (T := T) mode F d t).filter Step.isStart).length ≤
      (F.path d).length + (F.path t).length + 2 := by
  obtain ⟨common, h1, h2⟩ := path_split F d t
  refine Nat.le_trans (List.length_filter_le _ _) ?_
  have h1 := congrArg List.length h1
  have h2 := congrArg List.length h2
  simp at h1 h2
  simp [transitionLog]
  omega

theorem exits_nil_of {l : List (Step D E V T)} (h : ∀ x ∈ l, x.ofTransition = false) : exitsOf l = [] := by
  unfold exitsOf
  rw [List.filterMap_eq_nil_iff]
  intro x hx
  have := h x hx
  cases x <;> simp_all [Step.ofTransition]

theorem handlers_prefix {a b : List (Step D E V T)} (h : a <+: b) : handlersOf a <+: handlersOf b := by
  obtain ⟨k, rfl⟩ := h
  rw [handlersOf_append]; exact List.prefix_append _ _

theorem entries_prefix {a b : List (Step D E V T)} (h : a <+: b) : entriesOf a <+: entriesOf b := by
  obtain ⟨k, rfl⟩ := h
  rw [entriesOf_append]; exact List.prefix_append _ _

theorem starts_prefix {a b : List (Step D E V T)} (h : a <+: b) :
    (a.filter Step.isStart).length ≤ (b.filter Step.isStart).length := by
  obtain ⟨c, rfl⟩ := h
  simp

end

/-- C70, one call of an initialized machine.  However it ends, it calls at most one handler per active node of the
state it started in, at most one exit action per such node, and at most one entry action per active node of the state
it ended in.  With the hooks these are at most `3 d` callbacks if no transition was requested, and otherwise at most
`4 d + t + 2`, where `d` and `t` are the numbers of active nodes of the state it started in and of the target. -/
theorem C70_handle_bounded (hF : Follows m F) {sm : InitializedStateMachine S} {ev ctx sched c}
    (h : sm.handleWithContext mode m ev ctx sched = some c) :
    (handlersOf (m.steps c.trace)).length ≤ (F.path (m.discr sm.state)).length ∧
    (exitsOf (m.steps c.trace)).length ≤ (F.path (m.discr sm.state)).length ∧
    (entriesOf (m.steps c.trace)).length ≤ (F.path (m.discr c.self.state)).length ∧
    ((started c.trace).length ≤ 3 * (F.path (m.discr sm.state)).length ∨
      ∃ n t, (n, .transition t) ∈ responsesOf (m.steps c.trace) ∧
        (started c.trace).length ≤ 4 * (F.path (m.discr sm.state)).length + (F.path (m.discr t)).length + 2) := by
  obtain ⟨cl, hc, hph⟩ := handle_phases hF h
  have hcl := hc.length_le
  rw [started_length (m := m)]
  have d1 : (handlersOf (dispatchLog mode ev cl)).length = cl.length := by
    rw [handlersOf_dispatchLog, List.length_map]
  have d2 := exits_nil_of (dispatchLog_ofTransition mode ev cl)
  have d3 := entriesOf_eq_nil_of (dispatchLog_ofTransition mode ev cl)
  have d4 := dispatchLog_starts mode ev cl
  rcases hph with ⟨h1, -, -⟩ | ⟨h1, k, h2, h3, -, h4, h5⟩
  · have a1 := (handlers_prefix h1).length_le
    have a2 := (exitsOf_prefix h1).length_le
    have a3 := (entries_prefix h1).length_le
    have a4 := starts_prefix h1
    rw [d2] at a2
    rw [d3] at a3
    simp only [List.length_nil] at a2 a3
    exact ⟨by omega, by omega, by omega, .inl (by omega)⟩
  · rw [h2, handlersOf_append, exitsOf_append, entriesOf_append, List.filter_append]
    simp only [List.length_append, d1, d2, d3, d4, List.length_nil, Nat.zero_add]
    rcases hl : lastResponse cl with _ | (_ | _ | t)
    case some.transition =>
      have e : tailLog (V := S.Ev) mode F m.discr (m.discr sm.state) cl =
          transitionLog mode F (m.discr sm.state) (m.discr t) := by unfold tailLog; rw [hl]
      rw [e] at h3
      obtain ⟨common, p1, p2⟩ := path_split F (m.discr sm.state) (m.discr t)
      have p1 := congrArg List.length p1
      have p2 := congrArg List.length p2
      simp only [List.length_append, List.length_reverse] at p1 p2
      have a1 := (handlers_prefix h3).length_le
      have a2 := (exitsOf_prefix h3).length_le
      have a3 := (entries_prefix h3).length_le
      have a4 := starts_prefix h3
      have b1 : handlersOf (transitionLog (V := S.Ev) (T := S.St) mode F (m.discr sm.state) (m.discr t)) = [] := by
        cases mode <;> simp [transitionLog, handlersOf, List.filterMap_append, List.filterMap_map, Function.comp_def]
      have b4 := transitionLog_starts (V := S.Ev) (T := S.St) mode F (m.discr sm.state) (m.discr t)
      rw [b1, List.length_nil] at a1
      rw [exitsOf_transitionLog] at a2
      rw [entriesOf_transitionLog] at a3
      refine ⟨by omega, by omega, ?_, .inr ?_⟩
      · by_cases hen : entriesOf k = []
        · rw [hen]; simp
        · obtain ⟨t', q1, q2⟩ := h5 hen
          rw [hl] at q1
          cases q1
          rw [q2]; omega
      · obtain ⟨y, hy, hr⟩ := Option.map_eq_some_iff.1 hl
        refine ⟨y.1, t, ?_, by omega⟩
        rw [← h2, h1, ← hr]
        exact List.mem_of_getLast? hy
    all_goals
      have e : tailLog (V := S.Ev) mode F m.discr (m.discr sm.state) cl = [] := by unfold tailLog; rw [hl]
      rw [e, List.prefix_nil] at h3
      subst h3
      simp
      omega

/-- C70, any call: if no state has more than `n` active nodes then no call makes more than `6 n + 2` callbacks. -/
theorem C70_calls_bounded (hF : Follows m F) {n : Nat} (hn : ∀ d, (F.path d).length ≤ n) {sm : StateMachine S} {cmd c}
    (h : Command.exec mode m sm cmd = some c) : (started c.trace).length ≤ 6 * n + 2 := by
  have hh : ∀ {sm : InitializedStateMachine S} {ev ctx sched d},
      sm.handleWithContext mode m ev ctx sched = some d → (started d.trace).length ≤ 5 * n + 2 := by
    intro sm ev ctx sched d h
    have h1 := hn (m.discr sm.state)
    obtain ⟨-, -, -, (h2 | ⟨-, t, -, h2⟩)⟩ := C70_handle_bounded hF h
    · omega
    · have := hn (m.discr t); omega
  have hi : ∀ {i : Inner S} {ctx sched d}, i.init mode m ctx sched = some d → (started d.trace).length ≤ n := by
    intro i ctx sched d h
    obtain ⟨c', k0, -, k2, -⟩ := init_call hF mode i ctx sched
    obtain rfl : c' = d := by rw [k0] at h; exact Option.some.inj h
    have := starts_prefix k2
    rw [← started_length, initLog_starts] at this
    exact Nat.le_trans this (hn _)
  cases hs : sm.initialized with
  | true =>
    cases cmd with
    | init ctx sched =>
      have h : sm.initWithContext mode m ctx sched = some c := h
      rw [sm_init_initialized hs] at h; cases h; simp [started]
    | handle ev ctx sched =>
      obtain ⟨d, h1, rfl⟩ := (sm_handle_initialized hs ev ctx sched).1 h
      have := hh h1
      show (started d.trace).length ≤ _
      omega
  | false =>
    cases cmd with
    | init ctx sched =>
      obtain ⟨c0, h1, rfl⟩ := (sm_init_uninitialized hs ctx sched).1 h
      have := hi h1
      show (started c0.trace).length ≤ _
      omega
    | handle ev ctx sched =>
      obtain ⟨c0, h1, (⟨h2, rfl⟩ | ⟨h2, d, h3, rfl⟩)⟩ := (sm_handle_uninitialized hs ev ctx sched).1 h
      · have := hi h1
        show (started c0.trace).length ≤ _
        omega
      · have := hi h1
        have := hh h3
        show (started (c0.trace ++ d.trace)).length ≤ _
        rw [started_append, List.length_append]
        omega

/-- C70 applies: no call on the sample machine makes more than 26 callbacks. -/
example {fragile} {sm : StateMachine Sample.sig} {cmd c} (h : Command.exec mode (Sample.machine fragile) sm cmd = some c) :
    (started c.trace).length ≤ 26 :=
  C70_calls_bounded (n := 4) (Sample.follows fragile) (fun d => by cases d <;> decide) h

end Statig
