import Verif.Spec.Examples.Blinky
import Verif.Proofs.Examples.Common
import Verif.Props.Examples.Blinky
import Verif.Props.Tracking
import Verif.Props.Debug
/-!
# What `blinky` and `async_blinky` print: C93
-/
namespace Statig.Examples.Blinky
open Statig.Macro

theorem asyncGen_eq : expand Sample.syn Sample.forwards asyncSource = .ok asyncGen := by decide +kernel
theorem asyncCompiles : asyncGen.Compiles := by decide +kernel

/-- What a hook prints. -/
inductive Line where
  | beforeDispatch (state : StateOrSuperstate State Superstate) (event : Event)
  | afterDispatch (state : StateOrSuperstate State Superstate) (event : Event)
  | beforeTransition (source target : State)
  | afterTransition (source target : State)

instance : DecidableEq (StateOrSuperstate State Superstate)
  | .state a, .state b => decidable_of_iff (a = b) (by simp)
  | .superstate a, .superstate b => decidable_of_iff (a = b) (by simp)
  | .state _, .superstate _ => isFalse (by simp)
  | .superstate _, .state _ => isFalse (by simp)

deriving instance DecidableEq for Line

/-- The hand-written machine, with hooks that record what they are to print; `all` for the awaitable version. -/
abbrev recSig : Sig := { sig with M := List Line }

def recorder (all : Bool) : Machine recSig where
  initial := .ledOn
  discr s := s
  supDiscr v := v
  handler s shared event c := .done (s, shared, c) (handler s event)
  entry s shared c := .done (s, shared, c) ()
  exit s shared c := .done (s, shared, c) ()
  superstate s := (superstate s).map fun v => (v, fun _ => s)
  supHandler v shared event c := .done (v, shared, c) (blinking event)
  supEntry v shared c := .done (v, shared, c) ()
  supExit v shared c := .done (v, shared, c) ()
  supSuperstate _ := none
  beforeDispatch out n e := .done (out ++ [.beforeDispatch n e]) ()
  afterDispatch out n e := .done (if all then out ++ [.afterDispatch n e] else out) ()
  beforeTransition out s t := .done (if all then out ++ [.beforeTransition s t] else out) ()
  afterTransition out s t := .done (out ++ [.afterTransition s t]) ()
  superstate_back := by
    intro s v back h
    cases hs : superstate s with
    | none => simp [hs] at h
    | some w => simp only [hs, Option.map_some, Option.some.injEq, Prod.mk.injEq] at h; rw [← h.2]
  supSuperstate_back := by intro v w back h; cases h

def eventName : Event → String
  | .timerElapsed => "TimerElapsed"
  | .buttonPressed => "ButtonPressed"

def nodeText : StateOrSuperstate State Superstate → List Char
  | .state s => "State(".toList ++ s.shown.toList ++ ")".toList
  | .superstate _ => "Superstate(".toList ++ "Blinking".toList ++ ")".toList

def dispatchText (head : String) (n : StateOrSuperstate State Superstate) (e : Event) : List Char :=
  head.toList ++ " `".toList ++ (eventName e).toList ++ "` to `".toList ++ nodeText n ++ "`".toList

def transitionText (head : String) (s t : State) : List Char :=
  head.toList ++ " from `".toList ++ s.shown.toList ++ "` to `".toList ++ t.shown.toList ++ "`".toList

/-- The text of a line, with its line feed. -/
def Line.text (all : Bool) : Line → List Char
  | .beforeDispatch n e => dispatchText (if all then "before dispatching" else "dispatching") n e ++ ['\n']
  | .afterDispatch n e => dispatchText "after dispatched" n e ++ ['\n']
  | .beforeTransition s t => transitionText "before transitioned" s t ++ ['\n']
  | .afterTransition s t => transitionText (if all then "after transitioned" else "transitioned") s t ++ ['\n']

/-- The states have the same names, and since `before` was written, what is recorded was written. -/
def written (all : Bool) (before : Stdout) : Rel (gen.iface.sig types') recSig where
  M out lines := out = before ++ lines.flatMap (Line.text all)
  St s s' := s.variant = s'.shown
  Sup v _ := v.variant = "Blinking"
  Ev := Eq
  Ctx := Eq
  In := Eq

theorem debug_event (e : Event) (b : Bool) : (e.debug b).text = (eventName e).toList := by cases e <;> rfl

theorem debug_state {A B : Type} (ds : Dbg A) (dv : Dbg B) (a : A) (name : String) (h : ds false a = .write name) :
    ((StateOrSuperstate.state a : StateOrSuperstate A B).debug ds dv false).text = "State(".toList ++ name.toList ++ ")".toList :=
  ((C85_state_or_superstate ds dv false (.state a) (.state a)).1.1 a _ rfl (by rw [h]; exact ⟨rfl, rfl⟩)).2

theorem debug_superstate {A B : Type} (ds : Dbg A) (dv : Dbg B) (a : B) (name : String) (h : dv false a = .write name) :
    ((StateOrSuperstate.superstate a : StateOrSuperstate A B).debug ds dv false).text =
      "Superstate(".toList ++ name.toList ++ ")".toList :=
  ((C85_state_or_superstate ds dv false (.superstate a) (.superstate a)).1.2 a _ rfl (by rw [h]; exact ⟨rfl, rfl⟩)).2

theorem debug_node {all before} {n : StateOrSuperstate (gen.iface.sig types').St (gen.iface.sig types').Sup} {n'}
    (h : (written all before).Node n n') :
    (n.debug variantDebug variantDebug false).text = nodeText n' := by
  cases h with
  | @state s s' h => exact debug_state _ _ s s'.shown (congrArg Printed.write h)
  | @superstate v v' h => exact debug_superstate _ _ v "Blinking" (congrArg Printed.write h)

theorem dispatch_rel {all before} {x x' e} {n : StateOrSuperstate (gen.iface.sig types').St (gen.iface.sig types').Sup} {n'}
    (hx : (written all before).M x x') (hn : (written all before).Node n n') (head : String) (l : Line)
    (hl : l.text all = dispatchText head n' e ++ ['\n']) :
    FutRel (written all before).In (written all before).M Eq (printDispatch head x n e)
      (.done (x' ++ [l]) () : Fut Empty (List Line) Unit) := by
  have hx : x = _ := hx
  refine .done ?_ rfl
  show println x _ = before ++ (x' ++ [l]).flatMap (Line.text all)
  rw [debug_event, debug_node hn]
  simp [println, hl, hx, dispatchText]

theorem transition_rel {all before} {x x'} {a b : (gen.iface.sig types').St} {a' b' : State}
    (hx : (written all before).M x x') (ha : a.variant = a'.shown) (hb : b.variant = b'.shown) (head : String) (l : Line)
    (hl : l.text all = transitionText head a' b' ++ ['\n']) :
    FutRel (written all before).In (written all before).M Eq (printTransition head x a b)
      (.done (x' ++ [l]) () : Fut Empty (List Line) Unit) := by
  have hx : x = _ := hx
  refine .done ?_ rfl
  show println x _ = before ++ (x' ++ [l]).flatMap (Line.text all)
  simp [println, hl, hx, transitionText, variantDebug, ha, hb, Printed.write]

theorem respects' (before : Stdout) : Respects (written false before) printing (recorder false) where
  discr := by
    intro a a' b b' ha hb
    show a.variant = b.variant ↔ a' = b'
    have ha : a.variant = a'.shown := ha
    have hb : b.variant = b'.shown := hb
    rw [ha, hb]
    cases a' <;> cases b' <;> decide
  supDiscr := by
    intro a a' b b' ha hb
    have ha : a.variant = "Blinking" := ha
    have hb : b.variant = "Blinking" := hb
    show a.variant = b.variant ↔ a' = b'
    rw [ha, hb]; cases a'; cases b'; simp
  handler := by
    intro s s' x x' e e' c c' hs hx he hc
    have hs : s.variant = s'.shown := hs
    cases he; cases hc
    cases s' <;> (simp only [printing, Iface.machine, hs, State.shown]; eval_gen [gen, env', userHandler', source, method]) <;>
      cases e <;> exact .done ⟨hs, hx, rfl⟩ (by first | exact .super | exact .transition rfl)
  entry := by
    intro s s' x x' c c' hs hx hc
    have hs : s.variant = s'.shown := hs
    cases s' <;> (simp only [printing, Iface.machine, hs, State.shown]; eval_gen [gen]) <;> exact .done ⟨hs, hx, hc⟩ rfl
  exit := by
    intro s s' x x' c c' hs hx hc
    have hs : s.variant = s'.shown := hs
    cases s' <;> (simp only [printing, Iface.machine, hs, State.shown]; eval_gen [gen]) <;> exact .done ⟨hs, hx, hc⟩ rfl
  superstate := by
    intro s s' hs
    have hs : s.variant = s'.shown := hs
    have key : gen.iface.superstate s.variant = some ⟨⟨s.variant, []⟩, some ⟨"Blinking", []⟩⟩ → superstate s' = some .blinking →
        OptRel (ViewRel (written false before).St (written false before).Sup) (printing.superstate s) ((recorder false).superstate s') := by
      intro h1 h2
      obtain ⟨v, back, h3, h4, h5⟩ := view_unit (I := gen.iface) (T := types') (t := "Blinking") (bound := []) (s := s) rfl
      simp only [printing, Iface.machine, recorder, h1, h2, runSuperstate, h3]
      exact .some ⟨h4, fun w w' _ => (h5 w).trans hs⟩
    cases s'
    case notBlinking =>
      simp only [printing, Iface.machine, hs, State.shown]
      eval_gen [gen]
      exact .none
    all_goals exact key (by rw [hs]; rfl) rfl
  supHandler := by
    intro v v' x x' e e' c c' hv hx he hc
    have hv : v.variant = "Blinking" := hv
    cases he; cases hc
    simp only [printing, Iface.machine, hv]
    eval_gen [gen, env', userHandler', source, method]
    cases e <;> exact .done ⟨hv, hx, rfl⟩ (by first | exact .super | exact .transition rfl)
  supEntry := by
    intro v v' x x' c c' hv hx hc
    have hv : v.variant = "Blinking" := hv
    simp only [printing, Iface.machine, hv]
    eval_gen [gen]
    exact .done ⟨hv, hx, hc⟩ rfl
  supExit := by
    intro v v' x x' c c' hv hx hc
    have hv : v.variant = "Blinking" := hv
    simp only [printing, Iface.machine, hv]
    eval_gen [gen]
    exact .done ⟨hv, hx, hc⟩ rfl
  supSuperstate := by
    intro v v' hv
    have hv : v.variant = "Blinking" := hv
    simp only [printing, Iface.machine, hv]
    eval_gen [gen]
    exact .none
  beforeDispatch := by
    intro x x' n n' e e' hx hn he
    cases he
    exact dispatch_rel hx hn "dispatching" _ rfl
  afterDispatch := by intros; exact .done ‹_› rfl
  beforeTransition := by intro x x' a a' b b' hx ha hb; exact .done hx rfl
  afterTransition := by
    intro x x' a a' b b' hx ha hb
    exact transition_rel hx ha hb "transitioned" _ rfl

/-- The same for the other example. -/
def asyncWritten (before : Stdout) : Rel (asyncGen.iface.sig types') recSig where
  M out lines := out = before ++ lines.flatMap (Line.text true)
  St s s' := s.variant = s'.shown
  Sup v _ := v.variant = "Blinking"
  Ev := Eq
  Ctx := Eq
  In := Eq

theorem asyncRespects (before : Stdout) : Respects (asyncWritten before) asyncPrinting (recorder true) where
  discr := by
    intro a a' b b' ha hb
    show a.variant = b.variant ↔ a' = b'
    have ha : a.variant = a'.shown := ha
    have hb : b.variant = b'.shown := hb
    rw [ha, hb]
    cases a' <;> cases b' <;> decide
  supDiscr := by
    intro a a' b b' ha hb
    have ha : a.variant = "Blinking" := ha
    have hb : b.variant = "Blinking" := hb
    show a.variant = b.variant ↔ a' = b'
    rw [ha, hb]; cases a'; cases b'; simp
  handler := by
    intro s s' x x' e e' c c' hs hx he hc
    have hs : s.variant = s'.shown := hs
    cases he; cases hc
    cases s' <;> (simp only [asyncPrinting, Iface.machine, hs, State.shown]; eval_gen [asyncGen, gen, asyncEnv, userHandler', asyncSource, method]) <;>
      cases e <;> exact .done ⟨hs, hx, rfl⟩ (by first | exact .super | exact .transition rfl)
  entry := by
    intro s s' x x' c c' hs hx hc
    have hs : s.variant = s'.shown := hs
    cases s' <;> (simp only [asyncPrinting, Iface.machine, hs, State.shown]; eval_gen [asyncGen, gen, asyncEnv, asyncSource, method]) <;> exact .done ⟨hs, hx, hc⟩ rfl
  exit := by
    intro s s' x x' c c' hs hx hc
    have hs : s.variant = s'.shown := hs
    cases s' <;> (simp only [asyncPrinting, Iface.machine, hs, State.shown]; eval_gen [asyncGen, gen, asyncEnv, asyncSource, method]) <;> exact .done ⟨hs, hx, hc⟩ rfl
  superstate := by
    intro s s' hs
    have hs : s.variant = s'.shown := hs
    have key : asyncGen.iface.superstate s.variant = some ⟨⟨s.variant, []⟩, some ⟨"Blinking", []⟩⟩ → superstate s' = some .blinking →
        OptRel (ViewRel (asyncWritten before).St (asyncWritten before).Sup) (asyncPrinting.superstate s) ((recorder true).superstate s') := by
      intro h1 h2
      obtain ⟨v, back, h3, h4, h5⟩ := view_unit (I := asyncGen.iface) (T := types') (t := "Blinking") (bound := []) (s := s) rfl
      simp only [asyncPrinting, Iface.machine, recorder, h1, h2, runSuperstate, h3]
      exact .some ⟨h4, fun w w' _ => (h5 w).trans hs⟩
    cases s'
    case notBlinking =>
      simp only [asyncPrinting, Iface.machine, hs, State.shown]
      eval_gen [asyncGen, gen, asyncEnv, asyncSource, method]
      exact .none
    all_goals exact key (by rw [hs]; rfl) rfl
  supHandler := by
    intro v v' x x' e e' c c' hv hx he hc
    have hv : v.variant = "Blinking" := hv
    cases he; cases hc
    simp only [asyncPrinting, Iface.machine, hv]
    eval_gen [asyncGen, gen, asyncEnv, userHandler', asyncSource, method]
    cases e <;> exact .done ⟨hv, hx, rfl⟩ (by first | exact .super | exact .transition rfl)
  supEntry := by
    intro v v' x x' c c' hv hx hc
    have hv : v.variant = "Blinking" := hv
    simp only [asyncPrinting, Iface.machine, hv]
    eval_gen [asyncGen, gen, asyncEnv, asyncSource, method]
    exact .done ⟨hv, hx, hc⟩ rfl
  supExit := by
    intro v v' x x' c c' hv hx hc
    have hv : v.variant = "Blinking" := hv
    simp only [asyncPrinting, Iface.machine, hv]
    eval_gen [asyncGen, gen, asyncEnv, asyncSource, method]
    exact .done ⟨hv, hx, hc⟩ rfl
  supSuperstate := by
    intro v v' hv
    have hv : v.variant = "Blinking" := hv
    simp only [asyncPrinting, Iface.machine, hv]
    eval_gen [asyncGen, gen, asyncEnv, asyncSource, method]
    exact .none
  beforeDispatch := by
    intro x x' n n' e e' hx hn he
    cases he
    exact dispatch_rel (all := true) (before := before) hx hn "before dispatching" _ rfl
  afterDispatch := by
    intro x x' n n' e e' hx hn he
    cases he
    exact dispatch_rel (all := true) (before := before) hx hn "after dispatched" _ rfl
  beforeTransition := by
    intro x x' a a' b b' hx ha hb
    exact transition_rel (all := true) (before := before) hx ha hb "before transitioned" _ rfl
  afterTransition := by
    intro x x' a a' b b' hx ha hb
    exact transition_rel (all := true) (before := before) hx ha hb "after transitioned" _ rfl

/-! ## What is recorded -/

theorem recorder_follows (all : Bool) : Follows (recorder all) ⟨superstate, fun _ => none, fun _ => [], fun _ => rfl⟩ where
  leaf s := by cases s <;> rfl
  sup v := rfl
  leaf_back := by
    intro s v back w h _
    cases hs : superstate s with
    | none => simp [recorder, hs] at h
    | some w =>
      simp only [recorder, hs, Option.map_some, Option.some.injEq, Prod.mk.injEq] at h
      obtain ⟨-, h⟩ := h; subst h; rfl
  sup_back := by intro u v back w h; cases h
  handler s sh ev c := .done rfl
  entry s sh c := .done rfl
  exit s sh c := .done rfl
  supHandler v sh ev c := .done rfl
  supEntry v sh c := .done rfl
  supExit v sh c := .done rfl

def closedPath : State → State → Option (Out (Nat × Nat))
  | .notBlinking, .notBlinking => some (.ok (1, 1))
  | .notBlinking, _ => some (.ok (1, 2))
  | _, .notBlinking => some (.ok (2, 1))
  | _, _ => some (.ok (1, 1))

theorem transitionPath_closed (all : Bool) : transitionPath (recorder all) = closedPath := by
  funext s t
  by_cases h : s = t
  · rw [transitionPath_of_eq s t h]; subst h; cases s <;> rfl
  · rw [transitionPath_of_ne (recorder_follows all) s t h]
    cases s <;> cases t <;> first | rfl | exact absurd rfl h

def closedDepth : State → Option Nat
  | .notBlinking => some 1
  | _ => some 2

theorem depth_closed (all : Bool) : depth (recorder all) = closedDepth := by
  funext s; rw [depth_eq (recorder_follows all) s]; cases s <;> rfl

/-- What is recorded while an event is handled. -/
def recorded (all : Bool) (s : State) (e : Event) : List Line :=
  let dispatch (n : StateOrSuperstate State Superstate) : List Line :=
    .beforeDispatch n e :: if all then [.afterDispatch n e] else []
  dispatch (.state s) ++
    (if s ≠ .notBlinking ∧ e = .buttonPressed then dispatch (.superstate .blinking) else []) ++
    if s.next e = s then [] else
      (if all then [.beforeTransition s (s.next e)] else []) ++ [.afterTransition s (s.next e)]

theorem handle_eq (b : Bool) (s : State) (ev : Event) :
    ∃ c, (⟨⟨[], s⟩, b⟩ : StateMachine recSig).handleWithContext .blocking (recorder false) ev () [] = some c ∧
      c.out = .ok () ∧ c.self.inner.shared = recorded false s ev ∧ c.self.inner.state = s.next ev := by
  simp only [StateMachine.handleWithContext, Inner.handle, Inner.init,
    Blocking.handleEvent, Blocking.handle, Blocking.transition, Blocking.init,
    transitionPath_closed, depth_closed]
  (try rw [Blocking.supHandle])
  apply witness
  cases b <;> cases s <;> cases ev <;> decide +kernel

theorem init_eq (b : Bool) (s : State) :
    ∃ c, (⟨⟨[], s⟩, b⟩ : StateMachine recSig).initWithContext .blocking (recorder false) () [] = some c ∧
      c.out = .ok () ∧ c.self.inner.shared = [] ∧ c.self.inner.state = s := by
  simp only [StateMachine.initWithContext, Inner.init, Blocking.init, depth_closed]
  apply witness
  cases b <;> cases s <;> decide +kernel

theorem async_handle_eq (b : Bool) (s : State) (ev : Event) :
    ∃ c, (⟨⟨[], s⟩, b⟩ : StateMachine recSig).handleWithContext .awaitable (recorder true) ev () [] = some c ∧
      c.out = .ok () ∧ c.self.inner.shared = recorded true s ev ∧ c.self.inner.state = s.next ev := by
  simp only [StateMachine.handleWithContext, Inner.handle, Inner.init,
    Awaitable.handleEvent, Awaitable.handle, Awaitable.transition, Awaitable.init,
    transitionPath_closed, depth_closed]
  (try rw [Awaitable.handleLoop])
  apply witness
  cases b <;> cases s <;> cases ev <;> decide +kernel

theorem async_init_eq (b : Bool) (s : State) :
    ∃ c, (⟨⟨[], s⟩, b⟩ : StateMachine recSig).initWithContext .awaitable (recorder true) () [] = some c ∧
      c.out = .ok () ∧ c.self.inner.shared = [] ∧ c.self.inner.state = s := by
  simp only [StateMachine.initWithContext, Inner.init, Awaitable.init, depth_closed]
  apply witness
  cases b <;> cases s <;> decide +kernel

theorem recorded_text (s : State) (e : Event) : (recorded false s e).flatMap (Line.text false) = text (printed s e) := by
  cases s <;> cases e <;> decide +kernel

theorem asyncRecorded_text (s : State) (e : Event) :
    (recorded true s e).flatMap (Line.text true) = text (asyncPrinted s e) := by
  cases s <;> cases e <;> decide +kernel

/-! ## All calls -/

/-- The call of the recorder that corresponds to a call. -/
def recCommand {I : Iface} : Command (I.sig types') → Command recSig
  | .init c l => .init c l
  | .handle e c l => .handle e c l

theorem calls_written {S : Sig} {mode : Mode} {m : Machine S} {n : Machine recSig} (R : Stdout → Rel S recSig)
    (hM : S.M = Stdout) (variant : S.St → Ident) (event : Command S → Option Event)
    (lines : State → Event → List Line) (txt : Line → List Char)
    (hRM : ∀ before x y, (R before).M x y ↔ cast hM x = before ++ y.flatMap txt)
    (hRSt : ∀ before s t, (R before).St s t ↔ variant s = t.shown)
    (hR : ∀ before, Respects (R before) m n)
    (f : Command S → Command recSig) (hf : ∀ before cmd, (R before).Command cmd (f cmd))
    (hev : ∀ cmd, event cmd = called (f cmd))
    (hinit : ∀ b s, ∃ c, (⟨⟨[], s⟩, b⟩ : StateMachine recSig).initWithContext mode n () [] = some c ∧
      c.out = .ok () ∧ c.self.inner.shared = [] ∧ c.self.inner.state = s)
    (hhandle : ∀ b s ev, ∃ c, (⟨⟨[], s⟩, b⟩ : StateMachine recSig).handleWithContext mode n ev () [] = some c ∧
      c.out = .ok () ∧ c.self.inner.shared = lines s ev ∧ c.self.inner.state = s.next ev)
    (prints : State → Event → List String) (hp : ∀ s e, (lines s e).flatMap txt = text (prints s e))
    (cmds : List (Command S)) (sm : StateMachine S) (s : State) (hs : variant sm.inner.state = s.shown) :
    (callAll mode m sm cmds).map (fun c => (c.out, variant c.self.inner.state, cast hM c.self.inner.shared)) =
      (session prints (cast hM sm.inner.shared) s (cmds.map event)).map fun x => (.ok (), x.1.shown, x.2) := by
  induction cmds generalizing sm s with
  | nil => rfl
  | cons cmd cmds ih =>
    have hsm : (R (cast hM sm.inner.shared)).Machine sm ⟨⟨[], s⟩, sm.initialized⟩ :=
      ⟨⟨(hRM _ _ _).2 (by simp), (hRSt _ _ _).2 hs⟩, rfl⟩
    have hb := exec_bisim (hR _) mode hsm (hf (cast hM sm.inner.shared) cmd)
    have key : ∃ c, (f cmd).exec mode n ⟨⟨[], s⟩, sm.initialized⟩ = some c ∧ c.out = .ok () ∧
        ∃ t o, c.self.inner.state = t ∧ cast hM sm.inner.shared ++ c.self.inner.shared.flatMap txt = o ∧
        ∀ calls, session prints (cast hM sm.inner.shared) s (called (f cmd) :: calls) = (t, o) :: session prints o t calls := by
      cases f cmd with
      | init ctx l =>
        have : l = [] := by cases l with | nil => rfl | cons i _ => exact i.elim
        subst this
        obtain ⟨c, h1, h2, h3, h4⟩ := hinit sm.initialized s
        refine ⟨c, h1, h2, _, _, h4, ?_, fun calls => rfl⟩
        rw [h3]; simp
      | handle ev ctx l =>
        have : l = [] := by cases l with | nil => rfl | cons i _ => exact i.elim
        subst this
        obtain ⟨c, h1, h2, h3, h4⟩ := hhandle sm.initialized s ev
        refine ⟨c, h1, h2, _, _, h4, ?_, fun calls => rfl⟩
        rw [h3, hp]
    obtain ⟨c, h1, h2, t, o, h3, h4, h5⟩ := key
    rw [h1] at hb
    cases he : cmd.exec mode m sm with
    | none => rw [he] at hb; cases hb
    | some d =>
      rw [he] at hb
      cases hb with
      | some hd =>
        have h6 := (hRM _ _ _).1 hd.self.1.1
        have h7 := (hRSt _ _ _).1 hd.self.1.2
        rw [h4] at h6
        rw [h3] at h7
        simp only [callAll, he, List.map_cons, hev, h5, hd.out, h2, ih d.self t h7, h6, h7]

end Statig.Examples.Blinky

namespace Statig
open Examples.Blinky Statig.Macro

/-- C93, `examples/macro/blinky`.  Whatever calls are made on the machine, each returns, and after each the state and
everything that was written to standard output are those of the specification. -/
theorem C93_blinky (cmds : List (Command (gen.iface.sig types'))) (before : Stdout) :
    (callAll .blocking printing (stateMachine printing before) cmds).map
        (fun c => (c.out, c.self.inner.state.variant, c.self.inner.shared)) =
      (session printed before .ledOn (cmds.map called)).map fun x => (.ok (), x.1.shown, x.2) :=
  calls_written (written false) rfl (fun s => s.variant) called (recorded false) (Line.text false)
    (fun _ _ _ => Iff.rfl) (fun _ _ _ => Iff.rfl) respects' recCommand
    (fun before cmd => by
      cases cmd with
      | init c l => exact .init rfl (ListRel.refl (fun _ => rfl) l)
      | handle e c l => exact .handle rfl rfl (ListRel.refl (fun _ => rfl) l))
    (fun cmd => by cases cmd <;> rfl) init_eq handle_eq printed recorded_text cmds _ .ledOn rfl

/-- C93, `examples/macro/async_blinky`.  In whatever order the macro iterates over its hash maps, it accepts the impl
block, and what it generates compiles and does the same. -/
theorem C93_async_accepted (ord) :
    ∃ g, expand Sample.syn ord asyncSource = .ok g ∧ g.Compiles ∧ g.iface = asyncGen.iface := by
  obtain ⟨g, h, -⟩ := C46_items asyncGen_eq ord
  obtain ⟨h1, h2⟩ := C46_behaviour asyncGen_eq h asyncCompiles
  exact ⟨g, h, h1, h2⟩

/-- C93, `examples/macro/async_blinky`, in awaitable mode: the handlers, the action and the hooks may be mixed `async`
and not. -/
theorem C93_async_blinky (cmds : List (Command (asyncGen.iface.sig types'))) (before : Stdout) :
    (callAll .awaitable asyncPrinting (stateMachine asyncPrinting before) cmds).map
        (fun c => (c.out, c.self.inner.state.variant, c.self.inner.shared)) =
      (session asyncPrinted before .ledOn (cmds.map called)).map fun x => (.ok (), x.1.shown, x.2) :=
  calls_written asyncWritten rfl (fun s => s.variant) called (recorded true) (Line.text true)
    (fun _ _ _ => Iff.rfl) (fun _ _ _ => Iff.rfl) asyncRespects recCommand
    (fun before cmd => by
      cases cmd with
      | init c l => exact .init rfl (ListRel.refl (fun _ => rfl) l)
      | handle e c l => exact .handle rfl rfl (ListRel.refl (fun _ => rfl) l))
    (fun cmd => by cases cmd <;> rfl) async_init_eq async_handle_eq asyncPrinted asyncRecorded_text cmds _ .ledOn rfl

/-- The events of `main` in both examples: `examples/macro/blinky/src/main.rs:91-94`,
`examples/macro/async_blinky/src/main.rs:118-121`. -/
example : ((session printed [] .ledOn ([.timerElapsed, .buttonPressed, .timerElapsed, .buttonPressed].map some)).map
      fun x => (x.1, x.2.count '\n')) =
    [(.ledOff, 2), (.notBlinking, 5), (.notBlinking, 6), (.ledOn, 8)] := by decide +kernel

end Statig
