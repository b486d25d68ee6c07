import Verif.Spec.Examples.AsyncIo
import Verif.Proofs.Examples.Common
import Verif.Props.MacroSample
import Verif.Props.MacroOrder
import Verif.Props.Unit
/-!
# The example `async_io`: C89
-/
namespace Statig.Examples.AsyncIo
open Statig.Macro

theorem gen_eq : expand Sample.syn Sample.forwards source = .ok gen := by decide +kernel
theorem compiles : gen.Compiles := by decide +kernel

theorem variant_cases (s : State) : s.variant = "On" ∨ s.variant = "Off" := by
  obtain ⟨ns, h, -⟩ := s.ok
  by_contra hn
  rw [not_or] at hn
  simp [Gen.iface, fieldsOf, gen, Ne.symm hn.1, Ne.symm hn.2] at h

theorem mapWorld_writeAll {W W' α : Type} (f : W → W') (world : List Char → W) (a : α) (rest : List Char) (n : Nat)
    (sent : List Char) :
    (writeAll world a rest n sent).mapWorld f = writeAll (fun x => f (world x)) a rest n sent := by
  induction rest generalizing n sent with
  | nil => rfl
  | cons c rest ih =>
    cases n with
    | succ n => exact ih n _
    | zero =>
      simp only [writeAll, Fut.mapWorld]
      congr 1
      funext i
      cases i with
      | taken more => exact ih more _
      | failed => rfl

/-- What is observed of an attempt to write. -/
structure Wrote (line sent : List Char) (before : List Write) (isOk : Bool) (now : List Char) (after : List Write) :
    Prop where
  ok : isOk = true → now = sent ++ line
  broken : isOk = false → ∃ p, p <+: line ∧ p ≠ line ∧ now = sent ++ p
  suffix : ∃ used, before = used ++ after
  accepts : (∀ w ∈ before, ∃ more, w = .taken more) → line.length ≤ before.length →
    isOk = true ∧ before.length ≤ line.length + after.length

theorem run_writeAll {W α : Type} (world : List Char → W) (a : α) (rest : List Char) (n : Nat) (sent : List Char)
    (l : List Write) :
    ∃ o now l', (writeAll world a rest n sent).run l = (o, world now, l') ∧ Wrote rest sent l o.isOk now l' ∧
      (o.isOk = true → o = .ok a) := by
  induction rest generalizing n sent l with
  | nil =>
    refine ⟨_, _, _, rfl, ⟨fun _ => by simp, fun h => (by cases h), ⟨[], rfl⟩, fun _ _ => ⟨rfl, by simp⟩⟩, fun _ => rfl⟩
  | cons c rest ih =>
    cases n with
    | succ n =>
      obtain ⟨o, now, l', h, hw, ho⟩ := ih n (sent ++ [c]) l
      refine ⟨o, now, l', h, ⟨fun h => ?_, fun h => ?_, hw.suffix, fun h h' => ?_⟩, ho⟩
      · rw [hw.ok h]; simp
      · obtain ⟨p, h1, h2, h3⟩ := hw.broken h
        exact ⟨c :: p, by simpa using h1, by simpa using h2, by rw [h3]; simp⟩
      · simp only [List.length_cons] at h' ⊢
        obtain ⟨h1, h2⟩ := hw.accepts h (by omega)
        exact ⟨h1, by omega⟩
    | zero =>
      cases l with
      | nil =>
        refine ⟨_, sent, _, rfl, ⟨fun h => (by cases h), fun _ => ⟨[], by simp, by simp, by simp⟩, ⟨[], rfl⟩,
          fun _ h => absurd h (by simp)⟩, fun h => by cases h⟩
      | cons i l =>
        cases i with
        | failed =>
          refine ⟨_, sent, _, rfl, ⟨fun h => (by cases h), fun _ => ⟨[], by simp, by simp, by simp⟩, ⟨[.failed], rfl⟩,
            fun h => ?_⟩, fun h => by cases h⟩
          obtain ⟨_, h⟩ := h .failed (by simp)
          cases h
        | taken more =>
          obtain ⟨o, now, l', h, hw, ho⟩ := ih more (sent ++ [c]) l
          refine ⟨o, now, l', h, ⟨fun h => ?_, fun h => ?_, ?_, fun h h' => ?_⟩, ho⟩
          · rw [hw.ok h]; simp
          · obtain ⟨p, h1, h2, h3⟩ := hw.broken h
            exact ⟨c :: p, by simpa using h1, by simpa using h2, by rw [h3]; simp⟩
          · obtain ⟨used, e⟩ := hw.suffix
            exact ⟨.taken more :: used, by rw [e]; rfl⟩
          · simp only [List.length_cons] at h' ⊢
            obtain ⟨h1, h2⟩ := hw.accepts (fun w hw => h w (by simp [hw])) (by omega)
            exact ⟨h1, by omega⟩

theorem superstate_none (s : State) : machine.superstate s = none := by
  rcases variant_cases s with h | h <;> (simp only [machine, Iface.machine, h]; eval_gen [gen])

theorem entry_on (s : State) (hs : s.variant = "On") (sh : List Char) (c : Unit) :
    machine.entry s sh c = writeAll (fun sent => (s, sent, c)) () enteringOn 0 sh := by
  simp only [machine, Iface.machine, hs]
  eval_gen [gen, env, userAction, source, mapWorld_writeAll]
  rfl

theorem entry_off (s : State) (hs : s.variant = "Off") (sh : List Char) (c : Unit) :
    machine.entry s sh c = .done (s, sh, c) () := by
  simp only [machine, Iface.machine, hs]
  eval_gen [gen, env, userAction, source]

theorem exit_eq (s : State) (sh : List Char) (c : Unit) :
    machine.exit s sh c = .done (s, sh, c) () := by
  rcases variant_cases s with h | h <;> (simp only [machine, Iface.machine, h]; eval_gen [gen])

theorem handler_on (s : State) (hs : s.variant = "On") (sh : List Char) (c : Unit) :
    machine.handler s sh .step c = writeAll (fun sent => (s, sent, c)) (.transition off) receivedStep 0 sh := by
  simp only [machine, Iface.machine, hs]
  eval_gen [gen, env, userHandler, source, eventArg]
  exact mapWorld_writeAll _ _ _ _ _ _

theorem handler_off (s : State) (hs : s.variant = "Off") (sh : List Char) (c : Unit) :
    machine.handler s sh .step c = .done (s, sh, c) (.transition off) := by
  simp only [machine, Iface.machine, hs]
  eval_gen [gen, env, userHandler, source, eventArg]
  rfl

abbrev Sg := gen.iface.sig types

theorem init_call (i : Inner Sg) (hs : i.state.variant = "On") (c : Unit) (l : List Write) :
    ∃ r, i.init .awaitable machine c l = some r ∧ r.self.state.variant = "On" ∧
      Wrote hello i.shared l r.out.isOk r.self.shared r.sched := by
  obtain ⟨o, now, l', h, hw, -⟩ := run_writeAll (fun sent => (i.state, sent, c)) () enteringOn 0 i.shared l
  rw [(C80_no_superstates .awaitable superstate_none i c l).1]
  simp only [Inner.run, plainInit, callEntry, Eff.callback, entry_on _ hs, h]
  exact ⟨_, rfl, hs, hw⟩

theorem handle_on (i : Inner Sg) (hs : i.state.variant = "On") (c : Unit) (l : List Write) :
    ∃ r, i.handle .awaitable machine .step c l = some r ∧
      r.self.state.variant = (if r.out.isOk then "Off" else "On") ∧
      Wrote news i.shared l r.out.isOk r.self.shared r.sched := by
  obtain ⟨o, now, l', h, hw, ho⟩ := run_writeAll (fun sent => (i.state, sent, c)) (Response.transition off) receivedStep 0
    i.shared l
  rw [(C80_no_superstates .awaitable superstate_none i c l).2]
  have hb : ∀ sh s, machine.beforeDispatch sh s .step = .done sh () := fun _ _ => rfl
  have ha : ∀ sh s, machine.afterDispatch sh s .step = .done sh () := fun _ _ => rfl
  have hb' : ∀ sh s t, machine.beforeTransition sh s t = .done sh () := fun _ _ _ => rfl
  have ha' : ∀ sh s t, machine.afterTransition sh s t = .done sh () := fun _ _ _ => rfl
  simp only [Inner.run, plainHandle, callHandler, bind, Eff.bind, hookBeforeDispatch, Eff.hook, hb, Fut.run, Eff.callback,
    handler_on _ hs, h]
  cases o with
  | ok a =>
    cases ho rfl
    simp only [Eff.log, pure, Eff.pure, hookAfterDispatch, Eff.hook, ha, Fut.run, Eff.self, hookBeforeTransition, hb',
      callExit, Eff.callback, exit_eq, Eff.swap, callEntry, entry_off off rfl, hookAfterTransition, ha']
    exact ⟨_, rfl, rfl, hw⟩
  | panic => exact ⟨_, rfl, hs, hw⟩
  | stopped => exact ⟨_, rfl, hs, hw⟩

theorem handle_off (i : Inner Sg) (hs : i.state.variant = "Off") (c : Unit) (l : List Write) :
    ∃ r, i.handle .awaitable machine .step c l = some r ∧ r.out = .ok () ∧ r.self.state.variant = "Off" ∧
      r.self.shared = i.shared ∧ r.sched = l := by
  rw [(C80_no_superstates .awaitable superstate_none i c l).2]
  have hb : ∀ sh s, machine.beforeDispatch sh s .step = .done sh () := fun _ _ => rfl
  have ha : ∀ sh s, machine.afterDispatch sh s .step = .done sh () := fun _ _ => rfl
  have hb' : ∀ sh s t, machine.beforeTransition sh s t = .done sh () := fun _ _ _ => rfl
  have ha' : ∀ sh s t, machine.afterTransition sh s t = .done sh () := fun _ _ _ => rfl
  simp only [Inner.run, plainHandle, callHandler, bind, Eff.bind, hookBeforeDispatch, Eff.hook, hb, Fut.run, Eff.callback,
    handler_off _ hs, Eff.log, pure, Eff.pure, hookAfterDispatch, ha, Eff.self, hookBeforeTransition, hb',
      callExit, exit_eq, Eff.swap, callEntry, entry_off off rfl, hookAfterTransition, ha']
  exact ⟨_, rfl, rfl, rfl, rfl, rfl⟩

theorem Attempts.nil (line : List Char) : Attempts line [] := ⟨[], rfl, by simp⟩

theorem Attempts.snoc {line a p : List Char} (h : Attempts line a) (h1 : p <+: line) (h2 : p ≠ line) :
    Attempts line (a ++ p) := by
  obtain ⟨parts, e, hp⟩ := h
  refine ⟨parts ++ [p], by simp [e], fun q hq => ?_⟩
  rcases List.mem_append.mp hq with h | h
  · exact hp q h
  · cases List.mem_singleton.mp h; exact ⟨h1, h2⟩

/-- What a call does, from what it finds (whether the machine is initialized, its state, what the peer has received and
what the operating system is going to answer) to what it leaves (also whether it has returned). -/
inductive Does : Bool → Bool → String → List Char → List Write → Bool → Bool → String → List Char → List Write → Prop where
  | broken {ev sh l sh' l'} : Wrote hello sh l false sh' l' → Does ev false "On" sh l false false "On" sh' l'
  | first {sh l sh' l'} : Wrote hello sh l true sh' l' → Does false false "On" sh l true true "On" sh' l'
  | both {sh l sh1 l1 o sh' l'} : Wrote hello sh l true sh1 l1 → Wrote news sh1 l1 o sh' l' →
      Does true false "On" sh l o true (if o then "Off" else "On") sh' l'
  | idle {v sh l} : Does false true v sh l true true v sh l
  | second {sh l o sh' l'} : Wrote news sh l o sh' l' → Does true true "On" sh l o true (if o then "Off" else "On") sh' l'
  | off {sh l} : Does true true "Off" sh l true true "Off" sh l

theorem exec_does (sm : StateMachine Sg) (h : sm.initialized = true ∨ sm.inner.state.variant = "On") (cmd : Command Sg) :
    ∃ r, cmd.exec .awaitable machine sm = some r ∧
      Does (isHandle cmd) sm.initialized sm.inner.state.variant sm.inner.shared (schedOf cmd) r.out.isOk
        r.self.initialized r.self.inner.state.variant r.self.inner.shared r.sched := by
  obtain ⟨i, b⟩ := sm
  cases cmd with
  | init c l =>
    cases b with
    | true => exact ⟨_, rfl, .idle⟩
    | false =>
      have hs : i.state.variant = "On" := by simpa using h
      obtain ⟨r, e, hv, hw⟩ := init_call i hs c l
      simp only [Command.exec, StateMachine.initWithContext, e, bind, Option.bind, if_true]
      rcases r with ⟨_ | _ | _, rs, _, _, _⟩
      all_goals refine ⟨_, rfl, ?_⟩
      all_goals simp only [hs, isHandle, schedOf] at hv ⊢
      all_goals rw [hv]
      · exact .first hw
      · exact .broken hw
      · exact .broken hw
  | handle ev c l =>
    cases ev
    cases b with
    | true =>
      rcases variant_cases i.state with hs | hs
      · obtain ⟨r, e, hv, hw⟩ := handle_on i hs c l
        simp only [Command.exec, StateMachine.handleWithContext, e, bind, Option.bind, Bool.true_eq_false, if_false]
        refine ⟨_, rfl, ?_⟩
        simp only [hs, isHandle, schedOf, hv]
        exact .second hw
      · obtain ⟨r, e, ho, hv, h1, h2⟩ := handle_off i hs c l
        simp only [Command.exec, StateMachine.handleWithContext, e, bind, Option.bind, Bool.true_eq_false, if_false]
        refine ⟨_, rfl, ?_⟩
        simp only [hs, isHandle, schedOf, hv, ho, h1, h2]
        exact .off
    | false =>
      have hs : i.state.variant = "On" := by simpa using h
      obtain ⟨r, e, hv, hw⟩ := init_call i hs c l
      simp only [Command.exec, StateMachine.handleWithContext, e, bind, Option.bind, if_true]
      rcases r with ⟨_ | _ | _, rs, rc, rl, _⟩
      · obtain ⟨q, e', hv', hw'⟩ := handle_on rs hv rc rl
        simp only [e']
        refine ⟨_, rfl, ?_⟩
        simp only [hs, isHandle, schedOf, hv']
        exact .both hw hw'
      all_goals refine ⟨_, rfl, ?_⟩
      all_goals simp only [hs, isHandle, schedOf] at hv ⊢
      all_goals rw [hv]
      all_goals exact .broken hw

theorem Does.received {ev b v sh l o b' v' sh' l'} (h : Does ev b v sh l o b' v' sh' l') (hr : Received b v sh) :
    Received b' v' sh' := by
  have second : ∀ {a b sh l o sh' l'}, Attempts hello a → Attempts news b → sh = a ++ hello ++ b →
      Wrote news sh l o sh' l' → Received true (if o then "Off" else "On") sh' := by
    intro a b sh l o sh' l' ha hb e hw
    cases o with
    | true => exact ⟨a, b, ha, hb, .inr ⟨rfl, by rw [hw.ok rfl, e]⟩⟩
    | false =>
      obtain ⟨p, h1, h2, h3⟩ := hw.broken rfl
      exact ⟨a, b ++ p, ha, hb.snoc h1 h2, .inl ⟨rfl, by rw [h3, e]; simp⟩⟩
  cases h with
  | broken hw =>
    obtain ⟨p, h1, h2, h3⟩ := hw.broken rfl
    exact ⟨rfl, h3 ▸ hr.2.snoc h1 h2⟩
  | first hw => exact ⟨sh, [], hr.2, .nil _, .inl ⟨rfl, by rw [hw.ok rfl]; simp⟩⟩
  | both hw hw' => exact second hr.2 (.nil _) (by rw [hw.ok rfl]; simp) hw'
  | idle => exact hr
  | second hw =>
    obtain ⟨a, b, ha, hb, ⟨-, e⟩ | ⟨h, -⟩⟩ := hr
    · exact second ha hb e hw
    · exact absurd h (by decide)
  | off => exact hr

theorem Received.initialized {b v sh} (h : Received b v sh) : b = true ∨ v = "On" := by
  cases b with
  | true => exact .inl rfl
  | false => exact .inr h.1

theorem Does.initialized' {ev b v sh l o b' v' sh' l'} (h : Does ev b v sh l o b' v' sh' l') : b' = true ∨ v' = "On" := by
  cases h <;> simp

theorem Does.ok {ev b v sh l o b' v' sh' l'} (h : Does ev b v sh l o b' v' sh' l') (hl : Accepts l) : o = true := by
  have hn : 0 < hello.length := by decide
  cases h with
  | broken hw => exact (hw.accepts hl.1 (by have := hl.2; omega)).1
  | first hw => rfl
  | both hw hw' =>
    obtain ⟨-, h⟩ := hw.accepts hl.1 (by have := hl.2; omega)
    obtain ⟨used, e⟩ := hw.suffix
    exact (hw'.accepts (fun w hw => hl.1 w (by rw [e]; simp [hw])) (by have := hl.2; omega)).1
  | idle => rfl
  | second hw => exact (hw.accepts hl.1 (by have := hl.2; omega)).1
  | off => rfl

theorem calls_received (sm : StateMachine Sg) (hr : Received sm.initialized sm.inner.state.variant sm.inner.shared)
    (cmds : List (Command Sg)) :
    (callAll .awaitable machine sm cmds).length = cmds.length ∧
      ∀ r ∈ callAll .awaitable machine sm cmds,
        Received r.self.initialized r.self.inner.state.variant r.self.inner.shared := by
  induction cmds generalizing sm with
  | nil => exact ⟨rfl, by simp [callAll]⟩
  | cons cmd cmds ih =>
    obtain ⟨r, e, hd⟩ := exec_does sm hr.initialized cmd
    have hr' := hd.received hr
    obtain ⟨h1, h2⟩ := ih r.self hr'
    simp only [callAll, e]
    refine ⟨by simp [h1], fun q hq => ?_⟩
    rcases List.mem_cons.mp hq with rfl | hq
    · exact hr'
    · exact h2 q hq

theorem received_nil : Received (stateMachine machine []).initialized (stateMachine machine []).inner.state.variant
    (stateMachine machine []).inner.shared := ⟨rfl, .nil _⟩

/-- What the peer receives from now on, if nothing is broken off. -/
def rest (initialized : Bool) (variant : String) (cmds : List (Command Sg)) : List Char :=
  (if cmds = [] ∨ initialized then [] else hello) ++ (if variant = "On" ∧ cmds.any isHandle then news else [])

theorem Does.rest {cmd : Command Sg} {b v sh l b' v' sh' l'}
    (h : Does (isHandle cmd) b v sh l true b' v' sh' l') (cmds : List (Command Sg)) :
    sh' ++ rest b' v' cmds = sh ++ rest b v (cmd :: cmds) := by
  generalize he : isHandle cmd = ev at h
  generalize ho : true = o at h
  cases h with
  | broken hw => cases ho
  | first hw => rw [hw.ok rfl]; simp [AsyncIo.rest, he]
  | both hw hw' =>
    cases ho
    rw [hw'.ok rfl, hw.ok rfl]; simp [AsyncIo.rest, he]
  | idle => simp [AsyncIo.rest, he]
  | second hw =>
    cases ho
    rw [hw.ok rfl]; simp [AsyncIo.rest, he]
  | off => simp [AsyncIo.rest]

theorem calls_ok (sm : StateMachine Sg) (hr : sm.initialized = true ∨ sm.inner.state.variant = "On")
    (cmds : List (Command Sg)) (hok : ∀ r ∈ callAll .awaitable machine sm cmds, r.out = .ok ()) :
    ((callAll .awaitable machine sm cmds).getLast?.elim sm.inner.shared (·.self.inner.shared)) =
      sm.inner.shared ++ rest sm.initialized sm.inner.state.variant cmds := by
  induction cmds generalizing sm with
  | nil => simp [callAll, rest]
  | cons cmd cmds ih =>
    obtain ⟨r, e, hd⟩ := exec_does sm hr cmd
    simp only [callAll, e, List.mem_cons, forall_eq_or_imp] at hok
    rw [hok.1] at hd
    have := ih r.self hd.initialized' hok.2
    rw [hd.rest] at this
    simp only [callAll, e]
    rw [← this]
    cases callAll .awaitable machine r.self cmds <;> simp [List.getLast?_cons]

end Statig.Examples.AsyncIo

namespace Statig
open Examples.AsyncIo Statig.Macro

/-- C89, what the peer receives.  In whatever order the macro iterates over its hash maps, it accepts the impl block of
`examples/macro/async_io` and what it generates compiles; and whatever calls are made on the generated machine, whether
they return, panic because the connection fails, or are dropped while they wait for it, after each of them the peer has
received whole lines, in order, once, as far as the state says, apart from beginnings of lines whose sending was broken
off. -/
theorem C89_peer (ord) :
    ∃ g, expand Sample.syn ord source = .ok g ∧ g.Compiles ∧ g.iface = gen.iface ∧
      ∀ cmds, (callAll gen.mode machine (stateMachine machine []) cmds).length = cmds.length ∧
        ∀ r ∈ callAll gen.mode machine (stateMachine machine []) cmds,
          Received r.self.initialized r.self.inner.state.variant r.self.inner.shared := by
  obtain ⟨g, h, -⟩ := C46_items gen_eq ord
  obtain ⟨h1, h2⟩ := C46_behaviour gen_eq h compiles
  exact ⟨g, h, h1, h2, fun cmds => calls_received _ received_nil cmds⟩

/-- C89, without interruptions.  If all calls return, the peer has received exactly the two lines, or the first one if
there was no event. -/
theorem C89_uninterrupted (cmds : List (Command (gen.iface.sig types))) (r)
    (hr : (callAll gen.mode machine (stateMachine machine []) cmds).getLast? = some r)
    (hok : ∀ r ∈ callAll gen.mode machine (stateMachine machine []) cmds, r.out = .ok ()) :
    r.self.inner.shared = expected cmds := by
  have := calls_ok (stateMachine machine []) (.inr rfl) cmds hok
  rw [show Mode.awaitable = gen.mode from rfl, hr] at this
  simpa [stateMachine, rest, expected, show machine.initial.variant = "On" from rfl] using this

/-- C89, progress.  All calls return if the operating system keeps taking bytes, however few at a time. -/
theorem C89_delivers (cmds : List (Command (gen.iface.sig types)))
    (hl : ∀ cmd ∈ cmds, Accepts (schedOf cmd)) :
    ∀ r ∈ callAll gen.mode machine (stateMachine machine []) cmds, r.out = .ok () := by
  suffices ∀ sm : StateMachine (gen.iface.sig types), Received sm.initialized sm.inner.state.variant sm.inner.shared →
      ∀ r ∈ callAll .awaitable machine sm cmds, r.out = .ok () from this _ received_nil
  induction cmds with
  | nil => simp [callAll]
  | cons cmd cmds ih =>
    intro sm hr
    obtain ⟨r, e, hd⟩ := exec_does sm hr.initialized cmd
    simp only [callAll, e, List.mem_cons, forall_eq_or_imp]
    refine ⟨isOk_iff.mp (hd.ok ?_), ih (fun c hc => hl c (by simp [hc])) r.self (hd.received hr)⟩
    exact hl cmd (by simp)

/-- C89, the end.  In the state `Off` an event returns at once, without waiting for anything, and the peer receives
nothing more. -/
theorem C89_off (sm : StateMachine (gen.iface.sig types)) (hi : sm.initialized = true)
    (hs : sm.inner.state.variant = "Off") (cmd : Command (gen.iface.sig types)) :
    ∃ r, cmd.exec gen.mode machine sm = some r ∧ r.out = .ok () ∧ r.self.inner.shared = sm.inner.shared ∧
      r.self.initialized = true ∧ r.self.inner.state.variant = "Off" ∧
      r.sched = schedOf cmd := by
  obtain ⟨r, e, hd⟩ := exec_does sm (.inl hi) cmd
  refine ⟨r, e, ?_⟩
  generalize isHandle cmd = ev at hd
  generalize schedOf cmd = l at hd ⊢
  rw [hi, hs] at hd
  rw [← isOk_iff]
  generalize r.out.isOk = o, r.self.initialized = b, r.self.inner.state.variant = v, r.self.inner.shared = sh,
    r.sched = l' at *
  generalize sm.inner.shared = sh0 at *
  generalize hv : "Off" = v0 at hd
  cases hd with
  | idle => exact ⟨rfl, rfl, rfl, rfl, rfl⟩
  | second => exact absurd hv (by decide)
  | off => exact ⟨rfl, rfl, rfl, rfl, rfl⟩

/-! ## The hypotheses are met -/

/-- An event whose first line is broken off after three bytes; the next event is dropped after the first line and four
bytes of the second; the connection fails for the next; the last two return. -/
def Examples.AsyncIo.rough : List (Command (gen.iface.sig types)) :=
  [.handle .step () [.taken 2], .handle .step () [.taken 6, .taken 6, .taken 3], .handle .step () [.taken 1, .failed],
    .handle .step () [.taken 99], .handle .step () []]

example : (callAll gen.mode machine (stateMachine machine []) rough).map
    (fun r => (r.out, r.self.inner.state.variant, String.ofList r.self.inner.shared)) =
    [(.stopped, "On", "Ent"), (.stopped, "On", "EntEntering `On`\nRece"), (.panic, "On", "EntEntering `On`\nReceRe"),
      (.ok (), "Off", "EntEntering `On`\nReceReReceived `Step`\n"),
      (.ok (), "Off", "EntEntering `On`\nReceReReceived `Step`\n")] := by
  decide +kernel

/-- As in `main`, with an operating system that takes one byte at a time. -/
example : ∀ cmd ∈ List.replicate 2 (.handle .step () (List.replicate 30 (.taken 0)) : Command (gen.iface.sig types)),
    Accepts (schedOf cmd) := by
  intro cmd h
  cases List.eq_of_mem_replicate h
  exact ⟨fun w hw => ⟨0, List.eq_of_mem_replicate hw⟩, by decide⟩

end Statig
