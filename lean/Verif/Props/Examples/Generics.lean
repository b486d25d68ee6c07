import Verif.Spec.Examples.Generics
import Verif.Proofs.Examples.Common
import Verif.Proofs.Hierarchy
import Verif.Props.MacroSample
import Verif.Props.MacroOrder
import Verif.Props.Values
/-!
# The example `generics`: C94
-/
namespace Statig.Examples.Generic
open Statig.Macro

theorem gen_eq : expand Sample.syn Sample.forwards source = .ok gen := by decide +kernel
theorem compiles : gen.Compiles := by decide +kernel

section
variable {T : Type} (debug : Dbg T) (zero : T) (size : Nat)

/-! ## The machine by hand -/

inductive Kind where
  | foo
  | bar
deriving DecidableEq

def kind : Place T → Kind
  | .nothing => .foo
  | .holds _ _ => .bar

abbrev hsig (T : Type) : Sig where
  M := Unit
  St := Place T
  Sup := T
  Ev := Event T
  Ctx := Unit
  In := Empty
  D := Kind
  E := Unit

def hHandler : Place T → Event T → Response (Place T)
  | .nothing, .bar value => .transition (.holds value (List.replicate size zero))
  | .holds _ _, .foo => .transition .nothing
  | _, _ => .super

def hEntry : Place T → Fut Empty (Place T × Unit × Unit) Unit
  | .nothing => .done (.nothing, (), ()) ()
  | .holds v b => if (debug false v).ok then .done (.holds v b, (), ()) () else .panic (.holds v b, (), ())

def hSuper : Place T → Option (T × (T → Place T))
  | .nothing => none
  | .holds v b => some (v, fun v' => .holds v' b)

def hand : Machine (hsig T) where
  initial := .nothing
  discr := kind
  supDiscr _ := ()
  handler s sh e c := .done (s, sh, c) (hHandler zero size s e)
  entry s _ _ := hEntry debug s
  exit s sh c := .done (s, sh, c) ()
  superstate := hSuper
  supHandler v sh _ c := .done (v, sh, c) .super
  supEntry v sh c := .done (v, sh, c) ()
  supExit v sh c := .done (v, sh, c) ()
  supSuperstate _ := none
  beforeDispatch sh _ _ := .done sh ()
  afterDispatch sh _ _ := .done sh ()
  beforeTransition sh _ _ := .done sh ()
  afterTransition sh _ _ := .done sh ()
  superstate_back := by
    intro s v back h
    cases s with
    | nothing => cases h
    | holds v' b => cases h; rfl
  supSuperstate_back := by intro v w back h; cases h

/-- The same data. -/
def same : Rel (gen.iface.sig (types T)) (hsig T) where
  M := Eq
  St s p := s = p.state
  Sup v t := v.variant = "FooAndBar" ∧ ∀ x, v.get x = if x = "value" then some (.value t) else none
  Ev := Eq
  Ctx := Eq
  In := Eq

theorem set_same {decl : Ident → Option (List Ident)} {V : Type} (s : Val decl V) (x : Ident) (v : V) (h : s.get x = some v) :
    s.set x v = s := by
  obtain ⟨n, get, ok⟩ := s
  simp only [Val.set, Val.mk.injEq, true_and]
  funext y
  by_cases hy : y = x
  · subst hy; simp only at h; simp [h]
  · simp [hy]

theorem get_value (v : T) (b : List T) : (stateBar v b).get "value" = some (.value v) := rfl
theorem get_buffer (v : T) (b : List T) : (stateBar v b).get "buffer" = some (.buffer b) := rfl
theorem set_value (v : T) (b : List T) : (stateBar v b).set "value" (.value v) = stateBar v b := set_same _ _ _ rfl
theorem set_buffer (v : T) (b : List T) : (stateBar v b).set "buffer" (.buffer b) = stateBar v b := set_same _ _ _ rfl

theorem foo_variant : (stateFoo : MState T).variant = "Foo" := rfl
theorem bar_variant (v : T) (b : List T) : (stateBar v b).variant = "Bar" := rfl

theorem handler_foo (sh c) (e : Event T) :
    (machine debug zero size).handler stateFoo sh e c = .done (stateFoo, sh, c)
      (match e with | .bar v => .transition (stateBar v (List.replicate size zero)) | .foo => .super) := by
  simp only [machine, Iface.machine, foo_variant]
  eval_gen [gen, env, userHandler, source, eventArg]
  cases e <;> rfl

theorem handler_bar (v b sh c) (e : Event T) :
    (machine debug zero size).handler (stateBar v b) sh e c = .done (stateBar v b, sh, c)
      (match e with | .foo => .transition stateFoo | .bar _ => .super) := by
  simp only [machine, Iface.machine, bar_variant]
  eval_gen [gen, env, userHandler, source, eventArg, get_value, get_buffer]
  have h : ((stateBar v b).set "value" (.value v)).set "buffer" (.buffer b) = stateBar v b :=
    (congrArg (Val.set · "buffer" (.buffer b)) (set_value v b)).trans (set_buffer v b)
  cases e <;> exact congrArg (fun s => Fut.done (s, sh, c) _) h

theorem entry_bar (v : T) (b sh c) :
    (machine debug zero size).entry (stateBar v b) sh c =
      if (debug false v).ok then .done (stateBar v b, sh, c) () else .panic (stateBar v b, sh, c) := by
  simp only [machine, Iface.machine, bar_variant]
  eval_gen [gen, env, userAction, source, get_value]
  cases (debug false v).ok <;> simp [Fut.mapWorld, writeArg]
  all_goals exact congrArg (fun s => (s, sh, c)) (set_value v b)

theorem respects : Respects same (machine debug zero size) (hand debug zero size) where
  discr := by
    rintro a p b q rfl rfl
    show p.state.variant = q.state.variant ↔ kind p = kind q
    cases p <;> cases q <;> simp [Place.state, stateFoo, stateBar, kind]
  supDiscr := by
    intro a a' b b' ha hb
    show a.variant = b.variant ↔ () = ()
    rw [ha.1, hb.1]; simp
  handler := by
    rintro s p x x' e e' c c' rfl hx rfl hc
    cases p with
    | nothing =>
      show FutRel _ _ _ ((machine debug zero size).handler stateFoo x e c) _
      rw [handler_foo]
      cases e with
      | foo => exact .done ⟨rfl, hx, hc⟩ .super
      | bar v => exact .done ⟨rfl, hx, hc⟩ (.transition rfl)
    | holds v b =>
      show FutRel _ _ _ ((machine debug zero size).handler (stateBar v b) x e c) _
      rw [handler_bar]
      cases e with
      | foo => exact .done ⟨rfl, hx, hc⟩ (.transition rfl)
      | bar v => exact .done ⟨rfl, hx, hc⟩ .super
  entry := by
    rintro s p x x' c c' rfl hx hc
    cases p with
    | nothing =>
      show FutRel _ _ _ ((machine debug zero size).entry stateFoo x c) _
      simp only [machine, Iface.machine, foo_variant]
      eval_gen [gen]
      exact .done ⟨rfl, hx, hc⟩ rfl
    | holds v b =>
      show FutRel _ _ _ ((machine debug zero size).entry (stateBar v b) x c) (hEntry debug (.holds v b))
      rw [entry_bar, hEntry]
      split
      · exact .done ⟨rfl, hx, hc⟩ rfl
      · exact .panic ⟨rfl, hx, hc⟩
  exit := by
    rintro s p x x' c c' rfl hx hc
    cases p with
    | nothing =>
      show FutRel _ _ _ ((machine debug zero size).exit stateFoo x c) _
      simp only [machine, Iface.machine, foo_variant]
      eval_gen [gen]
      exact .done ⟨rfl, hx, hc⟩ rfl
    | holds v b =>
      show FutRel _ _ _ ((machine debug zero size).exit (stateBar v b) x c) _
      simp only [machine, Iface.machine, bar_variant]
      eval_gen [gen]
      exact .done ⟨rfl, hx, hc⟩ rfl
  superstate := by
    rintro s p rfl
    cases p with
    | nothing =>
      show OptRel _ ((machine debug zero size).superstate stateFoo) _
      simp only [machine, Iface.machine, foo_variant]
      eval_gen [gen]
      exact .none
    | holds t b =>
      show OptRel _ (runSuperstate (T := types T) gen.iface (gen.iface.superstate "Bar") (stateBar t b)) _
      have h1 : gen.iface.superstate "Bar" = some ⟨⟨"Bar", ["value", "buffer"]⟩, some ⟨"FooAndBar", ["value"]⟩⟩ := by
        decide +kernel
      rw [h1]
      have hn : gen.iface.supFields "FooAndBar" = some ["value"] := by decide +kernel
      obtain ⟨v, back, h⟩ := view_of (T := types T) (I := gen.iface) (target := ⟨"FooAndBar", ["value"]⟩)
        (bound := ["value", "buffer"]) (s := stateBar t b) hn ⟨by simp, by simp [get_value]⟩
      obtain ⟨ns, h2, -, h3, h4, h5, h6⟩ := view_some h
      simp only [runSuperstate, h]
      rw [hn] at h2
      cases h2
      refine .some ⟨⟨h3, fun x => ?_⟩, ?_⟩
      · rw [h4]
        by_cases hx : x = "value"
        · subst hx; rfl
        · simp [hx]
      · rintro w t' ⟨g0, g1⟩
        refine Val.ext (T := types T) (h5 w) fun x => ?_
        rw [h6 w g0, g1]
        show _ = barField t' b x
        by_cases hx : x = "value"
        · subst hx; rfl
        · simp only [List.mem_singleton, hx, if_false]
          show barField t b x = barField t' b x
          simp [barField, hx]
  supHandler := by
    rintro v t x x' e e' c c' ⟨hv, hg⟩ hx rfl hc
    have h := hg "value"
    simp only [if_true] at h
    simp only [machine, Iface.machine, hv]
    eval_gen [gen, env, userHandler, source, valueArg, h]
    exact .done ⟨⟨(congrArg Val.variant (set_same _ _ _ h)).trans hv,
      fun y => (congrArg (fun s => Val.get s y) (set_same _ _ _ h)).trans (hg y)⟩, hx, hc⟩ .super
  supEntry := by
    intro v v' x x' c c' hv hx hc
    simp only [machine, Iface.machine, hv.1]
    eval_gen [gen]
    exact .done ⟨hv, hx, hc⟩ rfl
  supExit := by
    intro v v' x x' c c' hv hx hc
    simp only [machine, Iface.machine, hv.1]
    eval_gen [gen]
    exact .done ⟨hv, hx, hc⟩ rfl
  supSuperstate := by
    intro v v' hv
    simp only [machine, Iface.machine, hv.1]
    eval_gen [gen]
    exact .none
  beforeDispatch := by intros; exact .done ‹_› rfl
  afterDispatch := by intros; exact .done ‹_› rfl
  beforeTransition := by intro x x' a a' b b' hx ha hb; exact .done hx rfl
  afterTransition := by intro x x' a a' b b' hx ha hb; exact .done hx rfl

/-! ## What the machine by hand does -/

/-- The hierarchy of the states. -/
def forest : Forest Kind Unit where
  leafParent k := if k = .bar then some () else none
  supParent _ := none
  supAnc _ := []
  supAnc_eq _ := rfl

theorem follows : Follows (hand debug zero size) forest where
  leaf s := by cases s <;> rfl
  sup v := rfl
  leaf_back := by
    intro s v back w h _
    cases s with
    | nothing => cases h
    | holds v' b => cases h; rfl
  sup_back := by intro u v back w h; cases h
  handler s sh ev c := .done rfl
  entry s sh c := by
    show (hEntry debug s).All _
    cases s with
    | nothing => exact .done rfl
    | holds v b =>
      simp only [hEntry]
      split
      · exact .done rfl
      · exact .panic rfl
  exit s sh c := .done rfl
  supHandler v sh ev c := .done rfl
  supEntry v sh c := .done rfl
  supExit v sh c := .done rfl

theorem path_in (v : T) (b : List T) :
    transitionPath (hand debug zero size) .nothing (.holds v b) = some (.ok (1, 2)) := by
  rw [transitionPath_of_ne (follows debug zero size) _ _ (by intro h; cases h)]; rfl

theorem path_out (v : T) (b : List T) :
    transitionPath (hand debug zero size) (.holds v b) .nothing = some (.ok (2, 1)) := by
  rw [transitionPath_of_ne (follows debug zero size) _ _ (by intro h; cases h)]; rfl

theorem depth_hand (p : Place T) :
    depth (hand debug zero size) p = some (match p with | .nothing => 1 | .holds _ _ => 2) := by
  rw [depth_eq (follows debug zero size) p]; cases p <;> rfl

/-- The values printed by the machine by hand. -/
def hEntered : Obs (hsig T) → Option T
  | .entry (.state (.holds v _)) => some v
  | _ => none

section
variable {debug zero size} (p q : Place T) (n : StateOrSuperstate (Place T) T) (v : T) (u c : Unit) (e : Event T)
theorem h_handler : (hand debug zero size).handler p u e c = .done (p, u, c) (hHandler zero size p e) := rfl
theorem h_entry : (hand debug zero size).entry p u c = hEntry debug p := rfl
theorem h_exit : (hand debug zero size).exit p u c = .done (p, u, c) () := rfl
theorem h_super : (hand debug zero size).superstate p = hSuper p := rfl
theorem h_supHandler : (hand debug zero size).supHandler v u e c = .done (v, u, c) .super := rfl
theorem h_supEntry : (hand debug zero size).supEntry v u c = .done (v, u, c) () := rfl
theorem h_supExit : (hand debug zero size).supExit v u c = .done (v, u, c) () := rfl
theorem h_supSuper : (hand debug zero size).supSuperstate v = none := rfl
theorem h_bd : (hand debug zero size).beforeDispatch u n e = .done u () := rfl
theorem h_ad : (hand debug zero size).afterDispatch u n e = .done u () := rfl
theorem h_bt : (hand debug zero size).beforeTransition u p q = .done u () := rfl
theorem h_at : (hand debug zero size).afterTransition u p q = .done u () := rfl
end

macro "eval_hand" "[" ls:Lean.Parser.Tactic.simpLemma,* "]" : tactic => `(tactic|
  simp [Inner.handle, Inner.init, Blocking.handleEvent, Blocking.handle, Blocking.transition, Blocking.init, Inner.run, bind, Eff.bind,
    hookBeforeDispatch, hookSupBeforeDispatch, hookSupAfterDispatch, Eff.hook, Fut.run, callHandler, callSupHandler, Eff.callback, Eff.log, pure,
    Eff.pure, hookAfterDispatch, Eff.self, hookBeforeTransition, Eff.lift, Eff.swap, hookAfterTransition, Blocking.exit, Blocking.enter,
    Eff.borrow, callExit, callSupExit, callEntry, callSupEntry, Blocking.supEnter, Blocking.supExit, h_handler, h_entry, h_exit, h_super,
    h_supHandler, h_supEntry, h_supExit, h_supSuper, h_bd, h_ad, h_bt, h_at, hHandler, hEntry, hSuper, Out.map, List.filterMap_cons, $ls,*])

theorem handle_hand (p : Place T) (e : Event T) (l : List Empty) :
    ∃ c, (⟨(), p⟩ : Inner (hsig T)).handle .blocking (hand debug zero size) e () l = some c ∧
      c.out = p.outcome debug (some e) ∧ c.self = ⟨(), p.call zero size (some e)⟩ ∧
      c.trace.filterMap hEntered = p.prints (some e) := by
  have hp := path_in debug zero size
  have ho := path_out debug zero size
  cases p with
  | nothing =>
    cases e with
    | foo => exact ⟨_, rfl, rfl, rfl, rfl⟩
    | bar v =>
      cases hd : (debug false v).ok <;> eval_hand [hp, hd, Place.outcome, Place.prints, Place.call] <;> rfl
  | holds v b =>
    cases e with
    | foo => eval_hand [ho, Place.outcome, Place.prints, Place.call] <;> (repeat' apply And.intro) <;> rfl
    | bar v' =>
      simp only [Inner.handle, Blocking.handleEvent, Blocking.handle]
      rw [Blocking.supHandle]
      eval_hand [ho, Place.outcome, Place.prints, Place.call]
      (repeat' apply And.intro) <;> rfl

theorem init_hand (l : List Empty) :
    ∃ c, (⟨(), .nothing⟩ : Inner (hsig T)).init .blocking (hand debug zero size) () l = some c ∧
      c.out = .ok () ∧ c.self = ⟨(), .nothing⟩ ∧ c.trace.filterMap hEntered = [] ∧ c.ctx = () := by
  have hd := depth_hand debug zero size .nothing
  eval_hand [hd]
  rfl

theorem exec_hand (p : Place T) (b : Bool) (hb : b = false → p = .nothing) (cmd : Command (hsig T)) :
    ∃ c, cmd.exec .blocking (hand debug zero size) ⟨⟨(), p⟩, b⟩ = some c ∧
      c.out = p.outcome debug (match cmd with | .init _ _ => none | .handle e _ _ => some e) ∧
      c.self.inner.state = p.call zero size (match cmd with | .init _ _ => none | .handle e _ _ => some e) ∧
      c.trace.filterMap hEntered = p.prints (match cmd with | .init _ _ => none | .handle e _ _ => some e) ∧
      (c.self.initialized = false → c.self.inner.state = .nothing) := by
  cases cmd with
  | init ctx l =>
    simp only [Command.exec, StateMachine.initWithContext]
    cases b with
    | true => refine ⟨_, rfl, ?_, ?_, ?_, ?_⟩ <;> cases p <;> simp [Place.outcome, Place.prints, Place.call]
    | false =>
      cases hb rfl
      obtain ⟨c, h1, h2, h3, h4, -⟩ := init_hand debug zero size l
      simp only [if_true, h1, bind, Option.bind, h2]
      refine ⟨_, rfl, ?_, ?_, ?_, ?_⟩ <;> simp [Place.outcome, Place.prints, Place.call, h3, h4]
  | handle e ctx l =>
    simp only [Command.exec, StateMachine.handleWithContext]
    cases b with
    | true =>
      obtain ⟨c, h1, h2, h3, h4⟩ := handle_hand debug zero size p e l
      simp only [Bool.true_eq_false, if_false]
      rw [show ctx = () from rfl, h1]
      refine ⟨_, rfl, h2, by rw [h3], h4, ?_⟩
      simp
    | false =>
      cases hb rfl
      obtain ⟨c, h1, h2, h3, h4, -⟩ := init_hand debug zero size l
      obtain ⟨d, k1, k2, k3, k4⟩ := handle_hand debug zero size .nothing e c.sched
      simp only [if_true, h1, bind, Option.bind, h2]
      rw [h3, show c.ctx = () from rfl, k1]
      refine ⟨_, rfl, k2, by rw [k3], ?_, ?_⟩
      · simp only [List.filterMap_append, h4, k4, List.nil_append]
      · simp

/-- The call of the machine by hand that corresponds to a call. -/
def hCommand : Command (gen.iface.sig (types T)) → Command (hsig T)
  | .init c l => .init c l
  | .handle e c l => .handle e c l

theorem same_command (cmd : Command (gen.iface.sig (types T))) : same.Command cmd (hCommand cmd) := by
  cases cmd with
  | init c l => exact .init rfl (ListRel.refl (fun _ => rfl) l)
  | handle e c l => exact .handle rfl rfl (ListRel.refl (fun _ => rfl) l)

theorem same_entered {x : Obs (gen.iface.sig (types T))} {y : Obs (hsig T)} (h : same.Obs x y) : entered x = hEntered y := by
  cases h with
  | entry h =>
    cases h with
    | @state s p h =>
      have : s = p.state := h
      subst this
      cases p <;> rfl
    | superstate h => rfl
  | _ => rfl

theorem same_trace {l : List (Obs (gen.iface.sig (types T)))} {l' : List (Obs (hsig T))} (h : ListRel same.Obs l l') :
    l.filterMap entered = l'.filterMap hEntered := by
  induction h with
  | nil => rfl
  | cons h _ ih => simp only [List.filterMap_cons, same_entered h, ih]

theorem calls_eq (cmds : List (Command (gen.iface.sig (types T)))) (sm : StateMachine (gen.iface.sig (types T))) (p : Place T)
    (hs : sm.inner.state = p.state) (hp : sm.initialized = false → p = .nothing) :
    (callAll .blocking (machine debug zero size) sm cmds).map
        (fun c => (c.out, c.self.inner.state, c.trace.filterMap entered)) =
      p.calls debug zero size (cmds.map called) := by
  induction cmds generalizing sm p with
  | nil => rfl
  | cons cmd cmds ih =>
    have hsm : same.Machine sm ⟨⟨(), p⟩, sm.initialized⟩ := ⟨⟨rfl, hs⟩, rfl⟩
    have hb := exec_bisim (respects debug zero size) .blocking hsm (same_command cmd)
    obtain ⟨c, h1, h2, h3, h4, h5⟩ := exec_hand debug zero size p sm.initialized hp (hCommand cmd)
    have hcall : (match hCommand cmd with | .init _ _ => none | .handle e _ _ => some e : Option (Event T)) = called cmd := by
      cases cmd <;> rfl
    rw [hcall] at h2 h3 h4
    rw [h1] at hb
    cases he : cmd.exec .blocking (machine debug zero size) sm with
    | none => rw [he] at hb; cases hb
    | some d =>
      rw [he] at hb
      cases hb with
      | some hd =>
        have h6 : d.self.inner.state = c.self.inner.state.state := hd.self.1.2
        have h7 : d.self.initialized = c.self.initialized := hd.self.2
        rw [h3] at h5 h6
        simp only [callAll, he, List.map_cons, Place.calls, hd.out, h2, h6, same_trace hd.trace, h4]
        rw [ih d.self (p.call zero size (called cmd)) h6 (by rw [h7]; exact h5)]

end

/-- The generated function `bar`. -/
def barConstructor : Constructor := ⟨"bar", [⟨"value", .path "T" .nil⟩, ⟨"buffer", array⟩], "Bar", [("value", .arg), ("buffer", .arg)]⟩

theorem bar_eq {T : Type} (v : T) (b : List T) (dflt value) :
    barConstructor.apply dflt value [.value v, .buffer b] = some ((stateBar v b).variant, (stateBar v b).get) := by
  show some ("Bar", _) = some ("Bar", barField v b)
  refine congrArg (fun f => some ("Bar", f)) (funext fun x => ?_)
  unfold barField
  by_cases h1 : x = "value"
  · subst h1; rfl
  · by_cases h2 : x = "buffer"
    · subst h2; rfl
    · rw [if_neg h1, if_neg h2]
      simp only [barConstructor, List.lookup]
      rw [show (x == "value") = false by simpa using h1, show (x == "buffer") = false by simpa using h2]

theorem constructors_eq : gen.constructors = [⟨"foo", [], "Foo", []⟩, barConstructor] := by decide +kernel

end Statig.Examples.Generic

namespace Statig
open Examples.Generic Statig.Macro

/-- C94.  In whatever order the macro iterates over its hash maps, it accepts the impl block, which has type, constant and
lifetime parameters; what it generates compiles and does the same; the type of the states keeps the parameters that its
fields use, and the generated functions `foo` and `bar` make the states. -/
theorem C94_accepted (ord) :
    ∃ g, expand Sample.syn ord source = .ok g ∧ g.Compiles ∧ g.iface = gen.iface ∧
      g.stateGenerics = [.type "T" [], .const "SIZE" "usize"] ∧
      (∃ k ∈ g.constructors, k.name = "foo" ∧
        ∀ (T : Type) (dflt : Ident → Examples.Generic.Field T) (value),
          k.apply dflt value [] = some ((stateFoo : MState T).variant, (stateFoo : MState T).get)) ∧
      ∃ k ∈ g.constructors, k.name = "bar" ∧
        ∀ (T : Type) (dflt : Ident → Examples.Generic.Field T) (value) (v : T) (b : List T),
          k.apply dflt value [.value v, .buffer b] = some ((stateBar v b).variant, (stateBar v b).get) := by
  obtain ⟨g, h, h'⟩ := C46_items gen_eq ord
  obtain ⟨h1, h2⟩ := C46_behaviour gen_eq h compiles
  have hc := h'.constructors
  rw [constructors_eq] at hc
  refine ⟨g, h, h1, h2, ?_, ⟨_, hc.subset (.head _), rfl, fun T dflt value => rfl⟩,
    ⟨_, hc.subset (.tail _ (.head _)), rfl, fun T dflt value v b => bar_eq v b dflt value⟩⟩
  exact h'.stateGenerics.symm

/-- C94.  Whatever the parameters are, and whatever calls are made on the machine, each returns, with the outcome, the
state and the printed values of the specification. -/
theorem C94_generics {T : Type} (debug : Dbg T) (zero : T) (size : Nat) (cmds : List (Command (gen.iface.sig (types T)))) :
    (callAll .blocking (machine debug zero size) (stateMachine (machine debug zero size) ()) cmds).map
        (fun c => (c.out, c.self.inner.state, c.trace.filterMap entered)) =
      Place.calls debug zero size .nothing (cmds.map called) :=
  calls_eq debug zero size cmds _ .nothing rfl fun _ => rfl

/-- The machine of `main`, where `T` is `Option<()>` and `SIZE` 45, and its event
(`examples/macro/generics/src/main.rs:58-63`): it prints the value, and the state has the value and the buffer. -/
example : (callAll .blocking (machine (fun _ _ => ⟨['N'], true⟩) (none : Option Unit) 45)
      (stateMachine (machine (fun _ _ => ⟨['N'], true⟩) none 45) ()) [.handle (.bar none) () []]).map
        (fun c => (c.out, c.self.inner.state, c.trace.filterMap entered)) =
    [(.ok (), stateBar none (List.replicate 45 none), [none])] := C94_generics _ _ _ _

end Statig
