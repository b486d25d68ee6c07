import Verif.Model.Examples.Calculator
import Verif.Proofs.Examples.Common
import Verif.Props.MacroSample
import Verif.Props.MacroOrder
import Verif.Props.Values
/-!
# The two machines of the example `calculator`

They do the same, up to one text.
-/
namespace Statig.Examples.Calculator
open Statig.Macro

theorem gen_eq : expand Sample.syn Sample.forwards source = .ok gen := by decide +kernel
theorem compiles : gen.Compiles := by decide +kernel

variable {A : Arith}

/-- The generated value for a state. -/
def value : State A → MState A
  | .begin => (mconstructors A).begin
  | .response r => (mconstructors A).result r
  | .zero1 => (mconstructors A).zero1
  | .int1 => (mconstructors A).int1
  | .frac1 => (mconstructors A).frac1
  | .negated1 => (mconstructors A).negated1
  | .opEntered n o => (mconstructors A).opEntered n o
  | .zero2 n o => (mconstructors A).zero2 n o
  | .int2 n o => (mconstructors A).int2 n o
  | .frac2 n o => (mconstructors A).frac2 n o
  | .negated2 n o => (mconstructors A).negated2 n o

/-- The generated value for a superstate. -/
def IsView (u : Val gen.iface.supFields (Field A)) : Superstate A → Prop
  | .ready => u.variant = "Ready"
  | .operand1 => u.variant = "Operand1"
  | .operand2 n o => u.variant = "Operand2" ∧ u.get "operand1" = some (.num n) ∧ u.get "operator" = some (.op o)
  | .on => u.variant = "On"

def sameValues (A : Arith) : Rel (gen.iface.sig (types A)) (sig A) where
  M := Eq
  St s s' := s = value s'
  Sup := IsView
  Ev := Eq
  Ctx := Eq
  In := Eq

theorem set_get {decl : Ident → Option (List Ident)} {V : Type} {s : Val decl V} {x : Ident} {v : V}
    (h : s.get x = some v) : s.set x v = s := by
  obtain ⟨variant, get, ok⟩ := s
  simp only [Val.set, Val.mk.injEq, true_and]
  funext y
  by_cases hy : y = x
  · subst hy; simp [h]; intro; exact h.symm
  · simp [hy]

/-- A response about other states. -/
def mapResponse {St St' : Type} (f : St → St') : Response St → Response St'
  | .handled => .handled
  | .super => .super
  | .transition s => .transition (f s)

/-- A reply about other states. -/
def Reply.map {St St' : Type} (f : St → St') (r : Reply St) : Reply St' := (r.1, r.2.map (mapResponse f))

section
variable (d : Text) (e : Event) (n : A.F32) (o : Operator)

theorem begin_map (minus : Text) : Calculator.begin (mconstructors A) minus d e =
    Reply.map value (Calculator.begin (constructors A) minus d e) := by
  unfold Calculator.begin; split <;> simp [Reply.map, mapResponse, value, constructors]

theorem ready_map : ready (mconstructors A) d e = Reply.map value (ready (constructors A) d e) := by
  unfold ready; split <;> (try split) <;> simp [Reply.map, mapResponse, value, constructors, Function.comp_def]

theorem zero1_map : zero1 (mconstructors A) d e = Reply.map value (zero1 (constructors A) d e) := by
  unfold zero1; split <;> (try split) <;> simp [Reply.map, mapResponse, value, constructors]

theorem int1_map : int1 (mconstructors A) d e = Reply.map value (int1 (constructors A) d e) := by
  unfold int1; split <;> simp [Reply.map, mapResponse, value, constructors]

theorem frac1_map : frac1 d e = Reply.map (value (A := A)) (frac1 d e) := by
  unfold frac1; split <;> simp [Reply.map, mapResponse]

theorem negated1_map : negated1 (mconstructors A) d e = Reply.map value (negated1 (constructors A) d e) := by
  unfold negated1; split <;> (try split) <;> simp [Reply.map, mapResponse, value, constructors]

theorem operand1_map : operand1 (mconstructors A) d e = Reply.map value (operand1 (constructors A) d e) := by
  unfold operand1; split <;> simp [Reply.map, mapResponse, value, constructors, Function.comp_def]

theorem opEntered_map : opEntered (mconstructors A) n o d e = Reply.map value (opEntered (constructors A) n o d e) := by
  unfold opEntered; split <;> (try split) <;> simp [Reply.map, mapResponse, value, constructors]

theorem zero2_map : zero2 (mconstructors A) n o d e = Reply.map value (zero2 (constructors A) n o d e) := by
  unfold zero2; split <;> (try split) <;> simp [Reply.map, mapResponse, value, constructors]

theorem int2_map : int2 (mconstructors A) n o d e = Reply.map value (int2 (constructors A) n o d e) := by
  unfold int2; split <;> simp [Reply.map, mapResponse, value, constructors]

theorem frac2_map : frac2 d e = Reply.map (value (A := A)) (frac2 d e) := by
  unfold frac2; split <;> simp [Reply.map, mapResponse]

theorem negated2_map : negated2 (mconstructors A) n o d e = Reply.map value (negated2 (constructors A) n o d e) := by
  unfold negated2; split <;> (try split) <;> simp [Reply.map, mapResponse, value, constructors]

theorem operand2_map : operand2 (mconstructors A) n o d e = Reply.map value (operand2 (constructors A) n o d e) := by
  unfold operand2; split <;> simp [Reply.map, mapResponse, value, constructors, Function.comp_def]

theorem on_map : on (mconstructors A) d e = Reply.map value (on (constructors A) d e) := by
  unfold on; split <;> simp [Reply.map, mapResponse, value, constructors]

end

theorem response_map (r : Response (State A)) : ResponseRel (sameValues A).St
    (mapResponse value r) r := by
  cases r with
  | handled => exact .handled
  | super => exact .super
  | transition s => exact .transition rfl

/-- A call of a function without fields as parameters. -/
theorem unit_rel {σ σ' : Type} {R : σ → σ' → Prop} {s : σ} {s' : σ'} (h : R s s') (c : Unit) (rest : List (Arg (types A)))
    (w : List (Arg (types A)) → σ × Text × Unit) (r : Reply (State A)) (hw : ∀ d, w (.storage d :: rest) = (s, d, c)) :
    FutRel (sameValues A).In (fun a b => R a.1 b.1 ∧ a.2.1 = b.2.1 ∧ a.2.2 = b.2.2) (ResponseRel (sameValues A).St)
      (Fut.mapWorld w (mreply rest (r.map value))) (reply s' c r) := by
  obtain ⟨d, r⟩ := r
  cases r with
  | none => simp only [Reply.map, mreply, reply, Option.map_none, Fut.mapWorld, hw]; exact .panic ⟨h, rfl, trivial⟩
  | some r => simp only [Reply.map, mreply, reply, Option.map_some, Fut.mapWorld, hw]; exact .done ⟨h, rfl, trivial⟩ (response_map r)


theorem get_unit {variant : Ident} (h : gen.iface.stateFields variant = some []) (x : Ident) :
    (unitState (A := A) variant h).get x = none := rfl

theorem value_unique {s s' : MState A} (h : s.variant = s'.variant) (hg : ∀ x, s.get x = s'.get x) : s = s' :=
  Val.ext (T := types A) h hg

/-- A view of another variant is not written back. -/
theorem view_other {target : VariantPat} {bound : List Ident} {s : MState A} {v : Val gen.iface.supFields (Field A)}
    {back : Val gen.iface.supFields (Field A) → MState A} (h : view (T := types A) gen.iface target bound s = some (v, back))
    {w : Val gen.iface.supFields (Field A)} (hw : w.variant ≠ target.variant) : back w = s := by
  unfold view at h
  split at h
  · cases h
  · split at h
    · cases h
      simp [hw]
    · cases h

theorem unit_superstate {a : Option (Arm (Option VariantPat))} {t : Ident} {p : VariantPat} (s : State A)
    (ha : a = some ⟨p, some ⟨t, []⟩⟩) (ht : gen.iface.supFields t = some [])
    (hv : ∀ w, IsView w (superstate A s) ↔ w.variant = t) (hb : ∀ u, writeBack A s u = s) :
    OptRel (ViewRel (sameValues A).St (sameValues A).Sup)
      (runSuperstate (T := types A) gen.iface a (value s)) ((machine A ['-', '0']).superstate s) := by
  obtain ⟨v, back, h⟩ := view_of (T := types A) (I := gen.iface) (target := ⟨t, []⟩) (bound := p.fields) (s := value s) ht
    ⟨by simp, by simp⟩
  obtain ⟨ns, h1, -, h2, -, h3, h4⟩ := view_some h
  rw [ht] at h1
  cases h1
  subst ha
  simp only [runSuperstate, h]
  refine .some ⟨(hv _).2 h2, fun w w' _ => ?_⟩
  show back w = value (writeBack A s w')
  rw [hb]
  by_cases hw : w.variant = t
  · refine value_unique (h3 w) fun x => ?_
    rw [h4 w hw]; simp
  · exact view_other h hw

theorem op_superstate {a : Option (Arm (Option VariantPat))} {variant : Ident}
    (hf : gen.iface.stateFields variant = some ["operand1", "operator"])
    (ha : a = some ⟨⟨variant, ["operand1", "operator"]⟩, some ⟨"Operand2", ["operand1", "operator"]⟩⟩)
    (f : A.F32 → Operator → State A) (hval : ∀ n o, value (f n o) = opState variant hf n o)
    (hsup : ∀ n o, superstate A (f n o) = .operand2 n o)
    (hb : ∀ n o n' o', writeBack A (f n o) (.operand2 n' o') = f n' o')
    (hb' : ∀ n o u, (∀ n' o', u ≠ .operand2 n' o') → writeBack A (f n o) u = f n o) (n : A.F32) (o : Operator) :
    OptRel (ViewRel (sameValues A).St (sameValues A).Sup)
      (runSuperstate (T := types A) gen.iface a (value (f n o))) ((machine A ['-', '0']).superstate (f n o)) := by
  have ht : gen.iface.supFields "Operand2" = some ["operand1", "operator"] := by decide +kernel
  rw [hval]
  obtain ⟨v, back, h⟩ := view_of (T := types A) (I := gen.iface) (target := ⟨"Operand2", ["operand1", "operator"]⟩)
    (bound := ["operand1", "operator"]) (s := opState variant hf n o) ht ⟨by simp, by simp [opState]⟩
  obtain ⟨ns, h1, -, h2, h3, h4, h5⟩ := view_some h
  rw [ht] at h1
  cases h1
  subst ha
  simp only [runSuperstate, h]
  show OptRel _ _ (some (superstate A (f n o), writeBack A (f n o)))
  rw [hsup]
  refine .some ⟨⟨h2, (h3 _).trans rfl, (h3 _).trans rfl⟩, fun w w' hw => ?_⟩
  show back w = value (writeBack A (f n o) w')
  cases w' with
  | operand2 n' o' =>
    obtain ⟨g0, g1, g2⟩ := hw
    rw [hb, hval]
    refine value_unique (h4 w) fun x => ?_
    rw [h5 w g0]
    by_cases e1 : x = "operand1"
    · subst e1; exact g1
    by_cases e2 : x = "operator"
    · subst e2; exact g2
    simp [e1, e2, opState]
  | ready =>
    rw [hb' _ _ _ (by simp), hval]
    have hw : w.variant = _ := hw
    exact view_other h (by simp [hw])
  | operand1 =>
    rw [hb' _ _ _ (by simp), hval]
    have hw : w.variant = _ := hw
    exact view_other h (by simp [hw])
  | on =>
    rw [hb' _ _ _ (by simp), hval]
    have hw : w.variant = _ := hw
    exact view_other h (by simp [hw])

theorem respects : Respects (sameValues A) (gen.iface.machine (env A)) (machine A ['-', '0']) where
  discr := by
    intro a a' b b' ha hb
    have ha : a = value a' := ha
    have hb : b = value b' := hb
    subst ha; subst hb
    show (value a').variant = (value b').variant ↔ a'.tag = b'.tag
    cases a' <;> cases b' <;> simp [value, State.tag, mconstructors, unitState, resultState, opState]
  supDiscr := by
    intro a a' b b' ha hb
    show a.variant = b.variant ↔ a'.tag = b'.tag
    cases a' <;> cases b' <;> simp [sameValues, IsView] at ha hb <;> simp [ha, hb, Superstate.tag]
  handler := by
    intro s s' x x' e e' c c' hs hx he hc
    have hs : s = value s' := hs
    cases he; cases hc; cases hx; subst hs
    show FutRel _ _ _ ((gen.iface.machine (env A)).handler (value s') x e c) (reply s' c (handler A _ s' x e))
    cases s' with
    | response r =>
      simp only [Iface.machine, value, mconstructors, resultState]
      eval_gen [gen, env, userHandler, source, method, eventArg]
      exact .done ⟨rfl, rfl, rfl⟩ .super
    | begin =>
      simp only [Iface.machine, value, mconstructors, unitState]
      eval_gen [gen, env, userHandler, source, method, eventArg]
      rw [begin_map]
      exact unit_rel (R := (sameValues A).St) rfl c _ _ _ (fun d => rfl)
    | zero1 =>
      simp only [Iface.machine, value, mconstructors, unitState]
      eval_gen [gen, env, userHandler, source, method, eventArg]
      rw [zero1_map]
      exact unit_rel (R := (sameValues A).St) rfl c _ _ _ (fun d => rfl)
    | int1 =>
      simp only [Iface.machine, value, mconstructors, unitState]
      eval_gen [gen, env, userHandler, source, method, eventArg]
      rw [int1_map]
      exact unit_rel (R := (sameValues A).St) rfl c _ _ _ (fun d => rfl)
    | frac1 =>
      simp only [Iface.machine, value, mconstructors, unitState]
      eval_gen [gen, env, userHandler, source, method, eventArg]
      rw [frac1_map]
      exact unit_rel (R := (sameValues A).St) rfl c _ _ _ (fun d => rfl)
    | negated1 =>
      simp only [Iface.machine, value, mconstructors, unitState]
      eval_gen [gen, env, userHandler, source, method, eventArg]
      rw [negated1_map]
      exact unit_rel (R := (sameValues A).St) rfl c _ _ _ (fun d => rfl)
    | opEntered n o =>
      simp only [Iface.machine, value, mconstructors, opState]
      eval_gen [gen, env, userHandler, source, method, eventArg, operand1Arg, operatorArg]
      rw [opEntered_map]
      exact unit_rel (R := (sameValues A).St) rfl c _ _ _ (fun d => Prod.ext ((congrArg (Val.set · _ _) (set_get rfl)).trans (set_get rfl)) rfl)
    | zero2 n o =>
      simp only [Iface.machine, value, mconstructors, opState]
      eval_gen [gen, env, userHandler, source, method, eventArg, operand1Arg, operatorArg]
      rw [zero2_map]
      exact unit_rel (R := (sameValues A).St) rfl c _ _ _ (fun d => Prod.ext ((congrArg (Val.set · _ _) (set_get rfl)).trans (set_get rfl)) rfl)
    | int2 n o =>
      simp only [Iface.machine, value, mconstructors, opState]
      eval_gen [gen, env, userHandler, source, method, eventArg, operand1Arg, operatorArg]
      rw [int2_map]
      exact unit_rel (R := (sameValues A).St) rfl c _ _ _ (fun d => Prod.ext ((congrArg (Val.set · _ _) (set_get rfl)).trans (set_get rfl)) rfl)
    | negated2 n o =>
      simp only [Iface.machine, value, mconstructors, opState]
      eval_gen [gen, env, userHandler, source, method, eventArg, operand1Arg, operatorArg]
      rw [negated2_map]
      exact unit_rel (R := (sameValues A).St) rfl c _ _ _ (fun d => Prod.ext ((congrArg (Val.set · _ _) (set_get rfl)).trans (set_get rfl)) rfl)
    | frac2 n o =>
      simp only [Iface.machine, value, mconstructors, opState]
      eval_gen [gen, env, userHandler, source, method, eventArg]
      rw [frac2_map]
      exact unit_rel (R := (sameValues A).St) rfl c _ _ _ (fun d => rfl)
  entry := by
    intro s s' x x' c c' hs hx hc
    have hs : s = value s' := hs
    subst hs; cases hx; cases hc
    cases s' <;> (simp only [Iface.machine, value, mconstructors, unitState, resultState, opState]
                  eval_gen [gen, env, userAction, source, method, resultArg]) <;>
      first
      | exact .done ⟨rfl, rfl, rfl⟩ rfl
      | exact .done ⟨set_get rfl, rfl, rfl⟩ rfl
  exit := by
    intro s s' x x' c c' hs hx hc
    have hs : s = value s' := hs
    subst hs
    cases s' <;> (simp only [Iface.machine, value, mconstructors, unitState, resultState, opState]; eval_gen [gen]) <;>
      exact .done ⟨rfl, hx, hc⟩ rfl
  superstate := by
    intro s s' hs
    have hs : s = value s' := hs
    subst hs
    show OptRel _ (runSuperstate (T := types A) gen.iface (gen.iface.superstate (value s').variant) (value s')) _
    cases s' with
    | zero2 n o =>
      exact op_superstate (a := gen.iface.superstate "Zero2") (variant := "Zero2") (by decide +kernel) (by decide +kernel) .zero2 (fun _ _ => rfl) (fun _ _ => rfl)
        (fun _ _ _ _ => rfl) (fun _ _ u hu => by cases u <;> first | rfl | exact absurd rfl (hu _ _)) n o
    | int2 n o =>
      exact op_superstate (a := gen.iface.superstate "Int2") (variant := "Int2") (by decide +kernel) (by decide +kernel) .int2 (fun _ _ => rfl) (fun _ _ => rfl)
        (fun _ _ _ _ => rfl) (fun _ _ u hu => by cases u <;> first | rfl | exact absurd rfl (hu _ _)) n o
    | frac2 n o =>
      exact op_superstate (a := gen.iface.superstate "Frac2") (variant := "Frac2") (by decide +kernel) (by decide +kernel) .frac2 (fun _ _ => rfl) (fun _ _ => rfl)
        (fun _ _ _ _ => rfl) (fun _ _ u hu => by cases u <;> first | rfl | exact absurd rfl (hu _ _)) n o
    | begin =>
      exact unit_superstate (a := gen.iface.superstate "Begin") (t := "Ready") (p := ⟨"Begin", []⟩) _ (by decide +kernel) (by decide +kernel) (fun w => Iff.rfl) (fun u => rfl)
    | zero1 =>
      exact unit_superstate (a := gen.iface.superstate "Zero1") (t := "Operand1") (p := ⟨"Zero1", []⟩) _ (by decide +kernel) (by decide +kernel) (fun w => Iff.rfl) (fun u => rfl)
    | int1 =>
      exact unit_superstate (a := gen.iface.superstate "Int1") (t := "Operand1") (p := ⟨"Int1", []⟩) _ (by decide +kernel) (by decide +kernel) (fun w => Iff.rfl) (fun u => rfl)
    | frac1 =>
      exact unit_superstate (a := gen.iface.superstate "Frac1") (t := "Operand1") (p := ⟨"Frac1", []⟩) _ (by decide +kernel) (by decide +kernel) (fun w => Iff.rfl) (fun u => rfl)
    | negated1 =>
      exact unit_superstate (a := gen.iface.superstate "Negated1") (t := "Operand1") (p := ⟨"Negated1", []⟩) _ (by decide +kernel) (by decide +kernel) (fun w => Iff.rfl) (fun u => rfl)
    | response r =>
      exact unit_superstate (a := gen.iface.superstate "Result") (t := "Ready") (p := ⟨"Result", ["result"]⟩) _ (by decide +kernel) (by decide +kernel) (fun w => Iff.rfl) (fun u => rfl)
    | opEntered n o =>
      exact unit_superstate (a := gen.iface.superstate "OpEntered") (t := "On") (p := ⟨"OpEntered", ["operand1", "operator"]⟩) _ (by decide +kernel) (by decide +kernel) (fun w => Iff.rfl) (fun u => rfl)
    | negated2 n o =>
      exact unit_superstate (a := gen.iface.superstate "Negated2") (t := "On") (p := ⟨"Negated2", ["operand1", "operator"]⟩) _ (by decide +kernel) (by decide +kernel) (fun w => Iff.rfl) (fun u => rfl)
  supHandler := by
    intro v v' x x' e e' c c' hv hx he hc
    cases he; cases hc; cases hx
    show FutRel _ _ _ ((gen.iface.machine (env A)).supHandler v x e c) (reply v' c (supHandler A v' x e))
    cases v' with
    | operand2 n o =>
      obtain ⟨h0, h1, h2⟩ := hv
      simp only [Iface.machine, h0]
      eval_gen [gen, env, userHandler, source, method, eventArg, operand1Arg, operatorArg, h1, h2]
      rw [operand2_map]
      exact unit_rel (R := (sameValues A).Sup) (s' := .operand2 n o) ⟨h0, h1, h2⟩ c _ _ _
        (fun d => Prod.ext ((congrArg (Val.set · _ _) (set_get h1)).trans (set_get h2)) rfl)
    | ready =>
      have h0 : v.variant = _ := hv
      simp only [Iface.machine, h0]
      eval_gen [gen, env, userHandler, source, method, eventArg]
      rw [ready_map]
      exact unit_rel (R := (sameValues A).Sup) hv c _ _ _ (fun d => rfl)
    | operand1 =>
      have h0 : v.variant = _ := hv
      simp only [Iface.machine, h0]
      eval_gen [gen, env, userHandler, source, method, eventArg]
      rw [operand1_map]
      exact unit_rel (R := (sameValues A).Sup) hv c _ _ _ (fun d => rfl)
    | on =>
      have h0 : v.variant = _ := hv
      simp only [Iface.machine, h0]
      eval_gen [gen, env, userHandler, source, method, eventArg]
      rw [on_map]
      exact unit_rel (R := (sameValues A).Sup) hv c _ _ _ (fun d => rfl)
  supEntry := by
    intro v v' x x' c c' hv hx hc
    have : v.variant = match v'.tag with
      | .ready => "Ready" | .operand1 => "Operand1" | .operand2 => "Operand2" | .on => "On" := by
      cases v' <;> first | exact hv | exact hv.1
    simp only [Iface.machine, this]
    cases v' <;> eval_gen [gen, Superstate.tag] <;> exact .done ⟨hv, hx, hc⟩ rfl
  supExit := by
    intro v v' x x' c c' hv hx hc
    have : v.variant = match v'.tag with
      | .ready => "Ready" | .operand1 => "Operand1" | .operand2 => "Operand2" | .on => "On" := by
      cases v' <;> first | exact hv | exact hv.1
    simp only [Iface.machine, this]
    cases v' <;> eval_gen [gen, Superstate.tag] <;> exact .done ⟨hv, hx, hc⟩ rfl
  supSuperstate := by
    intro v v' hv
    have ht : gen.iface.supFields "On" = some [] := by decide +kernel
    have key : ∀ t fs, v.variant = t → gen.iface.supSuperstate t = some ⟨⟨t, fs⟩, some ⟨"On", []⟩⟩ →
        OptRel (ViewRel (sameValues A).Sup (sameValues A).Sup)
          (runSuperstate (T := types A) gen.iface (gen.iface.supSuperstate v.variant) v)
          (some (Superstate.on, fun _ => v')) := by
      intro t fs hvt ha
      rw [hvt, ha]
      obtain ⟨v1, back, h⟩ := view_of (T := types A) (I := gen.iface) (target := ⟨"On", []⟩) (bound := fs)
        (s := v) ht ⟨by simp, by simp⟩
      obtain ⟨ns, h1, -, h2, -, h3, h4⟩ := view_some h
      rw [ht] at h1
      cases h1
      simp only [runSuperstate, h]
      refine .some ⟨h2, fun w w' _ => ?_⟩
      show IsView (back w) v'
      have : back w = v := by
        by_cases hw : w.variant = "On"
        · refine Val.ext (T := types A) (h3 w) fun x => ?_
          rw [h4 w hw]; simp
        · unfold view at h
          split at h
          · cases h
          · split at h
            · cases h
              simp [hw]
            · cases h
      rw [this]; exact hv
    cases v' with
    | ready => exact key "Ready" [] hv (by decide +kernel)
    | operand1 => exact key "Operand1" [] hv (by decide +kernel)
    | operand2 n o => exact key "Operand2" ["operand1", "operator"] hv.1 (by decide +kernel)
    | on =>
      have hv : v.variant = _ := hv
      simp only [Iface.machine, hv]
      eval_gen [gen]
      exact .none
  beforeDispatch := by intros; exact .done ‹_› rfl
  afterDispatch := by intros; exact .done ‹_› rfl
  beforeTransition := by intros; exact .done ‹_› rfl
  afterTransition := by intro x x' a a' b b' hx ha hb; exact .done hx rfl

end Statig.Examples.Calculator
