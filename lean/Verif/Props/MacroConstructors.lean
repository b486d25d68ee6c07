import Verif.Proofs.Macro.Calls
import Verif.Props.MacroSample
/-!
# Constructors of states: C45
-/
namespace Statig
open Macro
variable {syn : Syn} {ord : Order} {src : Source} {g : Gen} {T : Types}

theorem defaultOf_find {sm : Macro.StateMachine} (he : sm.eventIdent = src.eventIdent)
    (hcx : sm.contextIdent = src.contextIdent) (mth : Method) (f : Field) :
    fieldInit (mth.inputs.filterMap (defaultOf sm)) f = src.initOf mth f.name := by
  unfold fieldInit Source.initOf
  have hd : defaultAttr = ArgAttr.isDefault := by
    funext a
    cases a <;> rfl
  rw [hd]
  induction mth.inputs with
  | nil => rfl
  | cons a l ih =>
    have skip : ∀ {p : FnArg → Option FieldInit}, defaultOf sm a = none → p a = none →
        (match (List.filterMap (defaultOf sm) l).find? (fun d => f.name == d.ident) with
          | some (.empty _) => FieldInit.default
          | some (.value _ v) => .value v
          | none => .arg) = (l.findSome? p).getD .arg →
        (match (List.filterMap (defaultOf sm) (a :: l)).find? (fun d => f.name == d.ident) with
          | some (.empty _) => FieldInit.default
          | some (.value _ v) => .value v
          | none => .arg) = ((a :: l).findSome? p).getD .arg := by
      intro p h1 h2 h3
      rw [List.filterMap_cons, h1, List.findSome?_cons, h2]
      exact h3
    cases a with
    | receiver => exact skip rfl rfl ih
    | typed attrs pat ty =>
      cases pat with
      | reference => exact skip rfl rfl ih
      | unsupported => exact skip rfl rfl ih
      | ident i =>
        by_cases hi : sm.eventIdent = i ∨ sm.contextIdent = i
        · refine skip (by simp [defaultOf, hi]) ?_ ih
          rw [he, hcx] at hi
          simp only
          rw [if_neg]
          rintro ⟨_, h1, h2⟩
          rcases hi with hi | hi
          · exact h1 hi.symm
          · exact h2 hi.symm
        · have hi' : i ≠ src.eventIdent ∧ i ≠ src.contextIdent := by
            rw [he, hcx] at hi
            exact ⟨fun h => hi (.inl h.symm), fun h => hi (.inr h.symm)⟩
          have e : defaultOf sm (.typed attrs (.ident i) ty) =
              match attrs.find? ArgAttr.isDefault with
              | some .default => some (.empty i)
              | some (.defaultValue (some e)) => some (.value i e)
              | _ => none := by
            unfold defaultOf
            refine (if_neg hi).trans ?_
            rcases attrs.find? ArgAttr.isDefault with _ | (_ | (_ | v) | _ | _ | _) <;> rfl
          by_cases hx : i = f.name
          · rw [List.filterMap_cons, List.findSome?_cons, e]
            simp only [hx, hx ▸ hi', ne_eq, not_false_eq_true, and_self, ↓reduceIte]
            generalize attrs.find? ArgAttr.isDefault = o
            rcases o with _ | (_ | (_ | v) | _ | _ | _)
            · exact ih
            · simp [LocalStorageDefault.ident]
            · exact ih
            · simp [LocalStorageDefault.ident]
            · exact ih
            · exact ih
            · exact ih
          · rw [List.filterMap_cons, List.findSome?_cons, e]
            simp only [hx, false_and, ↓reduceIte]
            have hx' : (f.name == i) = false := by simpa using Ne.symm hx
            generalize attrs.find? ArgAttr.isDefault = o
            rcases o with _ | (_ | (_ | v) | _ | _ | _)
            · exact ih
            · simp only [List.find?_cons, LocalStorageDefault.ident, hx']; exact ih
            · exact ih
            · simp only [List.find?_cons, LocalStorageDefault.ident, hx']; exact ih
            · exact ih
            · exact ih
            · exact ih

theorem lookup_zip {V : Type} (x : Ident) : ∀ (names : List Ident) (args : List V), args.length = names.length →
    (names.zip args).lookup x = args[names.idxOf x]?
  | [], [], _ => rfl
  | n :: names, a :: args, h => by
    rw [List.zip_cons_cons, List.lookup_cons, List.idxOf_cons]
    by_cases hx : n = x
    · simp [hx]
    · have h1 : (x == n) = false := by simpa using Ne.symm hx
      have h2 : (n == x) = false := by simpa using hx
      simp only [h1, h2, cond_false, List.getElem?_cons_succ]
      exact lookup_zip x names args (by simpa using h)

theorem lookup_map {α : Type} {F : Ident → α} (x : Ident) : ∀ (l : List Ident),
    (l.map fun y => (y, F y)).lookup x = if x ∈ l then some (F x) else none
  | [] => rfl
  | y :: l => by
    rw [List.map_cons, List.lookup_cons]
    by_cases hx : x = y
    · simp [hx]
    · have h1 : (x == y) = false := by simpa using hx
      simp only [h1, lookup_map x l, List.mem_cons, hx, false_or]

/-- Every state has a constructor with its name.  It takes the fields without default, in order of declaration, and
makes the state's variant, in which each field is its argument, its default expression (in which the arguments are
visible), or its `Default::default()`.

This is for states with one `#[state]` attribute; see `C45_second_attribute`. -/
theorem C45_constructor (h : expand syn ord src = .ok g) (hc : g.Compiles) {mth : Method} (hm : mth ∈ src.methods)
    (h1 : (mth.attrs.map (·.path)).count "state" = 1) :
    ∃ k ∈ g.constructors, k.name = mth.name ∧ (∀ k' ∈ g.constructors, k'.name = mth.name → k' = k) ∧
      k.args.map (·.name) = src.ctorArgs mth ∧
      ∀ (V : Type) (dflt : Ident → V) (value : Expr → (Ident → Option V) → V) (args : List V),
        args.length = (src.ctorArgs mth).length →
        let arg x := args[(src.ctorArgs mth).idxOf x]?
        k.apply dflt value args = some (variantName syn mth.name, fun x =>
          if x ∈ src.fields "state" mth then
            match src.initOf mth x with
            | .default => some (dflt x)
            | .value e => some (value e arg)
            | .arg => arg x
          else none) := by
  obtain ⟨sm, L, Lp, hg⟩ := genInfo (hc.distinct h) h
  have hk : mth.Has "state" := mem_paths.1 (List.count_pos_iff.1 (by omega))
  obtain ⟨ls, _, hmem, hd, hcon⟩ := hg.stateOf hc hm hk
  obtain ⟨hn, hv, ds, hds, hf, ha⟩ := hcon
  have hds' : ∀ f, fieldInit ds f = src.initOf mth f.name := by
    intro f
    have e : countAttr "state" (mth.attrs.map (·.path)) - 1 = 0 := by
      show (mth.attrs.map (·.path)).count "state" - 1 = 0
      omega
    rw [e, Function.iterate_zero_apply] at hds
    rw [hds]
    exact defaultOf_find hg.machine.eventIdent hg.machine.contextIdent mth f
  have hargs : ls.constructor.args.map (·.name) = src.ctorArgs mth := by
    unfold Source.ctorArgs
    rw [ha, ← hd.lowered.fields, List.filter_map]
    congr 1
    apply List.filter_congr
    intro f _
    simp [hds' f]
  refine ⟨ls.constructor, hg.constructors.mem_iff.2 (List.mem_map.2 ⟨_, hmem, rfl⟩), hn, ?_, hargs, ?_⟩
  · intro k' hk' e
    obtain ⟨⟨n, ls'⟩, hmem', rfl⟩ := List.mem_map.1 (hg.constructors.mem_iff.1 hk')
    obtain ⟨mth', hm', hn', hk', _, hcon'⟩ := hg.statesMap.sound _ _ hmem'
    have : n = mth.name := by rw [← hn', ← hcon'.name, e]
    subst this
    have e1 := (HMap.get_iff hg.statesMap.keys _ _).2 hmem
    have e2 := (HMap.get_iff hg.statesMap.keys _ _).2 hmem'
    rw [e1] at e2
    cases e2
    rfl
  · intro V dflt value args hl
    have hlen : args.length = ls.constructor.args.length := by rw [hl, ← hargs, List.length_map]
    unfold Constructor.apply
    simp only [hlen, ↓reduceIte, hv, Option.some.injEq, Prod.mk.injEq, true_and]
    have hscope : (fun x => ((ls.constructor.args.map (·.name)).zip args).lookup x) =
        fun x => args[(src.ctorArgs mth).idxOf x]? := by
      funext x
      rw [hargs, lookup_zip x _ _ hl]
    have hfields : ls.constructor.fields = (src.fields "state" mth).map fun x => (x, src.initOf mth x) := by
      rw [hf, ← hd.lowered.fields, List.map_map]
      apply List.map_congr_left
      intro f _
      simp [hds' f]
    rw [hscope]
    funext x
    rw [hfields, lookup_map]
    by_cases hx : x ∈ src.fields "state" mth
    · simp only [hx, ↓reduceIte]
      cases src.initOf mth x <;> simp
      exact congrFun hscope x
    · simp [hx]

/-- There are no other constructors. -/
theorem C45_only (h : expand syn ord src = .ok g) (hc : g.Compiles) {k : Constructor} (hk : k ∈ g.constructors) :
    ∃ mth ∈ src.methods, mth.Has "state" ∧ k.name = mth.name ∧ k.variant = variantName syn mth.name := by
  obtain ⟨sm, L, Lp, hg⟩ := genInfo (hc.distinct h) h
  obtain ⟨⟨n, ls⟩, hmem, rfl⟩ := List.mem_map.1 (hg.constructors.mem_iff.1 hk)
  obtain ⟨mth, hm, _, hk, _, hcon⟩ := hg.statesMap.sound _ _ hmem
  exact ⟨mth, hm, hk, hcon.name, hcon.variant⟩

example : ∃ k ∈ Sample.gen.constructors, k.name = "led_on" ∧ k.args.map (·.name) = ["led", "extra"] ∧
    ∀ dflt value, ∃ get, k.apply dflt value [10, 20] = some ("LedOn", get) ∧ get "led" = some 10 ∧
      get "extra" = some 20 ∧ get "counter" = some (dflt "counter") ∧ get "event" = none := by
  obtain ⟨k, hk, hn, _, ha, h⟩ := C45_constructor Sample.gen_eq Sample.compiles (mth := Sample.ledOn)
    (by simp [Sample.source]) (by decide +kernel)
  have e : Sample.source.ctorArgs Sample.ledOn = ["led", "extra"] := by decide +kernel
  have ef : Sample.source.fields "state" Sample.ledOn = ["led", "counter", "extra"] := by decide +kernel
  have i1 : Sample.source.initOf Sample.ledOn "led" = .arg := by decide +kernel
  have i2 : Sample.source.initOf Sample.ledOn "extra" = .arg := by decide +kernel
  have i3 : Sample.source.initOf Sample.ledOn "counter" = .default := by decide +kernel
  have ev : variantName Sample.syn "led_on" = "LedOn" := by decide +kernel
  rw [e] at ha
  refine ⟨k, hk, hn, ha, fun dflt value => ?_⟩
  have h' := h Nat dflt value [10, 20] (by rw [e]; rfl)
  rw [show Sample.ledOn.name = "led_on" from rfl, ev] at h'
  refine ⟨_, h', ?_⟩
  simp [ef, i1, i2, i3, e]

/-- `led_off` takes no arguments; its field is `true`. -/
example : ∃ k ∈ Sample.gen.constructors, k.name = "led_off" ∧
    ∀ dflt (value : Expr → (Ident → Option Nat) → Nat), ∃ get, k.apply dflt value [] = some ("LedOff", get) ∧
      get "led" = some (value "true" fun _ => none) := by
  obtain ⟨k, hk, hn, _, ha, h⟩ := C45_constructor Sample.gen_eq Sample.compiles (mth := Sample.ledOff)
    (by simp [Sample.source]) (by decide +kernel)
  have e : Sample.source.ctorArgs Sample.ledOff = [] := by decide +kernel
  have ef : Sample.source.fields "state" Sample.ledOff = ["led"] := by decide +kernel
  have i1 : Sample.source.initOf Sample.ledOff "led" = .value "true" := by decide +kernel
  have ev : variantName Sample.syn "led_off" = "LedOff" := by decide +kernel
  refine ⟨k, hk, hn, fun dflt value => ?_⟩
  have h' := h Nat dflt value [] (by rw [e]; rfl)
  rw [show Sample.ledOff.name = "led_off" from rfl, ev] at h'
  refine ⟨_, h', ?_⟩
  simp [ef, i1]

/-! ### More than one attribute -/

namespace Macro.Sample

/-- `led_off` with its `#[state(..)]` split into two. -/
def twiceSource : Source where
  args := source.args
  methods := source.methods.map fun mth =>
    if mth.name = "led_off" then { mth with attrs := ⟨"state", none⟩ :: mth.attrs } else mth

theorem twice_ok : accepts forwards twiceSource = true := by decide +kernel

end Macro.Sample

/-- With two `#[state]` attributes the macro accepts the declaration and the code compiles, but the defaults are
lost: the field of `led_off` has to be given as an argument. -/
theorem C45_second_attribute : ∃ g mth, expand Sample.syn Sample.forwards Sample.twiceSource = .ok g ∧ g.Compiles ∧
    mth ∈ Sample.twiceSource.methods ∧ mth.Has "state" ∧ Sample.twiceSource.ctorArgs mth = [] ∧
    ∃ k ∈ g.constructors, k.name = mth.name ∧ k.args.map (·.name) = ["led"] := by
  have hc : (Sample.result _ _ Sample.twice_ok).Compiles := by decide +kernel
  refine ⟨_, { Sample.ledOff with attrs := ⟨"state", none⟩ :: Sample.ledOff.attrs }, Sample.result_eq Sample.twice_ok,
    hc, by decide +kernel, ⟨_, List.mem_cons_self, rfl⟩, by decide +kernel, ?_⟩
  have : ∃ k ∈ (Sample.result _ _ Sample.twice_ok).constructors, k.name = "led_off" ∧
      k.args.map (·.name) = ["led"] := by decide +kernel
  exact this

end Statig
