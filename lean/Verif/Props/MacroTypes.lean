import Verif.Proofs.Macro.Types
import Verif.Props.MacroSample
/-!
# Types of fields (C51), what is left of the methods (C52), settings of the enums (C53), generic parameters (C54)
-/
namespace Statig
open Macro
variable {syn : Syn} {ord : Order} {src : Source} {g : Gen}

/-! ## A declaration with generic parameters -/

namespace Macro.Sample

/-- A reference to `name<args>`. -/
def refToArgs (name : Ident) (args : Args) : Ty := .ref none true (.path name args)

/-- ```ignore
#[state(local_storage("extra: u8", "item: Box<T>"))]
fn fill(&mut self, #[default] #[doc] #[cfg] item: &mut T, slots: &mut Array<T, N>, text: &mut Text<'a>) { .. }
``` -/
def fill : Method where
  name := "fill"
  attrs := [⟨"state", some [⟨"superstate", .lit "owner"⟩,
    ⟨"local_storage", .fields [some ⟨"extra", .path "u8" .nil⟩,
      some ⟨"item", .path "Box" (.ty (.path "T" .nil) .nil)⟩]⟩]⟩]
  generic := false
  isAsync := false
  inputs := [selfArg,
    .typed [.default, .other "doc", .other "cfg"] (.ident "item") (refTo "T"),
    .typed [] (.ident "slots") (refToArgs "Array" (.ty (.path "T" .nil) (.ty (.path "N" .nil) .nil))),
    .typed [] (.ident "text") (refToArgs "Text" (.lifetime "a" .nil))]

/-- `#[superstate] fn owner(&mut self, text: &Text<'a>) { .. }` -/
def owner : Method where
  name := "owner"
  attrs := [⟨"superstate", none⟩]
  generic := false
  isAsync := false
  inputs := [selfArg, .typed [] (.ident "text") (.ref none false (.path "Text" (.lifetime "a" .nil)))]

/-- ```ignore
#[state_machine(initial = "Mode::fill(..)", visibility = "pub(crate)", state(name = "Mode", derive(Debug, Clone), derive(Eq)),
    superstate(derive(Debug)))]
impl<'a, 'b: 'a, T: Clone, U, const N: usize> Machine<'a, 'b, T, U, N> where T: Copy { .. }
``` -/
def genericSource : Source where
  selfTy := .path "Machine" (.lifetime "a" (.lifetime "b" (.ty (.path "T" .nil) (.ty (.path "U" .nil)
    (.ty (.path "N" .nil) .nil)))))
  generics := ⟨[.lifetime "a" [], .lifetime "b" ["a"], .type "T" ["Clone"], .type "U" [], .const "N" "usize"],
    [.type (.path "T" .nil) ["Copy"]]⟩
  args := [⟨"initial", .lit "Mode::fill(..)"⟩, ⟨"visibility", .lit "pub(crate)"⟩,
    ⟨"state", .list (some [.name (.lit "Mode"), .derive (some ["Debug", "Clone"]), .derive (some ["Eq"])])⟩,
    ⟨"superstate", .list (some [.derive (some ["Debug"])])⟩]
  methods := [fill, owner]

theorem generic_ok : accepts backwards genericSource = true := by decide +kernel

/-- The generated code. -/
def genericGen : Gen := result backwards genericSource generic_ok

theorem generic_eq : expand Sample.syn backwards genericSource = .ok genericGen := result_eq generic_ok

theorem generic_compiles : genericGen.Compiles := by decide +kernel

end Macro.Sample

/-! ## C51 -/

/-- The variant of a state has its local storage fields, in order, with the declared types. -/
theorem C51_state_fields (h : expand syn ord src = .ok g) (hc : g.Compiles) {mth : Method} (hm : mth ∈ src.methods)
    (hk : mth.Has "state") : ∃ v ∈ g.states, v.name = variantName syn mth.name ∧
      List.Forall₂ (fun x f => f.name = x ∧ src.fieldTy "state" mth x = some f.ty) (src.fields "state" mth) v.fields := by
  obtain ⟨sm, L, Lp, hg⟩ := genInfo (hc.distinct h) h
  obtain ⟨ls, _, hls, hd, _⟩ := hg.stateOf hc hm hk
  have hv : ls.variant ∈ g.states := hg.states.mem_iff.2 (List.mem_map.2 ⟨_, hls, rfl⟩)
  refine ⟨ls.variant, hv, hd.lowered.variantName, ?_⟩
  have hn := hc.stateFields _ hv
  rw [hd.lowered.fields] at hn
  have ht := hd.lowered.types (params_nodup hn)
  rw [← hd.lowered.fields, List.forall₂_map_left_iff]
  exact List.forall₂_same.2 fun f hf => ⟨rfl, ht f hf⟩

/-- The variant of a superstate has its local storage fields, in order, with the declared types. -/
theorem C51_superstate_fields (h : expand syn ord src = .ok g) (hc : g.Compiles) {mth : Method}
    (hm : mth ∈ src.methods) (hk : mth.Has "superstate") : ∃ v ∈ g.superstates, v.name = variantName syn mth.name ∧
      List.Forall₂ (fun x f => f.name = x ∧ src.fieldTy "superstate" mth x = some f.ty)
        (src.fields "superstate" mth) v.fields := by
  obtain ⟨sm, L, Lp, hg⟩ := genInfo (hc.distinct h) h
  obtain ⟨ls, _, hls, hd⟩ := hg.supOf hc hm hk
  have hv : ls.variant ∈ g.superstates := hg.superstates.mem_iff.2 (List.mem_map.2 ⟨_, hls, rfl⟩)
  refine ⟨ls.variant, hv, hd.lowered.variantName, ?_⟩
  have hn := hc.supFields _ hv
  rw [hd.lowered.fields] at hn
  have ht := hd.lowered.types (params_nodup hn)
  rw [← hd.lowered.fields, List.forall₂_map_left_iff]
  exact List.forall₂_same.2 fun f hf => ⟨rfl, ht f hf⟩

/-- The arguments of a constructor have the types of the fields. -/
theorem C51_constructor_args (h : expand syn ord src = .ok g) (hc : g.Compiles) {mth : Method} (hm : mth ∈ src.methods)
    (hk : mth.Has "state") : ∃ k ∈ g.constructors, k.name = mth.name ∧
      ∀ a ∈ k.args, a.name ∈ src.fields "state" mth ∧ src.fieldTy "state" mth a.name = some a.ty := by
  obtain ⟨sm, L, Lp, hg⟩ := genInfo (hc.distinct h) h
  obtain ⟨ls, _, hls, hd, hk'⟩ := hg.stateOf hc hm hk
  have hv : ls.variant ∈ g.states := hg.states.mem_iff.2 (List.mem_map.2 ⟨_, hls, rfl⟩)
  refine ⟨ls.constructor, hg.constructors.mem_iff.2 (List.mem_map.2 ⟨_, hls, rfl⟩), hk'.name, ?_⟩
  have hn := hc.stateFields _ hv
  rw [hd.lowered.fields] at hn
  have ht := hd.lowered.types (params_nodup hn)
  obtain ⟨ds, _, _, e⟩ := hk'.fields
  intro a ha
  rw [e] at ha
  have ha := (List.mem_filter.1 ha).1
  rw [← hd.lowered.fields]
  exact ⟨List.mem_map.2 ⟨a, ha, rfl⟩, ht a ha⟩

/-- The superstate enum has the lifetime `'sub` iff some superstate handler has a local storage parameter. -/
theorem C51_lifetime (h : expand syn ord src = .ok g) (hd : src.Distinct) :
    g.superstateLifetime = true ↔
      ∃ mth ∈ src.methods, mth.Has "superstate" ∧ ∃ a ∈ mth.inputs, ∃ x, src.param a = some x := by
  obtain ⟨sm, L, Lp, hg⟩ := genInfo hd h
  rw [hg.superstateLifetime]
  have he := hg.machine.eventIdent
  have hcx := hg.machine.contextIdent
  constructor
  · rintro ⟨mth, hm, hk, a, ha, q, hq⟩
    obtain ⟨i, hi⟩ := hg.idents hd hm (.inr hk) a ha
    obtain ⟨attrs, ty, rfl, rfl, h1, h2⟩ := (patOf_iff he hcx hi q).1 hq
    exact ⟨mth, hm, hk, _, ha, i, param_iff.2 ⟨attrs, ty, rfl, h1, h2⟩⟩
  · rintro ⟨mth, hm, hk, a, ha, x, hx⟩
    obtain ⟨attrs, ty, rfl, h1, h2⟩ := param_iff.1 hx
    exact ⟨mth, hm, hk, _, ha, _, (patOf_iff he hcx rfl _).2 ⟨attrs, ty, rfl, rfl, h1, h2⟩⟩

/-- The sample: `item: &mut T` is overridden by `local_storage`; the other parameters lose their reference. -/
example : ∃ v ∈ Sample.genericGen.states, v.name = "Fill" ∧ v.fields = [
    ⟨"item", .path "Box" (.ty (.path "T" .nil) .nil)⟩,
    ⟨"slots", .path "Array" (.ty (.path "T" .nil) (.ty (.path "N" .nil) .nil))⟩,
    ⟨"text", .path "Text" (.lifetime "a" .nil)⟩,
    ⟨"extra", .path "u8" .nil⟩] := by
  obtain ⟨v, hv, hn, hf⟩ := C51_state_fields Sample.generic_eq Sample.generic_compiles
    (mth := Sample.fill) (by simp [Sample.genericSource]) ⟨_, List.mem_cons_self .., rfl⟩
  refine ⟨v, hv, hn.trans (by decide +kernel), ?_⟩
  have e : Sample.genericSource.fields "state" Sample.fill = ["item", "slots", "text", "extra"] := by decide +kernel
  rw [e] at hf
  rcases v with ⟨n, fs⟩
  simp only at hf
  rcases hf with _ | ⟨⟨h1, h1'⟩, _ | ⟨⟨h2, h2'⟩, _ | ⟨⟨h3, h3'⟩, _ | ⟨⟨h4, h4'⟩, ⟨⟩⟩⟩⟩⟩
  rename_i a b c d
  rcases a with ⟨_, _⟩
  rcases b with ⟨_, _⟩
  rcases c with ⟨_, _⟩
  rcases d with ⟨_, _⟩
  simp only at h1 h2 h3 h4 h1' h2' h3' h4'
  subst h1 h2 h3 h4
  have e1 : Sample.genericSource.fieldTy "state" Sample.fill "item" =
    some (.path "Box" (.ty (.path "T" .nil) .nil)) := by decide +kernel
  have e2 : Sample.genericSource.fieldTy "state" Sample.fill "slots" =
    some (.path "Array" (.ty (.path "T" .nil) (.ty (.path "N" .nil) .nil))) := by decide +kernel
  have e3 : Sample.genericSource.fieldTy "state" Sample.fill "text" = some (.path "Text" (.lifetime "a" .nil)) := by
    decide +kernel
  have e4 : Sample.genericSource.fieldTy "state" Sample.fill "extra" = some (.path "u8" .nil) := by decide +kernel
  rw [e1] at h1'
  rw [e2] at h2'
  rw [e3] at h3'
  rw [e4] at h4'
  cases h1'
  cases h2'
  cases h3'
  cases h4'
  rfl

/-- The sample: the superstate's field is a reference with lifetime `'sub`, not mutable as in the declaration. -/
example : ∃ v ∈ Sample.genericGen.superstates, v.name = "Owner" ∧ ∃ f, v.fields = [f] ∧
    some f.ty = Sample.genericSource.fieldTy "superstate" Sample.owner "text" ∧
    f.ty = .ref (some "sub") false (.path "Text" (.lifetime "a" .nil)) := by
  obtain ⟨v, hv, hn, hf⟩ := C51_superstate_fields Sample.generic_eq Sample.generic_compiles
    (mth := Sample.owner) (by simp [Sample.genericSource]) ⟨_, List.mem_cons_self .., rfl⟩
  refine ⟨v, hv, hn.trans (by decide +kernel), ?_⟩
  have e : Sample.genericSource.fields "superstate" Sample.owner = ["text"] := by decide +kernel
  rw [e] at hf
  rcases v with ⟨n, fs⟩
  simp only at hf
  rcases hf with _ | ⟨⟨h1, h1'⟩, ⟨⟩⟩
  have e1 : Sample.genericSource.fieldTy "superstate" Sample.owner "text" =
    some (.ref (some "sub") false (.path "Text" (.lifetime "a" .nil))) := by decide +kernel
  refine ⟨_, rfl, h1'.symm, ?_⟩
  rw [e1] at h1'
  exact (Option.some.inj h1').symm

example : Sample.genericGen.superstateLifetime = true :=
  (C51_lifetime Sample.generic_eq (Sample.generic_compiles.distinct Sample.generic_eq)).2
    ⟨Sample.owner, by simp [Sample.genericSource], ⟨_, List.mem_cons_self .., rfl⟩, _,
      List.mem_cons_of_mem _ (List.mem_cons_self ..), "text", by decide +kernel⟩

/-! ## C52 -/

/-- The methods of the impl block are kept, in order, with their names, attributes and asyncness; their parameters
are kept, except that `#[default]` attributes of local storage parameters of states are removed, one for every
`#[state]` attribute. -/
theorem C52_methods_kept (h : expand syn ord src = .ok g) (hd : src.Distinct) :
    List.Forall₂ (fun mth mth' : Method => mth'.name = mth.name ∧ mth'.attrs = mth.attrs ∧ mth'.generic = mth.generic ∧
      mth'.isAsync = mth.isAsync ∧ List.Forall₂ (src.Kept (mth.countAttr "state")) mth.inputs mth'.inputs)
      src.methods g.methods := by
  obtain ⟨sm, L, Lp, hg⟩ := genInfo hd h
  rw [hg.methods, List.forall₂_map_right_iff]
  refine List.forall₂_same.2 fun mth _ => ?_
  rw [strips_eq]
  refine ⟨rfl, rfl, rfl, rfl, ?_⟩
  rw [List.forall₂_map_right_iff]
  refine List.forall₂_same.2 fun a _ => ?_
  have : countAttr "state" (mth.attrs.map (·.path)) = mth.countAttr "state" := by
    unfold countAttr Method.countAttr
    rw [List.count_eq_countP, List.countP_map, ← List.countP_eq_length_filter]
    apply List.countP_congr
    intro x _
    simp
  rw [this]
  exact stripDefault_kept hg.machine.eventIdent hg.machine.contextIdent a _

/-- A method without `#[state]` is not changed at all, and neither is one without `#[default]`. -/
theorem C52_others_unchanged (h : expand syn ord src = .ok g) (hd : src.Distinct) {n : Nat} {mth : Method}
    (hm : src.methods[n]? = some mth) (hk : ¬ mth.Has "state" ∨
      ∀ attrs pat ty, .typed attrs pat ty ∈ mth.inputs → ∀ a ∈ attrs, defaultAttr a = false) :
    g.methods[n]? = some mth := by
  obtain ⟨sm, L, Lp, hg⟩ := genInfo hd h
  rw [hg.methods, List.getElem?_map, hm, Option.map_some, strips_eq]
  rcases hk with hk | hk
  · have : countAttr "state" (mth.attrs.map (·.path)) = 0 :=
      List.count_eq_zero.2 fun h => hk (mem_paths.1 h)
    rw [this]
    simp
  · have hrem : ∀ attrs : List ArgAttr, (∀ a ∈ attrs, defaultAttr a = false) → removeDefault attrs = attrs := by
      intro attrs h
      induction attrs with
      | nil => rfl
      | cons a l ih =>
        have : a.isDefault = false := by
          rw [← h a (by simp)]
          cases a <;> rfl
        rw [removeDefault, this]
        simp [ih fun a ha => h a (by simp [ha])]
    have hs : ∀ a ∈ mth.inputs, stripDefault sm a = a := by
      intro a ha
      cases a with
      | receiver => rfl
      | typed attrs pat ty =>
        cases pat with
        | ident i =>
          simp only [stripDefault]
          split
          · rfl
          · rw [hrem attrs (hk attrs _ ty ha)]
        | reference => rfl
        | unsupported => rfl
    have : mth.inputs.map (stripDefault sm)^[countAttr "state" (mth.attrs.map (·.path))] = mth.inputs := by
      conv => rhs; rw [← List.map_id mth.inputs]
      apply List.map_congr_left
      intro a ha
      rw [Function.iterate_fixed (hs a ha)]
      rfl
    rw [this]

/-- With one `#[default]` per parameter and one `#[state]`, no `#[default]` is left; and the attributes of a
parameter that have nothing to do with the macro stay. -/
theorem C52_defaults_removed (h : expand syn ord src = .ok g) (hd : src.Distinct) {n : Nat} {mth mth' : Method}
    (hm : src.methods[n]? = some mth) (hm' : g.methods[n]? = some mth') (hk : mth.countAttr "state" = 1)
    {attrs attrs' : List ArgAttr} {pat : Pat} {ty : Ty} {j : Nat} {x : Ident}
    (hp : mth.inputs[j]? = some (.typed attrs pat ty)) (hx : src.param (.typed attrs pat ty) = some x)
    (h1 : (attrs.filter defaultAttr).length ≤ 1) (hp' : mth'.inputs[j]? = some (.typed attrs' pat ty)) :
    attrs'.Perm (attrs.filter fun a => ¬ defaultAttr a) := by
  have hf := C52_methods_kept h hd
  obtain ⟨hl, hf⟩ := List.forall₂_iff_get.1 hf
  obtain ⟨hn, e⟩ := List.getElem?_eq_some_iff.1 hm
  obtain ⟨hn', e'⟩ := List.getElem?_eq_some_iff.1 hm'
  have := hf n hn hn'
  simp only [List.get_eq_getElem, e, e', hk] at this
  obtain ⟨_, _, _, _, hi⟩ := this
  obtain ⟨_, hi⟩ := List.forall₂_iff_get.1 hi
  obtain ⟨hj, e⟩ := List.getElem?_eq_some_iff.1 hp
  obtain ⟨hj', e'⟩ := List.getElem?_eq_some_iff.1 hp'
  have := hi j hj hj'
  simp only [List.get_eq_getElem, e, e'] at this
  cases this with
  | same h => rw [hx] at h; cases h
  | param _ h2 h3 =>
    have : attrs'.filter defaultAttr = [] := List.length_eq_zero_iff.1 (by omega)
    have e : attrs'.filter (fun a => ¬ defaultAttr a) = attrs' := by
      rw [List.filter_eq_self]
      intro a ha
      have := List.filter_eq_nil_iff.1 this a ha
      simpa using this
    rw [← e]
    exact h2

/-- The sample: `#[default]` is removed, and the order of the others changes. -/
example : Sample.genericGen.methods[0]? = some { Sample.fill with
    inputs := Sample.fill.inputs.map fun a => if a = .typed [.default, .other "doc", .other "cfg"] (.ident "item") (Sample.refTo "T")
      then .typed [.other "cfg", .other "doc"] (.ident "item") (Sample.refTo "T") else a } := by decide +kernel

example : [ArgAttr.other "cfg", .other "doc"].Perm
    ([ArgAttr.default, .other "doc", .other "cfg"].filter fun a => ¬ defaultAttr a) :=
  C52_defaults_removed Sample.generic_eq (Sample.generic_compiles.distinct Sample.generic_eq) (n := 0) (j := 1)
    (mth := Sample.fill) (x := "item") (pat := .ident "item") (ty := Sample.refTo "T")
    rfl (by decide +kernel : Sample.genericGen.methods[0]? = some { Sample.fill with
      inputs := Sample.fill.inputs.map fun a =>
        if a = .typed [.default, .other "doc", .other "cfg"] (.ident "item") (Sample.refTo "T")
        then .typed [.other "cfg", .other "doc"] (.ident "item") (Sample.refTo "T") else a })
    rfl rfl (by decide +kernel) (by decide) (by decide +kernel)

example : Sample.genericGen.methods[1]? = some Sample.owner :=
  C52_others_unchanged Sample.generic_eq (Sample.generic_compiles.distinct Sample.generic_eq) rfl
    (.inl (by rintro ⟨a, ha, hk⟩; simp [Sample.owner] at ha; subst ha; simp at hk))

/-! ## C53 -/

/-- Name, derives and visibility of the enums are the configured ones; so are the names of event and context. -/
theorem C53_settings (h : expand syn ord src = .ok g) (hd : src.Distinct) :
    g.stateIdent = (src.enumName "state").getD "State" ∧
    g.superstateIdent = (src.enumName "superstate").getD "Superstate" ∧
    g.stateDerives = src.enumDerives "state" ∧ g.superstateDerives = src.enumDerives "superstate" ∧
    g.visibility = (src.setting "visibility").getD "pub" ∧
    g.eventIdent = src.eventIdent ∧ g.contextIdent = src.contextIdent ∧
    src.setting "initial" = some g.initial := by
  obtain ⟨sm, L, Lp, hg⟩ := genInfo hd h
  exact ⟨hg.stateIdent.trans hg.machine.stateIdent, hg.superstateIdent.trans hg.machine.superstateIdent,
    hg.stateDerives.trans hg.machine.stateDerives, hg.superstateDerives.trans hg.machine.superstateDerives,
    hg.visibility.trans hg.machine.visibility, hg.eventIdent.trans hg.machine.eventIdent,
    hg.contextIdent.trans hg.machine.contextIdent, hg.initial ▸ hg.machine.initial⟩

example : Sample.genericGen.stateIdent = "Mode" ∧ Sample.genericGen.superstateIdent = "Superstate" ∧
    Sample.genericGen.stateDerives = ["Debug", "Clone", "Eq"] ∧ Sample.genericGen.visibility = "pub(crate)" := by
  obtain ⟨h1, h2, h3, _, h5, _⟩ :=
    C53_settings Sample.generic_eq (Sample.generic_compiles.distinct Sample.generic_eq)
  rw [h1, h2, h3, h5]
  decide +kernel

/-! ## C54 -/

/-- The generic parameters of the state enum are those of the impl block, with their bounds and in order, that are
mentioned in the local storage parameters of states. -/
theorem C54_state_generics (h : expand syn ord src = .ok g) (hd : src.Distinct) :
    g.generics = src.generics ∧ g.stateGenerics.Sublist src.generics.params ∧
    ∀ p, p ∈ g.stateGenerics ↔ p ∈ src.generics.params ∧ src.Mentions "state" p := by
  obtain ⟨sm, L, Lp, hg⟩ := genInfo hd h
  obtain ⟨found, e, hf⟩ := hg.stateGenerics
  rw [e, hg.machine.generics]
  refine ⟨hg.generics.trans hg.machine.generics, List.filter_sublist, fun p => ?_⟩
  simp only [List.mem_filter, decide_eq_true_eq]
  refine and_congr_right fun hp => ?_
  rw [hf, hg.searched hd (.inl rfl) hp]

/-- The same for the superstate enum, which also has the lifetime `'sub` if some superstate has a local storage
parameter. -/
theorem C54_superstate_generics (h : expand syn ord src = .ok g) (hd : src.Distinct) :
    ∃ l, g.superstateGenerics = l ++ (if g.superstateLifetime then [.lifetime "sub" []] else []) ∧
      l.Sublist src.generics.params ∧ ∀ p, p ∈ l ↔ p ∈ src.generics.params ∧ src.Mentions "superstate" p := by
  obtain ⟨sm, L, Lp, hg⟩ := genInfo hd h
  obtain ⟨found, e, hf⟩ := hg.superstateGenerics
  rw [hg.machine.generics] at e
  refine ⟨_, e, List.filter_sublist, fun p => ?_⟩
  simp only [List.mem_filter, decide_eq_true_eq]
  refine and_congr_right fun hp => ?_
  rw [hf, hg.searched hd (.inr rfl) hp]

/-- What the macro regards as used by local storage is what the fields use, under the conditions of `C54_needed`. -/
theorem mentions_iff_used {kind : Ident} {p : GParam} {vs : List Variant}
    (complete : ∀ mth ∈ src.methods, mth.Has kind → ∃ v ∈ vs, (v.fields.map (·.name)).Nodup ∧
      List.Forall₂ (fun x f => f.name = x ∧ src.fieldTy kind mth x = some f.ty) (src.fields kind mth) v.fields)
    (sound : ∀ v ∈ vs, ∃ mth ∈ src.methods, mth.Has kind ∧ ∀ f ∈ v.fields, src.fieldTy kind mth f.name = some f.ty)
    (h0 : kind = "superstate" → ∀ b, p ≠ .lifetime "sub" b)
    (h1 : ∀ mth ∈ src.methods, mth.Has kind → mth.storageFields kind = [])
    (h2 : ∀ mth ∈ src.methods, mth.Has kind → ∀ attrs ty, .typed attrs (.ident p.name) ty ∉ mth.inputs)
    (h3 : ∀ l bounds, p = .lifetime l bounds → bounds = [] ∧
      ∀ mth ∈ src.methods, mth.Has kind → ∀ attrs pat m ty, .typed attrs pat (.ref (some l) m ty) ∉ mth.inputs) :
    src.Mentions kind p ↔ ∃ v ∈ vs, ∃ f ∈ v.fields, p.UsedIn f.ty := by
  -- the reference by which local storage is passed does not matter
  have href : ∀ mth ∈ src.methods, mth.Has kind → ∀ attrs pat l m ty, .typed attrs pat (.ref l m ty) ∈ mth.inputs →
      (p.UsedIn (.ref l m ty) ↔ p.UsedIn ty) := by
    intro mth hm hk attrs pat l m ty ha
    cases hp' : p with
    | type => rfl
    | const => rfl
    | lifetime l' b =>
      simp only [GParam.UsedIn, Ty.HasLifetime]
      refine ⟨fun h => h.resolve_left ?_, .inr⟩
      rintro rfl
      exact (h3 l' b hp').2 mth hm hk attrs pat m ty ha
  -- nor does the one in the field
  have hfld : ∀ m ty, p.UsedIn (if kind = "superstate" then .ref (some "sub") m ty else ty) ↔ p.UsedIn ty := by
    intro m ty
    by_cases hk : kind = "superstate"
    · rw [if_pos hk]
      cases hp' : p with
      | type => rfl
      | const => rfl
      | lifetime l' b =>
        simp only [GParam.UsedIn, Ty.HasLifetime]
        refine ⟨fun h => h.resolve_left ?_, .inr⟩
        intro e
        cases e
        exact h0 hk b hp'
    · rw [if_neg hk]
  have hpar : ∀ mth ∈ src.methods, mth.Has kind → ∀ x t, src.fieldTy kind mth x = some t → ∃ attrs l m ty,
      .typed attrs (.ident x) (.ref l m ty) ∈ mth.inputs ∧ x ≠ src.eventIdent ∧ x ≠ src.contextIdent ∧
      (p.UsedIn t ↔ p.UsedIn ty) := by
    intro mth hm hk x t ht
    unfold Source.fieldTy at ht
    rw [h1 mth hm hk] at ht
    simp only [List.filter_nil, List.getLast?_nil, Option.map_none, Option.none_or] at ht
    unfold Source.paramTy at ht
    obtain ⟨b, hb, hb'⟩ := List.exists_of_findSome?_eq_some ht
    split at hb'
    · rename_i attrs' j l m t'
      split at hb'
      · rename_i hj
        obtain ⟨rfl, hj1, hj2⟩ := hj
        have e := Option.some.inj hb'
        refine ⟨attrs', l, m, t', hb, hj1, hj2, ?_⟩
        rw [← e]
        exact hfld m t'
      · cases hb'
    · cases hb'
  constructor
  · rintro ⟨mth, hm, hk, attrs, i, ty, ha, hi1, hi2, hu, _⟩
    have hu2 : p.UsedIn ty := by
      rcases hu with hu | ⟨_, rfl⟩
      · exact hu
      · exact absurd ha (h2 mth hm hk attrs ty)
    obtain ⟨v, hv, hnd0, hf⟩ := complete mth hm hk
    have hx : i ∈ src.fields kind mth := by
      unfold Source.fields Method.storage
      rw [h1 mth hm hk]
      exact List.mem_filterMap.2 ⟨_, ha, param_iff.2 ⟨attrs, ty, rfl, hi1, hi2⟩⟩
    obtain ⟨k, hk1, hk2⟩ := List.getElem_of_mem hx
    obtain ⟨hlen, hf⟩ := List.forall₂_iff_get.1 hf
    have hk' : k < v.fields.length := hlen ▸ hk1
    have := hf k hk1 hk'
    simp only [List.get_eq_getElem, hk2] at this
    refine ⟨v, hv, v.fields[k], List.getElem_mem hk', ?_⟩
    obtain ⟨attrs', l, m, t, hb, -, -, huse⟩ := hpar mth hm hk _ _ this.2
    rw [huse]
    have hnd : (src.fields kind mth).Nodup := by
      have e : v.fields.map (·.name) = src.fields kind mth := by
        apply List.ext_getElem (by simp [hlen])
        intro n hn1 hn2
        simp only [List.getElem_map]
        exact (hf n hn2 (by simpa using hn1)).1
      exact e ▸ hnd0
    have hnd := params_nodup hnd
    have : FnArg.typed attrs' (.ident i) (.ref l m t) = .typed attrs (.ident i) ty := by
      have p1 : src.param (.typed attrs (.ident i) ty) = some i := param_iff.2 ⟨attrs, ty, rfl, hi1, hi2⟩
      have p2 : src.param (.typed attrs' (.ident i) (.ref l m t)) = some i := param_iff.2 ⟨attrs', _, rfl, hi1, hi2⟩
      generalize mth.inputs = inputs at hb ha hnd
      induction inputs with
      | nil => cases ha
      | cons c cs ih =>
        rcases List.mem_cons.1 hb with rfl | hb2
        · rcases List.mem_cons.1 ha with e | ha
          · exact e.symm
          · rw [List.filterMap_cons, p2] at hnd
            exact absurd (List.mem_filterMap.2 ⟨_, ha, p1⟩) (List.nodup_cons.1 hnd).1
        · rcases List.mem_cons.1 ha with rfl | ha2
          · rw [List.filterMap_cons, p1] at hnd
            exact absurd (List.mem_filterMap.2 ⟨_, hb2, p2⟩) (List.nodup_cons.1 hnd).1
          · refine ih hb2 ha2 ?_
            rw [List.filterMap_cons] at hnd
            split at hnd
            · exact hnd
            · exact (List.nodup_cons.1 hnd).2
    cases this
    exact (href mth hm hk _ _ _ _ _ hb).1 hu2
  · rintro ⟨v, hv, f, hf, hu⟩
    obtain ⟨mth, hm, hk, ht⟩ := sound v hv
    obtain ⟨attrs', l, m, t, hb, hj1, hj2, huse⟩ := hpar mth hm hk _ _ (ht f hf)
    exact ⟨mth, hm, hk, attrs', f.name, _, hb, hj1, hj2,
      .inl ((href mth hm hk _ _ _ _ _ hb).2 (huse.1 hu)), fun l b e => (h3 l b e).1⟩

/-- Under these conditions the state enum has exactly the generic parameters that its fields need: no state uses
`local_storage(..)`; no parameter of a state has the name of the generic parameter; and if it is a lifetime, it has no
bounds and is not the lifetime of the reference by which local storage is passed. -/
theorem C54_needed (h : expand syn ord src = .ok g) (hc : g.Compiles) {p : GParam} (hp : p ∈ src.generics.params)
    (h1 : ∀ mth ∈ src.methods, mth.Has "state" → mth.storageFields "state" = [])
    (h2 : ∀ mth ∈ src.methods, mth.Has "state" → ∀ attrs ty, .typed attrs (.ident p.name) ty ∉ mth.inputs)
    (h3 : ∀ l bounds, p = .lifetime l bounds → bounds = [] ∧
      ∀ mth ∈ src.methods, mth.Has "state" → ∀ attrs pat m ty, .typed attrs pat (.ref (some l) m ty) ∉ mth.inputs) :
    p ∈ g.stateGenerics ↔ ∃ v ∈ g.states, ∃ f ∈ v.fields, p.UsedIn f.ty := by
  have hd := hc.distinct h
  rw [(C54_state_generics h hd).2.2 p]
  simp only [hp, true_and]
  obtain ⟨sm, L, Lp, hg⟩ := genInfo hd h
  refine mentions_iff_used (fun mth hm hk => ?_) (fun v hv => ?_) (fun e => absurd e (by decide)) h1 h2 h3
  · obtain ⟨v, hv, -, hf⟩ := C51_state_fields h hc hm hk
    exact ⟨v, hv, hc.stateFields v hv, hf⟩
  · obtain ⟨⟨n, ls⟩, hls, rfl⟩ := List.mem_map.1 (hg.states.mem_iff.1 hv)
    obtain ⟨mth, hm, rfl, hk, hdesc, _⟩ := hg.statesMap.sound _ _ hls
    have hnd := hc.stateFields _ hv
    rw [hdesc.lowered.fields] at hnd
    exact ⟨mth, hm, hk, hdesc.lowered.types (params_nodup hnd)⟩

/-- The same for the superstate enum, apart from a lifetime `'sub`, which no generic parameter of the impl block should be
called. -/
theorem C54_superstate_needed (h : expand syn ord src = .ok g) (hc : g.Compiles) {p : GParam}
    (hp : p ∈ src.generics.params) (h0 : ∀ b, p ≠ .lifetime "sub" b)
    (h1 : ∀ mth ∈ src.methods, mth.Has "superstate" → mth.storageFields "superstate" = [])
    (h2 : ∀ mth ∈ src.methods, mth.Has "superstate" → ∀ attrs ty, .typed attrs (.ident p.name) ty ∉ mth.inputs)
    (h3 : ∀ l bounds, p = .lifetime l bounds → bounds = [] ∧
      ∀ mth ∈ src.methods, mth.Has "superstate" → ∀ attrs pat m ty, .typed attrs pat (.ref (some l) m ty) ∉ mth.inputs) :
    p ∈ g.superstateGenerics ↔ ∃ v ∈ g.superstates, ∃ f ∈ v.fields, p.UsedIn f.ty := by
  have hd := hc.distinct h
  obtain ⟨l, e, -, hl⟩ := C54_superstate_generics h hd
  have hpl : p ∈ g.superstateGenerics ↔ p ∈ l := by
    rw [e, List.mem_append]
    refine ⟨fun h => h.resolve_right fun h => ?_, .inl⟩
    split at h
    · exact h0 [] (List.mem_singleton.1 h)
    · cases h
  rw [hpl, hl p]
  simp only [hp, true_and]
  obtain ⟨sm, L, Lp, hg⟩ := genInfo hd h
  refine mentions_iff_used (fun mth hm hk => ?_) (fun v hv => ?_) (fun _ => h0) h1 h2 h3
  · obtain ⟨v, hv, -, hf⟩ := C51_superstate_fields h hc hm hk
    exact ⟨v, hv, hc.supFields v hv, hf⟩
  · obtain ⟨⟨n, ls⟩, hls, rfl⟩ := List.mem_map.1 (hg.superstates.mem_iff.1 hv)
    obtain ⟨mth, hm, rfl, hk, hdesc⟩ := hg.superstatesMap.sound _ _ hls
    have hnd := hc.supFields _ hv
    rw [hdesc.lowered.fields] at hnd
    exact ⟨mth, hm, hk, hdesc.lowered.types (params_nodup hnd)⟩

/-- A lifetime with bounds is never a generic parameter of the generated enums, even if fields need it. -/
theorem C54_bounded_lifetime (h : expand syn ord src = .ok g) (hd : src.Distinct) {l b : Ident} {bs : List Ident} :
    .lifetime l (b :: bs) ∉ g.stateGenerics ∧ .lifetime l (b :: bs) ∉ g.superstateGenerics := by
  obtain ⟨r, e, -, hr⟩ := C54_superstate_generics h hd
  constructor
  · rw [(C54_state_generics h hd).2.2]
    rintro ⟨_, _, _, _, _, _, _, _, _, _, _, hb⟩
    cases hb l _ rfl
  · rw [e, List.mem_append, hr]
    rintro (⟨_, _, _, _, _, _, _, _, _, _, _, hb⟩ | h)
    · cases hb l _ rfl
    · split at h
      · cases List.mem_singleton.1 h
      · cases h

/-- The sample: `'b` and `U` are not needed. -/
example : Sample.genericGen.stateGenerics = [.lifetime "a" [], .type "T" ["Clone"], .const "N" "usize"] ∧
    Sample.genericGen.superstateGenerics = [.lifetime "a" [], .lifetime "sub" []] := by decide +kernel

example : GParam.type "T" ["Clone"] ∈ Sample.genericGen.stateGenerics :=
  ((C54_state_generics Sample.generic_eq (Sample.generic_compiles.distinct Sample.generic_eq)).2.2 _).2
    ⟨by simp [Sample.genericSource], Sample.fill, by simp [Sample.genericSource], ⟨_, List.mem_cons_self .., rfl⟩,
      _, "item", Sample.refTo "T", List.mem_cons_of_mem _ (List.mem_cons_self ..), by decide +kernel,
      by decide +kernel, .inl (.inl rfl), by simp⟩

namespace Macro.Sample

/-- Like `genericSource`, but `text` is a `Text<'b>`, and without `local_storage(..)`. -/
def boundedSource : Source where
  generics := genericSource.generics
  args := genericSource.args
  methods := [{ fill with
    attrs := [⟨"state", none⟩]
    inputs := [selfArg, .typed [] (.ident "item") (refTo "T"),
      .typed [] (.ident "text") (refToArgs "Text" (.lifetime "b" .nil))] }]

theorem bounded_ok : accepts forwards boundedSource = true := by decide +kernel

theorem bounded_compiles : (result forwards boundedSource bounded_ok).Compiles := by decide +kernel

/-- The state enum needs the lifetime `'b: 'a`, and does not have it. -/
example : (∃ v ∈ (result forwards boundedSource bounded_ok).states, ∃ f ∈ v.fields,
      (GParam.lifetime "b" ["a"]).UsedIn f.ty) ∧
    GParam.lifetime "b" ["a"] ∉ (result forwards boundedSource bounded_ok).stateGenerics := by
  refine ⟨?_, (C54_bounded_lifetime (result_eq bounded_ok) (bounded_compiles.distinct (result_eq bounded_ok))).1⟩
  have e : (result forwards boundedSource bounded_ok).states = [⟨"Fill", [⟨"item", .path "T" .nil⟩,
      ⟨"text", .path "Text" (.lifetime "b" .nil)⟩]⟩] := by decide +kernel
  rw [e]
  exact ⟨_, List.mem_singleton_self _, _, List.mem_cons_of_mem _ (List.mem_singleton_self _), .inl rfl⟩

/-- The conditions of `C54_needed` are met by `T`. -/
example : GParam.type "T" ["Clone"] ∈ (result forwards boundedSource bounded_ok).stateGenerics := by
  rw [C54_needed (result_eq bounded_ok) bounded_compiles (by simp [boundedSource, genericSource])]
  · have e : (result forwards boundedSource bounded_ok).states = [⟨"Fill", [⟨"item", .path "T" .nil⟩,
        ⟨"text", .path "Text" (.lifetime "b" .nil)⟩]⟩] := by decide +kernel
    rw [e]
    exact ⟨_, List.mem_singleton_self _, _, List.mem_cons_self .., .inl rfl⟩
  · intro mth hm _
    simp only [boundedSource, List.mem_singleton] at hm
    subst hm
    rfl
  · intro mth hm _ attrs ty h
    simp only [boundedSource, List.mem_singleton] at hm
    subst hm
    simp [selfArg, GParam.name] at h
  · simp

/-- The same state in a superstate that borrows the item. -/
def aroundSource : Source where
  generics := genericSource.generics
  args := genericSource.args
  methods := boundedSource.methods ++ [{ fill with
    name := "around"
    attrs := [⟨"superstate", none⟩]
    inputs := [selfArg, .typed [] (.ident "item") (refTo "T")] }]

theorem around_ok : accepts forwards aroundSource = true := by decide +kernel

theorem around_compiles : (result forwards aroundSource around_ok).Compiles := by decide +kernel

/-- The conditions of `C54_superstate_needed` are met by `T`. -/
example : GParam.type "T" ["Clone"] ∈ (result forwards aroundSource around_ok).superstateGenerics := by
  rw [C54_superstate_needed (result_eq around_ok) around_compiles (by simp [aroundSource, genericSource]) (by simp)]
  · have e : (result forwards aroundSource around_ok).superstates =
        [⟨"Around", [⟨"item", .ref (some "sub") true (.path "T" .nil)⟩]⟩] := by decide +kernel
    rw [e]
    exact ⟨_, List.mem_singleton_self _, _, List.mem_cons_self .., .inl rfl⟩
  · intro mth hm _
    simp only [aroundSource, boundedSource, List.mem_cons, List.mem_append, List.not_mem_nil, or_false] at hm
    rcases hm with rfl | rfl <;> rfl
  · intro mth hm _ attrs ty h
    simp only [aroundSource, boundedSource, List.mem_cons, List.mem_append, List.not_mem_nil, or_false] at hm
    rcases hm with rfl | rfl <;> simp [selfArg, GParam.name] at h
  · simp

end Macro.Sample
end Statig
