import Mathlib.Data.Fintype.EquivFin
import Mathlib.Data.Set.Finite.Basic
import Mathlib.Order.RelClasses
import Verif.Proofs.Macro.Machine
/-!
# Generated machines follow the declared hierarchy
-/
namespace Statig.Macro
section
variable {syn : Syn} {src : Source} {g : Gen} {sm : StateMachine} {L : HMap LState} {Lp : HMap LSuperstate}

theorem GenInfo.iface_stateFields (h : GenInfo syn src g sm L Lp) (hc : g.Compiles) (v : Ident) :
    g.iface.stateFields v = (Macro.stateOf L v).map fun ls => ls.variant.fields.map (·.name) :=
  congrFun (congrArg Iface.stateFields (h.iface hc)) v

theorem GenInfo.iface_supFields (h : GenInfo syn src g sm L Lp) (hc : g.Compiles) (v : Ident) :
    g.iface.supFields v = (Macro.supOf Lp v).map fun ls => ls.variant.fields.map (·.name) :=
  congrFun (congrArg Iface.supFields (h.iface hc)) v

theorem GenInfo.iface_handler (h : GenInfo syn src g sm L Lp) (hc : g.Compiles) (v : Ident) :
    g.iface.handler v = (Macro.stateOf L v).map fun ls => ⟨ls.pat, ls.handlerCall⟩ :=
  congrFun (congrArg Iface.handler (h.iface hc)) v

theorem GenInfo.iface_entry (h : GenInfo syn src g sm L Lp) (hc : g.Compiles) (v : Ident) :
    g.iface.entry v = (Macro.stateOf L v).map fun ls => ⟨ls.pat, ls.entryActionCall⟩ :=
  congrFun (congrArg Iface.entry (h.iface hc)) v

theorem GenInfo.iface_exit (h : GenInfo syn src g sm L Lp) (hc : g.Compiles) (v : Ident) :
    g.iface.exit v = (Macro.stateOf L v).map fun ls => ⟨ls.pat, ls.exitActionCall⟩ :=
  congrFun (congrArg Iface.exit (h.iface hc)) v

theorem GenInfo.iface_superstate (h : GenInfo syn src g sm L Lp) (hc : g.Compiles) (v : Ident) :
    g.iface.superstate v = (Macro.stateOf L v).map fun ls => ⟨ls.pat, ls.superstatePat⟩ :=
  congrFun (congrArg Iface.superstate (h.iface hc)) v

theorem GenInfo.iface_supHandler (h : GenInfo syn src g sm L Lp) (hc : g.Compiles) (v : Ident) :
    g.iface.supHandler v = (Macro.supOf Lp v).map fun ls => ⟨ls.pat, ls.handlerCall⟩ :=
  congrFun (congrArg Iface.supHandler (h.iface hc)) v

theorem GenInfo.iface_supEntry (h : GenInfo syn src g sm L Lp) (hc : g.Compiles) (v : Ident) :
    g.iface.supEntry v = (Macro.supOf Lp v).map fun ls => ⟨ls.pat, ls.entryActionCall⟩ :=
  congrFun (congrArg Iface.supEntry (h.iface hc)) v

theorem GenInfo.iface_supExit (h : GenInfo syn src g sm L Lp) (hc : g.Compiles) (v : Ident) :
    g.iface.supExit v = (Macro.supOf Lp v).map fun ls => ⟨ls.pat, ls.exitActionCall⟩ :=
  congrFun (congrArg Iface.supExit (h.iface hc)) v

theorem GenInfo.iface_supSuperstate (h : GenInfo syn src g sm L Lp) (hc : g.Compiles) (v : Ident) :
    g.iface.supSuperstate v = (Macro.supOf Lp v).map fun ls => ⟨ls.pat, ls.superstatePat⟩ :=
  congrFun (congrArg Iface.supSuperstate (h.iface hc)) v

theorem GenInfo.src_distinct (h : GenInfo syn src g sm L Lp) (hc : g.Compiles) : src.Distinct := by
  unfold Source.Distinct
  rw [← h.distinct]
  exact hc.methods

/-- Superstates with the same variant name are the same method. -/
theorem GenInfo.sup_inj (h : GenInfo syn src g sm L Lp) (hc : g.Compiles) {a b : Method} (ha : a ∈ src.methods)
    (hb : b ∈ src.methods) (ka : a.Has "superstate") (kb : b.Has "superstate")
    (hn : variantName syn a.name = variantName syn b.name) : a = b := by
  obtain ⟨la, h1, h2, h3⟩ := h.supOf hc ha ka
  obtain ⟨lb, h1', h2', h3'⟩ := h.supOf hc hb kb
  rw [hn, h1'] at h1
  cases h1
  have := List.inj_on_of_nodup_map (h.nodup hc).2 h2 h2' rfl
  exact (h.src_distinct hc).eq ha hb (congrArg (·.1) this)

/-- States with the same variant name are the same method. -/
theorem GenInfo.state_inj (h : GenInfo syn src g sm L Lp) (hc : g.Compiles) {a b : Method} (ha : a ∈ src.methods)
    (hb : b ∈ src.methods) (ka : a.Has "state") (kb : b.Has "state")
    (hn : variantName syn a.name = variantName syn b.name) : a = b := by
  obtain ⟨la, h1, h2, h3⟩ := h.stateOf hc ha ka
  obtain ⟨lb, h1', h2', h3'⟩ := h.stateOf hc hb kb
  rw [hn, h1'] at h1
  cases h1
  have := List.inj_on_of_nodup_map (h.nodup hc).1 h2 h2' rfl
  exact (h.src_distinct hc).eq ha hb (congrArg (·.1) this)

theorem SupLink.target {link : Option Ident} {target : Option VariantPat} (h : SupLink syn src link target) :
    target.map (·.variant) = link.map (variantName syn) := by
  unfold SupLink at h
  split at h
  · simp [h]
  · obtain ⟨mth, _, _, _, e⟩ := h
    simp [e]

theorem GenInfo.leafParent (h : GenInfo syn src g sm L Lp) (hc : g.Compiles) {mth : Method} (hm : mth ∈ src.methods)
    (hk : mth.Has "state") : armTarget (g.iface.superstate (variantName syn mth.name)) =
      (mth.link "state" "superstate").map (variantName syn) := by
  obtain ⟨ls, h1, h2, h3, _⟩ := h.stateOf hc hm hk
  rw [h.iface_superstate hc, h1]
  exact h3.superstate.target

theorem GenInfo.supParent (h : GenInfo syn src g sm L Lp) (hc : g.Compiles) {mth : Method} (hm : mth ∈ src.methods)
    (hk : mth.Has "superstate") : armTarget (g.iface.supSuperstate (variantName syn mth.name)) =
      (mth.link "superstate" "superstate").map (variantName syn) := by
  obtain ⟨ls, h1, h2, h3⟩ := h.supOf hc hm hk
  rw [h.iface_supSuperstate hc, h1]
  exact h3.superstate.target

theorem GenInfo.link_declared (h : GenInfo syn src g sm L Lp) (hc : g.Compiles) {mth : Method} (hm : mth ∈ src.methods)
    (hk : mth.Has "superstate") {p : Ident} (hp : mth.link "superstate" "superstate" = some p) :
    ∃ pm ∈ src.methods, pm.name = p ∧ pm.Has "superstate" := by
  obtain ⟨ls, h1, h2, h3⟩ := h.supOf hc hm hk
  have := h3.superstate
  rw [hp] at this
  obtain ⟨pm, a, b, c, _⟩ := this
  exact ⟨pm, a, b, c⟩

theorem supParent_wf (h : GenInfo syn src g sm L Lp) (hc : g.Compiles) (ha : src.Acyclic) :
    WellFounded fun p e => armTarget (g.iface.supSuperstate e) = some p := by
  let α := {n // n ∈ src.methods.map (·.name)}
  let r : α → α → Prop := fun a b => Relation.TransGen src.SupParent a.1 b.1
  have : Finite α := (List.finite_toSet (src.methods.map (·.name))).to_subtype
  have wf : WellFounded r := by
    have : IsTrans α r := ⟨fun a b c h1 h2 => Relation.TransGen.trans h1 h2⟩
    have : Std.Irrefl r := ⟨fun a h => ha a.1 h⟩
    exact Finite.wellFounded_of_trans_of_irrefl r
  have key : ∀ a : α, ∀ mth ∈ src.methods, mth.Has "superstate" → mth.name = a.1 →
      Acc (fun p e => armTarget (g.iface.supSuperstate e) = some p) (variantName syn mth.name) := by
    intro a
    induction a using wf.induction with
    | h a ih =>
      intro mth hm hk hn
      refine ⟨_, fun p hp => ?_⟩
      rw [h.supParent hc hm hk] at hp
      obtain ⟨q, hq, rfl⟩ := Option.map_eq_some_iff.1 hp
      obtain ⟨pm, hpm, hpn, hpk⟩ := h.link_declared hc hm hk hq
      subst hpn
      exact ih ⟨pm.name, List.mem_map.2 ⟨pm, hpm, rfl⟩⟩
        (Relation.TransGen.single ⟨mth, hm, hn, hk, hq⟩) pm hpm hpk rfl
  refine ⟨fun e => ⟨e, fun p hp => ?_⟩⟩
  rw [h.iface_supSuperstate hc] at hp
  cases he : Macro.supOf Lp e with
  | none =>
    rw [he] at hp
    cases hp
  | some ls =>
    obtain ⟨mth, hm, hk, rfl, hmem, hd⟩ := h.of_supOf hc he
    have := key ⟨mth.name, List.mem_map.2 ⟨mth, hm, rfl⟩⟩ mth hm hk rfl
    refine this.inv ?_
    rw [h.iface_supSuperstate hc, he]
    rw [he] at hp
    exact hp

theorem SupLink.fields (h : GenInfo syn src g sm L Lp) (hc : g.Compiles) {link : Option Ident} {p : VariantPat}
    (hl : SupLink syn src link (some p)) : g.iface.supFields p.variant = some p.fields := by
  unfold SupLink at hl
  split at hl
  · cases hl
  · obtain ⟨mth, hm, rfl, hk, e⟩ := hl
    cases e
    obtain ⟨ls, h1, h2, h3⟩ := h.supOf hc hm hk
    rw [h.iface_supFields hc, h1]
    exact congrArg some h3.lowered.fields

theorem GenInfo.follows (h : GenInfo syn src g sm L Lp) (hc : g.Compiles) {T : Types} (env : Env g.iface T)
    (F : Forest Ident Ident) (hl : F.leafParent = fun v => armTarget (g.iface.superstate v))
    (hs : F.supParent = fun v => armTarget (g.iface.supSuperstate v)) : Follows (g.iface.machine env) F := by
  refine machine_follows g.iface env F (congrFun hl) (congrFun hs) ?_ ?_
  · intro v fs hfs a ha p hp
    rw [h.iface_stateFields hc] at hfs
    rw [Option.mem_def, h.iface_superstate hc] at ha
    cases he : Macro.stateOf L v with
    | none =>
      rw [he] at ha
      cases ha
    | some ls =>
      rw [he] at ha hfs
      cases hfs
      cases ha
      obtain ⟨mth, hm, hk, rfl, hmem, hd⟩ := h.of_stateOf hc he
      simp only [Option.mem_def] at hp
      have hsl := hd.superstate
      rw [hp] at hsl
      have harm : (⟨ls.pat, ls.superstatePat⟩ : Arm _) ∈ g.superstateArms :=
        h.superstateArms.mem_iff.2 (List.mem_map.2 ⟨_, hmem, rfl⟩)
      refine ⟨p.fields, SupLink.fields h hc hsl, fun x hx => hx, fun x hx => ?_⟩
      have := hc.superstateFields _ harm p hp x hx
      refine ⟨hx, this, ?_⟩
      show x ∈ ls.variant.fields.map (·.name)
      rw [hd.lowered.fields, ← hd.lowered.patFields]
      exact this
  · intro v fs hfs a ha p hp
    rw [h.iface_supFields hc] at hfs
    rw [Option.mem_def, h.iface_supSuperstate hc] at ha
    cases he : Macro.supOf Lp v with
    | none =>
      rw [he] at ha
      cases ha
    | some ls =>
      rw [he] at ha hfs
      cases hfs
      cases ha
      obtain ⟨mth, hm, hk, rfl, hmem, hd⟩ := h.of_supOf hc he
      simp only [Option.mem_def] at hp
      have hsl := hd.superstate
      rw [hp] at hsl
      have harm : (⟨ls.pat, ls.superstatePat⟩ : Arm _) ∈ g.supSuperstateArms :=
        h.supSuperstateArms.mem_iff.2 (List.mem_map.2 ⟨_, hmem, rfl⟩)
      refine ⟨p.fields, SupLink.fields h hc hsl, fun x hx => hx, fun x hx => ?_⟩
      have := hc.supSuperstateFields _ harm p hp x hx
      refine ⟨hx, this, ?_⟩
      show x ∈ ls.variant.fields.map (·.name)
      rw [hd.lowered.fields, ← hd.lowered.patFields]
      exact this

end
end Statig.Macro
