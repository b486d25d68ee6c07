import Verif.Spec.Examples.Bench
import Verif.Proofs.Examples.Common
import Verif.Proofs.Tests.Flat
/-!
# Machines given by tables
-/
namespace Statig.Examples.Bench
open Statig.Macro Statig.Tests

namespace Table
variable {t : Table} {isAsync : Bool} {In : Type}

/-- What is needed of a table: names and variants are distinct. -/
structure Good (t : Table) : Prop where
  name : ∀ r ∈ t.rows, t.rows.find? (·.name == r.name) = some r
  variant : ∀ r ∈ t.rows, t.rows.find? (·.variant == r.variant) = some r

theorem find_arm {B : Type} (f : Row t.Ev → B) (v : Ident) :
    armOf (t.rows.map fun r => (⟨⟨r.variant, []⟩, f r⟩ : Arm B)) v =
      (t.rows.find? (·.variant == v)).map fun r => ⟨⟨r.variant, []⟩, f r⟩ := by
  unfold armOf
  rw [List.find?_map]
  rfl

theorem fields_eq (v : Ident) :
    (t.gen isAsync).iface.stateFields v = (t.rows.find? (·.variant == v)).map fun _ => [] := by
  show fieldsOf (t.rows.map fun r => ⟨r.variant, []⟩) v = _
  unfold fieldsOf
  rw [List.find?_map, Option.map_map]
  rfl

/-- A state is one of those in the table. -/
theorem state_row (s : t.MState isAsync) : ∃ r ∈ t.rows, t.rows.find? (·.variant == s.variant) = some r ∧ s.variant = r.variant := by
  obtain ⟨ns, h, -⟩ := s.ok
  rw [fields_eq] at h
  obtain ⟨r, hr, -⟩ := Option.map_eq_some_iff.1 h
  have := List.find?_some hr
  exact ⟨r, List.mem_of_find?_eq_some hr, hr, (beq_iff_eq.1 this).symm⟩

theorem construct_variant (ht : t.Good) (dflt : t.MState isAsync) {r : Row t.Ev} (hr : r ∈ t.rows) :
    (construct dflt r.name).variant = r.variant := by
  unfold construct
  rw [ht.name r hr]
  have : (t.gen isAsync).iface.stateFields r.variant = some [] := by rw [fields_eq, ht.variant r hr]; rfl
  simp only
  rw [dif_pos this]

theorem async_eq (r : Row t.Ev) (hr : r ∈ t.rows) : (t.gen isAsync).iface.isAsync r.name = isAsync := by
  show (((t.source isAsync).methods.find? (·.name == r.name)).any (·.isAsync)) = isAsync
  have h1 : ∀ m ∈ (t.source isAsync).methods, m.isAsync = isAsync := by
    intro m hm
    obtain ⟨r', -, rfl⟩ := List.mem_map.1 hm
    rfl
  cases h : (t.source isAsync).methods.find? (·.name == r.name) with
  | none =>
    have := List.find?_eq_none.1 h _ (List.mem_map.2 ⟨r, hr, rfl⟩)
    simp at this
  | some m => simpa using h1 m (List.mem_of_find?_eq_some h)

/-- What a machine does, as functions. -/
def flat (dflt : t.MState isAsync) (In : Type) : Flat ((t.gen isAsync).iface.sig (t.types In)) where
  handler s sh ev c := ((s, sh, c),
    match t.rows.find? (·.variant == s.variant) with
    | some r => respond dflt r ev
    | none => .super)
  entry s sh c := (s, sh, c)
  exit s sh c := (s, sh, c)
  beforeDispatch sh _ _ := sh
  afterDispatch sh _ _ := sh
  beforeTransition sh _ _ := sh
  afterTransition sh _ _ := sh

theorem flat_of (ht : t.Good) (dflt : t.MState isAsync) : (flat dflt In).Of (machine dflt In) where
  superstate s := by
    show runSuperstate _ (armOf (t.rows.map fun r => ⟨⟨r.variant, []⟩, none⟩) s.variant) s = none
    rw [find_arm]
    cases t.rows.find? (·.variant == s.variant) <;> rfl
  handler s sh ev c := by
    obtain ⟨r, hr, hf, hv⟩ := state_row s
    show runHandler _ (armOf (t.rows.map fun r => ⟨⟨r.variant, []⟩, ⟨r.name, ["event"], isAsync⟩⟩) s.variant) ev (s, sh, c) _ = _
    rw [find_arm, hf]
    simp only [Option.map_some, runHandler, callFn, flat, hf]
    have h1 : evalArgs (t.gen isAsync).iface [] (some ev) ((s, sh, c) : t.MState isAsync × Unit × Unit) ["event"] =
        some [(.event, (.event ev : Arg (t.types In)))] := rfl
    rw [h1]
    simp only
    rw [if_pos (async_eq r hr).symm]
    show (userHandler dflt r.name [.event ev]).mapWorld _ = _
    unfold userHandler
    rw [ht.name r hr]
    rfl
  entry s sh c := by
    show runAction _ (armOf (t.rows.map fun r => ⟨⟨r.variant, []⟩, none⟩) s.variant) (s, sh, c) _ = _
    rw [find_arm]
    cases t.rows.find? (·.variant == s.variant) <;> rfl
  exit s sh c := by
    show runAction _ (armOf (t.rows.map fun r => ⟨⟨r.variant, []⟩, none⟩) s.variant) (s, sh, c) _ = _
    rw [find_arm]
    cases t.rows.find? (·.variant == s.variant) <;> rfl
  beforeDispatch _ _ _ := rfl
  afterDispatch _ _ _ := rfl
  beforeTransition _ _ _ := rfl
  afterTransition _ _ _ := rfl

/-- The variant after an event. -/
def next (t : Table) (r : Row t.Ev) (event : t.Ev) : Ident :=
  match @List.lookup _ _ (@instBEqOfDecidableEq _ t.dec) event r.arms with
  | some target => ((t.rows.find? (·.name == target)).map (·.variant)).getD r.variant
  | none => r.variant

/-- The targets are in the table. -/
def Closed (t : Table) : Prop := ∀ r ∈ t.rows, ∀ a ∈ r.arms, (t.rows.find? (·.name == a.2)).isSome

theorem step_variant (ht : t.Good) (hc : t.Closed) (dflt : t.MState isAsync) (mode : Mode) (s : t.MState isAsync)
    {r : Row t.Ev} (hr : r ∈ t.rows) (hs : s.variant = r.variant) (ev : t.Ev) :
    ((flat dflt In).step mode (s, (), ()) ev).1.variant = t.next r ev := by
  have hf : t.rows.find? (·.variant == s.variant) = some r := by rw [hs]; exact ht.variant r hr
  simp only [Flat.step, flat, hf, respond, next]
  cases h : @List.lookup _ _ (@instBEqOfDecidableEq _ t.dec) ev r.arms with
  | none => simp only; split <;> (try split at *) <;> simp_all
  | some target =>
    have hm : ∃ a ∈ r.arms, a.2 = target := by
      have : ∀ l : List (t.Ev × Ident), @List.lookup _ _ (@instBEqOfDecidableEq _ t.dec) ev l = some target → ∃ a ∈ l, a.2 = target := by
        intro l
        induction l with
        | nil => intro h; cases h
        | cons a l ih =>
          intro h
          unfold List.lookup at h
          split at h
          · cases h; exact ⟨a, by simp, rfl⟩
          · obtain ⟨b, hb, e⟩ := ih h; exact ⟨b, by simp [hb], e⟩
      exact this _ h
    obtain ⟨a, ha, rfl⟩ := hm
    obtain ⟨r', hr'⟩ := Option.isSome_iff_exists.1 (hc r hr a ha)
    have hn : r'.name = a.2 := by simpa using List.find?_some hr'
    simp only [Flat.transition, hr', Option.map_some, Option.getD_some]
    rw [← hn]
    exact construct_variant ht dflt (List.mem_of_find?_eq_some hr')

/-- Calls: if the table follows a specification, so does the machine. -/
theorem calls (ht : t.Good) (hc : t.Closed) (dflt : t.MState isAsync) (mode : Mode) {σ : Type} (name : σ → Ident)
    (step : σ → t.Ev → σ) (hname : ∀ x, ∃ r ∈ t.rows, r.variant = name x ∧ ∀ e, t.next r e = name (step x e))
    (expected : σ → List (Command ((t.gen isAsync).iface.sig (t.types In))) → List (Out Unit × Ident))
    (h0 : ∀ x, expected x [] = [])
    (h1 : ∀ x c l cmds, expected x (.init c l :: cmds) = (.ok (), name x) :: expected x cmds)
    (h2 : ∀ x e c l cmds, expected x (.handle e c l :: cmds) = (.ok (), name (step x e)) :: expected (step x e) cmds)
    (sm : StateMachine ((t.gen isAsync).iface.sig (t.types In))) (x : σ) (hx : sm.inner.state.variant = name x) (cmds) :
    (callAll mode (machine dflt In) sm cmds).map (fun c => (c.out, c.self.inner.state.variant)) = expected x cmds := by
  induction cmds generalizing sm x with
  | nil => rw [h0]; rfl
  | cons cmd cmds ih =>
    obtain ⟨r, hr, ho, -, hs⟩ := (flat_of (In := In) ht dflt).exec mode sm cmd
    obtain ⟨row, hrow, hv, hn⟩ := hname x
    simp only [callAll, hr, List.map_cons, ho]
    cases cmd with
    | init c l =>
      have : r.self.inner.state.variant = name x := by
        rw [← hx]
        have : (r.self.inner.state, r.self.inner.shared, r.ctx) = (sm.inner.state, sm.inner.shared, c) := by
          rw [hs]; simp only [Flat.exec]; split <;> rfl
        rw [(Prod.mk.inj this).1]
      rw [h1, this, ih _ x this]
    | handle e c l =>
      have : r.self.inner.state.variant = name (step x e) := by
        have h3 : (r.self.inner.state, r.self.inner.shared, r.ctx) = (flat dflt In).step mode (sm.inner.state, (), ()) e := by
          rw [hs]; simp only [Flat.exec]; split <;> rfl
        rw [← hn e, ← step_variant (In := In) ht hc dflt mode sm.inner.state hrow (hx.trans hv.symm) e, ← h3]
      rw [h2, this, ih _ _ this]

end Table

end Statig.Examples.Bench
