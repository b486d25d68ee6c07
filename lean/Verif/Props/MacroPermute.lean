import Verif.Proofs.Macro.Permute
import Verif.Props.MacroOrder
/-!
# The order in which an impl block is written: C77
-/
namespace Statig
open Macro
variable {syn : Syn} {ord ord' : Order} {src src' : Source} {g g' : Gen} {T : Types}

/-- C77. If a declaration is accepted, so is every rearrangement of it, and the generated items are the same up to their
order. -/
theorem C77_accepted (hr : src.Rearranged src') (hd : src.Distinct) (h : expand syn ord src = .ok g) (ord' : Order) :
    ∃ g', expand syn ord' src' = .ok g' ∧ g.methods.Perm g'.methods ∧
      g.SameItems { g' with methods := g.methods } := by
  unfold expand at h
  obtain ⟨model, hmodel, h⟩ := Res.bind_ok h
  obtain ⟨ir, hir, h⟩ := Res.bind_ok h
  cases h
  have hmodel1 : analyze syn src.selfTy src.generics src'.args src.methods = .ok model := by
    unfold analyze at hmodel ⊢
    obtain ⟨sm, hs, hmodel⟩ := Res.bind_ok hmodel
    exact Res.bind_of (hr.analyze hs) hmodel
  obtain ⟨model', hmodel', hrm, hpm⟩ := analyze_reordered hd hr.methods hmodel1
  obtain ⟨sm, hm, hmi⟩ := modelInfo hmodel
  obtain ⟨ir', hir', hri, hm1, hm2⟩ := lower_reordered hrm hmi.states.keys hmi.superstates.keys hmi.actions.keys hir ord'
  refine ⟨codegen ord' ir', ?_, ?_, hri.items⟩
  · unfold expand
    rw [hr.selfTy, hr.generics]
    exact Res.bind_of hmodel' (Res.bind_of hir' rfl)
  · show ir.methods.Perm ir'.methods
    rw [hm1, hm2]
    exact hpm

theorem Macro.Source.Rearranged.symm (hr : src.Rearranged src') : src'.Rearranged src :=
  ⟨hr.selfTy.symm, hr.generics.symm, hr.args.symm, (hr.args.map _).nodup_iff.1 hr.keys, hr.methods.symm⟩

theorem Macro.Source.Rearranged.distinct (hr : src.Rearranged src') (hd : src.Distinct) : src'.Distinct :=
  (hr.methods.map _).nodup_iff.1 hd

/-- So a declaration is rejected in every order, or in none. -/
theorem C77_rejected (hr : src.Rearranged src') (hd : src.Distinct) (ord ord' : Order) :
    (∃ msg, expand syn ord src = .error msg) ↔ ∃ msg, expand syn ord' src' = .error msg := by
  constructor
  · rintro ⟨msg, h⟩
    cases h' : expand syn ord' src' with
    | error msg' => exact ⟨msg', rfl⟩
    | ok g' =>
      obtain ⟨g, hg, _⟩ := C77_accepted hr.symm (hr.distinct hd) h' ord
      rw [hg] at h
      cases h
  · rintro ⟨msg, h⟩
    cases h' : expand syn ord src with
    | error msg' => exact ⟨msg', rfl⟩
    | ok g' =>
      obtain ⟨g, hg, _⟩ := C77_accepted hr hd h' ord'
      rw [hg] at h
      cases h

theorem find?_perm {l l' : List Method} (hp : l.Perm l') (hn : (l.map (·.name)).Nodup) (n : Ident) :
    l'.find? (·.name == n) = l.find? (·.name == n) := by
  have key : ∀ {l : List Method}, (l.map (·.name)).Nodup → ∀ m, l.find? (·.name == n) = some m ↔ m ∈ l ∧ m.name = n := by
    intro l hn m
    induction l with
    | nil => simp
    | cons a l ih =>
      rw [List.map_cons, List.nodup_cons] at hn
      rw [List.find?_cons]
      by_cases ha : a.name = n
      · simp only [ha, beq_self_eq_true, Option.some.injEq, List.mem_cons]
        constructor
        · rintro rfl
          exact ⟨.inl rfl, ha⟩
        · rintro ⟨rfl | hm, hn'⟩
          · rfl
          · exact absurd (List.mem_map.2 ⟨m, hm, hn'.trans ha.symm⟩) hn.1
      · have : (a.name == n) = false := by simpa using ha
        rw [this]
        simp only [List.mem_cons]
        rw [ih hn.2]
        constructor
        · rintro ⟨h1, h2⟩
          exact ⟨.inr h1, h2⟩
        · rintro ⟨rfl | h1, h2⟩
          · exact absurd h2 ha
          · exact ⟨h1, h2⟩
  apply Option.ext
  intro m
  rw [key hn, key ((hp.map _).nodup_iff.1 hn), hp.mem_iff]

/-- The generated code compiles in every order, or in none; and if it compiles, what it does when it runs is the same:
the same variants with the same fields, the same callbacks, superstates, hooks and initial state. -/
theorem C77_behaviour (hr : src.Rearranged src') (h : expand syn ord src = .ok g) (h' : expand syn ord' src' = .ok g')
    (hc : g.Compiles) : g'.Compiles ∧ g'.iface = g.iface := by
  obtain ⟨g₁, h₁, hp, hs⟩ := C77_accepted hr (hc.distinct h) h ord'
  rw [h'] at h₁
  cases h₁
  have hc1 := hs.compiles hc
  have e := hs.iface h hc
  constructor
  · obtain ⟨c1, c2, c3, c4, c5, c6, c7, c8, c9, c10, c11, c12, c13, c14⟩ := hc1
    exact ⟨(hp.map _).nodup_iff.1 hc.methods, c2, c3, c4, c5, c6, c7, c8, c9, c10, c11, c12, c13, c14⟩
  · rw [← e]
    unfold Gen.iface
    simp only [Iface.mk.injEq, and_self, and_true, true_and]
    funext n
    rw [find?_perm hp hc.methods]

/-- If all handlers agree on the types of event and context, these are the same too. -/
theorem C77_types (hr : src.Rearranged src') (h : expand syn ord src = .ok g) (h' : expand syn ord' src' = .ok g')
    (hc : g.Compiles) (he : ∀ ty ty', src.EventTy ty → src.EventTy ty' → ty = ty')
    (hcx : ∀ ty ty', src.ContextTy ty → src.ContextTy ty' → ty = ty') :
    g'.eventType = g.eventType ∧ g'.contextType = g.contextType := by
  have e1 : ∀ ty, src'.EventTy ty ↔ src.EventTy ty := fun ty => by
    unfold Source.EventTy Source.eventIdent
    rw [hr.setting]
    simp only [hr.methods.mem_iff]
  have e2 : ∀ ty, src'.ContextTy ty ↔ src.ContextTy ty := fun ty => by
    unfold Source.ContextTy Source.contextIdent
    rw [hr.setting]
    simp only [hr.methods.mem_iff]
  obtain ⟨h1, h2⟩ := C46_types_declared h hc
  obtain ⟨h1', h2'⟩ := C46_types_declared h' (C77_behaviour hr h h' hc).1
  simp only [e1, e2] at h1' h2'
  constructor
  · rcases h1 with ⟨e, n⟩ | ⟨ty, ht, e⟩ <;> rcases h1' with ⟨e', n'⟩ | ⟨ty', ht', e'⟩
    · rw [e, e']
    · exact absurd ht' (n _)
    · exact absurd ht (n' _)
    · rw [e, e', he _ _ ht ht']
  · rcases h2 with ⟨e, n⟩ | ⟨ty, ht, e⟩ <;> rcases h2' with ⟨e', n'⟩ | ⟨ty', ht', e'⟩
    · rw [e, e']
    · exact absurd ht' (n _)
    · exact absurd ht (n' _)
    · rw [e, e', hcx _ _ ht ht']

namespace Macro.Sample

/-- The sample with its methods and the arguments of the attribute in reverse order. -/
def reversed : Source where
  args := source.args.reverse
  methods := source.methods.reverse

theorem reversed_rearranged : source.Rearranged reversed where
  selfTy := rfl
  generics := rfl
  args := (List.reverse_perm _).symm
  keys := by decide +kernel
  methods := (List.reverse_perm _).symm

theorem reversed_ok : accepts forwards reversed = true := by decide +kernel

end Macro.Sample

/-- The sample written in reverse order behaves the same, although the generated code is not the same. -/
example : ∃ g', expand Sample.syn Sample.forwards Sample.reversed = .ok g' ∧ g' ≠ Sample.gen ∧
    g'.iface = Sample.gen.iface := by
  refine ⟨_, Sample.result_eq Sample.reversed_ok, by decide +kernel,
    (C77_behaviour Sample.reversed_rearranged Sample.gen_eq (Sample.result_eq Sample.reversed_ok) Sample.compiles).2⟩

end Statig
