import Verif.Proofs.Macro.Calls
import Verif.Props.MacroSample
/-!
# Names of variants: C48
-/
namespace Statig
open Macro
variable {syn : Syn} {ord : Order} {src : Source} {g : Gen}

/-- The name computed for a variant is the PascalCase of the handler's name. -/
theorem C48_pascal {n v : Ident} (h : pascal syn n = .ok v) : v = variantName syn n := pascal_ok h

/-- In particular it has no underscores. -/
theorem C48_no_underscore (hs : ∀ c, '_' ∉ syn.toUppercase c) (n : Ident) : '_' ∉ (variantName syn n).toList := by
  have key : ∀ (l : List Char) (start : Bool), '_' ∉ camel syn start l := by
    intro l
    induction l with
    | nil => simp [camel]
    | cons c l ih =>
      intro start
      unfold camel
      split
      · exact ih _
      · rename_i hc
        rw [List.mem_append, not_or]
        refine ⟨?_, ih _⟩
        split
        · unfold upperChar
          split
          · rename_i h128
            rw [List.mem_singleton]
            intro e
            have h1 : ∀ n : Fin 128, (Char.ofNat n.1).toUpper = '_' → Char.ofNat n.1 = '_' := by decide
            have h2 := h1 ⟨c.toNat, h128⟩
            simp only [Char.ofNat_toNat] at h2
            exact hc (h2 e.symm)
          · exact hs c
        · simpa using Ne.symm hc
  unfold variantName
  rw [String.toList_ofList]
  exact key _ _

/-- The inverse of PascalCase on snake_case names: a capital letter starts a new part. -/
def uncamel (l : List Char) : List Char := l.flatMap fun c => if c.isUpper then ['_', c.toLower] else [c]

theorem lower_cases {c : Char} (h : c.isLower) : (upperChar syn c).flatMap (fun c => if c.isUpper then ['_', c.toLower] else [c]) = ['_', c] ∧ c ≠ '_' := by
  have h1 : 97 ≤ c.toNat ∧ c.toNat ≤ 122 := by
    simp only [Char.isLower, Bool.and_eq_true, decide_eq_true_eq] at h
    exact ⟨h.1, h.2⟩
  have h2 : ∀ n : Fin 26, (Char.ofNat (97 + n.1)).toUpper.isUpper = true ∧
      (Char.ofNat (97 + n.1)).toUpper.toLower = Char.ofNat (97 + n.1) ∧ Char.ofNat (97 + n.1) ≠ '_' := by decide
  have h3 := h2 ⟨c.toNat - 97, by omega⟩
  simp only [Nat.add_sub_cancel' h1.1, Char.ofNat_toNat] at h3
  unfold upperChar
  rw [if_pos (by omega)]
  simp [h3.1, h3.2.1, h3.2.2]

theorem uncamel_camel : ∀ l : List Char,
    (snakeCase true l → uncamel (camel syn true l) = '_' :: l) ∧ (snakeCase false l → uncamel (camel syn false l) = l)
  | [] => by simp [snakeCase, camel, uncamel]
  | c :: l => by
    obtain ⟨h1, h2⟩ := uncamel_camel l
    constructor
    · intro h
      simp only [snakeCase, ↓reduceIte] at h
      obtain ⟨ha, hb⟩ := lower_cases (syn := syn) h.1
      simp only [camel, hb, ↓reduceIte]
      unfold uncamel at h2 ⊢
      rw [List.flatMap_append, ha, h2 h.2]
      rfl
    · intro h
      by_cases hc : c = '_'
      · simp only [snakeCase, hc, Bool.false_eq_true, ↓reduceIte] at h
        simp only [camel, hc, ↓reduceIte]
        exact h1 h
      · simp only [snakeCase, hc, Bool.false_eq_true, ↓reduceIte] at h
        simp only [camel, hc, Bool.false_eq_true, ↓reduceIte]
        unfold uncamel at h2 ⊢
        rw [List.flatMap_append, h2 h.2]
        simp [h.1]

/-- Different snake_case names have different variants. -/
theorem C48_injective {a b : Ident} (ha : snakeCase true a.toList) (hb : snakeCase true b.toList)
    (h : variantName syn a = variantName syn b) : a = b := by
  have h' : camel syn true a.toList = camel syn true b.toList := by
    simpa [variantName] using congrArg String.toList h
  have h1 := (uncamel_camel (syn := syn) a.toList).1 ha
  rw [h', (uncamel_camel (syn := syn) b.toList).1 hb] at h1
  injection h1 with _ h1
  exact String.toList_injective h1.symm

example : snakeCase true "led_on2_off".toList := by simp [snakeCase]

/-- If all handlers have snake_case names, the variants of each generated enum are different. -/
theorem C48_distinct (h : expand syn ord src = .ok g) (hd : src.Distinct)
    (hs : ∀ mth ∈ src.methods, mth.Has "state" ∨ mth.Has "superstate" → snakeCase true mth.name.toList) :
    (g.states.map (·.name)).Nodup ∧ (g.superstates.map (·.name)).Nodup := by
  obtain ⟨sm, L, Lp, hg⟩ := genInfo hd h
  constructor
  · rw [(hg.states.map _).nodup_iff, List.map_map]
    have e : List.map ((fun x : Variant => x.name) ∘ fun e : Ident × LState => e.2.variant) L =
        (L.map (·.1)).map (variantName syn) := by
      rw [List.map_map]
      apply List.map_congr_left
      rintro ⟨n, ls⟩ he
      obtain ⟨mth, _, hn, _, hd, _⟩ := hg.statesMap.sound n ls he
      simp [hd.lowered.variantName, hn]
    rw [e]
    refine hg.statesMap.keys.map_on ?_
    intro a ha b hb hab
    obtain ⟨⟨n, ls⟩, he, rfl⟩ := List.mem_map.1 ha
    obtain ⟨⟨n', ls'⟩, he', rfl⟩ := List.mem_map.1 hb
    obtain ⟨mth, hm, rfl, hk, _⟩ := hg.statesMap.sound n ls he
    obtain ⟨mth', hm', rfl, hk', _⟩ := hg.statesMap.sound n' ls' he'
    exact C48_injective (hs mth hm (.inl hk)) (hs mth' hm' (.inl hk')) hab
  · rw [(hg.superstates.map _).nodup_iff, List.map_map]
    have e : List.map ((fun x : Variant => x.name) ∘ fun e : Ident × LSuperstate => e.2.variant) Lp =
        (Lp.map (·.1)).map (variantName syn) := by
      rw [List.map_map]
      apply List.map_congr_left
      rintro ⟨n, ls⟩ he
      obtain ⟨mth, _, hn, _, hd⟩ := hg.superstatesMap.sound n ls he
      simp [hd.lowered.variantName, hn]
    rw [e]
    refine hg.superstatesMap.keys.map_on ?_
    intro a ha b hb hab
    obtain ⟨⟨n, ls⟩, he, rfl⟩ := List.mem_map.1 ha
    obtain ⟨⟨n', ls'⟩, he', rfl⟩ := List.mem_map.1 hb
    obtain ⟨mth, hm, rfl, hk, _⟩ := hg.superstatesMap.sound n ls he
    obtain ⟨mth', hm', rfl, hk', _⟩ := hg.superstatesMap.sound n' ls' he'
    exact C48_injective (hs mth hm (.inr hk)) (hs mth' hm' (.inr hk')) hab

example : (Sample.gen.states.map (·.name)).Nodup := by
  refine (C48_distinct Sample.gen_eq (Sample.compiles.distinct Sample.gen_eq) ?_).1
  intro mth hm _
  simp only [Sample.source, List.mem_cons, List.not_mem_nil, or_false] at hm
  rcases hm with rfl | rfl | rfl | rfl | rfl | rfl | rfl | rfl | rfl <;>
    simp [snakeCase, Sample.enterLed, Sample.leaveBlinking, Sample.ledOn, Sample.ledOff, Sample.stopped,
      Sample.blinking, Sample.powered, Sample.changing, Sample.handled]

namespace Macro.Sample

/-- `stopped` is renamed to `_led_on`. -/
def collidingSource : Source where
  args := source.args
  methods := source.methods.map fun mth => if mth.name = "stopped" then { mth with name := "_led_on" } else mth

theorem colliding_ok : accepts forwards collidingSource = true := by decide +kernel

end Macro.Sample

/-- Other names may have the same variant; then the macro accepts the declaration, and the generated code does not
compile. -/
theorem C48_collision : variantName Sample.syn "_led_on" = variantName Sample.syn "led_on" ∧
    variantName Sample.syn "ledOn" = variantName Sample.syn "led_on" ∧
    variantName Sample.syn "led_1" = variantName Sample.syn "led1" ∧
    ∃ g, expand Sample.syn Sample.forwards Sample.collidingSource = .ok g ∧ Sample.collidingSource.Distinct ∧
      ¬ g.Compiles :=
  ⟨by decide +kernel, by decide +kernel, by decide +kernel, _, Sample.result_eq Sample.colliding_ok,
    by unfold Source.Distinct; decide +kernel, by decide +kernel⟩

end Statig
