import Mathlib.Data.List.Forall2
import Verif.Model.Macro.Analyze
/-!
# Lemmas about loops that may abort, and hash maps
-/
namespace Statig.Macro

theorem Res.bind_ok {ε α β : Type} {x : Except ε α} {f : α → Except ε β} {b : β} (h : (x >>= f) = .ok b) :
    ∃ a, x = .ok a ∧ f a = .ok b := by
  cases x with
  | error e => cases h
  | ok a => exact ⟨a, rfl, h⟩

theorem foldlM_inv {ε α β : Type} {f : β → α → Except ε β} {P : List α → β → Prop}
    (step : ∀ pre a b b', P pre b → f b a = .ok b' → P (pre ++ [a]) b') :
    ∀ (l pre : List α) (b b' : β), P pre b → l.foldlM f b = .ok b' → P (pre ++ l) b'
  | [], pre, b, b', h, e => by
    cases e
    simpa using h
  | a :: l, pre, b, b', h, e => by
    rw [List.foldlM_cons] at e
    obtain ⟨b₁, h₁, h₂⟩ := Res.bind_ok e
    simpa using foldlM_inv step l (pre ++ [a]) b₁ b' (step pre a b b₁ h h₁) h₂

theorem foldlM_inv' {ε α β : Type} {f : β → α → Except ε β} (P : List α → β → Prop) {l : List α} {b b' : β}
    (e : l.foldlM f b = .ok b') (h : P [] b)
    (step : ∀ pre a b b', P pre b → f b a = .ok b' → P (pre ++ [a]) b') : P l b' := by
  simpa using foldlM_inv step l [] b b' h e

theorem mapM_ok {ε α β : Type} {f : α → Except ε β} :
    ∀ {l : List α} {l' : List β}, l.mapM f = .ok l' → List.Forall₂ (fun a b => f a = .ok b) l l'
  | [], l', h => by
    cases h
    exact .nil
  | a :: l, l', h => by
    rw [List.mapM_cons] at h
    obtain ⟨b, hb, h⟩ := Res.bind_ok h
    obtain ⟨bs, hbs, h⟩ := Res.bind_ok h
    cases h
    exact .cons hb (mapM_ok hbs)

theorem mapM_of_forall₂ {ε α β : Type} {f : α → Except ε β} {l : List α} {l' : List β}
    (h : List.Forall₂ (fun a b => f a = .ok b) l l') : l.mapM f = .ok l' := by
  induction h with
  | nil => rfl
  | cons hab _ ih =>
    rw [List.mapM_cons, hab, ih]
    rfl

theorem mapM_isOk {ε α β : Type} {f : α → Except ε β} :
    ∀ {l : List α}, (∃ l', l.mapM f = .ok l') ↔ ∀ a ∈ l, ∃ b, f a = .ok b
  | [] => by simp [List.mapM_nil, pure, Except.pure]
  | a :: l => by
    constructor
    · rintro ⟨l', h⟩
      rw [List.mapM_cons] at h
      obtain ⟨b, hb, h⟩ := Res.bind_ok h
      obtain ⟨bs, hbs, h⟩ := Res.bind_ok h
      intro x hx
      rcases List.mem_cons.1 hx with rfl | hx
      · exact ⟨b, hb⟩
      · exact mapM_isOk.1 ⟨bs, hbs⟩ x hx
    · intro h
      obtain ⟨b, hb⟩ := h a (by simp)
      obtain ⟨bs, hbs⟩ := mapM_isOk (l := l).2 fun x hx => h x (by simp [hx])
      exact ⟨b :: bs, by rw [List.mapM_cons, hb, hbs]; rfl⟩

/-- Membership in the result of a successful `mapM`. -/
theorem mem_mapM {ε α β : Type} {f : α → Except ε β} {l : List α} {l' : List β} (h : l.mapM f = .ok l') (b : β) :
    b ∈ l' ↔ ∃ a ∈ l, f a = .ok b := by
  have := mapM_ok h
  clear h
  induction this with
  | nil => simp
  | cons hab _ ih =>
    rename_i a b' l l' _
    simp only [List.mem_cons, ih]
    constructor
    · rintro (rfl | ⟨a', ha', h⟩)
      · exact ⟨a, .inl rfl, hab⟩
      · exact ⟨a', .inr ha', h⟩
    · rintro ⟨a', rfl | ha', h⟩
      · rw [hab] at h
        cases h
        exact .inl rfl
      · exact .inr ⟨a', ha', h⟩

namespace HMap
variable {V : Type}

theorem mem_insert (m : HMap V) (k : Ident) (v : V) (n : Ident) (w : V) :
    (n, w) ∈ HMap.insert m k v ↔ (n = k ∧ w = v) ∨ (n ≠ k ∧ (n, w) ∈ m) := by
  unfold HMap.insert
  split
  · rename_i h
    obtain ⟨⟨k', v'⟩, hm, hk⟩ := List.any_eq_true.1 h
    simp only [beq_iff_eq] at hk
    subst hk
    simp only [List.mem_map, beq_iff_eq]
    constructor
    · rintro ⟨⟨a, b⟩, hab, h⟩
      by_cases hk : a = k'
      · simp only [hk, ↓reduceIte, Prod.mk.injEq] at h
        exact .inl ⟨h.1.symm, h.2.symm⟩
      · simp only [hk, ↓reduceIte, Prod.mk.injEq] at h
        exact .inr ⟨h.1 ▸ hk, h.1 ▸ h.2 ▸ hab⟩
    · rintro (⟨rfl, rfl⟩ | ⟨hn, hm⟩)
      · exact ⟨_, hm, by simp⟩
      · exact ⟨_, hm, by simp [hn]⟩
  · rename_i h
    have hk : ∀ w, (k, w) ∉ m := fun w hw => h (List.any_eq_true.2 ⟨_, hw, by simp⟩)
    simp only [List.mem_append, List.mem_singleton, Prod.mk.injEq]
    constructor
    · rintro (hm | h)
      · refine .inr ⟨?_, hm⟩
        rintro rfl
        exact hk _ hm
      · exact .inl h
    · rintro (h | ⟨_, hm⟩)
      · exact .inr h
      · exact .inl hm

theorem keys_insert (m : HMap V) (k : Ident) (v : V) (h : (m.map (·.1)).Nodup) :
    ((HMap.insert m k v).map (·.1)).Nodup := by
  unfold HMap.insert
  split
  · have : (m.map fun p => if p.1 == k then (k, v) else p).map (·.1) = m.map (·.1) := by
      rw [List.map_map]
      apply List.map_congr_left
      rintro ⟨a, b⟩ _
      by_cases ha : a = k <;> simp [ha]
    rw [this]
    exact h
  · rename_i hn
    rw [List.map_append, List.nodup_append]
    refine ⟨h, by simp, ?_⟩
    intro a ha b hb
    simp only [List.map_cons, List.map_nil, List.mem_singleton] at hb
    subst hb
    rintro rfl
    obtain ⟨⟨a', w⟩, hm, rfl⟩ := List.mem_map.1 ha
    exact hn (List.any_eq_true.2 ⟨_, hm, by simp⟩)

/-- `get` by membership. -/
theorem get_iff {m : HMap V} (h : (m.map (·.1)).Nodup) (k : Ident) (v : V) : HMap.get m k = some v ↔ (k, v) ∈ m := by
  unfold HMap.get
  induction m with
  | nil => simp
  | cons p m ih =>
    obtain ⟨a, b⟩ := p
    simp only [List.map_cons, List.nodup_cons] at h
    rw [List.lookup_cons]
    by_cases ha : k = a
    · subst ha
      simp only [beq_self_eq_true, Option.some.injEq, List.mem_cons, Prod.mk.injEq, true_and]
      constructor
      · rintro rfl
        exact .inl rfl
      · rintro (rfl | hm)
        · rfl
        · exact absurd (List.mem_map.2 ⟨_, hm, rfl⟩) h.1
    · have : (k == a) = false := by simpa using ha
      simp only [this, List.mem_cons, Prod.mk.injEq, ha, false_and, false_or]
      exact ih h.2

theorem get_none_iff {m : HMap V} (k : Ident) : HMap.get m k = none ↔ ∀ v, (k, v) ∉ m := by
  unfold HMap.get
  induction m with
  | nil => simp
  | cons p m ih =>
    obtain ⟨a, b⟩ := p
    rw [List.lookup_cons]
    by_cases ha : k = a
    · subst ha
      simp only [beq_self_eq_true, reduceCtorEq, List.mem_cons, Prod.mk.injEq, true_and, false_iff, not_forall]
      exact ⟨b, fun h => h (.inl rfl)⟩
    · have : (k == a) = false := by simpa using ha
      simp only [this, List.mem_cons, Prod.mk.injEq, ha, false_and, false_or]
      exact ih

end HMap
end Statig.Macro
