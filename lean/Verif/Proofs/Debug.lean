import Verif.Spec.Debug
/-!
# Lemmas about printed text
-/
namespace Statig
namespace Printed

theorem andThen_ok {p : Printed} (h : p.ok = true) (q : Printed) : p.andThen q = ⟨p.text ++ q.text, q.ok⟩ := by
  simp [andThen, h]

theorem andThen_fail {p : Printed} (h : p.ok = false) (q : Printed) : p.andThen q = p := by
  simp [andThen, h]

@[simp] theorem write_text (s : String) : (write s).text = s.toList := rfl
@[simp] theorem write_ok (s : String) : (write s).ok = true := rfl

theorem pad_inj : ∀ (b : Bool) (s t : List Char), pad b s = pad b t → s = t := by
  intro b s
  induction s generalizing b with
  | nil => intro t h; cases t with
    | nil => rfl
    | cons c t => cases b <;> simp [pad] at h
  | cons c s ih =>
    intro t h
    cases t with
    | nil => cases b <;> simp [pad] at h
    | cons d t =>
      cases b
      · simp only [pad, List.cons.injEq] at h
        obtain ⟨rfl, h⟩ := h
        rw [ih _ _ h]
      · simp only [pad, List.cons.injEq, true_and] at h
        obtain ⟨rfl, h⟩ := h
        rw [ih _ _ h]

/-- Is the next character after `s` the first of its line? -/
def fresh : Bool → List Char → Bool
  | b, [] => b
  | _, c :: l => fresh (c == '\n') l

theorem pad_append : ∀ (b : Bool) (s t : List Char), pad b (s ++ t) = pad b s ++ pad (fresh b s) t := by
  intro b s
  induction s generalizing b with
  | nil => intro t; simp [pad, fresh]
  | cons c s ih => intro t; cases b <;> simp [pad, fresh, ih]

theorem fresh_append : ∀ (b : Bool) (s t : List Char), fresh b (s ++ t) = fresh (fresh b s) t := by
  intro b s
  induction s generalizing b with
  | nil => intro t; rfl
  | cons c s ih => intro t; simp [fresh, ih]

theorem pad_false_line : ∀ l : List Char, '\n' ∉ l → pad false l = l ∧ fresh false l = false := by
  intro l
  induction l with
  | nil => intro _; exact ⟨rfl, rfl⟩
  | cons c l ih =>
    intro h
    simp only [List.mem_cons, not_or] at h
    have hc : (c == '\n') = false := by simpa using fun e => h.1 e.symm
    simp only [pad, fresh, hc]
    exact ⟨by rw [(ih h.2).1], (ih h.2).2⟩

/-- A line with its newline. -/
theorem pad_true_line (l : List Char) (h : '\n' ∉ l) :
    pad true (l ++ ['\n']) = "    ".toList ++ l ++ ['\n'] ∧ fresh true (l ++ ['\n']) = true := by
  cases l with
  | nil => exact ⟨rfl, rfl⟩
  | cons c l =>
    simp only [List.mem_cons, not_or] at h
    have hc : (c == '\n') = false := by simpa using fun e => h.1 e.symm
    have := pad_false_line l h.2
    constructor
    · show pad true (c :: (l ++ ['\n'])) = _
      simp only [pad, hc, pad_append, this.1, this.2]
      rfl
    · show fresh true (c :: (l ++ ['\n'])) = _
      simp only [fresh, hc, fresh_append, this.2]
      rfl

theorem pad_lines : ∀ ls : List (List Char), (∀ l ∈ ls, '\n' ∉ l) →
    pad true (indentedLines "" ls) = indentedLines "    " ls ∧ fresh true (indentedLines "" ls) = true := by
  intro ls
  induction ls with
  | nil => intro _; exact ⟨rfl, rfl⟩
  | cons l ls ih =>
    intro h
    have h1 := pad_true_line l (h l (by simp))
    have h2 := ih fun x hx => h x (by simp [hx])
    have e : indentedLines "" (l :: ls) = (l ++ ['\n']) ++ indentedLines "" ls := by
      simp [indentedLines]
    have e' : indentedLines "    " (l :: ls) = ("    ".toList ++ l ++ ['\n']) ++ indentedLines "    " ls := by
      simp [indentedLines]
    rw [e, e', pad_append, h1.1, h1.2, h2.1, fresh_append true (l ++ ['\n']), h1.2, h2.2]
    exact ⟨rfl, rfl⟩

end Printed

/-- Every text has lines. -/
theorem exists_linesOf (t : List Char) : ∃ ls last, LinesOf t ls last := by
  induction t with
  | nil => exact ⟨[], [], rfl, by simp, by simp⟩
  | cons c t ih =>
    obtain ⟨ls, last, h⟩ := ih
    by_cases hc : c = '\n'
    · subst hc
      refine ⟨[] :: ls, last, ?_, ?_, h.noNewlineLast⟩
      · rw [h.text]; simp [indentedLines]
      · intro l hl
        rcases List.mem_cons.1 hl with rfl | hl
        · simp
        · exact h.noNewline l hl
    · cases ls with
      | nil =>
        refine ⟨[], c :: last, ?_, by simp, ?_⟩
        · rw [h.text]; simp [indentedLines]
        · simp only [List.mem_cons, not_or]
          exact ⟨fun e => hc e.symm, h.noNewlineLast⟩
      | cons l ls =>
        refine ⟨(c :: l) :: ls, last, ?_, ?_, h.noNewlineLast⟩
        · rw [h.text]; simp [indentedLines]
        · intro x hx
          rcases List.mem_cons.1 hx with rfl | hx
          · simp only [List.mem_cons, not_or]
            exact ⟨fun e => hc e.symm, h.noNewline l (by simp)⟩
          · exact h.noNewline x (by simp [hx])

/-- The text written by a tuple with one field. -/
theorem debugTuple_one {A : Type} (alternate : Bool) (name : String) (hn : name ≠ "") (d : Dbg A) (a : A) :
    ((debugTuple alternate name).field d a).finish =
      if (d alternate a).ok then
        if alternate then
          ⟨name.toList ++ "(\n".toList ++ Printed.pad true ((d alternate a).text ++ ",\n".toList) ++ ")".toList, true⟩
        else ⟨name.toList ++ "(".toList ++ (d alternate a).text ++ ")".toList, true⟩
      else
        if alternate then ⟨name.toList ++ "(\n".toList ++ Printed.pad true (d alternate a).text, false⟩
        else ⟨name.toList ++ "(".toList ++ (d alternate a).text, false⟩ := by
  cases alternate <;> cases h : (d _ a).ok <;>
    simp [debugTuple, DebugTuple.field, DebugTuple.finish, Printed.andThen, Printed.write, h, hn, Printed.padded]

/-- The text written by a struct with two fields that can be printed. -/
theorem debugStruct_two {A B : Type} (alternate : Bool) (name f g : String) (d : Dbg A) (e : Dbg B) (a : A) (b : B)
    (ha : (d alternate a).ok = true) (hb : (e alternate b).ok = true) :
    (((debugStruct alternate name).field f d a).field g e b).finish =
      if alternate then
        ⟨name.toList ++ " {\n".toList ++
          Printed.pad true (f.toList ++ ": ".toList ++ (d alternate a).text ++ ",\n".toList) ++
          Printed.pad true (g.toList ++ ": ".toList ++ (e alternate b).text ++ ",\n".toList) ++ "}".toList, true⟩
      else
        ⟨name.toList ++ " { ".toList ++ f.toList ++ ": ".toList ++ (d alternate a).text ++ ", ".toList ++
          g.toList ++ ": ".toList ++ (e alternate b).text ++ " }".toList, true⟩ := by
  cases alternate <;>
    simp [debugStruct, DebugStruct.field, DebugStruct.finish, Printed.andThen, Printed.write, ha, hb, Printed.padded]

theorem printed_ext {p q : Printed} (h1 : p.text = q.text) (h2 : p.ok = q.ok) : p = q := by
  cases p; cases q; simp_all

/-- The field of a tuple can be recovered from its text. -/
theorem debugTuple_one_inj {name : List Char} {alternate : Bool} {p q : Printed}
    (h : (if p.ok = true then
        if alternate = true then
          Printed.mk (name ++ "(\n".toList ++ Printed.pad true (p.text ++ ",\n".toList) ++ ")".toList) true
        else ⟨name ++ "(".toList ++ p.text ++ ")".toList, true⟩
      else
        if alternate = true then ⟨name ++ "(\n".toList ++ Printed.pad true p.text, false⟩
        else ⟨name ++ "(".toList ++ p.text, false⟩) =
      (if q.ok = true then
        if alternate = true then
          ⟨name ++ "(\n".toList ++ Printed.pad true (q.text ++ ",\n".toList) ++ ")".toList, true⟩
        else ⟨name ++ "(".toList ++ q.text ++ ")".toList, true⟩
      else
        if alternate = true then ⟨name ++ "(\n".toList ++ Printed.pad true q.text, false⟩
        else ⟨name ++ "(".toList ++ q.text, false⟩)) : p = q := by
  obtain ⟨t, b⟩ := p
  obtain ⟨u, c⟩ := q
  cases alternate <;> cases b <;> cases c <;>
    simp only [if_true, Bool.false_eq_true, if_false, Printed.mk.injEq, reduceCtorEq, and_false, and_true] at h
  · rw [List.append_cancel_left h]
  · rw [List.append_cancel_left (List.append_cancel_right h)]
  · rw [Printed.pad_inj _ _ _ (List.append_cancel_left h)]
  · rw [List.append_cancel_right (Printed.pad_inj _ _ _ (List.append_cancel_left (List.append_cancel_right h)))]

/-- A struct is printed behind its name, whatever the fields do. -/
theorem debugStruct_prefix {A B : Type} (alternate : Bool) (name f g : String) (d : Dbg A) (e : Dbg B) (a : A)
    (b : B) : name.toList <+: ((((debugStruct alternate name).field f d a).field g e b).finish).text := by
  have h : ∀ p q : Printed, name.toList <+: p.text → name.toList <+: (p.andThen q).text := by
    intro p q hp
    unfold Printed.andThen
    split
    · exact hp.trans (List.prefix_append _ _)
    · exact hp
  exact h _ _ (h _ _ (h _ _ (List.prefix_refl _)))

/-- If two texts starting with prefix-free parts are equal, so are the parts and the rests. -/
theorem append_inj_of_prefix {a b s t : List Char} (hab : a <+: b → a = b) (hba : b <+: a → b = a)
    (h : a ++ s = b ++ t) : a = b ∧ s = t := by
  have ha : a <+: b ++ t := h ▸ List.prefix_append a s
  have hb : b <+: b ++ t := List.prefix_append b t
  have e : a = b := by
    rcases List.prefix_or_prefix_of_prefix ha hb with h | h
    · exact hab h
    · exact (hba h).symm
  subst e
  exact ⟨rfl, List.append_cancel_left h⟩

theorem debugStruct_two_inj {A B : Type} {alternate : Bool} {d : Dbg A} {e : Dbg B} (name f g : String)
    (hd : PrefixFree (d alternate)) (he : ∀ b, (e alternate b).ok = true) (a a' : A) (b b' : B) :
    (((debugStruct alternate name).field f d a).field g e b).finish =
        (((debugStruct alternate name).field f d a').field g e b').finish ↔
      d alternate a = d alternate a' ∧ e alternate b = e alternate b' := by
  rw [debugStruct_two _ _ _ _ _ _ _ _ (hd.ok _) (he _), debugStruct_two _ _ _ _ _ _ _ _ (hd.ok _) (he _)]
  constructor
  · intro h
    have key : (d alternate a).text = (d alternate a').text ∧ (e alternate b).text = (e alternate b').text := by
      cases alternate
      · simp only [Bool.false_eq_true, if_false, Printed.mk.injEq, and_true] at h
        have h := List.append_cancel_right h
        simp only [List.append_assoc] at h
        have h := List.append_cancel_left (List.append_cancel_left (List.append_cancel_left
          (List.append_cancel_left h)))
        obtain ⟨h1, h2⟩ := append_inj_of_prefix (hd.free a a') (hd.free a' a) h
        exact ⟨h1, List.append_cancel_left (List.append_cancel_left (List.append_cancel_left h2))⟩
      · simp only [if_true, Printed.mk.injEq, and_true] at h
        have h := List.append_cancel_right h
        have hf : ∀ s : List Char, Printed.fresh true (s ++ ",\n".toList) = true := by
          intro s
          rw [Printed.fresh_append]
          rfl
        have hj : ∀ s t : List Char, Printed.pad true (s ++ ",\n".toList) ++ Printed.pad true t =
            Printed.pad true ((s ++ ",\n".toList) ++ t) := by
          intro s t
          rw [Printed.pad_append true (s ++ ",\n".toList) t, hf]
        simp only [List.append_assoc (name.toList ++ " {\n".toList)] at h
        rw [hj, hj] at h
        have h := Printed.pad_inj _ _ _ (List.append_cancel_left h)
        simp only [List.append_assoc] at h
        have h := List.append_cancel_left (List.append_cancel_left h)
        obtain ⟨h1, h2⟩ := append_inj_of_prefix (hd.free a a') (hd.free a' a) h
        have h2 := List.append_cancel_left (List.append_cancel_left (List.append_cancel_left h2))
        exact ⟨h1, List.append_cancel_right h2⟩
    exact ⟨printed_ext key.1 ((hd.ok a).trans (hd.ok a').symm), printed_ext key.2 ((he b).trans (he b').symm)⟩
  · rintro ⟨h1, h2⟩
    rw [h1, h2]

end Statig
