import Verif.Spec.Forest
import Verif.Proofs.Macro.Gen
/-!
# The generated machine
-/
namespace Statig.Macro

theorem All_mapWorld {In W W' α : Type} {P : W' → Prop} {f : W → W'} (h : ∀ w, P (f w)) (x : Fut In W α) :
    (x.mapWorld f).All P := by
  induction x with
  | done w a => exact .done (h w)
  | panic w => exact .panic (h w)
  | pending w k ih => exact .pending (h w) ih

section
variable {decl : Ident → Option (List Ident)} {T : Types} {I : Iface}

theorem writeArg_variant (w : Val decl T.V × T.M × T.Ctx) (p : Role × Arg T) :
    (writeArg w p).1.variant = w.1.variant := by
  unfold writeArg
  split <;> rfl

theorem foldl_writeArg_variant (l : List (Role × Arg T)) : ∀ (w : Val decl T.V × T.M × T.Ctx),
    (l.foldl writeArg w).1.variant = w.1.variant := by
  induction l with
  | nil => intro w; rfl
  | cons p l ih => intro w; rw [List.foldl_cons, ih, writeArg_variant]

theorem callFn_all {α : Type} (bound : List Ident) (ev : Option T.Ev) (w : Val decl T.V × T.M × T.Ctx)
    (c : FnCall) (f : Ident → List (Arg T) → Fut T.In (List (Arg T)) α) (dflt : α) :
    (callFn I bound ev w c f dflt).All (fun w' => w'.1.variant = w.1.variant) := by
  unfold callFn
  split
  · exact .done rfl
  · split
    · exact All_mapWorld (P := fun w' : Val decl T.V × T.M × T.Ctx => w'.1.variant = w.1.variant) (fun l' => foldl_writeArg_variant _ _) _
    · exact .done rfl

theorem runHandler_all {α : Type} (arm : Option (Arm FnCall)) (ev : T.Ev) (w : Val decl T.V × T.M × T.Ctx)
    (f : Ident → List (Arg T) → Fut T.In (List (Arg T)) (Response α)) :
    (runHandler I arm ev w f).All (fun w' => w'.1.variant = w.1.variant) := by
  unfold runHandler
  split
  · exact callFn_all _ _ _ _ _ _
  · exact .done rfl

theorem runAction_all (arm : Option (Arm (Option FnCall))) (w : Val decl T.V × T.M × T.Ctx)
    (f : Ident → List (Arg T) → Fut T.In (List (Arg T)) Unit) :
    (runAction I arm w f).All (fun w' => w'.1.variant = w.1.variant) := by
  unfold runAction
  split
  · exact callFn_all _ _ _ _ _ _
  · exact .done rfl

theorem view_some {target : VariantPat} {bound : List Ident} {s : Val decl T.V} {v : Val I.supFields T.V}
    {back : Val I.supFields T.V → Val decl T.V} (h : view I target bound s = some (v, back)) :
    ∃ ns, I.supFields target.variant = some ns ∧ viewOk (T := T) ns target bound s.get ∧
      v.variant = target.variant ∧ (∀ x, v.get x = if x ∈ ns then s.get x else none) ∧
      (∀ w, (back w).variant = s.variant) ∧
      (∀ w, w.variant = target.variant → ∀ x, (back w).get x = if x ∈ ns then w.get x else s.get x) := by
  unfold view at h
  split at h
  · cases h
  · rename_i ns hn
    split at h
    · rename_i hv
      cases h
      refine ⟨ns, hn, hv, rfl, fun x => rfl, fun w => ?_, fun w hw x => ?_⟩
      · simp only
        split <;> rfl
      · simp only [hw, ↓reduceDIte]
    · cases h

theorem view_of {target : VariantPat} {bound : List Ident} {s : Val decl T.V} {ns : List Ident}
    (hn : I.supFields target.variant = some ns) (hv : viewOk (T := T) ns target bound s.get) :
    ∃ v back, view I target bound s = some (v, back) := by
  unfold view
  split
  · rename_i h
    rw [hn] at h
    cases h
  · rename_i ns' hn'
    have : ns = ns' := by
      rw [hn] at hn'
      cases hn'
      rfl
    subst this
    rw [dif_pos hv]
    exact ⟨_, _, rfl⟩

theorem Val.ext {a b : Val decl T.V} (h1 : a.variant = b.variant) (h2 : ∀ x, a.get x = b.get x) : a = b := by
  obtain ⟨v, g, ok⟩ := a
  obtain ⟨v', g', ok'⟩ := b
  cases h1
  cases (funext h2 : g = g')
  rfl

theorem view_lawful {target : VariantPat} {bound : List Ident} {s : Val decl T.V} {v : Val I.supFields T.V}
    {back : Val I.supFields T.V → Val decl T.V} (h : view I target bound s = some (v, back)) (w : Val I.supFields T.V)
    (hw : w.variant = v.variant) :
    ∃ back', view I target bound (back w) = some (w, back') ∧
      ∀ w', w'.variant = v.variant → back' w' = back w' := by
  obtain ⟨ns, hn, ⟨hv1, hv2⟩, h1, h2, h3, h4⟩ := view_some h
  rw [h1] at hw
  obtain ⟨ns', hn', hs⟩ := w.ok
  have : ns = ns' := by
    rw [hw, hn] at hn'
    cases hn'
    rfl
  subst this
  have hok : viewOk (T := T) ns target bound (back w).get := by
    refine ⟨hv1, fun x hx => ?_⟩
    obtain ⟨a, b, c⟩ := hv2 x hx
    refine ⟨a, b, ?_⟩
    rw [h4 w hw, if_pos a]
    exact (hs x).2 a
  obtain ⟨v', back', he⟩ := view_of hn hok
  obtain ⟨ns', hn', -, h1', h2', h3', h4'⟩ := view_some he
  have : ns = ns' := by
    rw [hn] at hn'
    cases hn'
    rfl
  subst this
  have hv' : v' = w := by
    refine Val.ext (h1'.trans hw.symm) fun x => ?_
    rw [h2', h4 w hw]
    by_cases hx : x ∈ ns
    · simp [hx]
    · rw [if_neg hx]
      have := mt (hs x).1 hx
      simpa using (Eq.symm (by simpa using this))
  subst hv'
  refine ⟨back', he, fun w' hw' => ?_⟩
  rw [h1] at hw'
  refine Val.ext ((h3' w').trans ((h3 v').trans (h3 w').symm)) fun x => ?_
  rw [h4' w' hw', h4 w' hw', h4 v' hw]
  by_cases hx : x ∈ ns <;> simp [hx]

end

/-- Views of superstates in generated machines are lawful, whatever was declared. -/
theorem machine_lawful (I : Iface) {T : Types} (env : Env I T) : Lawful (I.machine env) := by
  constructor
  · intro s v back w h hw
    simp only [Iface.machine] at h hw ⊢
    unfold runSuperstate at h
    split at h
    · rename_i pat target harm
      have hb : (back w).variant = s.variant := by
        obtain ⟨_, _, _, _, _, h3, _⟩ := view_some h
        exact h3 w
      simp only [hb, harm, runSuperstate]
      exact view_lawful h w hw
    · cases h
  · intro s v back w h hw
    simp only [Iface.machine] at h hw ⊢
    unfold runSuperstate at h
    split at h
    · rename_i pat target harm
      have hb : (back w).variant = s.variant := by
        obtain ⟨_, _, _, _, _, h3, _⟩ := view_some h
        exact h3 w
      simp only [hb, harm, runSuperstate]
      exact view_lawful h w hw
    · cases h

/-- The target of the superstate arm of a variant. -/
def armTarget (arm : Option (Arm (Option VariantPat))) : Option Ident :=
  (arm.bind (·.body)).map (·.variant)

/-- A machine whose superstate expressions all compile follows the hierarchy of its arms. -/
theorem machine_follows (I : Iface) {T : Types} (env : Env I T) (F : Forest Ident Ident)
    (hl : ∀ v, F.leafParent v = armTarget (I.superstate v)) (hs : ∀ v, F.supParent v = armTarget (I.supSuperstate v))
    (okl : ∀ v fs, I.stateFields v = some fs → ∀ a ∈ I.superstate v, ∀ p ∈ a.body,
      ∃ ns, I.supFields p.variant = some ns ∧ (∀ x ∈ ns, x ∈ p.fields) ∧ ∀ x ∈ p.fields, x ∈ ns ∧ x ∈ a.pat.fields ∧ x ∈ fs)
    (oks : ∀ v fs, I.supFields v = some fs → ∀ a ∈ I.supSuperstate v, ∀ p ∈ a.body,
      ∃ ns, I.supFields p.variant = some ns ∧ (∀ x ∈ ns, x ∈ p.fields) ∧ ∀ x ∈ p.fields, x ∈ ns ∧ x ∈ a.pat.fields ∧ x ∈ fs) :
    Follows (I.machine env) F where
  leaf s := by
    simp only [Iface.machine, hl]
    unfold armTarget runSuperstate
    cases ha : I.superstate s.variant with
    | none => rfl
    | some arm =>
      obtain ⟨pat, body⟩ := arm
      cases body with
      | none => rfl
      | some target =>
        obtain ⟨fs, hfs, hget⟩ := s.ok
        obtain ⟨ns, h1, h2, h3⟩ := okl _ _ hfs ⟨pat, some target⟩ ha target rfl
        obtain ⟨v, back, h⟩ := view_of (bound := pat.fields) (s := s) h1
          ⟨h2, fun x hx => ⟨(h3 x hx).1, (h3 x hx).2.1, (hget x).2 (h3 x hx).2.2⟩⟩
        obtain ⟨_, _, _, hv, _⟩ := view_some h
        simp [h, hv]
  sup s := by
    simp only [Iface.machine, hs]
    unfold armTarget runSuperstate
    cases ha : I.supSuperstate s.variant with
    | none => rfl
    | some arm =>
      obtain ⟨pat, body⟩ := arm
      cases body with
      | none => rfl
      | some target =>
        obtain ⟨fs, hfs, hget⟩ := s.ok
        obtain ⟨ns, h1, h2, h3⟩ := oks _ _ hfs ⟨pat, some target⟩ ha target rfl
        obtain ⟨v, back, h⟩ := view_of (bound := pat.fields) (s := s) h1
          ⟨h2, fun x hx => ⟨(h3 x hx).1, (h3 x hx).2.1, (hget x).2 (h3 x hx).2.2⟩⟩
        obtain ⟨_, _, _, hv, _⟩ := view_some h
        simp [h, hv]
  leaf_back s v back w h _ := by
    simp only [Iface.machine] at h ⊢
    unfold runSuperstate at h
    split at h
    · obtain ⟨_, _, _, _, _, h3, _⟩ := view_some h
      exact h3 w
    · cases h
  sup_back s v back w h _ := by
    simp only [Iface.machine] at h ⊢
    unfold runSuperstate at h
    split at h
    · obtain ⟨_, _, _, _, _, h3, _⟩ := view_some h
      exact h3 w
    · cases h
  handler s sh ev c := runHandler_all (I := I) (I.handler s.variant) ev (s, sh, c) env.handler
  entry s sh c := runAction_all (I := I) (I.entry s.variant) (s, sh, c) env.action
  exit s sh c := runAction_all (I := I) (I.exit s.variant) (s, sh, c) env.action
  supHandler v sh ev c := runHandler_all (I := I) (I.supHandler v.variant) ev (v, sh, c) env.handler
  supEntry v sh c := runAction_all (I := I) (I.supEntry v.variant) (v, sh, c) env.action
  supExit v sh c := runAction_all (I := I) (I.supExit v.variant) (v, sh, c) env.action

/-- A hierarchy from parents without infinite ascent. -/
theorem exists_forest {D E : Type} (leafParent : D → Option E) (supParent : E → Option E)
    (h : WellFounded fun p e => supParent e = some p) :
    ∃ F : Forest D E, F.leafParent = leafParent ∧ F.supParent = supParent := by
  let anc : E → List E := h.fix fun e rec =>
    match he : supParent e with
    | none => []
    | some p => p :: rec p he
  refine ⟨⟨leafParent, supParent, anc, fun e => ?_⟩, rfl, rfl⟩
  show anc e = _
  simp only [anc]
  rw [WellFounded.fix_eq]
  split <;> simp [*]

end Statig.Macro
