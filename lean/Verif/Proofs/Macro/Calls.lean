import Verif.Proofs.Macro.Follows
/-!
# What generated calls do
-/
namespace Statig.Macro

theorem mem_foldl_add {l : List Ident} : ∀ {init : List Ident} {x : Ident},
    x ∈ l.foldl (fun l x => if x ∈ l then l else l ++ [x]) init ↔ x ∈ init ∨ x ∈ l := by
  induction l with
  | nil => simp
  | cons a l ih =>
    intro init x
    rw [List.foldl_cons, ih]
    by_cases ha : a ∈ init
    · simp only [ha, ↓reduceIte, List.mem_cons]
      constructor
      · exact fun h => h.imp id .inr
      · rintro (h | rfl | h)
        · exact .inl h
        · exact .inl ha
        · exact .inr h
    · simp only [ha, ↓reduceIte, List.mem_append, List.mem_cons, List.not_mem_nil, or_false, or_assoc]

theorem mem_fields {src : Source} {kind : Ident} {mth : Method} {x : Ident} :
    x ∈ src.fields kind mth ↔ (∃ a ∈ mth.inputs, src.param a = some x) ∨ x ∈ mth.storage kind := by
  unfold Source.fields
  rw [mem_foldl_add, List.mem_filterMap]

section
variable {decl : Ident → Option (List Ident)} {T : Types} {I : Iface}

theorem passes_readArg {ev : Option T.Ev} {w : Val decl T.V × T.M × T.Ctx} {r : Role} {a : Arg T}
    (h : Passes ev w r a) : readArg ev w r = some a := by
  cases h with
  | storage => rfl
  | event h => simp [readArg, h]
  | context => rfl
  | field h => simp [readArg, h]

theorem evalArgs_of {bound : List Ident} {ev : Option T.Ev} {w : Val decl T.V × T.M × T.Ctx} {args : List Ident}
    {roles : List Role}
    (h : List.Forall₂ (fun x r => I.resolve bound ev.isSome x = some r ∧ ∃ a, Passes ev w r a) args roles) :
    ∃ l, evalArgs I bound ev w args = some l ∧ l.map (·.1) = roles ∧
      List.Forall₂ (Passes ev w) roles (l.map (·.2)) := by
  induction h with
  | nil => exact ⟨[], rfl, rfl, .nil⟩
  | cons hab _ ih =>
    obtain ⟨l, h1, h2, h3⟩ := ih
    obtain ⟨hr, a, ha⟩ := hab
    rename_i x r xs rs _
    refine ⟨(r, a) :: l, ?_, by simp [h2], .cons ha h3⟩
    unfold evalArgs at h1 ⊢
    rw [List.mapM_cons, h1, hr]
    simp [passes_readArg ha]

theorem writeArg_leaves (w : Val decl T.V × T.M × T.Ctx) (r : Role) (a : Arg T) : Leaves [r] w [a] (writeArg w (r, a)) := by
  have hf : ∀ x, lastLeft (fieldLeft x) [r] [a] = fieldLeft x r a := fun x => by
    unfold lastLeft
    cases h : fieldLeft x r a <;> simp [h]
  have hs : lastLeft storageLeft [r] [a] = storageLeft r a := by
    unfold lastLeft
    cases h : storageLeft r a <;> simp [h]
  have hx : lastLeft contextLeft [r] [a] = contextLeft r a := by
    unfold lastLeft
    cases h : contextLeft r a <;> simp [h]
  refine ⟨?_, fun x => ?_, ?_, ?_⟩
  · cases r <;> cases a <;> rfl
  · rw [hf]
    cases r <;> cases a <;> try (simp [writeArg, fieldLeft]; done)
    rename_i y v
    show (if x = y ∧ (w.1.get x).isSome then some v else w.1.get x) = _
    by_cases hxy : x = y
    · cases w.1.get x <;> simp [fieldLeft, hxy]
    · simp [fieldLeft, hxy]
  · rw [hs]; cases r <;> cases a <;> rfl
  · rw [hx]; cases r <;> cases a <;> rfl

theorem lastLeft_cons {X : Type} (of : Role → Arg T → Option X) (r : Role) (a : Arg T) (roles : List Role)
    (args : List (Arg T)) : lastLeft of (r :: roles) (a :: args) = (lastLeft of roles args).or (lastLeft of [r] [a]) := by
  unfold lastLeft
  cases h : of r a <;> simp [h, List.getLast?_cons]

theorem foldl_leaves : ∀ (roles : List Role) (args : List (Arg T)) (w : Val decl T.V × T.M × T.Ctx),
    Leaves roles w args ((roles.zip args).foldl writeArg w)
  | [], args, w => ⟨rfl, fun x => by simp [lastLeft], rfl, rfl⟩
  | r :: roles, [], w => ⟨rfl, fun x => by simp [lastLeft], rfl, rfl⟩
  | r :: roles, a :: args, w => by
    have h1 := writeArg_leaves w r a
    have h2 := foldl_leaves roles args (writeArg w (r, a))
    refine ⟨h2.variant.trans h1.variant, fun x => ?_, ?_, ?_⟩
    · refine (h2.field x).trans ?_
      rw [h1.field, lastLeft_cons _ r a roles args, Option.map_map]
      congr 1
      funext v
      cases lastLeft (fieldLeft x) roles args <;> rfl
    · refine h2.storage.trans ?_
      rw [h1.storage, lastLeft_cons _ r a roles args]
      cases lastLeft storageLeft roles args <;> rfl
    · refine h2.context.trans ?_
      rw [h1.context, lastLeft_cons _ r a roles args]
      cases lastLeft contextLeft roles args <;> rfl

theorem callFn_calls {α : Type} {bound : List Ident} {ev : Option T.Ev} {w : Val decl T.V × T.M × T.Ctx} {c : FnCall}
    {f : Ident → List (Arg T) → Fut T.In (List (Arg T)) α} {dflt : α} {roles : List Role}
    (h : List.Forall₂ (fun x r => I.resolve bound ev.isSome x = some r ∧ ∃ a, Passes ev w r a) c.args roles)
    (ha : c.await = I.isAsync c.fn) : Calls (f c.fn) roles ev w (callFn I bound ev w c f dflt) := by
  obtain ⟨l, h1, h2, h3⟩ := evalArgs_of h
  refine ⟨l.map (·.2), _, h3, fun args => foldl_leaves roles args w, ?_⟩
  unfold callFn
  rw [h1]
  simp only [ha, ↓reduceIte]
  rw [h2]

theorem roles_of {role : FnArg → Option Role} {P : Ident → Role → Prop} :
    ∀ {inputs : List FnArg} {args : List Ident}, inputs.mapM fnArgToIdent = .ok args →
      (∀ a ∈ inputs, ∀ x, x ∈ args → fnArgToIdent a = .ok x → ∃ r, role a = some r ∧ P x r) →
      ∃ roles, inputs.mapM role = some roles ∧ List.Forall₂ P args roles
  | [], args, h, _ => by
    cases h
    exact ⟨[], rfl, .nil⟩
  | a :: inputs, args, h, hP => by
    rw [List.mapM_cons] at h
    obtain ⟨x, hx, h⟩ := Res.bind_ok h
    obtain ⟨xs, hxs, h⟩ := Res.bind_ok h
    cases h
    obtain ⟨r, hr, hp⟩ := hP a (by simp) x (by simp) hx
    obtain ⟨rs, hrs, hps⟩ := roles_of hxs (fun b hb y hy hby => hP b (by simp [hb]) y (by simp [hy]) hby)
    exact ⟨r :: rs, by rw [List.mapM_cons, hr, hrs]; rfl, .cons hp hps⟩

theorem exists_field {w : Val decl T.V × T.M × T.Ctx} {ev : Option T.Ev} {ns : List Ident}
    (h : decl w.1.variant = some ns) {x : Ident} (hx : x ∈ ns) : ∃ a, Passes ev w (.field x) a := by
  obtain ⟨ns', hn, hs⟩ := w.1.ok
  rw [h] at hn
  cases hn
  obtain ⟨v, hv⟩ := Option.isSome_iff_exists.1 ((hs x).2 hx)
  exact ⟨_, .field hv⟩

end

section
variable {syn : Syn} {src : Source} {g : Gen} {sm : StateMachine} {L : HMap LState} {Lp : HMap LSuperstate}
variable {decl : Ident → Option (List Ident)} {T : Types}

theorem GenInfo.params (h : GenInfo syn src g sm L Lp) (hc : g.Compiles) :
    "shared_storage" ≠ src.eventIdent ∧ "shared_storage" ≠ src.contextIdent ∧ src.eventIdent ≠ src.contextIdent := by
  have := hc.params
  rw [h.eventIdent, h.contextIdent, h.machine.eventIdent, h.machine.contextIdent] at this
  simpa [and_assoc] using this

theorem GenInfo.resolve (h : GenInfo syn src g sm L Lp) (bound : List Ident) (b : Bool) (x : Ident) :
    g.iface.resolve bound b x =
      if x ∈ bound then some (.field x)
      else if x = "shared_storage" then some .storage
      else if b ∧ x = src.eventIdent then some .event
      else if x = src.contextIdent then some .context
      else none := by
  have he : g.iface.eventIdent = src.eventIdent := h.eventIdent.trans h.machine.eventIdent
  have hcx : g.iface.contextIdent = src.contextIdent := h.contextIdent.trans h.machine.contextIdent
  unfold Iface.resolve
  simp only [he, hcx]

/-- A generated call of a handler. -/
theorem GenInfo.handler_calls {α : Type} (h : GenInfo syn src g sm L Lp) (hc : g.Compiles) {kind : Ident} {mth : Method}
    (hm : mth ∈ src.methods) {variant : Variant} {pat : VariantPat} {call : FnCall}
    (hd : Lowered syn src kind mth variant pat call) (hu : src.Unshadowed kind mth)
    (w : Val decl T.V × T.M × T.Ctx) (hw : decl w.1.variant = some (src.fields kind mth)) (ev : T.Ev)
    (f : Ident → List (Arg T) → Fut T.In (List (Arg T)) α) (dflt : α) :
    ∃ roles, mth.inputs.mapM src.role = some roles ∧
      Calls (f mth.name) roles (some ev) w (callFn g.iface pat.fields (some ev) w call f dflt) := by
  obtain ⟨p1, p2, p3⟩ := h.params hc
  obtain ⟨roles, hr, hf⟩ := roles_of (role := src.role)
    (P := fun x r => g.iface.resolve pat.fields (some ev).isSome x = some r ∧ ∃ a, Passes (some ev) w r a)
    hd.handlerArgs (by
    intro a ha x _ hx
    rw [h.resolve, hd.patFields]
    cases a with
    | receiver m =>
      cases hx
      have : "shared_storage" ∉ src.fields kind mth := fun hx => (hu _ hx).1 rfl
      exact ⟨.storage, rfl, by simp [this], _, .storage⟩
    | typed attrs pat' ty =>
      cases pat' with
      | ident i =>
        cases hx
        by_cases he : x = src.eventIdent
        · subst he
          have : src.eventIdent ∉ src.fields kind mth := fun hx => (hu _ hx).2.1 rfl
          refine ⟨.event, by simp [Source.role], ?_, _, .event rfl⟩
          simp [this, p1.symm]
        · by_cases hcx : x = src.contextIdent
          · subst hcx
            have : src.contextIdent ∉ src.fields kind mth := fun hx => (hu _ hx).2.2 rfl
            refine ⟨.context, by simp [Source.role, he], ?_, _, .context⟩
            simp [this, p2.symm, he]
          · have hmem : x ∈ src.fields kind mth :=
              mem_fields.2 (.inl ⟨_, ha, by simp [Source.param, he, hcx]⟩)
            refine ⟨.field x, by simp [Source.role, he, hcx], by simp [hmem], ?_⟩
            exact exists_field hw hmem
      | reference => cases hx
      | unsupported => cases hx)
  refine ⟨roles, hr, ?_⟩
  have := callFn_calls (f := f) (dflt := dflt) hf (by
    rw [hd.handlerAwait, hd.handlerFn, h.isAsync (h.src_distinct hc) hm])
  rwa [hd.handlerFn] at this

/-- A generated call of an action. -/
theorem GenInfo.action_calls (h : GenInfo syn src g sm L Lp) (hc : g.Compiles) {kind : Ident} {mth : Method}
    {am : Method} (ham : am ∈ src.methods) {variant : Variant} {pat : VariantPat} {handler call : FnCall}
    (hd : Lowered syn src kind mth variant pat handler) (hac : ActionCall am call) (hu : src.Unshadowed kind mth)
    (hres : ∀ x ∈ call.args, (g.iface.resolve pat.fields false x).isSome)
    (w : Val decl T.V × T.M × T.Ctx) (hw : decl w.1.variant = some (src.fields kind mth))
    (f : Ident → List (Arg T) → Fut T.In (List (Arg T)) Unit) :
    ∃ roles, am.inputs.mapM src.actionRole = some roles ∧
      Calls (f am.name) roles none w (callFn g.iface pat.fields none w call f ()) := by
  obtain ⟨roles, hr, hf⟩ := roles_of (role := src.actionRole)
    (P := fun x r => g.iface.resolve pat.fields (none : Option T.Ev).isSome x = some r ∧ ∃ a, Passes none w r a)
    hac.args (by
    intro a ha x hxa hx
    have hres := hres x hxa
    rw [h.resolve, hd.patFields] at hres ⊢
    have hsh : "shared_storage" ∉ src.fields kind mth := fun hx => (hu _ hx).1 rfl
    cases a with
    | receiver m =>
      cases hx
      exact ⟨.storage, rfl, by simp [hsh], _, .storage⟩
    | typed attrs pat' ty =>
      cases pat' with
      | ident i =>
        cases hx
        by_cases hi : x = "shared_storage"
        · subst hi
          exact ⟨.storage, by simp [Source.actionRole], by simp [hsh], _, .storage⟩
        · by_cases hcx : x = src.contextIdent
          · subst hcx
            have : src.contextIdent ∉ src.fields kind mth := fun hx => (hu _ hx).2.2 rfl
            refine ⟨.context, by simp [Source.actionRole, hi], ?_, _, .context⟩
            simp [this, hi]
          · have hmem : x ∈ src.fields kind mth := by
              by_contra hmem
              simp [hmem, hi, hcx] at hres
            refine ⟨.field x, by simp [Source.actionRole, hi, hcx], by simp [hmem], ?_⟩
            exact exists_field hw hmem
      | reference => cases hx
      | unsupported => cases hx)
  refine ⟨roles, hr, ?_⟩
  have := callFn_calls (f := f) (dflt := ()) hf (by
    rw [hac.await, hac.fn, h.isAsync (h.src_distinct hc) ham])
  rwa [hac.fn] at this

/-- The arm of an entry or exit action. -/
theorem GenInfo.runAction_calls (h : GenInfo syn src g sm L Lp) (hc : g.Compiles) {kind : Ident} {mth : Method}
    {variant : Variant} {pat : VariantPat} {handler : FnCall} {call : Option FnCall} {link : Option Ident}
    (hd : Lowered syn src kind mth variant pat handler) (hl : ActionLink src link call) (hu : src.Unshadowed kind mth)
    (hres : ∀ c ∈ call, ∀ x ∈ c.args, (g.iface.resolve pat.fields false x).isSome)
    (w : Val decl T.V × T.M × T.Ctx) (hw : decl w.1.variant = some (src.fields kind mth))
    (f : Ident → List (Arg T) → Fut T.In (List (Arg T)) Unit) :
    src.Performs f link w (runAction g.iface (some ⟨pat, call⟩) w f) := by
  cases link with
  | none =>
    cases (hl : call = none)
    rfl
  | some a =>
    obtain ⟨am, ham, rfl, hk, c, rfl, hac⟩ := hl
    obtain ⟨roles, h1, h2⟩ := h.action_calls hc ham hd hac hu (hres c rfl) w hw f
    exact ⟨am, ham, rfl, hk, roles, h1, h2⟩

end
end Statig.Macro
