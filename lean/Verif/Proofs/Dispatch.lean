import Verif.Proofs.Callbacks
/-! # Log of dispatch -/
namespace Statig
variable {S : Sig} {m : Machine S} {F : Forest S.D S.E}

section lists
variable {D E V T : Type}

/-- What `SuperstateExt::handle` itself logs: everything between the hooks of its own superstate. -/
def bodyLog (ev : V) : List (Node D E × Response T) → List (Step D E V T)
  | [] => []
  | (n, r) :: rest => [.handler n ev, .returned n r] ++ nestedLog ev rest

theorem Climb.ne_nil {path : List (Node D E)} {cl : List (Node D E × Response T)} (h : Climb path cl) : cl ≠ [] := by
  cases h <;> simp

theorem Climb.head {path : List (Node D E)} {cl : List (Node D E × Response T)} (h : Climb path cl) :
    ∃ n r rest p, cl = (n, r) :: rest ∧ path = n :: p := by
  cases h with
  | stop => exact ⟨_, _, _, _, rfl, rfl⟩
  | top => exact ⟨_, _, _, _, rfl, rfl⟩
  | up => exact ⟨_, _, _, _, rfl, rfl⟩

theorem lastResponse_cons (x : Node D E × Response T) {cl} (h : cl ≠ []) :
    lastResponse (x :: cl) = lastResponse cl := by
  unfold lastResponse
  rw [List.getLast?_cons]
  cases hc : cl.getLast? with
  | none => simp at hc; exact absurd hc h
  | some y => simp

theorem lastResponse_single (n : Node D E) (r : Response T) : lastResponse [(n, r)] = some r := rfl

end lists

/-- What the awaitable `handle` returns when the last handler called returned `r`, for a state that has a
superstate. -/
def superToHandled {A : Type} : Response A → Response A
  | .super => .handled
  | r => r

theorem Does.bindR {σ α β κ : Type} {tag : σ → κ} {x : Eff S σ α} {f : α → Eff S σ β} {s} {A}
    {C : List (Step S.D S.E S.Ev S.St) → β → Prop}
    (hx : Does m tag x s A)
    (hf : ∀ a s' L1, tag s' = tag s → A L1 a → ∃ B, Does m tag (f a) s' B ∧ ∀ L2 b, B L2 b → C (L1 ++ L2) b) :
    Does m tag (x >>= f) s C := by
  intro g
  obtain ⟨o, s1, g1, T1, h1, h2, h3, h4, ⟨L, a, h5, h6⟩, h9, h7, h8⟩ := hx g
  have hbind : (x >>= f) s g = Eff.bind x f s g := rfl
  have hint : ∃ L' b, C L' b ∧ m.steps T1 <+: L' := by
    obtain ⟨B, hB, hC⟩ := hf a s1 L h3 h5
    obtain ⟨L2, b, hB⟩ := hB.nonempty g1
    exact ⟨L ++ L2, b, hC _ _ hB, h6.trans (List.prefix_append _ _)⟩
  cases o with
  | ok a =>
    obtain ⟨B, hB, hC⟩ := hf a s1 _ h3 (h4 a rfl)
    obtain ⟨o', s2, g2, T2, k1, k2, k3, k4, ⟨L', b', k5, k6⟩, k9, k7, k8⟩ := hB g1
    refine ⟨o', s2, g2, T1 ++ T2, ?_, ?_, k3.trans h3, ?_, ?_, fun h => k9 (List.append_eq_nil_iff.1 h).2, k7, k8⟩
    · rw [hbind]; unfold Eff.bind; rw [h1]; exact k1
    · rw [k2, h2, List.append_assoc]
    · intro b hb
      have := hC _ _ (k4 b hb)
      simpa [Machine.steps] using this
    · refine ⟨m.steps T1 ++ L', b', hC _ _ k5, ?_⟩
      rw [show m.steps (T1 ++ T2) = m.steps T1 ++ m.steps T2 by simp [Machine.steps]]
      exact (List.prefix_append_right_inj _).2 k6
  | panic =>
    refine ⟨.panic, s1, g1, T1, ?_, h2, h3, by simp, hint, h9, by simpa using h7, by simp⟩
    rw [hbind]; unfold Eff.bind; rw [h1]
  | stopped =>
    refine ⟨.stopped, s1, g1, T1, ?_, h2, h3, by simp, hint, h9, by simp, by simpa using h8⟩
    rw [hbind]; unfold Eff.bind; rw [h1]

/-- Blocking: what a superstate surrounded by its dispatch hooks does. -/
theorem does_announced (ev : S.Ev) (v : S.Sup) {P : List (Node S.D S.E × Response S.St) → Response S.St → Prop}
    (hcl : ∀ cl r, P cl r → ∃ r0 rest, cl = (.sup (m.supDiscr v), r0) :: rest)
    (h : ∀ v', m.supDiscr v' = m.supDiscr v →
      Does m m.supDiscr (Blocking.supHandle m ev) v' (fun L r => ∃ cl, P cl r ∧ L = bodyLog ev cl)) :
    Does m m.supDiscr (do
      hookSupBeforeDispatch m ev
      let response ← Blocking.supHandle m ev
      hookSupAfterDispatch m ev
      pure response) v (fun L r => ∃ cl, P cl r ∧ L = nestedLog ev cl) := by
  refine (does_hookSupBeforeDispatch ev v).bindR ?_
  rintro _ v1 _ hv1 rfl
  refine ⟨fun L2 r => ∃ cl, P cl r ∧ [.beforeDispatch (.sup (m.supDiscr v)) ev] ++ L2 = nestedLog ev cl,
    ?_, fun L2 r h => h⟩
  refine (h v1 hv1).bindR ?_
  rintro r v2 _ hv2 ⟨cl, hP, rfl⟩
  obtain ⟨r0, rest, rfl⟩ := hcl cl r hP
  refine ⟨_, ((does_hookSupAfterDispatch ev v2).bind (fun _ s' _ => Does.pure r s')), ?_⟩
  rintro L2 r' ⟨l1, _, l2, rfl, ⟨rfl, rfl⟩, rfl⟩
  refine ⟨_, hP, ?_⟩
  rw [hv2, hv1]
  simp [bodyLog, nestedLog]

theorem does_supHandle (hF : Follows m F) (ev : S.Ev) (v : S.Sup) :
    Does m m.supDiscr (Blocking.supHandle m ev) v (fun L r =>
      ∃ cl, (Climb (F.up (.sup (m.supDiscr v))) cl ∧ lastResponse cl = some r) ∧
        L = bodyLog ev cl) := by
  generalize hl : F.supAnc (m.supDiscr v) = l
  induction l generalizing v with
  | nil =>
    rw [Blocking.supHandle]
    refine (does_callSupHandler hF ev v).bindR ?_
    rintro r v1 _ hv1 rfl
    have hup : F.up (.sup (m.supDiscr v)) = [.sup (m.supDiscr v)] := by
      simp [Forest.up, Forest.anc, hl]
    rw [hup]
    cases r with
    | handled =>
      refine ⟨_, Does.pure _ v1, ?_⟩
      rintro L2 b ⟨rfl, rfl⟩
      exact ⟨_, ⟨Climb.stop (r := .handled) (by simp), rfl⟩, by simp [bodyLog, nestedLog]⟩
    | transition t =>
      refine ⟨_, Does.pure _ v1, ?_⟩
      rintro L2 b ⟨rfl, rfl⟩
      exact ⟨_, ⟨Climb.stop (r := .transition t) (by simp), rfl⟩,
        by simp [bodyLog, nestedLog]⟩
    | super =>
      refine ⟨fun L2 b => L2 = [] ∧ b = .super, ?_, ?_⟩
      · have hno : m.supSuperstate v1 = none := hF.supSuperstate_of_nil (by rw [hv1]; exact hl)
        refine (Does.borrow_none hno).bindR ?_
        rintro r' v2 _ hv2 ⟨rfl, rfl⟩
        exact ⟨_, Does.pure _ v2, fun L2 b h => by simpa using h⟩
      · rintro L2 b ⟨rfl, rfl⟩
        exact ⟨_, ⟨Climb.top, rfl⟩, by simp [bodyLog, nestedLog]⟩
  | cons e l ih =>
    rw [Blocking.supHandle]
    refine (does_callSupHandler hF ev v).bindR ?_
    rintro r v1 _ hv1 rfl
    cases r with
    | handled =>
      refine ⟨_, Does.pure _ v1, ?_⟩
      rintro L2 b ⟨rfl, rfl⟩
      exact ⟨_, ⟨Climb.stop (r := .handled) (by simp), rfl⟩, by simp [bodyLog, nestedLog]⟩
    | transition t =>
      refine ⟨_, Does.pure _ v1, ?_⟩
      rintro L2 b ⟨rfl, rfl⟩
      exact ⟨_, ⟨Climb.stop (r := .transition t) (by simp), rfl⟩,
        by simp [bodyLog, nestedLog]⟩
    | super =>
      rw [← hv1] at hl
      obtain ⟨w, back, hw, hwe, hwl⟩ := hF.supSuperstate_of_cons hl
      have hup : F.up (.sup (m.supDiscr v)) = .sup (m.supDiscr v) :: F.up (.sup (m.supDiscr w)) := by
        rw [up_sup, ← hv1, hF.supSuperstate_some hw]; rfl
      rw [hup]
      refine ⟨fun L2 b => ∃ cl, (Climb (F.up (.sup (m.supDiscr w))) cl ∧
          lastResponse cl = some b) ∧ L2 = nestedLog ev cl, ?_, ?_⟩
      · refine (Does.borrow_some hw (fun w' hw' => hF.sup_back v1 w back w' hw hw')
          (does_announced ev w (P := fun cl r => Climb (F.up (.sup (m.supDiscr w))) cl ∧
          lastResponse cl = some r) ?_ ?_)).bindR ?_
        · rintro cl r ⟨h1, h2⟩
          obtain ⟨n, r0, rest, p, rfl, hp⟩ := h1.head
          rw [up_sup] at hp
          injection hp with hp1 hp2
          exact ⟨r0, rest, by rw [hp1]⟩
        · intro v' hv'
          have := ih v' (by rw [hv', ← hwl])
          rw [hv'] at this
          exact this
        · rintro r' v2 L2 hv2 ⟨a, rfl, hL⟩
          refine ⟨_, Does.pure _ v2, ?_⟩
          rintro L3 b ⟨rfl, rfl⟩
          simpa using hL
      · rintro L2 b ⟨cl, ⟨h1, h2⟩, rfl⟩
        refine ⟨_, ⟨Climb.up h1, ?_⟩, ?_⟩
        · rw [lastResponse_cons _ h1.ne_nil]; exact h2
        · simp [bodyLog]

theorem does_handle (hF : Follows m F) (ev : S.Ev) (s : S.St) :
    Does m m.discr (Blocking.handle m ev) s (fun L r =>
      ∃ cl, Climb (F.path (m.discr s)) cl ∧ lastResponse cl = some r ∧
        L = blockingLog ev cl) := by
  unfold Blocking.handle
  refine (does_hookBeforeDispatch ev s).bindR ?_
  rintro _ s1 _ hs1 rfl
  refine ⟨_, ?_, fun L2 b h => h⟩
  refine (does_callHandler hF ev s1).bindR ?_
  rintro r s2 _ hs2 rfl
  refine ⟨_, ?_, fun L2 b h => h⟩
  refine (does_hookAfterDispatch ev s2).bindR ?_
  rintro _ s3 _ hs3 rfl
  rw [hs2, hs1]
  rw [hs2, hs1] at hs3
  cases r with
  | handled =>
    refine ⟨_, Does.pure _ s3, ?_⟩
    rintro L2 b ⟨rfl, rfl⟩
    exact ⟨_, Climb.stop (r := .handled) (by simp), rfl, by simp [blockingLog, nestedLog]⟩
  | transition t =>
    refine ⟨_, Does.pure _ s3, ?_⟩
    rintro L2 b ⟨rfl, rfl⟩
    exact ⟨_, Climb.stop (r := .transition t) (by simp), rfl,
      by simp [blockingLog, nestedLog]⟩
  | super =>
    simp only
    cases hsup : m.superstate s3 with
    | none =>
      have hp : F.path (m.discr s) = [.leaf (m.discr s)] := by
        rw [up_leaf, ← hs3, hF.superstate_none hsup]; rfl
      rw [hp]
      refine ⟨fun L2 b => L2 = [] ∧ b = .super, ?_, ?_⟩
      · refine (Does.borrow_none hsup).bindR ?_
        rintro r' v2 _ hv2 ⟨rfl, rfl⟩
        exact ⟨_, Does.pure _ v2, fun L2 b h => by simpa using h⟩
      · rintro L2 b ⟨rfl, rfl⟩
        exact ⟨_, Climb.top, rfl, by simp [blockingLog, nestedLog]⟩
    | some p =>
      obtain ⟨w, back⟩ := p
      have hp : F.path (m.discr s) = .leaf (m.discr s) :: F.up (.sup (m.supDiscr w)) := by
        rw [up_leaf, ← hs3, hF.superstate_some hsup]; rfl
      rw [hp]
      refine ⟨fun L2 b => ∃ cl, (Climb (F.up (.sup (m.supDiscr w))) cl ∧
          lastResponse cl = some b) ∧ L2 = nestedLog ev cl, ?_, ?_⟩
      · refine (Does.borrow_some hsup (fun w' hw' => hF.leaf_back s3 w back w' hsup hw')
          (does_announced ev w (P := fun cl r => Climb (F.up (.sup (m.supDiscr w))) cl ∧
          lastResponse cl = some r) ?_ ?_)).bindR ?_
        · rintro cl r ⟨h1, h2⟩
          obtain ⟨n, r0, rest, p, rfl, hp⟩ := h1.head
          rw [up_sup] at hp
          injection hp with hp1 hp2
          exact ⟨r0, rest, by rw [hp1]⟩
        · intro v' hv'
          have := does_supHandle hF ev v'
          rw [hv'] at this
          exact this
        · rintro r' v2 L2 hv2 ⟨a, rfl, hL⟩
          refine ⟨_, Does.pure _ v2, ?_⟩
          rintro L3 b ⟨rfl, rfl⟩
          simpa using hL
      · rintro L2 b ⟨cl, ⟨h1, h2⟩, rfl⟩
        refine ⟨_, Climb.up h1, ?_, ?_⟩
        · rw [lastResponse_cons _ h1.ne_nil]; exact h2
        · simp [blockingLog]

/-! ## Awaitable -/

theorem does_handleLoop (hF : Follows m F) (ev : S.Ev) (v : S.Sup) :
    Does m m.supDiscr (Awaitable.handleLoop m ev) v (fun L r =>
      ∃ cl x, Climb (F.up (.sup (m.supDiscr v))) cl ∧ lastResponse cl = some x ∧
        r = superToHandled x ∧ L = sequentialLog ev cl) := by
  generalize hl : F.supAnc (m.supDiscr v) = l
  induction l generalizing v with
  | nil =>
    rw [Awaitable.handleLoop]
    refine (does_hookSupBeforeDispatch ev v).bindR ?_
    rintro _ v1 _ hv1 rfl
    refine ⟨_, ?_, fun L2 b h => h⟩
    refine (does_callSupHandler hF ev v1).bindR ?_
    rintro r v2 _ hv2 rfl
    refine ⟨_, ?_, fun L2 b h => h⟩
    refine (does_hookSupAfterDispatch ev v2).bindR ?_
    rintro _ v3 _ hv3 rfl
    rw [hv2, hv1]
    rw [hv2, hv1] at hv3
    have hup : F.up (.sup (m.supDiscr v)) = [.sup (m.supDiscr v)] := by
      simp [Forest.up, Forest.anc, hl]
    rw [hup]
    cases r with
    | handled =>
      refine ⟨_, Does.pure _ v3, ?_⟩
      rintro L2 b ⟨rfl, rfl⟩
      exact ⟨_, _, Climb.stop (r := .handled) (by simp), rfl, rfl, by simp [sequentialLog]⟩
    | transition t =>
      refine ⟨_, Does.pure _ v3, ?_⟩
      rintro L2 b ⟨rfl, rfl⟩
      exact ⟨_, _, Climb.stop (r := .transition t) (by simp), rfl, rfl,
        by simp [sequentialLog]⟩
    | super =>
      refine ⟨fun L2 b => L2 = [] ∧ b = .handled, ?_, ?_⟩
      · have hno : m.supSuperstate v3 = none := hF.supSuperstate_of_nil (by rw [hv3]; exact hl)
        refine (Does.borrow_none hno).bindR ?_
        rintro r' v4 _ hv4 ⟨rfl, rfl⟩
        exact ⟨_, Does.pure _ v4, fun L2 b h => by simpa using h⟩
      · rintro L2 b ⟨rfl, rfl⟩
        exact ⟨_, _, Climb.top, rfl, rfl, by simp [sequentialLog]⟩
  | cons e l ih =>
    rw [Awaitable.handleLoop]
    refine (does_hookSupBeforeDispatch ev v).bindR ?_
    rintro _ v1 _ hv1 rfl
    refine ⟨_, ?_, fun L2 b h => h⟩
    refine (does_callSupHandler hF ev v1).bindR ?_
    rintro r v2 _ hv2 rfl
    refine ⟨_, ?_, fun L2 b h => h⟩
    refine (does_hookSupAfterDispatch ev v2).bindR ?_
    rintro _ v3 _ hv3 rfl
    rw [hv2, hv1]
    rw [hv2, hv1] at hv3
    cases r with
    | handled =>
      refine ⟨_, Does.pure _ v3, ?_⟩
      rintro L2 b ⟨rfl, rfl⟩
      exact ⟨_, _, Climb.stop (r := .handled) (by simp), rfl, rfl, by simp [sequentialLog]⟩
    | transition t =>
      refine ⟨_, Does.pure _ v3, ?_⟩
      rintro L2 b ⟨rfl, rfl⟩
      exact ⟨_, _, Climb.stop (r := .transition t) (by simp), rfl, rfl,
        by simp [sequentialLog]⟩
    | super =>
      rw [← hv3] at hl
      obtain ⟨w, back, hw, hwe, hwl⟩ := hF.supSuperstate_of_cons hl
      have hup : F.up (.sup (m.supDiscr v)) = .sup (m.supDiscr v) :: F.up (.sup (m.supDiscr w)) := by
        rw [up_sup, ← hv3, hF.supSuperstate_some hw]; rfl
      rw [hup]
      refine ⟨fun L r => ∃ cl x, Climb (F.up (.sup (m.supDiscr w))) cl ∧ lastResponse cl = some x ∧
        r = superToHandled x ∧ L = sequentialLog ev cl, ?_, ?_⟩
      · refine (Does.borrow_some hw (fun w' hw' => hF.sup_back v3 w back w' hw hw')
          (ih w hwl.symm)).bindR ?_
        rintro r' v4 L2 hv4 ⟨a, rfl, hL⟩
        refine ⟨_, Does.pure _ v4, ?_⟩
        rintro L3 b ⟨rfl, rfl⟩
        simpa using hL
      · rintro L2 b ⟨cl, x, h1, h2, h3, rfl⟩
        refine ⟨_, x, Climb.up h1, ?_, h3, ?_⟩
        · rw [lastResponse_cons _ h1.ne_nil]; exact h2
        · simp [sequentialLog]

theorem does_awaitHandle (hF : Follows m F) (ev : S.Ev) (s : S.St) :
    Does m m.discr (Awaitable.handle m ev) s (fun L r =>
      ∃ cl x, Climb (F.path (m.discr s)) cl ∧ lastResponse cl = some x ∧
        r = (if F.leafAnc (m.discr s) = [] then x else superToHandled x) ∧
        L = sequentialLog ev cl) := by
  unfold Awaitable.handle
  refine (does_hookBeforeDispatch ev s).bindR ?_
  rintro _ s1 _ hs1 rfl
  refine ⟨_, ?_, fun L2 b h => h⟩
  refine (does_callHandler hF ev s1).bindR ?_
  rintro r s2 _ hs2 rfl
  refine ⟨_, ?_, fun L2 b h => h⟩
  refine (does_hookAfterDispatch ev s2).bindR ?_
  rintro _ s3 _ hs3 rfl
  rw [hs2, hs1]
  rw [hs2, hs1] at hs3
  cases r with
  | handled =>
    refine ⟨_, Does.pure _ s3, ?_⟩
    rintro L2 b ⟨rfl, rfl⟩
    refine ⟨_, _, Climb.stop (r := .handled) (by simp), rfl, ?_, by simp [sequentialLog]⟩
    split <;> rfl
  | transition t =>
    refine ⟨_, Does.pure _ s3, ?_⟩
    rintro L2 b ⟨rfl, rfl⟩
    refine ⟨_, _, Climb.stop (r := .transition t) (by simp), rfl, ?_,
      by simp [sequentialLog]⟩
    split <;> rfl
  | super =>
    simp only
    cases hsup : m.superstate s3 with
    | none =>
      have hp : F.path (m.discr s) = [.leaf (m.discr s)] := by
        rw [up_leaf, ← hs3, hF.superstate_none hsup]; rfl
      rw [hp]
      refine ⟨fun L2 b => L2 = [] ∧ b = .super, ?_, ?_⟩
      · refine (Does.borrow_none hsup).bindR ?_
        rintro r' v2 _ hv2 ⟨rfl, rfl⟩
        exact ⟨_, Does.pure _ v2, fun L2 b h => by simpa using h⟩
      · rintro L2 b ⟨rfl, rfl⟩
        have := hF.leafAnc_none hsup
        rw [hs3] at this
        exact ⟨_, _, Climb.top, rfl, by rw [if_pos this]; rfl, by simp [sequentialLog]⟩
    | some p =>
      obtain ⟨w, back⟩ := p
      have hp : F.path (m.discr s) = .leaf (m.discr s) :: F.up (.sup (m.supDiscr w)) := by
        rw [up_leaf, ← hs3, hF.superstate_some hsup]; rfl
      have hne : F.leafAnc (m.discr s) ≠ [] := by
        rw [← hs3, hF.leafAnc_some hsup]; simp [Forest.chain]
      rw [hp]
      refine ⟨fun L r => ∃ cl x, Climb (F.up (.sup (m.supDiscr w))) cl ∧ lastResponse cl = some x ∧
        r = superToHandled x ∧ L = sequentialLog ev cl, ?_, ?_⟩
      · refine (Does.borrow_some hsup (fun w' hw' => hF.leaf_back s3 w back w' hsup hw')
          (does_handleLoop hF ev w)).bindR ?_
        rintro r' v4 L2 hv4 ⟨a, rfl, hL⟩
        refine ⟨_, Does.pure _ v4, ?_⟩
        rintro L3 b ⟨rfl, rfl⟩
        simpa using hL
      · rintro L2 b ⟨cl, x, h1, h2, h3, rfl⟩
        refine ⟨_, x, Climb.up h1, ?_, by rw [if_neg hne]; exact h3, ?_⟩
        · rw [lastResponse_cons _ h1.ne_nil]; exact h2
        · simp [sequentialLog]

end Statig
