import Verif.Spec.Invariants
import Verif.Proofs.Replay
import Verif.Props.Threads
import Verif.Props.History
/-!
# Lemmas about the active nodes during a call
-/
namespace Statig
variable {D E V T : Type} {F : Forest D E}

/-- `Legal F st L st'`: the steps `L` are possible, in this order, when the nodes `st` are active, and then the nodes
`st'` are. -/
inductive Legal (F : Forest D E) : List (Node D E) → List (Step D E V T) → List (Node D E) → Prop where
  | nil {st} : Legal F st [] st
  | handler {d n ev st L st'} : n ∈ F.path d → st = F.path d → Legal F st L st' → Legal F st (.handler n ev :: L) st'
  | returned {n r st L st'} : Legal F st L st' → Legal F st (.returned n r :: L) st'
  | entry {n st L st'} : st = (F.up n).tail → Legal F (F.up n) L st' → Legal F st (.entry n :: L) st'
  | exit {n st L st'} : st = F.up n → Legal F (F.up n).tail L st' → Legal F st (.exit n :: L) st'
  | beforeDispatch {d n ev st L st'} : n ∈ F.path d → st = F.path d → Legal F st L st' →
      Legal F st (.beforeDispatch n ev :: L) st'
  | afterDispatch {d n ev st L st'} : n ∈ F.path d → st = F.path d → Legal F st L st' →
      Legal F st (.afterDispatch n ev :: L) st'
  | beforeTransition {d a b st L st'} : d = a ∨ d = b → st = F.path d → Legal F st L st' →
      Legal F st (.beforeTransition a b :: L) st'
  | afterTransition {a b st L st'} : st = F.path b → Legal F st L st' → Legal F st (.afterTransition a b :: L) st'

theorem Legal.append {st st1 st2} {L L' : List (Step D E V T)} (h : Legal F st L st1) (h' : Legal F st1 L' st2) :
    Legal F st (L ++ L') st2 := by
  induction h with
  | nil => exact h'
  | handler a b _ ih => exact .handler a b (ih h')
  | returned _ ih => exact .returned (ih h')
  | entry a _ ih => exact .entry a (ih h')
  | exit a _ ih => exact .exit a (ih h')
  | beforeDispatch a b _ ih => exact .beforeDispatch a b (ih h')
  | afterDispatch a b _ ih => exact .afterDispatch a b (ih h')
  | beforeTransition a b _ ih => exact .beforeTransition a b (ih h')
  | afterTransition a _ ih => exact .afterTransition a (ih h')

/-- A part of a list in which every node is followed by its parent is what is above its head. -/
theorem linked_cons {n : Node D E} {l : List (Node D E)} (h : Linked F (n :: l)) : n :: l = F.up n := by
  induction l generalizing n with
  | nil =>
    cases h with
    | cons hp _ =>
      have hp : F.parent n = none := hp
      rw [F.up_eq, hp]
  | cons p l ih =>
    cases h with
    | cons hp h =>
      have hp : F.parent n = some p := hp
      rw [ih h, F.up_eq n, hp]

theorem legal_exits {k rest : List (Node D E)} (h : Linked F (k ++ rest)) :
    Legal (V := V) (T := T) F (k ++ rest) (k.map .exit) rest := by
  induction k with
  | nil => exact .nil
  | cons n k ih =>
    have e := linked_cons h
    refine .exit e ?_
    have e' : k ++ rest = (F.up n).tail := by rw [← e]; rfl
    rw [← e']
    cases h with | cons _ h => exact ih h

theorem legal_entries {k rest : List (Node D E)} (h : Linked F (k ++ rest)) :
    Legal (V := V) (T := T) F rest (k.reverse.map .entry) (k ++ rest) := by
  induction k with
  | nil => exact .nil
  | cons n k ih =>
    have e := linked_cons h
    rw [List.reverse_cons, List.map_append]
    have h' : Linked F (k ++ rest) := by cases h with | cons _ h => exact h
    refine (ih h').append ?_
    have e' : k ++ rest = (F.up n).tail := by rw [← e]; rfl
    refine .entry e' ?_
    rw [← e]
    exact .nil

theorem legal_initLog (F : Forest D E) (d : D) : Legal (V := V) (T := T) F [] (initLog F d) (F.path d) := by
  have := legal_entries (V := V) (T := T) (F := F) (k := F.path d) (rest := []) 
    (by rw [List.append_nil]; exact linked_up _)
  simpa [initLog] using this

theorem legal_sequentialLog {d : D} {ev : V} : ∀ {cl : List (Node D E × Response T)}, (∀ p ∈ cl, p.1 ∈ F.path d) →
    Legal F (F.path d) (sequentialLog ev cl) (F.path d)
  | [], _ => .nil
  | (n, r) :: rest, h => by
    have hn := h (n, r) (by simp)
    exact .beforeDispatch hn rfl (.handler hn rfl (.returned (.afterDispatch hn rfl
      (legal_sequentialLog fun p hp => h p (by simp [hp])))))

theorem legal_nestedLog {d : D} {ev : V} : ∀ {cl : List (Node D E × Response T)}, (∀ p ∈ cl, p.1 ∈ F.path d) →
    Legal F (F.path d) (nestedLog ev cl) (F.path d)
  | [], _ => .nil
  | (n, r) :: rest, h => by
    have hn := h (n, r) (by simp)
    exact .beforeDispatch hn rfl (.handler hn rfl (.returned (Legal.append
      (legal_nestedLog fun p hp => h p (by simp [hp])) (.afterDispatch hn rfl .nil))))

theorem legal_dispatchLog {d : D} {ev : V} {mode : Mode} {cl : List (Node D E × Response T)}
    (h : ∀ p ∈ cl, p.1 ∈ F.path d) : Legal F (F.path d) (dispatchLog mode ev cl) (F.path d) := by
  cases mode with
  | awaitable => exact legal_sequentialLog h
  | blocking =>
    cases cl with
    | nil => exact .nil
    | cons p rest =>
      obtain ⟨n, r⟩ := p
      have hn := h (n, r) (by simp)
      exact .beforeDispatch hn rfl (.handler hn rfl (.returned (.afterDispatch hn rfl
        (legal_nestedLog fun p hp => h p (by simp [hp])))))

theorem Climb.mem {path : List (Node D E)} {cl : List (Node D E × Response T)} (h : Climb path cl) :
    ∀ p ∈ cl, p.1 ∈ path := by
  induction h with
  | stop _ => simp
  | top => simp
  | up _ ih =>
    intro p hp
    rcases List.mem_cons.1 hp with rfl | hp
    · simp
    · exact List.mem_cons_of_mem _ (ih p hp)

section
variable [DecidableEq D] [DecidableEq E]

theorem legal_transitionLog (mode : Mode) (F : Forest D E) (d t : D) :
    Legal (V := V) (T := T) F (F.path d) (transitionLog mode F d t) (F.path t) := by
  obtain ⟨common, h1, h2⟩ := path_split F d t
  have l1 : Linked F (F.exits d t ++ common) := h1 ▸ linked_up _
  have l2 : Linked F ((F.entries d t).reverse ++ common) := h2 ▸ linked_up _
  have k1 := legal_exits (V := V) (T := T) l1
  have k2 := legal_entries (V := V) (T := T) l2
  rw [← h1] at k1
  rw [← h2, List.reverse_reverse] at k2
  have k3 := (k1.append k2).append (.afterTransition (a := d) rfl .nil)
  unfold transitionLog
  cases mode with
  | blocking => exact .beforeTransition (.inr rfl) rfl k3
  | awaitable => exact .beforeTransition (.inl rfl) rfl k3

/-- Where a call with the given responses ends. -/
def endVariant (variant : T → D) (d : D) (cl : List (Node D E × Response T)) : D :=
  match lastResponse cl with
  | some (.transition t) => variant t
  | _ => d

theorem legal_handleLog (mode : Mode) (F : Forest D E) (variant : T → D) (d : D) (ev : V)
    {cl : List (Node D E × Response T)} (h : Climb (F.path d) cl) :
    Legal F (F.path d) (handleLog mode F variant d ev cl) (F.path (endVariant variant d cl)) := by
  unfold handleLog endVariant
  refine (legal_dispatchLog h.mem).append ?_
  rcases lastResponse cl with _ | (_ | _ | t)
  · exact .nil
  · exact .nil
  · exact .nil
  · exact legal_transitionLog mode F d (variant t)

end

variable {S : Sig} {m : Machine S} {mode : Mode} {F : Forest S.D S.E}

/-- A call that returned, step by step. -/
theorem threads_accounts {I : List (Node S.D S.E) → S.M → Prop} (hI : Accounts m F I) {ev w T o w'}
    (h : Threads mode m ev w T o w') (ho : o = .ok ()) :
    ∀ {st st'}, Legal F st (m.steps T) st' → I st w.shared → I st' w'.shared := by
  induction h with
  | nil => intro st st' hl h0; cases hl; exact h0
  | cut _ h => exact absurd ho h
  | swap _ _ ih => intro st st' hl h0; exact ih ho hl h0
  | @call w T1 w1 T' o w2 hr _ ih =>
    intro st st' hl h0
    have e : m.steps (T1 ++ T') = m.steps T1 ++ m.steps T' := by simp [Machine.steps]
    rw [e] at hl
    generalize h1 : Out.ok () = o1 at hr
    cases hr with
    | @handler e o s x c l he hp hrun =>
      cases o with
      | ok r =>
        cases hl with
        | @handler d _ _ _ _ _ hn hst hl =>
          cases hl with
          | returned hl =>
            refine ih ho hl ?_
            have : d = m.discr w.state := by
              have hn : Node.leaf (m.discr w.state) ∈ F.path d := hn
              exact (F.mem_path_leaf.1 hn).symm
            subst this
            subst hst
            exact hI.handler _ _ _ _ h0 _ _ _ _ hrun
      | panic => cases h1
      | stopped => cases h1
    | @supHandler e k v put o v' x c l he hp hv hrun =>
      cases o with
      | ok r =>
        cases hl with
        | @handler d _ _ _ _ _ hn hst hl =>
          cases hl with
          | returned hl =>
            refine ih ho hl ?_
            subst hst
            exact hI.supHandler _ _ _ _ _ hn h0 _ _ _ _ hrun
      | panic => cases h1
      | stopped => cases h1
    | entry hp hrun =>
      subst h1
      cases hl with
      | entry hst hl => subst hst; exact ih ho hl (hI.entry _ _ _ h0 _ _ _ _ hrun)
    | supEntry hp hv hrun =>
      subst h1
      cases hl with
      | entry hst hl => subst hst; exact ih ho hl (hI.supEntry _ _ _ h0 _ _ _ _ hrun)
    | exit hp hrun =>
      subst h1
      cases hl with
      | exit hst hl => subst hst; exact ih ho hl (hI.exit _ _ _ h0 _ _ _ _ hrun)
    | supExit hp hv hrun =>
      subst h1
      cases hl with
      | exit hst hl => subst hst; exact ih ho hl (hI.supExit _ _ _ h0 _ _ _ _ hrun)
    | beforeDispatch he hp hrun =>
      subst h1
      cases hl with
      | beforeDispatch hn hst hl => subst hst; exact ih ho hl (hI.beforeDispatch _ _ _ _ hn h0 _ _ _ _ hrun)
    | supBeforeDispatch he hp hv hrun =>
      subst h1
      cases hl with
      | beforeDispatch hn hst hl => subst hst; exact ih ho hl (hI.beforeDispatch _ _ _ _ hn h0 _ _ _ _ hrun)
    | afterDispatch he hrun =>
      subst h1
      cases hl with
      | afterDispatch hn hst hl => subst hst; exact ih ho hl (hI.afterDispatch _ _ _ _ hn h0 _ _ _ _ hrun)
    | supAfterDispatch he hv hrun =>
      subst h1
      cases hl with
      | afterDispatch hn hst hl => subst hst; exact ih ho hl (hI.afterDispatch _ _ _ _ hn h0 _ _ _ _ hrun)
    | beforeTransition hp hrun =>
      subst h1
      cases mode with
      | blocking =>
        cases hl with
        | beforeTransition hd hst hl => subst hst; exact ih ho hl (hI.beforeTransition _ _ _ _ hd h0 _ _ _ _ hrun)
      | awaitable =>
        cases hl with
        | beforeTransition hd hst hl => subst hst; exact ih ho hl (hI.beforeTransition _ _ _ _ hd h0 _ _ _ _ hrun)
    | afterTransition hp hl' hrun =>
      subst h1
      cases hl with
      | afterTransition hst hl => subst hst; exact ih ho hl (hI.afterTransition _ _ _ h0 _ _ _ _ hrun)

/-- Legal steps end where the replayed actions end. -/
theorem Legal.replay {st st' : List (Node D E)} [DecidableEq D] [DecidableEq E] {F : Forest D E}
    {L : List (Step D E V T)} (h : Legal F st L st') : Statig.replay F (actionsOf L) st = some st' := by
  induction h with
  | nil => rfl
  | handler _ _ _ ih => simpa using ih
  | returned _ ih => simpa using ih
  | @entry n st L st' a _ ih =>
    subst a
    have : F.parent n = (F.up n).tail.head? := by
      rw [F.up_eq]; cases F.parent n <;> rfl
    have e : n :: (F.up n).tail = F.up n := rfl
    rw [actionsOf_entry, Statig.replay, if_pos this, e, ih]
  | @exit n st L st' a _ ih =>
    subst a
    rw [actionsOf_exit, Statig.replay, if_pos (show (F.up n).head? = some n from rfl), ih]
  | beforeDispatch _ _ _ ih => simpa using ih
  | afterDispatch _ _ _ ih => simpa using ih
  | beforeTransition _ _ _ ih => simpa using ih
  | afterTransition _ _ ih => simpa using ih

/-- A single `handle` on an initialized machine. -/
theorem handle_accounts (hF : Follows m F) (hL : Lawful m) {I : List (Node S.D S.E) → S.M → Prop}
    (hI : Accounts m F I) {sm : InitializedStateMachine S} {ev ctx sched c}
    (h : sm.handleWithContext mode m ev ctx sched = some c) (ho : c.out = .ok ())
    (h0 : I (F.path (m.discr sm.state)) sm.inner.shared) :
    I (F.path (m.discr c.self.state)) c.self.inner.shared := by
  obtain ⟨w', h1, h2, h3, -⟩ := C34_handle hF hL h
  obtain ⟨c', cl, k0, k1, k2, -⟩ := handle_call hF mode sm ev ctx sched
  obtain rfl : c' = c := by rw [k0] at h; exact Option.some.inj h
  have hl := legal_handleLog mode F m.discr (m.discr sm.state) ev k1
  rw [← k2 ho] at hl
  have := threads_accounts hI h1 ho hl h0
  rw [h3] at this
  obtain ⟨st, r1, -, r2⟩ := replay_handle hF k0
  rw [hl.replay] at r1
  rw [← r2 ho, ← Option.some.inj r1]
  exact this

theorem init_accounts (hF : Follows m F) (hL : Lawful m) {I : List (Node S.D S.E) → S.M → Prop}
    (hI : Accounts m F I) {i : Inner S} {ctx sched c}
    (h : i.init mode m ctx sched = some c) (ho : c.out = .ok ()) (h0 : I [] i.shared) :
    I (F.path (m.discr c.self.state)) c.self.shared := by
  obtain ⟨w', h1, h2, h3, -⟩ := inner_init_threads (ev := none) hF hL h
  obtain ⟨c', k0, k1, -, k3, -⟩ := init_call hF mode i ctx sched
  obtain rfl : c' = c := by rw [k0] at h; exact Option.some.inj h
  have hl := legal_initLog (V := S.Ev) (T := S.St) F (m.discr i.state)
  rw [← k1 ho] at hl
  have := threads_accounts hI h1 ho hl h0
  rw [h3] at this
  rw [k3]
  exact this

end Statig
