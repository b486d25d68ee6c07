import Verif.Model.Serde
import Verif.Model.Values
import Verif.Props.Init
/-!
# Properties of serialization: C38–C40
-/
namespace Statig
variable {S : Sig} {m : Machine S} {F : Forest S.D S.E} {mode : Mode} {V X : Type}
  {cm : Codec S.M V X} {cs : Codec S.St V X}

/-- The user's codec restores the value `a`. -/
def Codec.Restores {A : Type} (c : Codec A V X) (a : A) : Prop := ∀ v, c.enc a = .ok v → c.dec v = .ok a

namespace Sample

/-- A codec for numbers that cannot encode 13. -/
def natCodec : Codec Nat (List Nat) String where
  enc n := if n = 13 then .error "unlucky" else .ok [n]
  dec | [n] => .ok n
      | _ => .error "bad number"

/-- Numbering of the variants. -/
def D.code : D → Nat
  | .s11 => 0 | .s12 => 1 | .s211 => 2

/-- A codec for the sample's states, which cannot restore `s211` (as if it were marked `serde(skip)`). -/
def stCodec : Codec (D × Nat) (List Nat) String where
  enc s := .ok [s.1.code, s.2]
  dec | [0, n] => .ok (.s11, n)
      | [1, n] => .ok (.s12, n)
      | _ => .error "bad state"

/-- A codec for the sample's shared storage, which stores the fuse only. -/
def mCodec : Codec M (List Nat) String where
  enc x := natCodec.enc x.fuse
  dec v := (natCodec.dec v).map fun n => ⟨[], n⟩

end Sample

/-! ## C38 -/

/-- Serializing either kind of machine fails or gives the two encoded fields. -/
theorem inner_serialize {form : Form} {i : Inner S} {c : Content V}
    (h : i.serialize cm cs form = .ok c) : ∃ a b, cm.enc i.shared = .ok a ∧ cs.enc i.state = .ok b ∧
      c = writeStruct form [("shared_storage", a), ("state", b)] := by
  unfold Inner.serialize at h
  cases ha : cm.enc i.shared with
  | error e => simp [ha, bind, Except.bind] at h
  | ok a =>
    cases hb : cs.enc i.state with
    | error e => simp [ha, hb, bind, Except.bind] at h
    | ok b =>
      simp [ha, hb, bind, Except.bind, pure, Except.pure] at h
      exact ⟨a, b, rfl, rfl, h.symm⟩

theorem inner_round_trip {form : Form} {i : Inner S} {c : Content V}
    (hm : cm.Restores i.shared) (hs : cs.Restores i.state)
    (h : i.serialize cm cs form = .ok c) : Inner.deserialize cm cs c = .ok i := by
  obtain ⟨a, b, ha, hb, rfl⟩ := inner_serialize h
  cases form with
  | asMap =>
    simp [writeStruct, Inner.deserialize, visitMap, visitEntries, fieldOfKey, decodeField, hm a ha, hs b hb,
      bind, Except.bind]
  | asSeq =>
    simp [writeStruct, Inner.deserialize, visitSeq, decodeField, hm a ha, hs b hb, bind, Except.bind]

/-- C38. Let the user's codecs restore the shared storage and the state of a machine. Whether the format
writes a map or a sequence, if serialization succeeds, deserializing the result succeeds and yields the
shared storage and state of the original in an uninitialized machine; the outcome equals the original
(by the machine's `==`, with reflexive user equality) iff the original was not initialized. -/
theorem C38_round_trip {form : Form} {sm : StateMachine S} {c : Content V}
    (hm : cm.Restores sm.shared) (hs : cs.Restores sm.state)
    (h : sm.serialize cm cs form = .ok c) :
    ∃ sm', StateMachine.deserialize cm cs c = .ok sm' ∧ sm'.shared = sm.shared ∧ sm'.state = sm.state ∧
      sm'.initialized = false ∧
      ∀ em es, (∀ x, em x x = true) → (∀ x, es x x = true) →
        (StateMachine.eq em es sm' sm = true ↔ sm.initialized = false) := by
  have := inner_round_trip hm hs h
  refine ⟨⟨sm.inner, false⟩, ?_, rfl, rfl, rfl, ?_⟩
  · unfold StateMachine.deserialize
    rw [this]; rfl
  · intro em es h1 h2
    cases h0 : sm.initialized <;> simp [StateMachine.eq, Inner.eq, h1, h2, h0]

/-- C38 across the types: an initialized or uninitialized machine and a `StateMachine` with the same contents
are serialized alike, whether initialized or not, and can be deserialized as either type of uninitialized
machine, with the contents restored. -/
theorem C38_across_types {form : Form} {i : Inner S} {c : Content V}
    (hm : cm.Restores i.shared) (hs : cs.Restores i.state)
    (h : InitializedStateMachine.serialize cm cs form ⟨i⟩ = .ok c ∨
      UninitializedStateMachine.serialize cm cs form ⟨i⟩ = .ok c ∨
      ∃ b, StateMachine.serialize cm cs form ⟨i, b⟩ = .ok c) :
    (InitializedStateMachine.serialize cm cs form ⟨i⟩ = .ok c ∧
      UninitializedStateMachine.serialize cm cs form ⟨i⟩ = .ok c ∧
      ∀ b, StateMachine.serialize cm cs form ⟨i, b⟩ = .ok c) ∧
    UninitializedStateMachine.deserialize cm cs c = .ok ⟨i⟩ ∧
    StateMachine.deserialize cm cs c = .ok ⟨i, false⟩ := by
  have h' : i.serialize cm cs form = .ok c := by
    rcases h with h | h | ⟨b, h⟩ <;> exact h
  refine ⟨⟨h', h', fun _ => h'⟩, ?_, ?_⟩
  · unfold UninitializedStateMachine.deserialize
    rw [inner_round_trip hm hs h']; rfl
  · unfold StateMachine.deserialize
    rw [inner_round_trip hm hs h']; rfl

/-- C38 applies: an initialized machine in `s12` with fuse 5, in both forms; and a machine that cannot be
serialized. -/
example : Sample.stCodec.Restores (.s12, 7) ∧ Sample.mCodec.Restores ⟨[], 5⟩ ∧
    StateMachine.serialize (S := Sample.sig) Sample.mCodec Sample.stCodec .asMap ⟨⟨⟨[], 5⟩, (.s12, 7)⟩, true⟩ =
      .ok (.map [(.str "shared_storage", [5]), (.str "state", [1, 7])]) ∧
    StateMachine.serialize (S := Sample.sig) Sample.mCodec Sample.stCodec .asSeq ⟨⟨⟨[], 5⟩, (.s12, 7)⟩, true⟩ =
      .ok (.seq [[5], [1, 7]]) ∧
    StateMachine.serialize (S := Sample.sig) Sample.mCodec Sample.stCodec .asSeq ⟨⟨⟨[], 13⟩, (.s12, 7)⟩, true⟩ =
      .error "unlucky" := by
  refine ⟨?_, ?_, rfl, rfl, rfl⟩
  · intro v h; cases h; rfl
  · intro v h; cases h; rfl

/-! ## C39 -/

/-- C39. A deserialized `StateMachine` re-enters its state: a completed `init` runs exactly the entry actions
from the root down to the restored state, a completed `handle` runs them before anything else and is a normal
`handle` of the restored state from then on. -/
theorem C39_reenters (hF : Follows m F) {content : Content V} {sm : StateMachine S}
    (hd : StateMachine.deserialize cm cs content = .ok sm) {c : Call S (StateMachine S)}
    {ctx : S.Ctx} {sched : List S.In} (ho : c.out = .ok ()) :
    (sm.initWithContext mode m ctx sched = some c →
      m.steps c.trace = (F.path (m.discr sm.state)).reverse.map .entry) ∧
    (∀ ev, sm.handleWithContext mode m ev ctx sched = some c →
      ∃ cl, Climb (F.path (m.discr sm.state)) cl ∧
        m.steps c.trace = (F.path (m.discr sm.state)).reverse.map .entry ++
          handleLog mode F m.discr (m.discr sm.state) ev cl) := by
  have h0 : sm.initialized = false := by
    unfold StateMachine.deserialize at hd
    cases hi : Inner.deserialize cm cs content with
    | error e => simp [hi, bind, Except.bind] at hd
    | ok i => simp [hi, bind, Except.bind] at hd; rw [← hd]
  exact ⟨fun h => (C16_init hF h0 h).1 ho, fun ev h => C16_handle hF h0 h ho⟩

/-- C39, `UninitializedStateMachine`: the machine obtained by deserializing the serialization of a machine in
state `s` and initializing it is in the variant of `s`, after running exactly the entry actions from the root
down to `s`. -/
theorem C39_uninitialized (hF : Follows m F) {form : Form} {ism : InitializedStateMachine S}
    {content : Content V} (hm : cm.Restores ism.inner.shared) (hs : cs.Restores ism.state)
    (h : ism.serialize cm cs form = .ok content) :
    ∃ u, UninitializedStateMachine.deserialize cm cs content = .ok u ∧
      ∀ ctx sched c, u.initWithContext mode m ctx sched = some c → c.out = .ok () →
        m.steps c.trace = (F.path (m.discr ism.state)).reverse.map .entry ∧
        ∃ ism', c.self = some ism' ∧ m.discr ism'.state = m.discr ism.state := by
  refine ⟨⟨ism.inner⟩, (C38_across_types hm hs (.inl h)).2.1, fun ctx sched c hc ho => ?_⟩
  exact (C16_uninitialized_init hF hc).1 ho

/-- C39 applies: a deserialized machine handles an event after entering `s1`, `s` and `s12`. -/
example : ∃ sm, StateMachine.deserialize (S := Sample.sig) Sample.mCodec Sample.stCodec
      (.map [(.str "state", [1, 7]), (.str "shared_storage", [5])]) = .ok sm ∧
    ∃ c, sm.handleWithContext .blocking (Sample.machine false) .c 0 [] = some c ∧ c.out = .ok () ∧
      (actionsOf ((Sample.machine false).steps c.trace)).take 4 =
        [.enter (.sup .s), .enter (.sup .s1), .enter (.leaf .s12), .leave (.leaf .s12)] := by
  refine ⟨⟨⟨⟨[], 5⟩, (.s12, 7)⟩, false⟩, rfl, ?_⟩
  sample_case

/-! ## C40 -/

theorem decodeField_ok {A : Type} {c : Codec A V X} {v : V} {a : A} :
    decodeField c v = .ok a ↔ c.dec v = .ok a := by
  unfold decodeField
  cases c.dec v <;> simp

theorem fieldOfKey_ok {k : Key} {f : SerdeField} : fieldOfKey (X := X) k = .ok f ↔
    (f = .sharedStorage ∧ k = .str "shared_storage") ∨ (f = .state ∧ k = .str "state") := by
  unfold fieldOfKey
  cases k with
  | other => simp
  | str s =>
    by_cases h1 : s = "shared_storage"
    · subst h1; cases f <;> simp
    · by_cases h2 : s = "state"
      · subst h2; cases f <;> simp
      · cases f <;> simp [h1, h2]

/-- Exact acceptance of the loop over map entries. -/
theorem visitEntries_ok (l : List (Key × V)) (x : Option S.M) (y : Option S.St) (a : S.M) (b : S.St) :
    visitEntries cm cs l x y = .ok (some a, some b) ↔
      (l = [] ∧ x = some a ∧ y = some b) ∨
      (∃ v, l = [(.str "shared_storage", v)] ∧ cm.dec v = .ok a ∧ x = none ∧ y = some b) ∨
      (∃ v, l = [(.str "state", v)] ∧ cs.dec v = .ok b ∧ x = some a ∧ y = none) ∨
      (∃ v w, (l = [(.str "shared_storage", v), (.str "state", w)] ∨
        l = [(.str "state", w), (.str "shared_storage", v)]) ∧ cm.dec v = .ok a ∧ cs.dec w = .ok b ∧
        x = none ∧ y = none) := by
  induction l generalizing x y with
  | nil => simp [visitEntries]
  | cons p l ih =>
    obtain ⟨k, v⟩ := p
    unfold visitEntries
    cases hk : fieldOfKey (X := X) k with
    | error e =>
      simp only [bind, Except.bind, reduceCtorEq, false_iff]
      have h1 : k ≠ .str "shared_storage" := by rintro rfl; simp [fieldOfKey] at hk
      have h2 : k ≠ .str "state" := by rintro rfl; simp [fieldOfKey] at hk
      simp [h1, h2]
    | ok f =>
      rcases fieldOfKey_ok.1 hk with ⟨rfl, rfl⟩ | ⟨rfl, rfl⟩
      · cases x with
        | some x => simp [bind, Except.bind]
        | none =>
          cases hv : decodeField cm v with
          | error e =>
            have : ∀ a, cm.dec v ≠ .ok a := fun a h => by
              have := decodeField_ok.2 h; rw [hv] at this; cases this
            simp [bind, Except.bind, this]
          | ok a' =>
            have := decodeField_ok.1 hv
            simp only [bind, Except.bind, Option.isSome_none, Bool.false_eq_true, ↓reduceIte, ih]
            constructor
            · rintro (⟨rfl, h1, rfl⟩ | ⟨v', _, _, h1, _⟩ | ⟨w, rfl, h1, h2, rfl⟩ | ⟨_, _, _, _, _, h1, _⟩)
              · simp at h1; subst h1; simp [this]
              · simp at h1
              · simp at h2; subst h2; simp [this, h1]
              · simp at h1
            · rintro (⟨h, _⟩ | ⟨v', h1, h2, h3, rfl⟩ | ⟨v', h1, _⟩ | ⟨v', w, (h1 | h1), h2, h3, h4, rfl⟩)
              · simp at h
              · simp at h1
                obtain ⟨rfl, rfl⟩ := h1
                rw [this] at h2; cases h2; simp
              · simp at h1
              · simp at h1
                obtain ⟨rfl, rfl⟩ := h1
                rw [this] at h2; cases h2; simp [h3]
              · simp at h1
      · cases y with
        | some x => simp [bind, Except.bind]
        | none =>
          cases hv : decodeField cs v with
          | error e =>
            have : ∀ a, cs.dec v ≠ .ok a := fun a h => by
              have := decodeField_ok.2 h; rw [hv] at this; cases this
            simp [bind, Except.bind, this]
          | ok a' =>
            have := decodeField_ok.1 hv
            simp only [bind, Except.bind, Option.isSome_none, Bool.false_eq_true, ↓reduceIte, ih]
            constructor
            · rintro (⟨rfl, rfl, h1⟩ | ⟨v', rfl, h1, rfl, h2⟩ | ⟨w, rfl, h1, h2, h3⟩ | ⟨_, _, _, _, _, _, h1⟩)
              · simp at h1; subst h1; simp [this]
              · simp at h2; subst h2; simp [this, h1]
              · simp at h3
              · simp at h1
            · rintro (⟨h, _⟩ | ⟨v', h1, _⟩ | ⟨v', h1, h2, rfl, _⟩ | ⟨v', w, (h1 | h1), h2, h3, rfl, h4⟩)
              · simp at h
              · simp at h1
              · simp at h1
                obtain ⟨rfl, rfl⟩ := h1
                rw [this] at h2; cases h2; simp
              · simp at h1
              · simp at h1
                obtain ⟨rfl, rfl⟩ := h1
                rw [this] at h3; cases h3; simp [h2]

theorem visitMap_ok (l : List (Key × V)) (i : Inner S) :
    visitMap cm cs l = .ok i ↔ visitEntries cm cs l none none = .ok (some i.shared, some i.state) := by
  unfold visitMap
  cases h : visitEntries cm cs l none none with
  | error e => simp [bind, Except.bind]
  | ok p =>
    obtain ⟨x, y⟩ := p
    obtain ⟨sh, st⟩ := i
    cases x <;> cases y <;> simp [bind, Except.bind]

/-- C40. Deserialization (as either type) accepts exactly: a map with exactly one `shared_storage` and exactly
one `state` entry, in either order, and nothing else; or a sequence of at least two elements, of which it uses
the first two; where the two values are accepted by the user's codecs, and the result is what these give. -/
theorem C40_accepts_exactly (content : Content V) (i : Inner S) :
    (UninitializedStateMachine.deserialize cm cs content = .ok ⟨i⟩ ↔
      ∃ v w, cm.dec v = .ok i.shared ∧ cs.dec w = .ok i.state ∧
        (content = .map [(.str "shared_storage", v), (.str "state", w)] ∨
         content = .map [(.str "state", w), (.str "shared_storage", v)] ∨
         ∃ rest, content = .seq (v :: w :: rest))) ∧
    ∀ b, (StateMachine.deserialize cm cs content = .ok ⟨i, b⟩ ↔
      b = false ∧ UninitializedStateMachine.deserialize cm cs content = .ok ⟨i⟩) := by
  have key : Inner.deserialize cm cs content = .ok i ↔
      ∃ v w, cm.dec v = .ok i.shared ∧ cs.dec w = .ok i.state ∧
        (content = .map [(.str "shared_storage", v), (.str "state", w)] ∨
         content = .map [(.str "state", w), (.str "shared_storage", v)] ∨
         ∃ rest, content = .seq (v :: w :: rest)) := by
    cases content with
    | other => simp [Inner.deserialize]
    | map l =>
      unfold Inner.deserialize
      rw [visitMap_ok, visitEntries_ok]
      simp
      constructor
      · rintro ⟨v, w, (rfl | rfl), h1, h2⟩
        · exact ⟨v, h1, w, h2, .inl rfl⟩
        · exact ⟨v, h1, w, h2, .inr rfl⟩
      · rintro ⟨v, h1, w, h2, h⟩
        exact ⟨v, w, h, h1, h2⟩
    | seq l =>
      unfold Inner.deserialize visitSeq
      match l with
      | [] => simp
      | [a] => cases h : decodeField cm a <;> simp [bind, Except.bind, h]
      | a :: b :: rest =>
        obtain ⟨sh, st⟩ := i
        simp only [bind, Except.bind]
        cases ha : decodeField cm a with
        | error e =>
          simp
          intro h
          rw [decodeField_ok.2 h] at ha; cases ha
        | ok x =>
          cases hb : decodeField cs b with
          | error e =>
            simp
            intro _ h
            rw [decodeField_ok.2 h] at hb; cases hb
          | ok y =>
            rw [decodeField_ok] at ha hb
            simp [ha, hb]
  refine ⟨?_, ?_⟩
  · rw [← key]
    unfold UninitializedStateMachine.deserialize
    cases Inner.deserialize cm cs content <;> simp [bind, Except.bind]
  · intro b
    unfold StateMachine.deserialize UninitializedStateMachine.deserialize
    cases Inner.deserialize cm cs content <;> simp [bind, Except.bind]
    cases b <;> simp

/-- The keys of a map input that are unobjectionable so far: known fields, none of them twice. -/
def GoodKeys (l : List (Key × V)) : Prop :=
  (l.map (·.1)).Nodup ∧ ∀ k ∈ l.map (·.1), k = .str "shared_storage" ∨ k = .str "state"

theorem goodKeys_cases {l : List (Key × V)} (h : GoodKeys l) :
    l = [] ∨ (∃ v, l = [(.str "shared_storage", v)]) ∨ (∃ v, l = [(.str "state", v)]) ∨
    (∃ v w, l = [(.str "shared_storage", v), (.str "state", w)]) ∨
    (∃ v w, l = [(.str "state", w), (.str "shared_storage", v)]) := by
  obtain ⟨h1, h2⟩ := h
  match l with
  | [] => simp
  | [(k, v)] => rcases h2 k (by simp) with rfl | rfl <;> simp
  | [(k, v), (k', v')] =>
    rcases h2 k (by simp) with rfl | rfl <;> rcases h2 k' (by simp) with rfl | rfl <;> simp at h1 <;> simp
  | (k, v) :: (k', v') :: (k'', v'') :: _ =>
    exfalso
    rcases h2 k (by simp) with rfl | rfl <;> rcases h2 k' (by simp) with rfl | rfl <;>
      rcases h2 k'' (by simp) with rfl | rfl <;> simp at h1

/-- C40, the rejected inputs and why. Where all the values are accepted by the user's codecs: the first
field of a map that is unknown or repeated is reported as such; if there is none, a missing `shared_storage`
is reported, or else a missing `state`; a sequence that is too short is reported with its length; anything
but a map or a sequence, and a key that is not a string, is an invalid type. -/
theorem C40_rejections (hm : ∀ v, ∃ a, cm.dec v = .ok a) (hs : ∀ v, ∃ b, cs.dec v = .ok b) :
    (∀ l k v rest, GoodKeys l → k ≠ "shared_storage" → k ≠ "state" →
      Inner.deserialize cm cs (.map (l ++ (.str k, v) :: rest)) = .error (.unknownField k)) ∧
    (∀ l k v rest, GoodKeys l → .str k ∈ l.map (·.1) →
      Inner.deserialize cm cs (.map (l ++ (.str k, v) :: rest)) = .error (.duplicateField k)) ∧
    (∀ l v rest, GoodKeys l →
      Inner.deserialize cm cs (.map (l ++ (.other, v) :: rest)) = .error .invalidType) ∧
    (∀ l, GoodKeys l → .str "shared_storage" ∉ l.map (·.1) →
      Inner.deserialize cm cs (.map l) = .error (.missingField "shared_storage")) ∧
    (∀ l, GoodKeys l → .str "shared_storage" ∈ l.map (·.1) → .str "state" ∉ l.map (·.1) →
      Inner.deserialize cm cs (.map l) = .error (.missingField "state")) ∧
    (∀ l, l.length < 2 → Inner.deserialize cm cs (.seq l) = .error (.invalidLength l.length)) ∧
    Inner.deserialize cm cs .other = .error .invalidType := by
  have hm' : ∀ v, ∃ a, decodeField cm v = .ok a := fun v => (hm v).imp fun a h => decodeField_ok.2 h
  have hs' : ∀ v, ∃ a, decodeField cs v = .ok a := fun v => (hs v).imp fun a h => decodeField_ok.2 h
  choose f hf using hm'
  choose g hg using hs'
  refine ⟨?_, ?_, ?_, ?_, ?_, ?_, rfl⟩
  · intro l k v rest hl h1 h2
    rcases goodKeys_cases hl with rfl | ⟨a, rfl⟩ | ⟨a, rfl⟩ | ⟨a, b, rfl⟩ | ⟨a, b, rfl⟩ <;>
      simp [Inner.deserialize, visitMap, visitEntries, fieldOfKey, bind, Except.bind, h1, h2, hf, hg]
  · intro l k v rest hl hk
    rcases goodKeys_cases hl with rfl | ⟨a, rfl⟩ | ⟨a, rfl⟩ | ⟨a, b, rfl⟩ | ⟨a, b, rfl⟩ <;> simp at hk
    · subst hk; simp [Inner.deserialize, visitMap, visitEntries, fieldOfKey, bind, Except.bind, hf]
    · subst hk; simp [Inner.deserialize, visitMap, visitEntries, fieldOfKey, bind, Except.bind, hg]
    · rcases hk with rfl | rfl <;>
        simp [Inner.deserialize, visitMap, visitEntries, fieldOfKey, bind, Except.bind, hf, hg]
    · rcases hk with rfl | rfl <;>
        simp [Inner.deserialize, visitMap, visitEntries, fieldOfKey, bind, Except.bind, hf, hg]
  · intro l v rest hl
    rcases goodKeys_cases hl with rfl | ⟨a, rfl⟩ | ⟨a, rfl⟩ | ⟨a, b, rfl⟩ | ⟨a, b, rfl⟩ <;>
      simp [Inner.deserialize, visitMap, visitEntries, fieldOfKey, bind, Except.bind, hf, hg]
  · intro l hl hk
    rcases goodKeys_cases hl with rfl | ⟨a, rfl⟩ | ⟨a, rfl⟩ | ⟨a, b, rfl⟩ | ⟨a, b, rfl⟩ <;> simp at hk <;>
      simp [Inner.deserialize, visitMap, visitEntries, fieldOfKey, bind, Except.bind, hg]
  · intro l hl hk hk'
    rcases goodKeys_cases hl with rfl | ⟨a, rfl⟩ | ⟨a, rfl⟩ | ⟨a, b, rfl⟩ | ⟨a, b, rfl⟩ <;>
      simp at hk <;> simp at hk' <;>
      simp [Inner.deserialize, visitMap, visitEntries, fieldOfKey, bind, Except.bind, hf]
  · intro l hl
    match l with
    | [] => rfl
    | [v] => simp [Inner.deserialize, visitSeq, bind, Except.bind, hf]
    | _ :: _ :: _ => simp at hl; omega

/-- C40 applies: accepted and rejected inputs of the sample's codecs. -/
example : UninitializedStateMachine.deserialize (S := Sample.sig) Sample.mCodec Sample.stCodec
      (.map [(.str "state", [1, 7]), (.str "shared_storage", [5])]) = .ok ⟨⟨⟨[], 5⟩, (.s12, 7)⟩⟩ ∧
    UninitializedStateMachine.deserialize (S := Sample.sig) Sample.mCodec Sample.stCodec
      (.seq [[5], [0, 3], [9]]) = .ok ⟨⟨⟨[], 5⟩, (.s11, 3)⟩⟩ ∧
    UninitializedStateMachine.deserialize (S := Sample.sig) Sample.mCodec Sample.stCodec
      (.seq [[5], [2, 3]]) = .error (.user "bad state") ∧
    UninitializedStateMachine.deserialize (S := Sample.sig) Sample.mCodec Sample.stCodec
      (.map [(.str "state", [1, 7]), (.str "initialized", [1])]) = .error (.unknownField "initialized") :=
  ⟨rfl, rfl, rfl, rfl⟩

/-- The hypotheses of `C40_rejections` are met by a codec that stores numbers as they are. -/
example : (∃ c : Codec Nat Nat Unit, (∀ v, ∃ a, c.dec v = .ok a) ∧ ∀ a, c.Restores a) ∧
    GoodKeys [(.str "state", 3), (.str "shared_storage", 4)] :=
  ⟨⟨⟨.ok, .ok⟩, fun v => ⟨v, rfl⟩, fun a v h => by cases h; rfl⟩, by simp [GoodKeys]⟩

end Statig
