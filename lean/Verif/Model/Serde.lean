import Verif.Model.Api
/-!
# Serialization

`Serialize` and `Deserialize` of the machine types (feature `serde`): `statig/src/blocking/inner.rs:92-230`
and `statig/src/blocking/state_machine.rs:264-297, 510-529, 765-794`; the awaitable files are identical there.

A format is abstracted to what it hands to a visitor of `deserialize_struct`: the entries of a map (JSON,
TOML, ...), the elements of a sequence (bincode, postcard, ...), or something else.  `V` is the type of
encoded field values; the user's `Serialize`/`Deserialize` implementations are the parameters `Codec`.
Simplification: a field value is available as a value of type `V` before it is decoded; formats that fail in
the middle of the input for reasons of their own are represented by a codec that fails.
-/
namespace Statig

/-- The errors the visitor can raise (`serde::de::Error::{unknown_field, duplicate_field, missing_field,
invalid_length, invalid_type}`), and errors of the user's codecs. -/
inductive DeError (X : Type) where
  | unknownField (name : String)
  | duplicateField (name : String)
  | missingField (name : String)
  | invalidLength (n : Nat)
  | invalidType
  | user (x : X)
deriving DecidableEq, Repr

/-- A map key as the format presents it to `FieldVisitor`: a string, or something else (an integer,
bytes, ...). -/
inductive Key where
  | str (s : String)
  | other
deriving DecidableEq, Repr

/-- What the format presents to the visitor passed to `deserialize_struct`. -/
inductive Content (V : Type) where
  | map (entries : List (Key × V))
  | seq (elements : List V)
  | other
deriving DecidableEq, Repr

/-- The user's `Serialize` and `Deserialize` implementations of a type. -/
structure Codec (A V X : Type) where
  enc : A → Except X V
  dec : V → Except X A

/-- Does the format write a struct as a map of named fields or as a sequence? -/
inductive Form where
  | asMap
  | asSeq
deriving DecidableEq, Repr

/-- `Serializer::serialize_struct` ... `end`: the fields are written in the order of the calls. -/
def writeStruct {V : Type} (form : Form) (fields : List (String × V)) : Content V :=
  match form with
  | .asMap => .map (fields.map fun p => (.str p.1, p.2))
  | .asSeq => .seq (fields.map (·.2))

/-- `enum Field`: `statig/src/blocking/inner.rs:124-127`,
`statig/src/awaitable/inner.rs:128-131`. -/
inductive SerdeField where
  | sharedStorage
  | state
deriving DecidableEq, Repr

variable {S : Sig} {V X : Type} (cm : Codec S.M V X) (cs : Codec S.St V X)

/-- `impl Serialize for Inner`: `statig/src/blocking/inner.rs:91-107`,
`statig/src/awaitable/inner.rs:95-111`. -/
def Inner.serialize (form : Form) (i : Inner S) : Except X (Content V) := do
  let a ← cm.enc i.shared
  let b ← cs.enc i.state
  pure (writeStruct form [("shared_storage", a), ("state", b)])

/-- `FieldVisitor`: `statig/src/blocking/inner.rs:134-157`,
`statig/src/awaitable/inner.rs:138-161`.  Only `visit_str` is implemented (serde's
default `visit_string` and `visit_borrowed_str` forward to it); anything else is an invalid type. -/
def fieldOfKey : Key → Except (DeError X) SerdeField
  | .str s =>
    if s = "shared_storage" then .ok .sharedStorage
    else if s = "state" then .ok .state
    else .error (.unknownField s)
  | .other => .error .invalidType

/-- Decode a field value with the user's `Deserialize`. -/
def decodeField {A : Type} (c : Codec A V X) (v : V) : Except (DeError X) A :=
  match c.dec v with
  | .ok a => .ok a
  | .error x => .error (.user x)

/-- `InnerVisitor::visit_seq`: `statig/src/blocking/inner.rs:176-191`,
`statig/src/awaitable/inner.rs:180-195`. -/
def visitSeq (l : List V) : Except (DeError X) (Inner S) :=
  match l with
  | [] => .error (.invalidLength 0)
  | a :: l => do
    let shared ← decodeField cm a
    match l with
    | [] => .error (.invalidLength 1)
    | b :: _ => do
      let state ← decodeField cs b
      .ok { shared := shared, state := state }

/-- The `while let Some(key) = map.next_key()?` loop of `InnerVisitor::visit_map`:
`statig/src/blocking/inner.rs:199-214`,
`statig/src/awaitable/inner.rs:203-218`. -/
def visitEntries : List (Key × V) → Option S.M → Option S.St →
    Except (DeError X) (Option S.M × Option S.St)
  | [], shared, state => .ok (shared, state)
  | (key, v) :: rest, shared, state => do
    match ← fieldOfKey key with
    | .sharedStorage =>
      if shared.isSome then .error (.duplicateField "shared_storage")
      else visitEntries rest (some (← decodeField cm v)) state
    | .state =>
      if state.isSome then .error (.duplicateField "state")
      else visitEntries rest shared (some (← decodeField cs v))

/-- `InnerVisitor::visit_map`: `statig/src/blocking/inner.rs:193-223`,
`statig/src/awaitable/inner.rs:197-227`. -/
def visitMap (l : List (Key × V)) : Except (DeError X) (Inner S) := do
  let (shared, state) ← visitEntries cm cs l none none
  match shared with
  | none => .error (.missingField "shared_storage")
  | some shared =>
    match state with
    | none => .error (.missingField "state")
    | some state => .ok { shared := shared, state := state }

/-- `impl Deserialize for Inner`: `statig/src/blocking/inner.rs:109-230`,
`statig/src/awaitable/inner.rs:113-234`; the visitor implements `visit_seq`
and `visit_map` only. -/
def Inner.deserialize : Content V → Except (DeError X) (Inner S)
  | .map l => visitMap cm cs l
  | .seq l => visitSeq cm cs l
  | .other => .error .invalidType

/-- `impl Serialize for StateMachine`: `statig/src/blocking/state_machine.rs:262-275`,
`statig/src/awaitable/state_machine.rs:268-281`. -/
def StateMachine.serialize (form : Form) (sm : StateMachine S) : Except X (Content V) :=
  sm.inner.serialize cm cs form

/-- `impl Deserialize for StateMachine`: `statig/src/blocking/state_machine.rs:277-297`,
`statig/src/awaitable/state_machine.rs:283-303`. -/
def StateMachine.deserialize (c : Content V) : Except (DeError X) (StateMachine S) := do
  let inner ← Inner.deserialize cm cs c
  .ok { inner := inner, initialized := false }

/-- `impl Serialize for InitializedStateMachine`: `statig/src/blocking/state_machine.rs:509-529`,
`statig/src/awaitable/state_machine.rs:521-541`. -/
def InitializedStateMachine.serialize (form : Form) (sm : InitializedStateMachine S) :
    Except X (Content V) := do
  let a ← cm.enc sm.inner.shared
  let b ← cs.enc sm.inner.state
  pure (writeStruct form [("shared_storage", a), ("state", b)])

/-- `impl Serialize for UninitializedStateMachine`: `statig/src/blocking/state_machine.rs:761-774`,
`statig/src/awaitable/state_machine.rs:779-792`. -/
def UninitializedStateMachine.serialize (form : Form) (sm : UninitializedStateMachine S) :
    Except X (Content V) :=
  sm.inner.serialize cm cs form

/-- `impl Deserialize for UninitializedStateMachine`: `statig/src/blocking/state_machine.rs:776-794`,
`statig/src/awaitable/state_machine.rs:794-812`. -/
def UninitializedStateMachine.deserialize (c : Content V) :
    Except (DeError X) (UninitializedStateMachine S) := do
  let inner ← Inner.deserialize cm cs c
  .ok { inner := inner }

end Statig
