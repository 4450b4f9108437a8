import Verif.Grpc.Spec
import Verif.Grpc.EncModel

/-! What a generic protobuf reader sees in a byte string, and when that is a faithful picture of a
Go value. Nothing here mentions the encoder. -/
namespace Verif.Grpc

/-- Little-endian value of bytes, base 256. -/
def le256 : List UInt8 → Nat
  | [] => 0
  | b :: t => b.toNat + 256 * le256 t

/-- A wire-level field value. -/
inductive WireVal where
  | varint (v : Nat)
  | fixed32 (v : Nat)
  | fixed64 (v : Nat)
  | bytes (p : List UInt8)
  deriving DecidableEq, Repr

/-- `Parses bs fs`: the whole of `bs` is the sequence of fields `fs` (field number, value), following
the protobuf wire grammar. -/
inductive Parses : List UInt8 → List (Nat × WireVal) → Prop
  | nil : Parses [] []
  | varint {t p rest num v fs} : IsTag t num 0 → IsVarint64 p v → Parses rest fs →
      Parses (t ++ p ++ rest) ((num, .varint v) :: fs)
  | fixed64 {t p rest num fs} : IsTag t num 1 → p.length = 8 → Parses rest fs →
      Parses (t ++ p ++ rest) ((num, .fixed64 (le256 p)) :: fs)
  | bytes {t l p rest num fs} : IsTag t num 2 → IsVarint64 l p.length → Parses rest fs →
      Parses (t ++ (l ++ p) ++ rest) ((num, .bytes p) :: fs)
  | fixed32 {t p rest num fs} : IsTag t num 5 → p.length = 4 → Parses rest fs →
      Parses (t ++ p ++ rest) ((num, .fixed32 (le256 p)) :: fs)

mutual
/-- The list of fields `fs` is the picture of value `v` stored under field number `n`: scalars are one
field, slices repeat the field, structs and arrays are one length-delimited field whose contents parse
into their elements numbered from 1, a map is one length-delimited field per entry with the key as
field 1 and the value as field 2, nil is absent. -/
def Rep (n : Nat) : Val → List (Nat × WireVal) → Prop
  | .bool b, fs => fs = [(n, .varint (if b then 1 else 0))]
  | .int x, fs => fs = [(n, .varint x.toNat)]
  | .uint x, fs => fs = [(n, .varint x.toNat)]
  | .f32 x, fs => fs = [(n, .fixed32 x.toNat)]
  | .f64 x, fs => fs = [(n, .fixed64 x.toNat)]
  | .str s, fs => fs = [(n, .bytes s)]
  | .array vs, fs => ∃ p sub, fs = [(n, .bytes p)] ∧ Parses p sub ∧ RepFields 1 vs sub
  | .slice vs, fs => RepElems n vs fs
  | .map kvs, fs => RepEntries n kvs fs
  | .nil, fs => fs = []
  | .ptr v, fs => Rep n v fs
  | .struct vs, fs => ∃ p sub, fs = [(n, .bytes p)] ∧ Parses p sub ∧ RepFields 1 vs sub
  | .other, _ => False
/-- Consecutive field numbers. -/
def RepFields (i : Nat) : List Val → List (Nat × WireVal) → Prop
  | [], fs => fs = []
  | v :: t, fs => ∃ a b, fs = a ++ b ∧ Rep i v a ∧ RepFields (i + 1) t b
/-- A repeated field. -/
def RepElems (n : Nat) : List Val → List (Nat × WireVal) → Prop
  | [], fs => fs = []
  | v :: t, fs => ∃ a b, fs = a ++ b ∧ Rep n v a ∧ RepElems n t b
/-- Map entries. -/
def RepEntries (n : Nat) : List (Val × Val) → List (Nat × WireVal) → Prop
  | [], fs => fs = []
  | (k, v) :: t, fs => ∃ p a b rest, fs = (n, .bytes p) :: rest ∧ Parses p (a ++ b) ∧ Rep 1 k a ∧
      Rep 2 v b ∧ RepEntries n t rest
end

mutual
/-- The values a protobuf reader can represent: no unsupported kinds, fewer than 2^28 struct fields
(protobuf field numbers are below 2^29). Maps are allowed. -/
def Encodable : Val → Prop
  | .other => False
  | .array vs => vs.length < 2 ^ 28 ∧ EncodableL vs
  | .slice vs => EncodableL vs
  | .map kvs => EncodableE kvs
  | .ptr v => Encodable v
  | .struct vs => vs.length < 2 ^ 28 ∧ EncodableL vs
  | _ => True
/-- Elementwise. -/
def EncodableL : List Val → Prop
  | [] => True
  | v :: t => Encodable v ∧ EncodableL t
/-- Entrywise. -/
def EncodableE : List (Val × Val) → Prop
  | [] => True
  | (k, v) :: t => Encodable k ∧ Encodable v ∧ EncodableE t
end

mutual
/-- Every map inside the value has exactly one entry. -/
def SingletonMaps : Val → Prop
  | .array vs => SingletonMapsL vs
  | .slice vs => SingletonMapsL vs
  | .map [(k, v)] => SingletonMaps k ∧ SingletonMaps v
  | .map _ => False
  | .ptr v => SingletonMaps v
  | .struct vs => SingletonMapsL vs
  | _ => True
/-- Elementwise. -/
def SingletonMapsL : List Val → Prop
  | [] => True
  | v :: t => SingletonMaps v ∧ SingletonMapsL t
end

/-- The full property C08 for one value stored under a given field number. -/
def EncodesFaithfully (n : Nat) (v : Val) : Prop :=
  ∃ bs fs, encode n v = .ok bs ∧ Parses bs fs ∧ Rep n v fs

/-- The full property C08 for a value handed to the encoder by a user: the bytes written are read by a
generic protobuf reader as the picture of the value under field number 1. -/
def WritesFaithfully (v : Val) : Prop :=
  ∃ bs fs, encodeTop v = .ok bs ∧ Parses bs fs ∧ Rep 1 v fs

end Verif.Grpc
