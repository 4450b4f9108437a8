/-
Independent specification vocabulary for the protobuf wire format
(https://protobuf.dev/programming-guides/encoding): little-endian base-128 numbers.
-/
namespace Verif.Grpc

/-- The number denoted by a group of base-128 digits, least significant first; the top bit of each
byte is only a continuation marker. -/
def leb : List UInt8 → Nat
  | [] => 0
  | b :: t => b.toNat % 128 + 128 * leb t

/-- `bs` is one complete varint: every byte but the last has the continuation bit, the last has not. -/
def IsVarint (bs : List UInt8) : Prop :=
  ∃ init last, bs = init ++ [last] ∧ (∀ x ∈ init, 128 ≤ x.toNat) ∧ last.toNat < 128

/-- Zig-zag as described in the protobuf documentation: 0, -1, 1, -2, 2 ... ↦ 0, 1, 2, 3, 4 ... -/
def zigzag (x : Int) : Nat := if 0 ≤ x then (2 * x).toNat else (-2 * x - 1).toNat

/-- `bs` is a varint that fits an unsigned 64-bit integer with value `v`; padded ("denormalised")
varints of up to ten bytes are allowed, as in the protobuf specification. -/
def IsVarint64 (bs : List UInt8) (v : Nat) : Prop :=
  IsVarint bs ∧ bs.length ≤ 10 ∧ leb bs = v ∧ v < 2 ^ 64

/-- `bs` is a tag: a varint holding `num * 8 + typ` with a positive 31-bit field number. -/
def IsTag (bs : List UInt8) (num : Nat) (typ : Nat) : Prop :=
  IsVarint64 bs (num * 8 + typ) ∧ typ < 8 ∧ 1 ≤ num ∧ num < 2 ^ 31

mutual
/-- The grammar of field values. `IsValue d num typ bs`: `bs` is exactly one value of wire type `typ`
belonging to field `num`, with groups nested at most `d` levels deep. -/
inductive IsValue : Nat → Nat → Nat → List UInt8 → Prop
  | varint {d num bs v} : IsVarint64 bs v → IsValue d num 0 bs
  | fixed64 {d num bs} : bs.length = 8 → IsValue d num 1 bs
  | bytes {d num pre payload} : IsVarint64 pre payload.length → IsValue d num 2 (pre ++ payload)
  | group {d num bs} : IsGroup d num bs → IsValue (d+1) num 3 bs
  | fixed32 {d num bs} : bs.length = 4 → IsValue d num 5 bs
/-- The grammar of group contents: fields, then an end marker carrying the same field number. -/
inductive IsGroup : Nat → Nat → List UInt8 → Prop
  | done {d num t} : IsTag t num 4 → IsGroup d num t
  | field {d num m ty t v rest} : IsTag t m ty → IsValue d m ty v → IsGroup d num rest →
      IsGroup d num (t ++ v ++ rest)
end

end Verif.Grpc
