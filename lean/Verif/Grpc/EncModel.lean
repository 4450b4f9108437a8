import Verif.Grpc.Model
/-
Model of api/grpc/enc.go: the reflective protobuf encoder.
-/
namespace Verif.Grpc

/-- A Go value as seen by `reflect` (api/grpc/enc.go:41-86, 88-168), grouped by the kinds the encoder
distinguishes. Integers carry their 64-bit pattern, floats their IEEE bits, strings their bytes.
Pointers and interfaces are `ptr none` when nil. `other` stands for every kind the encoder's switch does
not list (chan, func, complex, uintptr, unsafe pointer). A map is the list of its entries in one
iteration order. -/
inductive Val where
  | bool (b : Bool)
  | int (bits : UInt64)
  | uint (v : UInt64)
  | f32 (bits : UInt32)
  | f64 (bits : UInt64)
  | str (s : List UInt8)
  | array (vs : List Val)
  | slice (vs : List Val)
  | map (kvs : List (Val × Val))
  | nil
  | ptr (v : Val)
  | struct (vs : List Val)
  | other

/-- Why an encoding did not finish: the error of api/grpc/enc.go:167 or the integer division by zero
at api/grpc/enc.go:212. -/
inductive EncErr | unsupported | divideByZero
  deriving DecidableEq, Repr

mutual
/-- `sizeof`, api/grpc/enc.go:41-86: (header size, body size). -/
def sizeof (n : Nat) : Val → Int × Int
  | .bool _ => (sizeTag n, 1)
  | .int x => (sizeTag n, sizeVarint x)
  | .uint x => (sizeTag n, sizeVarint x)
  | .f32 _ => (sizeTag n, 4)
  | .f64 _ => (sizeTag n, 8)
  | .str s => ((sizeTag n + sizeVarint (UInt64.ofNat s.length) : Nat), s.length)
  | .array vs =>
    let size := sizeofFields 1 vs
    ((sizeTag n + sizeVarint (UInt64.ofNat size.toNat) : Nat), size)
  | .slice vs => (0, sizeofElems n vs)
  | .map kvs =>
    let size := sizeofEntries kvs
    ((sizeTag n + sizeVarint (UInt64.ofNat size.toNat) : Nat), size)
  | .nil => (0, 0)
  | .ptr v => sizeof n v
  | .struct vs =>
    let size := sizeofFields 1 vs
    ((sizeTag n + sizeVarint (UInt64.ofNat size.toNat) : Nat), size)
  | .other => (-1, 0)
/-- The field/element loops of `sizeof`, api/grpc/enc.go:57-60 and 78-82: element `i` is field `i+1`. -/
def sizeofFields (i : Nat) : List Val → Int
  | [] => 0
  | v :: t => (sizeof i v).1 + (sizeof i v).2 + sizeofFields (i + 1) t
/-- The slice loop of `sizeof`, api/grpc/enc.go:64-67: all elements use the same field number. -/
def sizeofElems (n : Nat) : List Val → Int
  | [] => 0
  | v :: t => (sizeof n v).1 + (sizeof n v).2 + sizeofElems n t
/-- The loop of `sizeof_map`, api/grpc/enc.go:199-206 (key is field 1, value is field 2). -/
def sizeofEntries : List (Val × Val) → Int
  | [] => 0
  | (k, v) :: t =>
    (sizeof 1 k).1 + (sizeof 1 k).2 + (sizeof 2 v).1 + (sizeof 2 v).2 + sizeofEntries t
end

mutual
/-- `(*Encoder).encode`, api/grpc/enc.go:88-168, returning all bytes written. The underlying writer is
assumed not to fail; on an error the bytes already written are dropped from the model. -/
def encode (n : Nat) : Val → Except EncErr (List UInt8)
  | .bool b => .ok (appendVarint (appendTag [] n typeVarint) (encodeBool b))
  | .int x => .ok (appendVarint (appendTag [] n typeVarint) x)
  | .uint x => .ok (appendVarint (appendTag [] n typeVarint) x)
  | .f32 x => .ok (appendFixed32 (appendTag [] n typeFixed32) x)
  | .f64 x => .ok (appendFixed64 (appendTag [] n typeFixed64) x)
  | .str s => .ok (appendVarint (appendTag [] n typeBytes) (UInt64.ofNat s.length) ++ s)
  | .array vs => do
    let body ← encodeFields 1 vs
    .ok (appendVarint (appendTag [] n typeBytes) (UInt64.ofNat (sizeof n (.array vs)).2.toNat) ++ body)
  | .slice vs => encodeElems n vs
  | .map kvs =>
    if kvs.length = 0 then .error .divideByZero
    else encodeEntries n (UInt64.ofNat ((sizeofEntries kvs).toNat / kvs.length)) kvs
  | .nil => .ok []
  | .ptr v => encode n v
  | .struct vs => do
    let body ← encodeFields 1 vs
    .ok (appendVarint (appendTag [] n typeBytes) (UInt64.ofNat (sizeof n (.struct vs)).2.toNat) ++ body)
  | .other => .error .unsupported
/-- The loops at api/grpc/enc.go:132-136 and 160-164. -/
def encodeFields (i : Nat) : List Val → Except EncErr (List UInt8)
  | [] => .ok []
  | v :: t => do .ok ((← encode i v) ++ (← encodeFields (i + 1) t))
/-- The loop at api/grpc/enc.go:139-143. -/
def encodeElems (n : Nat) : List Val → Except EncErr (List UInt8)
  | [] => .ok []
  | v :: t => do .ok ((← encode n v) ++ (← encodeElems n t))
/-- The loop of `encode_map`, api/grpc/enc.go:226-241: every entry gets the same length prefix `size`. -/
def encodeEntries (n : Nat) (size : UInt64) : List (Val × Val) → Except EncErr (List UInt8)
  | [] => .ok []
  | (k, v) :: t => do
    .ok (appendVarint (appendTag [] n typeBytes) size ++ (← encode 1 k) ++ (← encode 2 v)
      ++ (← encodeEntries n size t))
end

/-- `(*Encoder).Encode`, api/grpc/enc.go:34-39. -/
def encodeTop (v : Val) : Except EncErr (List UInt8) := encode 1 v

end Verif.Grpc
