/-
Model of api/grpc/pb.go (the protobuf wire primitives used by the gRPC linker).
Bytes are `UInt8`, Go's `uint64` is `UInt64` (wrap-around arithmetic), Go's `int` results are `Int`
(negative numbers are the error codes of the source).
-/
namespace Verif.Grpc

/-- Error codes, api/grpc/pb.go:49-57 (`-iota`). -/
def errTruncated : Int := -1
/-- api/grpc/pb.go:52 -/
def errFieldNumber : Int := -2
/-- api/grpc/pb.go:53 -/
def errOverflow : Int := -3
/-- api/grpc/pb.go:54 -/
def errReserved : Int := -4
/-- api/grpc/pb.go:55 -/
def errEndGroup : Int := -5
/-- api/grpc/pb.go:56 -/
def errRecursionDepth : Int := -6

/-- The wire types, api/grpc/pb.go:40-47 (`wireType int8`). -/
abbrev WireType := UInt8
/-- api/grpc/pb.go:41 -/
def typeVarint : WireType := 0
/-- api/grpc/pb.go:42 -/
def typeFixed32 : WireType := 5
/-- api/grpc/pb.go:43 -/
def typeFixed64 : WireType := 1
/-- api/grpc/pb.go:44 -/
def typeBytes : WireType := 2
/-- api/grpc/pb.go:45 -/
def typeStartGroup : WireType := 3
/-- api/grpc/pb.go:46 -/
def typeEndGroup : WireType := 4

/-- `byte((v>>k)&0x7f|0x80)`, the continuation bytes of api/grpc/pb.go:188-262. -/
def contByte (v k : UInt64) : UInt8 := (((v >>> k) &&& 0x7f) ||| 0x80).toUInt8

/-- `byte(v>>k)`, the final bytes of api/grpc/pb.go:188-262. -/
def lastByte (v k : UInt64) : UInt8 := (v >>> k).toUInt8

/-- `appendVarint`, api/grpc/pb.go:186-264; same ten cases as the source. -/
def appendVarint (b : List UInt8) (v : UInt64) : List UInt8 :=
  if v < ((1 : UInt64) <<< 7) then b ++ [v.toUInt8]
  else if v < ((1 : UInt64) <<< 14) then b ++ [contByte v 0, lastByte v 7]
  else if v < ((1 : UInt64) <<< 21) then b ++ [contByte v 0, contByte v 7, lastByte v 14]
  else if v < ((1 : UInt64) <<< 28) then b ++ [contByte v 0, contByte v 7, contByte v 14, lastByte v 21]
  else if v < ((1 : UInt64) <<< 35) then
    b ++ [contByte v 0, contByte v 7, contByte v 14, contByte v 21, lastByte v 28]
  else if v < ((1 : UInt64) <<< 42) then
    b ++ [contByte v 0, contByte v 7, contByte v 14, contByte v 21, contByte v 28, lastByte v 35]
  else if v < ((1 : UInt64) <<< 49) then
    b ++ [contByte v 0, contByte v 7, contByte v 14, contByte v 21, contByte v 28, contByte v 35,
      lastByte v 42]
  else if v < ((1 : UInt64) <<< 56) then
    b ++ [contByte v 0, contByte v 7, contByte v 14, contByte v 21, contByte v 28, contByte v 35,
      contByte v 42, lastByte v 49]
  else if v < ((1 : UInt64) <<< 63) then
    b ++ [contByte v 0, contByte v 7, contByte v 14, contByte v 21, contByte v 28, contByte v 35,
      contByte v 42, contByte v 49, lastByte v 56]
  else
    b ++ [contByte v 0, contByte v 7, contByte v 14, contByte v 21, contByte v 28, contByte v 35,
      contByte v 42, contByte v 49, contByte v 56, 1]

/-- One of the ten identical blocks of `consumeVarint`, api/grpc/pb.go:268-368:
`if len(b) <= i {return 0, truncated}; y = b[i]; v += y<<shift; if y < lim {return v, i+1};
v -= 0x80<<shift`, continuing with `k`. -/
def consumeStage (b : List UInt8) (i : Nat) (shift lim : UInt64) (v : UInt64)
    (k : UInt64 → UInt64 × Int) : UInt64 × Int :=
  match b[i]? with
  | none => (0, errTruncated)
  | some byte =>
    let y := byte.toUInt64
    let v := v + (y <<< shift)
    if y < lim then (v, (i : Int) + 1) else k (v - (0x80 <<< shift))

/-- `consumeVarint`, api/grpc/pb.go:268-368. -/
def consumeVarint (b : List UInt8) : UInt64 × Int :=
  consumeStage b 0 0 0x80 0 fun v =>
  consumeStage b 1 7 0x80 v fun v =>
  consumeStage b 2 14 0x80 v fun v =>
  consumeStage b 3 21 0x80 v fun v =>
  consumeStage b 4 28 0x80 v fun v =>
  consumeStage b 5 35 0x80 v fun v =>
  consumeStage b 6 42 0x80 v fun v =>
  consumeStage b 7 49 0x80 v fun v =>
  consumeStage b 8 56 0x80 v fun v =>
  consumeStage b 9 63 2 v fun _ => (0, errOverflow)

/-- `bits.Len64` of the Go standard library: number of bits needed to represent `v` (`used at api/grpc/pb.go:375`). -/
def len64 (v : UInt64) : Nat := if v = 0 then 0 else v.toNat.log2 + 1

/-- `sizeVarint`, api/grpc/pb.go:372-376. -/
def sizeVarint (v : UInt64) : Nat := (9 * len64 v + 64) / 64

/-- `appendFixed32`, api/grpc/pb.go:379-385. -/
def appendFixed32 (b : List UInt8) (v : UInt32) : List UInt8 :=
  b ++ [(v >>> 0).toUInt8, (v >>> 8).toUInt8, (v >>> 16).toUInt8, (v >>> 24).toUInt8]

/-- `consumeFixed32`, api/grpc/pb.go:389-395. -/
def consumeFixed32 (b : List UInt8) : UInt32 × Int :=
  match b with
  | b0 :: b1 :: b2 :: b3 :: _ =>
    ((b0.toUInt32 <<< 0) ||| (b1.toUInt32 <<< 8) ||| (b2.toUInt32 <<< 16) ||| (b3.toUInt32 <<< 24), 4)
  | _ => (0, errTruncated)

/-- `appendFixed64`, api/grpc/pb.go:403-413. -/
def appendFixed64 (b : List UInt8) (v : UInt64) : List UInt8 :=
  b ++ [(v >>> 0).toUInt8, (v >>> 8).toUInt8, (v >>> 16).toUInt8, (v >>> 24).toUInt8,
        (v >>> 32).toUInt8, (v >>> 40).toUInt8, (v >>> 48).toUInt8, (v >>> 56).toUInt8]

/-- `consumeFixed64`, api/grpc/pb.go:417-423. -/
def consumeFixed64 (b : List UInt8) : UInt64 × Int :=
  match b with
  | b0 :: b1 :: b2 :: b3 :: b4 :: b5 :: b6 :: b7 :: _ =>
    ((b0.toUInt64 <<< 0) ||| (b1.toUInt64 <<< 8) ||| (b2.toUInt64 <<< 16) ||| (b3.toUInt64 <<< 24)
      ||| (b4.toUInt64 <<< 32) ||| (b5.toUInt64 <<< 40) ||| (b6.toUInt64 <<< 48)
      ||| (b7.toUInt64 <<< 56), 8)
  | _ => (0, errTruncated)

/-- `appendBytes`/`appendString`, api/grpc/pb.go:431-433 and 455-457 (identical bodies). -/
def appendBytes (b v : List UInt8) : List UInt8 := appendVarint b (UInt64.ofNat v.length) ++ v

/-- `consumeBytes`/`consumeString`, api/grpc/pb.go:437-446 and 461-464. -/
def consumeBytes (b : List UInt8) : List UInt8 × Int :=
  let (m, n) := consumeVarint b
  if n < 0 then ([], n)
  else if m.toNat > (b.drop n.toNat).length then ([], errTruncated)
  else ((b.drop n.toNat).take m.toNat, n + m.toNat)

/-- `sizeBytes`, api/grpc/pb.go:450-452. -/
def sizeBytes (n : Nat) : Nat := sizeVarint (UInt64.ofNat n) + n

/-- `encodeTag`, api/grpc/pb.go:511-513. Field numbers are naturals (Go: positive `int32`). -/
def encodeTag (num : Nat) (typ : WireType) : UInt64 :=
  (UInt64.ofNat num <<< 3) ||| (typ &&& 7).toUInt64

/-- `decodeTag`, api/grpc/pb.go:502-508. -/
def decodeTag (x : UInt64) : Int × WireType :=
  if (x >>> 3) > 0x7fffffff then (-1, 0) else (((x >>> 3).toNat : Int), (x &&& 7).toUInt8)

/-- `appendTag`, api/grpc/pb.go:163-165. -/
def appendTag (b : List UInt8) (num : Nat) (typ : WireType) : List UInt8 :=
  appendVarint b (encodeTag num typ)

/-- `consumeTag`, api/grpc/pb.go:169-179. -/
def consumeTag (b : List UInt8) : Int × WireType × Int :=
  let (v, n) := consumeVarint b
  if n < 0 then (0, 0, n)
  else
    let (num, typ) := decodeTag v
    if num < 1 then (0, 0, errFieldNumber) else (num, typ, n)

/-- `sizeTag`, api/grpc/pb.go:181-183. -/
def sizeTag (num : Nat) : Nat := sizeVarint (encodeTag num 0)

/-- `decodeZigZag`, api/grpc/pb.go:519-521; `>>` on `int64` is arithmetic. -/
def decodeZigZag (x : BitVec 64) : BitVec 64 := (x >>> 1) ^^^ ((x <<< 63).sshiftRight 63)

/-- `encodeZigZag`, api/grpc/pb.go:527-529. -/
def encodeZigZag (x : BitVec 64) : BitVec 64 := (x <<< 1) ^^^ (x.sshiftRight 63)

/-- `decodeBool`, api/grpc/pb.go:535-537. -/
def decodeBool (x : UInt64) : Bool := x != 0

/-- `encodeBool`, api/grpc/pb.go:543-548. -/
def encodeBool (x : Bool) : UInt64 := if x then 1 else 0

/-- A successful varint consumes at least one byte; needed to justify the termination of the group
loop below (`for` at api/grpc/pb.go:130). -/
theorem consumeStage_pos {b i shift lim v k} (hk : ∀ w, (k w).2 < 0 ∨ 1 ≤ (k w).2) :
    (consumeStage b i shift lim v k).2 < 0 ∨ 1 ≤ (consumeStage b i shift lim v k).2 := by
  unfold consumeStage
  split
  · left; decide
  · dsimp only
    split
    · right; simp; omega
    · exact hk _

theorem consumeVarint_pos (b : List UInt8) :
    (consumeVarint b).2 < 0 ∨ 1 ≤ (consumeVarint b).2 := by
  unfold consumeVarint
  repeat (refine consumeStage_pos ?_; intro _)
  left; decide

theorem consumeTag_pos (b : List UInt8) :
    (consumeTag b).2.2 < 0 ∨ 1 ≤ (consumeTag b).2.2 := by
  have h := consumeVarint_pos b
  unfold consumeTag
  dsimp only
  split
  · left; assumption
  · split
    · left; decide
    · rcases h with h | h
      · contradiction
      · right; exact h

theorem consumeStage_le {b i shift lim v k} (hk : ∀ w, (k w).2 ≤ b.length) :
    (consumeStage b i shift lim v k).2 ≤ b.length := by
  unfold consumeStage
  split
  · simp [errTruncated]
  · rename_i byte h
    have := (List.getElem?_eq_some_iff.mp h).1
    dsimp only
    split
    · simp; omega
    · exact hk _

theorem consumeVarint_le (b : List UInt8) : (consumeVarint b).2 ≤ b.length := by
  unfold consumeVarint
  repeat (refine consumeStage_le ?_; intro _)
  simp [errOverflow]

theorem consumeTag_le (b : List UInt8) : (consumeTag b).2.2 ≤ b.length := by
  have h := consumeVarint_le b
  unfold consumeTag
  dsimp only
  split
  · exact h
  · split
    · simp [errFieldNumber]
    · exact h

mutual
/-- `consumeFieldValueD`, api/grpc/pb.go:117-160. `depth` is Go's `int`. -/
def consumeFieldValueD (num : Int) (typ : WireType) (b : List UInt8) (depth : Int) : Int :=
  if typ = typeVarint then (consumeVarint b).2
  else if typ = typeFixed32 then (consumeFixed32 b).2
  else if typ = typeFixed64 then (consumeFixed64 b).2
  else if typ = typeBytes then (consumeBytes b).2
  else if typ = typeStartGroup then
    if depth < 0 then errRecursionDepth else groupLoop num b b.length depth
  else if typ = typeEndGroup then errEndGroup
  else errReserved
termination_by (b.length, 1)

/-- The `for` loop of the group case, api/grpc/pb.go:130-150; `n0` is the length of the input at the
start of the group. -/
def groupLoop (num : Int) (b : List UInt8) (n0 : Nat) (depth : Int) : Int :=
  let t := consumeTag b
  if h : t.2.2 < 0 then t.2.2
  else
    let b' := b.drop t.2.2.toNat
    if t.2.1 = typeEndGroup then
      if num ≠ t.1 then errEndGroup else (n0 : Int) - b'.length
    else
      let n := consumeFieldValueD t.1 t.2.1 b' (depth - 1)
      if n < 0 then n else groupLoop num (b'.drop n.toNat) n0 depth
termination_by (b.length, 0)
decreasing_by
  all_goals
    have h1 := consumeTag_pos b
    have h2 := consumeTag_le b
    have h3 : ¬ (consumeTag b).2.2 < 0 := h
    simp only [List.length_drop, Prod.lex_def]
    omega
end

/-- `DefaultRecursionLimit`, api/grpc/pb.go:29. -/
def defaultRecursionLimit : Int := 10000

/-- `consumeFieldValue`, api/grpc/pb.go:113-115. -/
def consumeFieldValue (num : Int) (typ : WireType) (b : List UInt8) : Int :=
  consumeFieldValueD num typ b defaultRecursionLimit

/-- `consumeField`, api/grpc/pb.go:95-105. -/
def consumeField (b : List UInt8) : Int × WireType × Int :=
  let t := consumeTag b
  if t.2.2 < 0 then (0, 0, t.2.2)
  else
    let m := consumeFieldValue t.1 t.2.1 (b.drop t.2.2.toNat)
    if m < 0 then (0, 0, m) else (t.1, t.2.1, t.2.2 + m)

/-- The `for` loop at api/grpc/pb.go:486-488: drops trailing bytes whose low seven bits are zero. -/
def stripPadding (b : List UInt8) : List UInt8 :=
  (b.reverse.dropWhile fun x => x &&& 0x7f == 0).reverse

/-- `consumeGroup`, api/grpc/pb.go:476-492. The final reslice `b[:len(b)-sizeTag(num)]` panics when the
upper bound is negative; that is `none` here. -/
def consumeGroup (num : Nat) (b : List UInt8) : Option (List UInt8 × Int) :=
  let n := consumeFieldValue num typeStartGroup b
  if n < 0 then some ([], n)
  else
    let s := stripPadding (b.take n.toNat)
    if s.length < sizeTag num then none else some (s.take (s.length - sizeTag num), n)

end Verif.Grpc
