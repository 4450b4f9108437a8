/-!
# Model of `ffi/mem.go`: the memory layout of Go values

On a 64-bit platform (`int`, `uint` and `uintptr` have eight bytes). Numbers are their bits; floats are
their bit patterns. A value of a reference kind is represented by the handle `new_ref` makes for it.
-/
namespace Verif.Ffi

mutual
/-- The Go types told apart by the switches of ffi/mem.go. -/
inductive Ty where
  /-- integers and floats of this many bytes -/
  | num (bytes : Nat)
  | c64
  | c128
  | bool
  /-- string, slice, map, chan, func, pointer, unsafe pointer, interface -/
  | ref
  | array (len : Nat) (elem : Ty)
  | struct (fields : Tys)

/-- Fields (`ffi/mem.go:19-22`). -/
inductive Tys where
  | nil
  | cons (t : Ty) (ts : Tys)
end

mutual
/-- ffi/mem.go:11-27, `sizeOf`. -/
def Ty.sizeOf : Ty → Nat
  | .num n => n
  | .c64 => 8
  | .c128 => 16
  | .bool => 1
  | .ref => 8
  | .array n t => n * Ty.sizeOf t
  | .struct fs => Tys.sizeOf fs

/-- The loop over the fields, ffi/mem.go:19-22. -/
def Tys.sizeOf : Tys → Nat
  | .nil => 0
  | .cons t ts => Ty.sizeOf t + Tys.sizeOf ts
end

/-- The elements of an array (`ffi/mem.go:96-100`). -/
def Arr (α : Type) : Nat → Type
  | 0 => Unit
  | n + 1 => α × Arr α n

mutual
/-- The values of a type (`ffi/mem.go:37-110`). -/
def Ty.Val : Ty → Type
  | .num n => BitVec (8 * n)
  | .c64 => BitVec 32 × BitVec 32
  | .c128 => BitVec 64 × BitVec 64
  | .bool => Bool
  | .ref => BitVec 64
  | .array n t => Arr (Ty.Val t) n
  | .struct fs => Tys.Val fs

/-- The values of fields (`ffi/mem.go:102-106`). -/
def Tys.Val : Tys → Type
  | .nil => Unit
  | .cons t ts => Ty.Val t × Tys.Val ts
end

/-- The little-endian bytes of a number (`ffi/mem.go:82-93`). -/
def le : Nat → Nat → List UInt8
  | 0, _ => []
  | k + 1, n => UInt8.ofNat (n % 256) :: le k (n / 256)

/-- `binary.LittleEndian.PutUintN(buf[i:], ...)` and `buf[i] = ...`; `none` is the panic of a short
buffer (`ffi/mem.go:82-93`). -/
def put (buf : List UInt8) (i : Nat) (bytes : List UInt8) : Option (List UInt8) :=
  if i + bytes.length ≤ buf.length then
    some (buf.take i ++ bytes ++ buf.drop (i + bytes.length))
  else none

/-- A write of `bytes` that reports `n` bytes (`ffi/mem.go:82-86`). -/
def putN (buf : List UInt8) (i : Nat) (bytes : List UInt8) (n : Nat) : Option (List UInt8 × Nat) :=
  match put buf i bytes with
  | none => none
  | some buf => some (buf, n)

/-- `n += read(buf, i+n, value)` followed by the rest of a loop, ffi/mem.go:96-106. -/
def andThen (r : Option (List UInt8 × Nat)) (i : Nat)
    (f : List UInt8 → Nat → Option (List UInt8 × Nat)) : Option (List UInt8 × Nat) :=
  match r with
  | none => none
  | some (buf, n) =>
    match f buf (i + n) with
    | none => none
    | some (buf, m) => some (buf, n + m)

/-- The loop over the elements of an array, ffi/mem.go:96-100. -/
def readArr {α : Type} (rd : List UInt8 → Nat → α → Option (List UInt8 × Nat)) :
    (n : Nat) → List UInt8 → Nat → Arr α n → Option (List UInt8 × Nat)
  | 0, buf, _, _ => some (buf, 0)
  | n + 1, buf, i, v => andThen (rd buf i v.1) i (fun buf i => readArr rd n buf i v.2)

/-- The two writes of a complex64, ffi/mem.go:87-90. -/
def putC64 (buf : List UInt8) (i : Nat) (v : BitVec 32 × BitVec 32) : Option (List UInt8 × Nat) :=
  match put buf i (le 4 v.1.toNat) with
  | none => none
  | some buf => putN buf (i + 4) (le 4 v.2.toNat) 16

/-- The two writes of a complex128, ffi/mem.go:91-94. -/
def putC128 (buf : List UInt8) (i : Nat) (v : BitVec 64 × BitVec 64) : Option (List UInt8 × Nat) :=
  match put buf i (le 8 v.1.toNat) with
  | none => none
  | some buf => putN buf (i + 8) (le 8 v.2.toNat) 16

mutual
/-- ffi/mem.go:37-110, `read`: the buffer after the value was copied into it, and the number of bytes
it reports; `none` is a panic. -/
def Ty.read : (t : Ty) → List UInt8 → Nat → t.Val → Option (List UInt8 × Nat)
  | .num n, buf, i, v => putN buf i (le n (BitVec.toNat v)) n
  | .c64, buf, i, v => putC64 buf i v
  | .c128, buf, i, v => putC128 buf i v
  | .bool, _, _, _ => none
  | .ref, buf, i, v => putN buf i (le 8 (BitVec.toNat v)) 8
  | .array n t, buf, i, v => readArr (Ty.read t) n buf i v
  | .struct fs, buf, i, v => Tys.read fs buf i v

/-- The loop over the fields, ffi/mem.go:102-106. -/
def Tys.read : (ts : Tys) → List UInt8 → Nat → ts.Val → Option (List UInt8 × Nat)
  | .nil, buf, _, _ => some (buf, 0)
  | .cons t ts, buf, i, v => andThen (Ty.read t buf i v.1) i (fun buf i => Tys.read ts buf i v.2)
end

/-- The loop of `ReadAt`, ffi/mem.go:127-130: `count` elements from `index` on; `n` is assigned, not
added to. -/
def readLoop (t : Ty) (slice : List t.Val) : Nat → Nat → List UInt8 → Nat → Option (List UInt8)
  | 0, _, buf, _ => some buf
  | count + 1, index, buf, n =>
    match slice[index]? with
    | none => none
    | some elem => match t.read buf n elem with
      | none => none
      | some (buf, n) => readLoop t slice count (index + 1) buf n

/-- ffi/mem.go:121-132, `sliceReader.ReadAt`: the buffer and the reported number; `none` is a panic
(of an unaligned read, a division by zero, an index out of range). -/
def readAt (t : Ty) (slice : List t.Val) (buf : List UInt8) (off : Nat) :
    Option (List UInt8 × Nat) :=
  if t.sizeOf = 0 then none
  else if off % t.sizeOf ≠ 0 ∨ buf.length % t.sizeOf ≠ 0 then none
  else
    match readLoop t slice (buf.length / t.sizeOf) (off / t.sizeOf) buf 0 with
    | none => none
    | some buf' => some (buf', buf.length / t.sizeOf)

end Verif.Ffi
