/-!
# Model of package bit (bit/bit.go)

A Go panic is `none`. A `Writer` is a state and a function on it; a write that returns an error is
the flag `ok = false`. Bytes are `UInt8`. The `memory` pointer of an array is never set by the
package and its fields are not exported, so it is always nil and left out.
-/
namespace Verif.Bit

/-- `Array` (bit.go:7-11): sixteen bytes of buffer and a length in bits. `memory` is always nil. -/
structure Arr where
  buffer : Vector UInt8 16
  length : Nat

/-- `Array.Bytes` (bit.go:15-20) with a nil `memory`: slicing an array of sixteen bytes beyond its
end panics. -/
def Arr.bytes (a : Arr) : Option (List UInt8) :=
  if a.length / 8 ≤ 16 then some (a.buffer.toList.take (a.length / 8)) else none

/-- `copy((*[16]byte)(unsafe.Pointer(&array))[:], data)` (bit.go:32, 40, 58, 70): as many bytes as
fit. -/
def fill (data : List UInt8) : Vector UInt8 16 :=
  Vector.ofFn fun i => data.getD i.val 0

/-- `Writer` (bit.go:22-24): `WriteBits` returns the number of bits and whether it succeeded; none
is a panic. -/
structure Writer (σ : Type) where
  writeBits : σ → Arr → Option (σ × Nat × Bool)

/-- One round after another of the loops at bit.go:38-47 and 55-65, `arr` being the array of a
round: the writer, the number of bits so far. Recursion is on the data, sixteen bytes a round. -/
def chunks {σ : Type} (w : Writer σ) (arr : List UInt8 → Arr) (data : List UInt8) (s : σ) (n : Nat) :
    Option (σ × Nat × Bool) :=
  if h : data.length = 0 then some (s, n, true)
  else match w.writeBits s (arr data) with
    | none => none
    | some (s, add, ok) =>
      if ok then chunks w arr (data.drop 16) s (n + add) else some (s, n + add, false)
termination_by data.length
decreasing_by simp only [List.length_drop]; omega

/-- `writeBytesSlow` (bit.go:36-49): the length of the arrays is not set. -/
def writeBytesSlow {σ : Type} (w : Writer σ) (s : σ) (data : List UInt8) : Option (σ × Nat × Bool) :=
  chunks w (fun d => ⟨fill (d.take 16), 0⟩) data s 0

/-- `WriteBytes` (bit.go:26-34). -/
def writeBytes {σ : Type} (w : Writer σ) (s : σ) (data : List UInt8) : Option (σ × Nat × Bool) :=
  if data.length > 16 then writeBytesSlow w s data
  else w.writeBits s ⟨fill data, data.length * 8⟩

/-- `WriteString` (bit.go:51-71): in the loop, the length is that of all that remains. -/
def writeString {σ : Type} (w : Writer σ) (s : σ) (data : List UInt8) : Option (σ × Nat × Bool) :=
  if data.length > 16 then chunks w (fun d => ⟨fill d, d.length * 8⟩) data s 0
  else w.writeBits s ⟨fill data, data.length * 8⟩

/-- `StreamWriter` (bit.go:77-81): the underlying writer's state, and the bytes `buf[:n]` that are
waiting. -/
structure Stream (σ : Type) where
  under : σ
  buf : List UInt8

/-- `StreamWriter.Flush` (bit.go:101-109): the buffer is emptied if the write succeeds. -/
def flush {σ : Type} (w : Writer σ) (t : Stream σ) : Option (Stream σ × Bool) :=
  if t.buf.length > 0 then
    match writeBytes w t.under t.buf with
    | none => none
    | some (s, _, true) => some (⟨s, []⟩, true)
    | some (s, _, false) => some (⟨s, t.buf⟩, false)
  else some (t, true)

/-- The end of `StreamWriter.WriteBits` (bit.go:94-98), after the room has been made. -/
def store {σ : Type} (w : Writer σ) (t : Stream σ) (a : Arr) (dat : List UInt8) :
    Option (Stream σ × Nat × Bool) :=
  if dat.length > 1024 then
    match w.writeBits t.under a with
    | none => none
    | some (s, n, ok) => some (⟨s, t.buf⟩, n, ok)
  else some (⟨t.under, t.buf ++ dat.take (1024 - t.buf.length)⟩, a.length, true)

/-- `StreamWriter.WriteBits` (bit.go:87-99). -/
def streamBits {σ : Type} (w : Writer σ) (t : Stream σ) (a : Arr) : Option (Stream σ × Nat × Bool) :=
  match a.bytes with
  | none => none
  | some dat =>
    if t.buf.length + dat.length > 1024 then
      match flush w t with
      | none => none
      | some (t, false) => some (t, 0, false)
      | some (t, true) => store w t a dat
    else store w t a dat

/-- A stream writer is a `Writer` (bit.go:22-24, 87). -/
def stream {σ : Type} (w : Writer σ) : Writer (Stream σ) := ⟨streamBits w⟩

end Verif.Bit
