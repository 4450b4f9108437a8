import Verif.Sock.Model

/-! RFC 6455 framing and the event stream format, written from the documents and not from the code. -/
namespace Verif.Sock

/-- A frame on the wire (RFC 6455, 5.2). -/
structure Frame where
  fin : Bool
  opcode : Fin 16
  key : Option (UInt8 × UInt8 × UInt8 × UInt8)
  payload : Bytes
  deriving DecidableEq

/-- The mask octet for position `i` (5.3). -/
def keyByte (k : UInt8 × UInt8 × UInt8 × UInt8) (i : Nat) : UInt8 :=
  match i % 4 with
  | 0 => k.1
  | 1 => k.2.1
  | 2 => k.2.2.1
  | _ => k.2.2.2

/-- Masking and unmasking (5.3): octet `i` of the data is combined with octet `i mod 4` of the key. -/
def applyMask (k : UInt8 × UInt8 × UInt8 × UInt8) (b : Bytes) : Bytes := b.mapIdx fun i x => x ^^^ keyByte k i

/-- The big-endian digits of a number. -/
def bytesBE : Nat → Nat → Bytes
  | 0, _ => []
  | n + 1, v => UInt8.ofNat (v / 256 ^ n) :: bytesBE n v

/-- The payload length (5.2): seven bits, or 126 and sixteen bits, or 127 and sixty-four bits, the shortest that fits. -/
def rfcLength (masked : Bool) (len : Nat) : Bytes :=
  let m := if masked then 128 else 0
  if len < 126 then [UInt8.ofNat (len + m)]
  else if len < 2 ^ 16 then UInt8.ofNat (126 + m) :: bytesBE 2 len
  else UInt8.ofNat (127 + m) :: bytesBE 8 len

/-- The four octets of a key. -/
def keyBytes (k : UInt8 × UInt8 × UInt8 × UInt8) : Bytes := [k.1, k.2.1, k.2.2.1, k.2.2.2]

/-- What a conforming endpoint sends for a frame. -/
def Frame.wire (f : Frame) : Bytes :=
  UInt8.ofNat ((if f.fin then 128 else 0) + f.opcode.val) :: rfcLength f.key.isSome f.payload.length ++
    match f.key with
    | none => f.payload
    | some k => keyBytes k ++ applyMask k f.payload

/-- A conforming stream of frames. -/
def wires : List Frame → Bytes
  | [] => []
  | f :: fs => f.wire ++ wires fs

/-- What a conforming receiver understands: the bytes are the wire form of this frame followed by the rest. -/
def Understands (bytes : Bytes) (f : Frame) (rest : Bytes) : Prop := bytes = f.wire ++ rest ∧ f.payload.length < 2 ^ 63

/-- The opcode of a message. -/
def opNumber : Opcode → Fin 16
  | .text => 1
  | .close => 8
  | .pong => 10

/-- What should happen for a frame: text is delivered, a ping is answered, anything else is nothing to the application. -/
def meaning (f : Frame) : List Event :=
  if f.opcode = 1 then [.deliver f.payload] else if f.opcode = 9 then [.pong] else []

/-- The key reads the same in both directions, or there is none. -/
def Frame.KeyPalindrome (f : Frame) : Prop := ∀ a b c d, f.key = some (a, b, c, d) → a = d ∧ b = c

/-- The bytes contain no line feed, do not end with a carriage return, are not empty and fit a line of 64 KiB. -/
def OneLine (d : Bytes) : Prop := (10 : UInt8) ∉ d ∧ d ≠ [] ∧ d.getLast? ≠ some 13 ∧ d.length < 65536 - 6

end Verif.Sock
