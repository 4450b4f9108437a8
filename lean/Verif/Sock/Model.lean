/-
Model of the websocket framing and the server-sent events of api/rest/sock.go.

Simplifications, stated once:
* A connection is a list of bytes; reads wait until enough bytes are there, a stream that ends in the middle of a frame
  ends the reading.
* What is sent is already JSON (`json.Marshal`) and what is received is handed over as JSON text; the handshake, the
  channels' goroutines and cancellation are not modelled.
* `uint` is 64 bits wide and frame sizes fit an `int`.
-/
namespace Verif.Sock

/-- Bytes on a connection (`sock.go:59-60, what goes over the connection`). -/
abbrev Bytes := List UInt8

/-- `fin | opcode` for the opcodes the code writes, api/rest/sock.go:30-40, 168-174. -/
inductive Opcode where
  | text | close | pong
  deriving DecidableEq

/-- The opcode bits, api/rest/sock.go:31-36. -/
def Opcode.code : Opcode → UInt8
  | .text => 0x1
  | .close => 0x8
  | .pong => 0xA

/-- The length part of a frame header, api/rest/sock.go:175-184 (`mask` is 0) and 494-503 (`mask` is 0x80). The results of
`AppendUint16` and `AppendUint64` are dropped. -/
def lengthPart (mask : UInt8) (len : Nat) : Bytes :=
  if len < 126 then [UInt8.ofNat len ||| mask]
  else if len < 65535 then [126 ||| mask]
  else [127 ||| mask]

/-- What the server writes for a message, api/rest/sock.go:167-190. -/
def serverFrame (op : Opcode) (b : Bytes) : Bytes := (0x80 ||| op.code) :: lengthPart 0 b.length ++ b

/-- `masked[i] = b[i] ^ maskKey[i%4]`, api/rest/sock.go:516-519, from index `i`. -/
def maskFrom (key : Bytes) (i : Nat) : Bytes → Bytes
  | [] => []
  | x :: xs => (x ^^^ key.getD (i % 4) 0) :: maskFrom key (i + 1) xs

/-- What the client writes for a message, with the four bytes of `rand.Read` for the key, api/rest/sock.go:483-523. -/
def clientFrame (op : Opcode) (key b : Bytes) : Bytes := (0x80 ||| op.code) :: lengthPart 0x80 b.length ++ key ++ maskFrom key 0 b

/-- `io.ReadAtLeast` of `n` bytes (`sock.go:90, 97, 103, 111, 128`). -/
def readN (n : Nat) (s : Bytes) : Option (Bytes × Bytes) := if n ≤ s.length then some (s.take n, s.drop n) else none

/-- `binary.BigEndian.Uint16`, `Uint32` and `Uint64` (`sock.go:100, 106, 114`). -/
def bigEndian (b : Bytes) : Nat := b.foldl (fun n x => n * 256 + x.toNat) 0

/-- `size`, api/rest/sock.go:93-107 and 388-402. -/
def readSize (c1 : UInt8) (s : Bytes) : Option (Nat × Bytes) :=
  if (c1 &&& 0x7F) = 126 then (readN 2 s).map fun r => (bigEndian r.1, r.2)
  else if (c1 &&& 0x7F) = 127 then (readN 8 s).map fun r => (bigEndian r.1, r.2)
  else some ((c1 &&& 0x7F).toNat, s)

/-- `key`, api/rest/sock.go:108-115 and 404-411. -/
def readKey (c1 : UInt8) (s : Bytes) : Option (Nat × Bytes) :=
  if (c1 &&& 0x80) ≠ 0 then (readN 4 s).map fun r => (bigEndian r.1, r.2) else some (0, s)

/-- `buf[i] ^ byte(key>>(8*j))`, api/rest/sock.go:131-134 and 430-433, from index `i`. -/
def unmaskFrom (key : Nat) (i : Nat) : Bytes → Bytes
  | [] => []
  | x :: xs => (x ^^^ UInt8.ofNat (key >>> (8 * (i % 4)))) :: unmaskFrom key (i + 1) xs

/-- What a frame makes the reader do (`sock.go:122, 139`). -/
inductive Event where
  | deliver (text : Bytes)
  | pong
  deriving DecidableEq

/-- Who reads: a server (api/rest/host.go:316 hands it no receive channel), or a client. -/
inductive Side where
  | server | client
  deriving DecidableEq

/-- What reading a frame leads to: the end of reading, a panic of the goroutine (which ends the process), or going on
(`sock.go:88-145`). -/
inductive Step where
  | stop
  | panic
  | next (es : List Event) (rest : Bytes)
  deriving DecidableEq

/-- `io.CopyN(io.Discard, body, size)`: the error at the end of the stream is dropped
(`sock.go:119, 142, 416, 442, 447`). -/
def discard (size : Nat) (s : Bytes) : Bytes := s.drop size

/-- `case sockText`, api/rest/sock.go:126-139 and 423-444. `make` panics for more than 2^48 bytes (runtime.maxAlloc on 64-bit
machines), and `recv.Type()` panics on the zero `reflect.Value`; a client without a channel discards the payload. -/
def handleText (side : Side) (recv : Bool) (key size : Nat) (s : Bytes) : Step :=
  if side = .client ∧ recv = false then .next [] (discard size s)
  else if size > 2 ^ 48 then .panic
  else match readN size s with
    | none => .stop
    | some (buf, s) => if recv then .next [.deliver (unmaskFrom key 0 buf)] s else .panic

/-- The switch on the opcode, api/rest/sock.go:116-144 and 413-449. -/
def handle (side : Side) (recv : Bool) (c0 : UInt8) (key size : Nat) (s : Bytes) : Step :=
  if (c0 &&& 0x0F) = 0x9 then .next [.pong] (discard size s)
  else if (c0 &&& 0x0F) = 0x1 then handleText side recv key size s
  else .next [] (discard size s)

/-- Reading one frame, api/rest/sock.go:89-144 and 383-449. -/
def readFrame (side : Side) (recv : Bool) : Bytes → Step
  | c0 :: c1 :: s =>
    match readSize c1 s with
    | none => .stop
    | some (size, s) =>
      match readKey c1 s with
      | none => .stop
      | some (key, s) => handle side recv c0 key size s
  | _ => .stop

/-- The reading loop, api/rest/sock.go:88-145 and 382-450; `n` bounds the number of frames. The second part says whether it panics. -/
def readLoop (side : Side) (recv : Bool) : Nat → Bytes → List Event × Bool
  | 0, _ => ([], false)
  | n + 1, s =>
    match readFrame side recv s with
    | .stop => ([], false)
    | .panic => ([], true)
    | .next es s' => (es ++ (readLoop side recv n s').1, (readLoop side recv n s').2)

/-- Reading all of a stream: every frame takes at least two bytes (`sock.go:88-145 and 382-450`). -/
def readAll (side : Side) (recv : Bool) (s : Bytes) : List Event × Bool := readLoop side recv s.length s

/-! ### Server-sent events -/

/-- `data: %s\n\n`, api/rest/sock.go:235. -/
def sseWrite (data : Bytes) : Bytes := "data: ".toUTF8.toList ++ data ++ [10, 10]

/-- The lines of a text, without their line feeds; an unterminated empty last line does not count (bufio.ScanLines)
(inside `scanner.Scan`, sock.go:254). -/
def splitLines : Bytes → Bytes → List Bytes
  | [], [] => []
  | [], cur => [cur]
  | x :: xs, cur => if x = 10 then cur :: splitLines xs [] else splitLines xs (cur ++ [x])

/-- `dropCR` of bufio.ScanLines (inside `scanner.Scan`, sock.go:254). -/
def dropCR (l : Bytes) : Bytes := if l.getLast? = some 13 then l.dropLast else l

/-- `bufio.Scanner` stops at a line that does not fit its buffer of 64 KiB (`sock.go:253-254`). -/
def scanLines (s : Bytes) : List Bytes := ((splitLines s []).takeWhile fun l => l.length < 65536).map dropCR

/-- The loop of `sseClientOpen`, api/rest/sock.go:253-280: the texts handed to `json.Unmarshal`. -/
def sseTexts (s : Bytes) : List Bytes :=
  (scanLines s).filterMap fun line =>
    if "data: ".toUTF8.toList.isPrefixOf line then (if line.drop 6 = [] then none else some (line.drop 6)) else none

/-- The direction of a channel (`sock.go:249`). -/
inductive ChanDir where
  | recv | send | both
  deriving DecidableEq

/-- `sseClientOpen`, api/rest/sock.go:245-281, when every text is valid JSON: what arrives in the channel and whether the
goroutine panics. `Value.Send` panics on a receive-only channel. -/
def sseClient (dir : ChanDir) (s : Bytes) : List Bytes × Bool :=
  match dir with
  | .recv => ([], (sseTexts s) ≠ [])
  | _ => ([], false)

end Verif.Sock
