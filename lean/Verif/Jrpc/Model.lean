/-
Model of api/jrpc/enc.go and api/jrpc/dec.go: the streaming JSON encoder and decoder.

Simplifications, stated once:
* The writer never fails; an encoder returns all bytes it wrote.
* `unicode/utf8` and `strconv` belong to the Go standard library; they are modelled from their documentation.
* Floats are in `FloatModel`; not modelled is `json.RawMessage` (copied verbatim by the encoder).
-/
namespace Verif.Jrpc

deriving instance DecidableEq for Except

/-! ### Go's standard library -/

/-- A continuation byte is within the given limits (`utf8.DecodeRuneInString`, called at enc.go:270). -/
def within (lo hi : Nat) (b : UInt8) : Bool := lo ≤ b.toNat && b.toNat ≤ hi

/-- The lower limit of the second byte (`acceptRanges` of `unicode/utf8`)
(`utf8.DecodeRuneInString`, called at enc.go:270). -/
def acceptLo (p0 : Nat) : Nat := if p0 = 0xE0 then 0xA0 else if p0 = 0xF0 then 0x90 else 0x80

/-- The upper limit of the second byte (`utf8.DecodeRuneInString`, called at enc.go:270). -/
def acceptHi (p0 : Nat) : Nat := if p0 = 0xED then 0x9F else if p0 = 0xF4 then 0x8F else 0xBF

/-- `utf8.DecodeRuneInString` (Go standard library, called at api/jrpc/enc.go:270): the code point and its
size, or (U+FFFD, 1) for an ill-formed sequence, (U+FFFD, 0) for the empty string. The first byte
selects the length and the accepted range of the second byte, as in the tables `first` and `acceptRanges`. -/
def decodeRune : List UInt8 → Nat × Nat
  | [] => (0xFFFD, 0)
  | b0 :: t =>
    let p0 := b0.toNat
    if p0 < 0x80 then (p0, 1)
    else if p0 < 0xC2 ∨ 0xF4 < p0 then (0xFFFD, 1)
    else if p0 < 0xE0 then
      match t with
      | b1 :: _ => if within 0x80 0xBF b1 then ((p0 &&& 0x1F) <<< 6 ||| (b1.toNat &&& 0x3F), 2) else (0xFFFD, 1)
      | _ => (0xFFFD, 1)
    else if p0 < 0xF0 then
      match t with
      | b1 :: b2 :: _ =>
        if within (acceptLo p0) (acceptHi p0) b1 && within 0x80 0xBF b2 then
          ((p0 &&& 0x0F) <<< 12 ||| ((b1.toNat &&& 0x3F) <<< 6 ||| (b2.toNat &&& 0x3F)), 3)
        else (0xFFFD, 1)
      | _ => (0xFFFD, 1)
    else
      match t with
      | b1 :: b2 :: b3 :: _ =>
        if within (acceptLo p0) (acceptHi p0) b1 && within 0x80 0xBF b2 && within 0x80 0xBF b3 then
          ((p0 &&& 0x07) <<< 18 ||| ((b1.toNat &&& 0x3F) <<< 12 ||| ((b2.toNat &&& 0x3F) <<< 6 ||| (b3.toNat &&& 0x3F))), 4)
        else (0xFFFD, 1)
      | _ => (0xFFFD, 1)

/-- The conversion `string(rune)` (Go language, used at api/jrpc/dec.go:266) for runes below 2^16, which is all
that four hexadecimal digits can express: UTF-8, with surrogates replaced by U+FFFD. -/
def runeBytes (r : Nat) : List UInt8 :=
  if r ≤ 0x7F then [UInt8.ofNat r]
  else if r ≤ 0x7FF then [UInt8.ofNat (0xC0 ||| r >>> 6), UInt8.ofNat (0x80 ||| r &&& 0x3F)]
  else if 0xD800 ≤ r ∧ r ≤ 0xDFFF then [0xEF, 0xBF, 0xBD]
  else [UInt8.ofNat (0xE0 ||| r >>> 12), UInt8.ofNat (0x80 ||| (r >>> 6) &&& 0x3F), UInt8.ofNat (0x80 ||| r &&& 0x3F)]

/-- `strconv.AppendUint(…, 10)`: decimal digits, most significant first (`called at enc.go:67, 73`). -/
def appendUint (n : Nat) : List UInt8 :=
  if n < 10 then [UInt8.ofNat (48 + n)] else appendUint (n / 10) ++ [UInt8.ofNat (48 + n % 10)]

/-- `strconv.AppendInt(…, 10)` (`called at enc.go:55, 61`). -/
def appendInt (i : Int) : List UInt8 := if i < 0 then 45 :: appendUint i.natAbs else appendUint i.natAbs

/-! ### The encoder -/

/-- `hex`, api/jrpc/enc.go:234. -/
def hexDigit (n : Nat) : UInt8 := UInt8.ofNat (if n < 10 then 48 + n else 87 + n)

/-- The escape written for an ASCII byte after the backslash, api/jrpc/enc.go:247-265. -/
def escape (b : UInt8) : List UInt8 :=
  if b = 92 ∨ b = 34 then [b]
  else if b = 10 then [110]
  else if b = 13 then [114]
  else if b = 9 then [116]
  else [117, 48, 48, hexDigit (b.toNat >>> 4), hexDigit (b.toNat &&& 0xF)]

theorem decodeRune_size (b : UInt8) (t : List UInt8) : 1 ≤ (decodeRune (b :: t)).2 := by
  unfold decodeRune
  dsimp only
  repeat' split
  all_goals simp

/-- The loop of `(*Encoder).string`, api/jrpc/enc.go:236-301. `pend` is the pending `s[start:i]` and the second
argument is `s[i:]`. -/
def strLoop (pend : List UInt8) : List UInt8 → List UInt8
  | [] => pend ++ [34]
  | b :: t =>
    if b.toNat < 0x80 then
      if ¬ (b.toNat ≤ 31 ∨ b = 34 ∨ b = 92) then strLoop (pend ++ [b]) t
      else pend ++ [92] ++ escape b ++ strLoop [] t
    else
      let r := decodeRune (b :: t)
      if r.1 = 0xFFFD ∧ r.2 = 1 then pend ++ [92, 117, 102, 102, 102, 100] ++ strLoop [] t
      else if r.1 = 0x2028 ∨ r.1 = 0x2029 then
        pend ++ [92, 117, 50, 48, 50, hexDigit (r.1 &&& 0xF)] ++ strLoop [] ((b :: t).drop r.2)
      else strLoop (pend ++ (b :: t).take r.2) ((b :: t).drop r.2)
termination_by s => s.length
decreasing_by
  all_goals
    have := decodeRune_size b t
    simp only [List.length_cons, List.length_drop]
    omega

/-- `(*Encoder).string`, api/jrpc/enc.go:233-304. -/
def encString (s : List UInt8) : List UInt8 := 34 :: strLoop [] s

/-- `std`, api/jrpc/enc.go:308. -/
def std (n : Nat) : UInt8 :=
  UInt8.ofNat (if n < 26 then 65 + n else if n < 52 then 71 + n else if n < 62 then n - 4 else if n = 62 then 43 else 47)

/-- The quanta of `(*Encoder).base64`, api/jrpc/enc.go:316-370. -/
def quanta : List UInt8 → List UInt8
  | b0 :: b1 :: b2 :: t =>
    let x := b0.toNat <<< 16 ||| b1.toNat <<< 8 ||| b2.toNat
    [std (x >>> 18), std (x >>> 12 &&& 0x3f), std (x >>> 6 &&& 0x3f), std (x &&& 0x3f)] ++ quanta t
  | [b0] =>
    let x := b0.toNat
    [std (x >>> 2), std (x <<< 4 &&& 0x3f), 61, 61]
  | [b0, b1] =>
    let x := b0.toNat <<< 8 ||| b1.toNat
    [std (x >>> 10), std (x >>> 4 &&& 0x3f), std (x <<< 2 &&& 0x3f), 61]
  | [] => []

/-- `(*Encoder).base64`, api/jrpc/enc.go:307-373. -/
def encBase64 (b : List UInt8) : List UInt8 :=
  if b.length = 0 then [34, 110, 117, 108, 108, 34] else [34] ++ quanta b ++ [34]

/-- A Go value as the encoder's kind switch sees it, api/jrpc/enc.go:41-171. `none` is a nil slice, map or pointer.
A map is the list of its entries in one iteration order. A struct field carries its name (after renaming), the
result of the omission test of line 153, and its value. `other` is every kind the switch does not list. -/
inductive Val where
  | bool (b : Bool)
  | int (i : Int)
  | uint (n : Nat)
  | str (s : List UInt8)
  | bytes (b : Option (List UInt8))
  | nilv
  | slice (vs : List Val)
  | map (kvs : List (Val × Val))
  | ptr (v : Val)
  | struct (fs : List (List UInt8 × Bool × Val))
  | array (vs : List Val)
  | other

mutual
/-- `(*Encoder).encode`, api/jrpc/enc.go:41-171; `none` is the panic of `reflect.Value.IsNil` on an array (line 88). -/
def encode : Val → Option (List UInt8)
  | .bool true => some [116, 114, 117, 101]
  | .bool false => some [102, 97, 108, 115, 101]
  | .int i => some (appendInt i)
  | .uint n => some (appendUint n)
  | .str s => some (encString s)
  | .bytes none => some [110, 117, 108, 108]
  | .bytes (some b) => some (encBase64 b)
  | .nilv => some [110, 117, 108, 108]
  | .slice vs => do some ([91] ++ (← encodeElems vs) ++ [93])
  | .map kvs => do some ([123] ++ (← encodeEntries true kvs) ++ [125])
  | .ptr v => encode v
  | .struct fs => do some ([123] ++ (← encodeFields fs) ++ [125])
  | .array _ => none
  | .other => some []
/-- The loop at api/jrpc/enc.go:104-113: a comma after every element but the last. -/
def encodeElems : List Val → Option (List UInt8)
  | [] => some []
  | [v] => encode v
  | v :: w :: t => do some ((← encode v) ++ [44] ++ (← encodeElems (w :: t)))
/-- The loop of `encode_map`, api/jrpc/enc.go:206-225: a comma before every entry but the first. -/
def encodeEntries (first : Bool) : List (Val × Val) → Option (List UInt8)
  | [] => some []
  | (k, v) :: t => do
    some ((if first then [] else [44]) ++ (← encode k) ++ [58] ++ (← encode v) ++ (← encodeEntries false t))
/-- The loop at api/jrpc/enc.go:137-168: the name is not escaped and there is no comma between fields. -/
def encodeFields : List (List UInt8 × Bool × Val) → Option (List UInt8)
  | [] => some []
  | (name, omitted, v) :: t => do
    if omitted then encodeFields t
    else some ([34] ++ name ++ [34, 58] ++ (← encode v) ++ (← encodeFields t))
end

/-! ### The decoder on a stream of bytes -/

/-- Why decoding stopped (`the errors returned in dec.go:91-582`). -/
inductive Err where
  | eof | notInteger | notString | badHex | badEscape | notBool | notArray | notObject | noColon | noComma
  deriving DecidableEq, Repr

/-- The bytes that end a number, api/jrpc/dec.go:129 and 154. -/
def isTerm (b : UInt8) : Bool := b = 44 ∨ b = 125 ∨ b = 93 ∨ b = 32 ∨ b = 9 ∨ b = 10 ∨ b = 13

/-- The loop for signed integers, api/jrpc/dec.go:115-141: `register` is an `int64`. Returns the value and what is
left of the stream (the terminator is put back). -/
def intLoop (register : BitVec 64) (negative : Bool) : List UInt8 → Except Err (BitVec 64 × List UInt8)
  | [] => .ok (if negative then -register else register, [])
  | c :: t =>
    if c = 45 then intLoop register true t
    else if isTerm c then .ok (if negative then -register else register, c :: t)
    else if c.toNat < 48 ∨ 57 < c.toNat then .error .notInteger
    else intLoop (register * 10 + BitVec.ofNat 64 (c.toNat - 48)) negative t

/-- The loop for unsigned integers, api/jrpc/dec.go:145-163. -/
def uintLoop (register : BitVec 64) : List UInt8 → Except Err (BitVec 64 × List UInt8)
  | [] => .ok (register, [])
  | c :: t =>
    if isTerm c then .ok (register, c :: t)
    else if c.toNat < 48 ∨ 57 < c.toNat then .error .notInteger
    else uintLoop (register * 10 + BitVec.ofNat 64 (c.toNat - 48)) t

/-- `reflect.Value.SetInt` for a kind of `w` bits, api/jrpc/dec.go:142: the value is truncated. -/
def setInt (w : Nat) (r : BitVec 64) : Int := (r.setWidth w).toInt

/-- `reflect.Value.SetUint` for a kind of `w` bits, api/jrpc/dec.go:164. -/
def setUint (w : Nat) (r : BitVec 64) : Nat := (r.setWidth w).toNat

/-- The signed integer case for a kind of `w` bits, api/jrpc/dec.go:114-143. -/
def decInt (w : Nat) (s : List UInt8) : Except Err (Int × List UInt8) :=
  (intLoop 0 false s).map fun r => (setInt w r.1, r.2)

/-- The unsigned integer case for a kind of `w` bits, api/jrpc/dec.go:144-165. -/
def decUint (w : Nat) (s : List UInt8) : Except Err (Nat × List UInt8) :=
  (uintLoop 0 s).map fun r => (setUint w r.1, r.2)

/-- One hexadecimal digit, api/jrpc/dec.go:256-264. -/
def hexVal (b : UInt8) : Option Nat :=
  let n := b.toNat
  if 48 ≤ n ∧ n ≤ 57 then some (n - 48)
  else if 97 ≤ n ∧ n ≤ 102 then some (n - 97 + 10)
  else if 65 ≤ n ∧ n ≤ 70 then some (n - 65 + 10)
  else none

/-- The four digits of an escape, api/jrpc/dec.go:244-265. -/
def hex4 (a b c d : UInt8) : Option Nat := do
  let a ← hexVal a
  let b ← hexVal b
  let c ← hexVal c
  let d ← hexVal d
  some ((((0 <<< 4 + a) <<< 4 + b) <<< 4 + c) <<< 4 + d)

/-- The simple escapes, api/jrpc/dec.go:230-242. -/
def simpleEscape (e : UInt8) : Option UInt8 :=
  if e = 34 ∨ e = 92 ∨ e = 47 then some e
  else if e = 98 then some 8
  else if e = 102 then some 12
  else if e = 110 then some 10
  else if e = 114 then some 13
  else if e = 116 then some 9
  else none

/-- The loop for strings, api/jrpc/dec.go:215-273. -/
def decChars (buffer : List UInt8) : List UInt8 → Except Err (List UInt8 × List UInt8)
  | [] => .error .eof
  | c :: t =>
    if c = 34 then .ok (buffer, t)
    else if c = 92 then
      match t with
      | [] => .error .eof
      | e :: t =>
        match simpleEscape e with
        | some x => decChars (buffer ++ [x]) t
        | none =>
          if e = 117 then
            match t with
            | h1 :: h2 :: h3 :: h4 :: t =>
              match hex4 h1 h2 h3 h4 with
              | some r => decChars (buffer ++ runeBytes r) t
              | none => .error .badHex
            | _ => .error .eof
          else .error .badEscape
    else decChars (buffer ++ [c]) t
termination_by s => s.length

/-- The string case, api/jrpc/dec.go:207-214. -/
def decString : List UInt8 → Except Err (List UInt8 × List UInt8)
  | [] => .error .eof
  | c :: t => if c = 34 then decChars [] t else .error .notString

/-! ### The decoder on whole values -/

/-- `skipWhitespace`, api/jrpc/dec.go:75-89: the end of the stream is an error. -/
def skipWs : List UInt8 → Except Err (List UInt8)
  | [] => .error .eof
  | c :: t => if c = 32 ∨ c = 9 ∨ c = 10 ∨ c = 13 then skipWs t else .ok (c :: t)

/-- The loop for booleans, api/jrpc/dec.go:98-113, from index `i`; `old` is the value of the variable decoded into, which
is only ever set to true. -/
def boolLoop (old : Bool) (i : Nat) : List UInt8 → Except Err (Bool × List UInt8)
  | [] => .error .eof
  | c :: t =>
    if [102, 97, 108, 115, 101][i]? ≠ some c ∧ i < 4 ∧ [116, 114, 117, 101][i]? ≠ some c then .error .notBool
    else if i = 3 ∧ c = 101 then .ok (true, t)
    else if i ≥ 4 then .ok (old, t)
    else boolLoop old (i + 1) t

/-- The null test of api/jrpc/dec.go:533-558: the bytes compared after the `n` are the four of `nullBytes`, the last of which
is zero (an array of four with three given). `true` together with what follows when they match; otherwise the position is
restored. -/
def nullTest : List UInt8 → Except Err (Bool × List UInt8)
  | [] => .error .eof
  | c :: t =>
    if c = 110 then
      match t with
      | [] => .error .eof
      | a :: t1 =>
        if a ≠ 117 then .ok (false, c :: t) else
        match t1 with
        | [] => .error .eof
        | b :: t2 =>
          if b ≠ 108 then .ok (false, c :: t) else
          match t2 with
          | [] => .error .eof
          | d :: t3 =>
            if d ≠ 108 then .ok (false, c :: t) else
            match t3 with
            | [] => .error .eof
            | e :: t4 => if e ≠ 0 then .ok (false, c :: t) else .ok (true, t4)
    else .ok (false, c :: t)

/-- `SetMapIndex` with a string key: replaces the entry or adds one (`dec.go:326`). -/
def setKey (k : List UInt8) (v : Val) : List (Val × Val) → List (Val × Val)
  | [] => [(.str k, v)]
  | (k', v') :: t =>
    match k' with
    | .str x => if x = k then (k', v) :: t else (k', v') :: setKey k v t
    | _ => (k', v') :: setKey k v t

/-- The loop over array elements, api/jrpc/dec.go:478-531 (growing the slice is invisible and not modelled). The number
bounds the iterations; each consumes a comma, so the length of the stream suffices. -/
def elemLoop (dec : List UInt8 → Except Err (Val × List UInt8)) : Nat → List Val → List UInt8 → Except Err (List Val × List UInt8)
  | 0, _, _ => .error .eof
  | n + 1, acc, s => do
    let (v, s) ← dec s
    let s ← skipWs s
    match s with
    | [] => .error .eof
    | c :: t =>
      if c = 93 then .ok (acc ++ [v], t)
      else if c = 44 then elemLoop dec n (acc ++ [v]) t
      else .error .noComma

/-- The loop over map entries, api/jrpc/dec.go:293-350, for string keys. -/
def entryLoop (dec : List UInt8 → Except Err (Val × List UInt8)) : Nat → List (Val × Val) → List UInt8 →
    Except Err (List (Val × Val) × List UInt8)
  | 0, _, _ => .error .eof
  | n + 1, acc, s => do
    let s ← skipWs s
    let (k, s) ← decString s
    let s ← skipWs s
    match s with
    | [] => .error .eof
    | c :: s =>
      if c ≠ 58 then .error .noColon else do
      let s ← skipWs s
      let (v, s) ← dec s
      let s ← skipWs s
      match s with
      | [] => .error .eof
      | c :: t =>
        if c = 125 then .ok (setKey k v acc, t)
        else if c = 44 then do
          let t ← skipWs t
          entryLoop dec n (setKey k v acc) t
        else .error .noComma

/-- The Go types decoded into: booleans, integers by width, strings, slices, maps from strings, pointers. Structs and floats are in `ObjModel` and
`FloatModel`; arrays and interfaces are not modelled (`the kinds of dec.go:91-582`). -/
inductive Ty where
  | bool
  | int (w : Nat)
  | uint (w : Nat)
  | str
  | slice (e : Ty)
  | map (e : Ty)
  | ptr (e : Ty)

/-- `(*Decoder).decode` into a fresh variable of the given type, api/jrpc/dec.go:91-582. The empty-array test of lines
466-476 leaves the bracket in the stream; the empty-object test of lines 288-291 looks at the opening brace again and never
succeeds. -/
def decode : Ty → List UInt8 → Except Err (Val × List UInt8)
  | .bool, s => do
    let s ← skipWs s
    (boolLoop false 0 s).map fun r => (.bool r.1, r.2)
  | .int w, s => do
    let s ← skipWs s
    (decInt w s).map fun r => (.int r.1, r.2)
  | .uint w, s => do
    let s ← skipWs s
    (decUint w s).map fun r => (.uint r.1, r.2)
  | .str, s => do
    let s ← skipWs s
    (decString s).map fun r => (.str r.1, r.2)
  | .slice e, s => do
    let s ← skipWs s
    match s with
    | [] => .error .eof
    | c :: t =>
      if c ≠ 91 then .error .notArray else do
      let t ← skipWs t
      if t.head? = some 93 then .ok (.slice [], t)
      else (elemLoop (decode e) t.length [] t).map fun r => (.slice r.1, r.2)
  | .map e, s => do
    let s ← skipWs s
    match s with
    | [] => .error .eof
    | c :: t =>
      if c ≠ 123 then .error .notObject else do
      let t ← skipWs t
      (entryLoop (decode e) t.length [] t).map fun r => (.map r.1, r.2)
  | .ptr e, s => do
    let s ← skipWs s
    let (null, s) ← nullTest s
    if null then .ok (.nilv, s) else (decode e s).map fun r => (.ptr r.1, r.2)

/-! ### The decoder's buffer -/

/-- The reader: the bytes still to come, and for each coming `Read` how many bytes it is willing to return at most
(beyond the plan: as many as fit) (`dec.go:30-32`). -/
structure Reader where
  rest : List UInt8
  plan : List Nat
  deriving DecidableEq

/-- `Read` into a buffer of the given capacity: some bytes, or `none` for end of file. A well-behaved reader returns
at least one byte (`dec.go:30-32`). -/
def Reader.read (r : Reader) (cap : Nat) : Option (List UInt8 × Reader) :=
  if r.rest = [] then none
  else
    let n := min cap (match r.plan with | [] => cap | k :: _ => k)
    some (r.rest.take n, ⟨r.rest.drop n, r.plan.tail⟩)

/-- `Decoder`, api/jrpc/dec.go:13-20. -/
structure Dec where
  segment : List UInt8
  head : Int
  size : Int
  r : Reader
  deriving DecidableEq

/-- `NewDecoder`, api/jrpc/dec.go:22-24. -/
def newDec (r : Reader) : Dec := ⟨List.replicate 256 0, 0, 0, r⟩

/-- What the byte functions can do besides returning a byte (`dec.go:42-73`). -/
inductive Stop where
  | eof | panic
  deriving DecidableEq, Repr

/-- The refill of api/jrpc/dec.go:43-50 and 56-63: reads into `segment[head:]`, then sets `head = 0`, `size += n`. -/
def Dec.fill (d : Dec) : Except Stop Dec :=
  if d.head = d.size then
    match d.r.read (256 - d.head.toNat) with
    | none => .error .eof
    | some (bs, r) =>
      .ok { segment := d.segment.take d.head.toNat ++ bs ++ d.segment.drop (d.head.toNat + bs.length)
            head := 0, size := d.size + bs.length, r := r }
  else .ok d

/-- `peek_byte`, api/jrpc/dec.go:42-53. -/
def Dec.peek (d : Dec) : Except Stop (UInt8 × Dec) := do
  let d ← d.fill
  if d.head < 0 then .error .panic
  else match d.segment[d.head.toNat]? with
    | some b => .ok (b, d)
    | none => .error .panic

/-- `scan_byte`, api/jrpc/dec.go:55-73 (`prev` is never read and not modelled). -/
def Dec.scan (d : Dec) : Except Stop (UInt8 × Dec) := do
  let (b, d) ← d.peek
  let d := { d with head := d.head + 1 }
  .ok (b, if d.head = 256 then { d with head := 0, size := 0 } else d)

/-- `d.head--` after a number's terminator, api/jrpc/dec.go:131 and 156. -/
def Dec.unscan (d : Dec) : Dec := { d with head := d.head - 1 }

/-- A sequence of `peek_byte` and `scan_byte` calls (`true` is a scan) and the bytes they return (`dec.go:42-73`). -/
def Dec.bytes (d : Dec) : List Bool → Except Stop (List UInt8)
  | [] => .ok []
  | scan :: t => do
    let (b, d) ← if scan then d.scan else d.peek
    let bs ← d.bytes t
    .ok (b :: bs)

end Verif.Jrpc
