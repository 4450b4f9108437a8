/-! Specifications for the JSON codec, independent of its code: Unicode scalar values and UTF-8, the grammar of
RFC 8259 with what each text denotes, base64 of RFC 4648, decimal numbers. -/
namespace Verif.Jrpc

/-- Unicode scalar values. -/
def Scalar (c : Nat) : Prop := c < 0xD800 ∨ (0xE000 ≤ c ∧ c < 0x110000)

/-- UTF-8 (RFC 3629). -/
def utf8 (c : Nat) : List UInt8 :=
  if c < 0x80 then [UInt8.ofNat c]
  else if c < 0x800 then [UInt8.ofNat (0xC0 + c / 64), UInt8.ofNat (0x80 + c % 64)]
  else if c < 0x10000 then [UInt8.ofNat (0xE0 + c / 4096), UInt8.ofNat (0x80 + c / 64 % 64), UInt8.ofNat (0x80 + c % 64)]
  else [UInt8.ofNat (0xF0 + c / 262144), UInt8.ofNat (0x80 + c / 4096 % 64), UInt8.ofNat (0x80 + c / 64 % 64),
    UInt8.ofNat (0x80 + c % 64)]

/-- The code points of a byte string, each byte that starts no well-formed sequence replaced by U+FFFD. -/
inductive Decoded : List UInt8 → List Nat → Prop
  | nil : Decoded [] []
  | scalar (c : Nat) (t : List UInt8) (cs : List Nat) : Scalar c → Decoded t cs → Decoded (utf8 c ++ t) (c :: cs)
  | bad (b : UInt8) (t : List UInt8) (cs : List Nat) :
      (∀ c, Scalar c → ∀ u, b :: t ≠ utf8 c ++ u) → Decoded t cs → Decoded (b :: t) (0xFFFD :: cs)

/-- A hexadecimal digit and its value. -/
def HexDigit (b : UInt8) (n : Nat) : Prop :=
  (n < 10 ∧ b.toNat = 48 + n) ∨ (10 ≤ n ∧ n < 16 ∧ (b.toNat = 55 + n ∨ b.toNat = 87 + n))

/-- RFC 8259 section 7: the inside of a string and the code points it denotes. `pairs` says whether code points
above U+FFFF may be written as two escapes (surrogate pairs), as the RFC allows. -/
inductive Chars (pairs : Bool) : List UInt8 → List Nat → Prop
  | nil : Chars pairs [] []
  | raw (c : Nat) (t : List UInt8) (cs : List Nat) : Scalar c → 0x20 ≤ c → c ≠ 0x22 → c ≠ 0x5C → Chars pairs t cs →
      Chars pairs (utf8 c ++ t) (c :: cs)
  | short (e : UInt8) (c : Nat) (t : List UInt8) (cs : List Nat) :
      (e.toNat, c) ∈ [(0x22, 0x22), (0x5C, 0x5C), (0x2F, 0x2F), (0x62, 8), (0x66, 12), (0x6E, 10), (0x72, 13), (0x74, 9)] →
      Chars pairs t cs → Chars pairs (0x5C :: e :: t) (c :: cs)
  | hex (h1 h2 h3 h4 : UInt8) (n1 n2 n3 n4 : Nat) (t : List UInt8) (cs : List Nat) :
      HexDigit h1 n1 → HexDigit h2 n2 → HexDigit h3 n3 → HexDigit h4 n4 →
      Scalar (((n1 * 16 + n2) * 16 + n3) * 16 + n4) → Chars pairs t cs →
      Chars pairs (0x5C :: 0x75 :: h1 :: h2 :: h3 :: h4 :: t) ((((n1 * 16 + n2) * 16 + n3) * 16 + n4) :: cs)
  | pair (h1 h2 h3 h4 l1 l2 l3 l4 : UInt8) (n1 n2 n3 n4 m1 m2 m3 m4 hi lo : Nat) (t : List UInt8) (cs : List Nat) :
      pairs = true → HexDigit h1 n1 → HexDigit h2 n2 → HexDigit h3 n3 → HexDigit h4 n4 →
      HexDigit l1 m1 → HexDigit l2 m2 → HexDigit l3 m3 → HexDigit l4 m4 →
      ((n1 * 16 + n2) * 16 + n3) * 16 + n4 = 0xD800 + hi → hi < 0x400 →
      ((m1 * 16 + m2) * 16 + m3) * 16 + m4 = 0xDC00 + lo → lo < 0x400 → Chars pairs t cs →
      Chars pairs (0x5C :: 0x75 :: h1 :: h2 :: h3 :: h4 :: 0x5C :: 0x75 :: l1 :: l2 :: l3 :: l4 :: t) ((0x10000 + hi * 0x400 + lo) :: cs)

/-- The short escapes of RFC 8259 and the bytes they denote. -/
def shortEscapes : List (UInt8 × UInt8) :=
  [(0x22, 0x22), (0x5C, 0x5C), (0x2F, 0x2F), (0x62, 8), (0x66, 12), (0x6E, 10), (0x72, 13), (0x74, 9)]

/-- The texts read between quotes by a reader that copies every other byte, knows the escapes of RFC 8259 and no
surrogate pairs: each escaped surrogate is U+FFFD. The second index is the string read. -/
inductive Lenient : List UInt8 → List UInt8 → Prop
  | nil : Lenient [] []
  | byte (b : UInt8) (t out : List UInt8) : b ≠ 0x22 → b ≠ 0x5C → Lenient t out → Lenient (b :: t) (b :: out)
  | short (e x : UInt8) (t out : List UInt8) : (e, x) ∈ shortEscapes → Lenient t out →
      Lenient (0x5C :: e :: t) (x :: out)
  | scalar (h1 h2 h3 h4 : UInt8) (n1 n2 n3 n4 : Nat) (t out : List UInt8) :
      HexDigit h1 n1 → HexDigit h2 n2 → HexDigit h3 n3 → HexDigit h4 n4 →
      Scalar (((n1 * 16 + n2) * 16 + n3) * 16 + n4) → Lenient t out →
      Lenient (0x5C :: 0x75 :: h1 :: h2 :: h3 :: h4 :: t) (utf8 (((n1 * 16 + n2) * 16 + n3) * 16 + n4) ++ out)
  | surrogate (h1 h2 h3 h4 : UInt8) (n1 n2 n3 n4 : Nat) (t out : List UInt8) :
      HexDigit h1 n1 → HexDigit h2 n2 → HexDigit h3 n3 → HexDigit h4 n4 →
      0xD800 ≤ ((n1 * 16 + n2) * 16 + n3) * 16 + n4 → ((n1 * 16 + n2) * 16 + n3) * 16 + n4 < 0xE000 → Lenient t out →
      Lenient (0x5C :: 0x75 :: h1 :: h2 :: h3 :: h4 :: t) ([0xEF, 0xBF, 0xBD] ++ out)

/-- RFC 4648: the value of a base64 digit. -/
def B64 (b : UInt8) (n : Nat) : Prop :=
  (n < 26 ∧ b.toNat = 65 + n) ∨ (26 ≤ n ∧ n < 52 ∧ b.toNat = 97 + (n - 26)) ∨ (52 ≤ n ∧ n < 62 ∧ b.toNat = 48 + (n - 52)) ∨
  (n = 62 ∧ b.toNat = 43) ∨ (n = 63 ∧ b.toNat = 47)

/-- RFC 4648 section 4: a base64 text and the bytes it stands for, with padding and zero pad bits. -/
inductive Base64 : List UInt8 → List UInt8 → Prop
  | nil : Base64 [] []
  | full (a b c d x y z : UInt8) (n1 n2 n3 n4 : Nat) (t u : List UInt8) : B64 a n1 → B64 b n2 → B64 c n3 → B64 d n4 →
      ((n1 * 64 + n2) * 64 + n3) * 64 + n4 = (x.toNat * 256 + y.toNat) * 256 + z.toNat → Base64 t u →
      Base64 (a :: b :: c :: d :: t) (x :: y :: z :: u)
  | two (a b c x y : UInt8) (n1 n2 n3 : Nat) : B64 a n1 → B64 b n2 → B64 c n3 →
      (n1 * 64 + n2) * 64 + n3 = (x.toNat * 256 + y.toNat) * 4 → Base64 [a, b, c, 61] [x, y]
  | one (a b x : UInt8) (n1 n2 : Nat) : B64 a n1 → B64 b n2 → n1 * 64 + n2 = x.toNat * 16 → Base64 [a, b, 61, 61] [x]

/-- A non-empty string of decimal digits. -/
def Digits (ds : List UInt8) : Prop := ds ≠ [] ∧ ∀ d ∈ ds, 48 ≤ d.toNat ∧ d.toNat ≤ 57

/-- The number a string of digits denotes. -/
def digitsVal (ds : List UInt8) : Nat := ds.foldl (fun n d => n * 10 + (d.toNat - 48)) 0

/-- Where a number in a JSON text may end: the end of the text, white space, or one of `,` `}` `]`. -/
def NumberEnd (rest : List UInt8) : Prop :=
  rest = [] ∨ ∃ c t, rest = c :: t ∧ c.toNat ∈ [0x2C, 0x7D, 0x5D, 0x20, 0x09, 0x0A, 0x0D]

/-- What a sequence of peeks (`false`) and scans (`true`) of a byte stream returns; `none` once it runs out. -/
def streamBytes : List UInt8 → List Bool → Option (List UInt8)
  | _, [] => some []
  | [], _ :: _ => none
  | b :: t, scan :: ops => (streamBytes (if scan then t else b :: t) ops).map (b :: ·)

/-- The values JSON texts denote. -/
inductive JV where
  | null
  | bool (b : Bool)
  | num (i : Int)
  | str (cs : List Nat)
  | arr (vs : List JV)
  | obj (kvs : List (List Nat × JV))

mutual
/-- RFC 8259: which byte strings are JSON texts (without insignificant white space; of numbers only integers), and
what they denote. -/
inductive Json : List UInt8 → JV → Prop
  | null : Json [110, 117, 108, 108] .null
  | true : Json [116, 114, 117, 101] (.bool true)
  | false : Json [102, 97, 108, 115, 101] (.bool false)
  | nat (ds : List UInt8) : Digits ds → (ds.head? = some 48 → ds = [48]) → Json ds (.num (digitsVal ds))
  | neg (ds : List UInt8) : Digits ds → (ds.head? = some 48 → ds = [48]) → Json (45 :: ds) (.num (-(digitsVal ds)))
  | str (t : List UInt8) (cs : List Nat) : Chars true t cs → Json ([34] ++ t ++ [34]) (.str cs)
  | emptyArr : Json [91, 93] (.arr [])
  | arr (t : List UInt8) (vs : List JV) : Elems t vs → Json ([91] ++ t ++ [93]) (.arr vs)
  | emptyObj : Json [123, 125] (.obj [])
  | obj (t : List UInt8) (kvs : List (List Nat × JV)) : Members t kvs → Json ([123] ++ t ++ [125]) (.obj kvs)
/-- One or more values separated by commas. -/
inductive Elems : List UInt8 → List JV → Prop
  | one (t : List UInt8) (v : JV) : Json t v → Elems t [v]
  | more (t u : List UInt8) (v : JV) (vs : List JV) : Json t v → Elems u vs → Elems (t ++ [44] ++ u) (v :: vs)
/-- One or more members separated by commas. -/
inductive Members : List UInt8 → List (List Nat × JV) → Prop
  | one (k t : List UInt8) (cs : List Nat) (v : JV) : Chars true k cs → Json t v →
      Members ([34] ++ k ++ [34] ++ [58] ++ t) [(cs, v)]
  | more (k t u : List UInt8) (cs : List Nat) (v : JV) (kvs : List (List Nat × JV)) : Chars true k cs → Json t v → Members u kvs →
      Members ([34] ++ k ++ [34] ++ [58] ++ t ++ [44] ++ u) ((cs, v) :: kvs)
end

end Verif.Jrpc
