/-!
# What a JSON text says (RFC 8259), for strings and arrays of strings

Written from the RFC alone; it shares nothing with the model. A text is a list of Unicode characters.
-/
namespace Verif.Json.Spec

abbrev Str := List Char

/-- The value of one hexadecimal digit, in either case (RFC 8259, section 7; RFC 5234, HEXDIG). -/
inductive Hex : Char → Nat → Prop where
  | digit (k : Nat) (h : k < 10) : Hex (Char.ofNat (48 + k)) k
  | upper (k : Nat) (h : k < 6) : Hex (Char.ofNat (65 + k)) (10 + k)
  | lower (k : Nat) (h : k < 6) : Hex (Char.ofNat (97 + k)) (10 + k)

/-- Four hexadecimal digits and their value. -/
inductive Hex4 : Str → Nat → Prop where
  | mk (a b c d : Char) (i j k l : Nat) (ha : Hex a i) (hb : Hex b j) (hc : Hex c k) (hd : Hex d l) :
      Hex4 [a, b, c, d] (i * 4096 + j * 256 + k * 16 + l)

/-- The escapes of two characters (RFC 8259, section 7), and the number of the character each stands for. -/
def short : List (Char × Nat) :=
  [('"', 0x22), ('\\', 0x5C), ('/', 0x2F), ('b', 0x08), ('f', 0x0C), ('n', 0x0A), ('r', 0x0D), ('t', 0x09)]

/-- What stands between the quotation marks, and the text it means. A lone half of a surrogate pair has no meaning. -/
inductive Means : Str → Str → Prop where
  | nil : Means [] []
  | plain (c : Char) (t m : Str) (h : 0x20 ≤ c.toNat) (hq : c ≠ '"') (hb : c ≠ '\\') (ht : Means t m) : Means (c :: t) (c :: m)
  | short (e : Char) (n : Nat) (t m : Str) (h : (e, n) ∈ short) (ht : Means t m) : Means ('\\' :: e :: t) (Char.ofNat n :: m)
  | unit (x : Str) (v : Nat) (t m : Str) (h : Hex4 x v) (hv : v < 0xD800 ∨ 0xDFFF < v) (ht : Means t m) :
      Means ('\\' :: 'u' :: (x ++ t)) (Char.ofNat v :: m)
  | pair (x y : Str) (v w : Nat) (t m : Str) (hx : Hex4 x v) (hy : Hex4 y w) (hv : 0xD800 ≤ v ∧ v ≤ 0xDBFF)
      (hw : 0xDC00 ≤ w ∧ w ≤ 0xDFFF) (ht : Means t m) :
      Means ('\\' :: 'u' :: (x ++ '\\' :: 'u' :: (y ++ t))) (Char.ofNat (0x10000 + (v - 0xD800) * 0x400 + (w - 0xDC00)) :: m)

/-- What may stand between the quotation marks, whether or not it has a meaning. -/
inductive Grammar : Str → Prop where
  | nil : Grammar []
  | plain (c : Char) (t : Str) (h : 0x20 ≤ c.toNat) (hq : c ≠ '"') (hb : c ≠ '\\') (ht : Grammar t) : Grammar (c :: t)
  | short (e : Char) (n : Nat) (t : Str) (h : (e, n) ∈ short) (ht : Grammar t) : Grammar ('\\' :: e :: t)
  | unit (x : Str) (v : Nat) (t : Str) (h : Hex4 x v) (ht : Grammar t) : Grammar ('\\' :: 'u' :: (x ++ t))

/-- A string: its contents between quotation marks. -/
def StringText (t m : Str) : Prop := ∃ b, Means b m ∧ t = '"' :: (b ++ ['"'])

/-- White space (RFC 8259, section 2). -/
def Blank (w : Str) : Prop := ∀ c ∈ w, c.toNat = 0x20 ∨ c.toNat = 0x09 ∨ c.toNat = 0x0A ∨ c.toNat = 0x0D

/-- The elements of an array and its closing bracket: strings, with white space around them and commas in between. -/
inductive Elements : Str → List Str → Prop where
  | last (w w' s m : Str) (hw : Blank w) (hw' : Blank w') (hs : StringText s m) : Elements (w ++ s ++ w' ++ [']']) [m]
  | more (w w' s m t : Str) (ms : List Str) (hw : Blank w) (hw' : Blank w') (hs : StringText s m) (ht : Elements t ms) :
      Elements (w ++ s ++ w' ++ ',' :: t) (m :: ms)

/-- An array of strings. -/
inductive ArrayText : Str → List Str → Prop where
  | empty (w : Str) (hw : Blank w) : ArrayText ('[' :: (w ++ [']'])) []
  | some (t : Str) (ms : List Str) (h : Elements t ms) : ArrayText ('[' :: t) ms

/-- An element of an array that is grammatical: a string, or null. -/
inductive ElementGrammar : Str → Prop where
  | string (b : Str) (h : Grammar b) : ElementGrammar ('"' :: (b ++ ['"']))
  | null : ElementGrammar ['n', 'u', 'l', 'l']

/-- So many such elements, with white space, commas and the closing bracket. -/
inductive ElementsGrammar : Str → Nat → Prop where
  | last (w w' e : Str) (hw : Blank w) (hw' : Blank w') (he : ElementGrammar e) : ElementsGrammar (w ++ e ++ w' ++ [']']) 1
  | more (w w' e t : Str) (n : Nat) (hw : Blank w) (hw' : Blank w') (he : ElementGrammar e) (ht : ElementsGrammar t n) :
      ElementsGrammar (w ++ e ++ w' ++ ',' :: t) (n + 1)

end Verif.Json.Spec
