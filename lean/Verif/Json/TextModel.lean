/-!
# Model of the types of a JSON schema (api/internal/oas/oas.go: TypeSet), and of what `encoding/json` does for them

A Go string is a list of characters and of bytes that are not part of any (`Unit`); the texts of documents are lists of
characters. `encoding/json` itself is not part of /repo: `appendString`, `unquote` and the scanner are modelled here from the
documented behaviour of Go's standard library, as `oas.go:294-316` calls them.
-/
namespace Verif.Json

abbrev Text := List Char

/-- A unit of a Go string: a character, or a byte that is not valid UTF-8 (the strings of `oas.go:294`, `type Type string`). -/
inductive Unit8 where
  | ch (c : Char)
  | bad (b : Nat)
deriving DecidableEq, Repr

abbrev GoStr := List Unit8

/-- The string of a list of characters: what a string literal of oas.go is (oas.go:318-326). -/
def ofText (t : Text) : GoStr := t.map .ch

/-- A hexadecimal digit as `encoding/json` writes it (used through oas.go:298). -/
def hexDigit (n : Nat) : Char := if n < 10 then Char.ofNat (48 + n) else Char.ofNat (87 + n)

/-- One character of a string as `json.Marshal` writes it, HTML escapes included (used through oas.go:298, 300). -/
def escChar (c : Char) : Text :=
  if c = '"' then ['\\', '"']
  else if c = '\\' then ['\\', '\\']
  else if c = Char.ofNat 8 then ['\\', 'b']
  else if c = Char.ofNat 12 then ['\\', 'f']
  else if c = '\n' then ['\\', 'n']
  else if c = '\r' then ['\\', 'r']
  else if c = '\t' then ['\\', 't']
  else if c.toNat < 0x20 ∨ c = '<' ∨ c = '>' ∨ c = '&' then ['\\', 'u', '0', '0', hexDigit (c.toNat / 16), hexDigit (c.toNat % 16)]
  else if c.toNat = 0x2028 ∨ c.toNat = 0x2029 then ['\\', 'u', '2', '0', '2', hexDigit (c.toNat % 16)]
  else [c]

/-- `json.Marshal` of a string: bytes that are not UTF-8 become U+FFFD (used through oas.go:298, 300). -/
def escUnit : Unit8 → Text
  | .ch c => escChar c
  | .bad _ => ['\\', 'u', 'f', 'f', 'f', 'd']

/-- `json.Marshal` of a string (oas.go:298). -/
def marshalString (s : GoStr) : Text := '"' :: (s.flatMap escUnit ++ ['"'])

/-- The elements of an array, after the first bracket (oas.go:300). -/
def marshalElems : List GoStr → Text
  | [] => [']']
  | [s] => marshalString s ++ [']']
  | s :: ss => marshalString s ++ ',' :: marshalElems ss

/-- A `TypeSet` is nil, or a slice (oas.go:294). -/
abbrev TypeSet := Option (List GoStr)

/-- `json.Marshal` of a slice of strings (oas.go:300). -/
def marshalArray : TypeSet → Text
  | none => ['n', 'u', 'l', 'l']
  | some ts => '[' :: marshalElems ts

/-- `TypeSet.MarshalJSON` (oas.go:296-301). -/
def marshalTypes : TypeSet → Text
  | some [t] => marshalString t
  | t => marshalArray t

/-- What `unquote` reads: a character, or a unit of UTF-16 that was escaped (used through oas.go:309). -/
inductive Item where
  | ch (c : Char)
  | unit (n : Nat)
deriving DecidableEq, Repr

/-- The value of a hexadecimal digit (used through oas.go:309). -/
def hexVal (c : Char) : Option Nat :=
  if 48 ≤ c.toNat ∧ c.toNat ≤ 57 then some (c.toNat - 48)
  else if 65 ≤ c.toNat ∧ c.toNat ≤ 70 then some (c.toNat - 55)
  else if 97 ≤ c.toNat ∧ c.toNat ≤ 102 then some (c.toNat - 87)
  else none

/-- The four digits of an escape (used through oas.go:309). -/
def hex4 (a b c d : Char) : Option Nat :=
  (hexVal a).bind fun i => (hexVal b).bind fun j => (hexVal c).bind fun k => (hexVal d).map fun l =>
    i * 4096 + j * 256 + k * 16 + l

/-- The escapes of two characters (used through oas.go:309). -/
def shortEsc (e : Char) : Option Char :=
  if e = '"' ∨ e = '\\' ∨ e = '/' then some e
  else if e = 'b' then some (Char.ofNat 8)
  else if e = 'f' then some (Char.ofNat 12)
  else if e = 'n' then some '\n'
  else if e = 'r' then some '\r'
  else if e = 't' then some '\t'
  else none

/-- The scanner within a string: what it reads, and the text after the closing quotation mark (used through oas.go:309). -/
def lexStr : Text → Option (List Item × Text)
  | [] => none
  | c :: r =>
    if c = '"' then some ([], r)
    else if c = '\\' then
      match r with
      | [] => none
      | e :: r' =>
        if e = 'u' then
          match r' with
          | a :: b :: x :: d :: r'' =>
            match hex4 a b x d with
            | some n => (lexStr r'').map fun p => (.unit n :: p.1, p.2)
            | none => none
          | _ => none
        else
          match shortEsc e with
          | some k => (lexStr r').map fun p => (.ch k :: p.1, p.2)
          | none => none
    else if c.toNat < 0x20 then none
    else (lexStr r).map fun p => (.ch c :: p.1, p.2)

/-- `unquote`: pairs of surrogates are one character, lone ones are U+FFFD (used through oas.go:309). -/
def combine : List Item → Text
  | [] => []
  | .ch c :: is => c :: combine is
  | .unit v :: is =>
    if v < 0xD800 ∨ 0xDFFF < v then Char.ofNat v :: combine is
    else
      match is with
      | .unit w :: is' =>
        if v ≤ 0xDBFF ∧ 0xDC00 ≤ w ∧ w ≤ 0xDFFF then
          Char.ofNat (0x10000 + (v - 0xD800) * 0x400 + (w - 0xDC00)) :: combine is'
        else Char.ofNat 0xFFFD :: combine (.unit w :: is')
      | is => Char.ofNat 0xFFFD :: combine is

/-- White space (used through oas.go:309, 315). -/
def isBlank (c : Char) : Bool := c = ' ' || c = '\t' || c = '\n' || c = '\r'

/-- `scanSkipSpace` (used through oas.go:309, 315). -/
def skip : Text → Text
  | [] => []
  | c :: r => if isBlank c then skip r else c :: r

/-- An element of an array: a string, or null, which leaves what was there (used through oas.go:315). -/
def readElem (old : GoStr) : Text → Option (GoStr × Text)
  | '"' :: r => (lexStr r).map fun p => (ofText (combine p.1), p.2)
  | 'n' :: 'u' :: 'l' :: 'l' :: r => some (old, r)
  | _ => none

/-- The elements of an array and its bracket; `old` is the slice as it was, to the end of its memory. Elements that are
neither strings nor null are errors (used through oas.go:315). -/
def readElems : Nat → List GoStr → Text → Option (List GoStr × Text)
  | 0, _, _ => none
  | n + 1, old, t =>
    match readElem (old.headD []) (skip t) with
    | none => none
    | some (s, r) =>
      match skip r with
      | ']' :: r' => some ([s], r')
      | ',' :: r' => (readElems n old.tail r').map fun p => (s :: p.1, p.2)
      | _ => none

/-- The rest of an array, after its first bracket, and of the text (used through oas.go:315). -/
def readArray (old : List GoStr) (r : Text) : Option TypeSet :=
  match skip r with
  | ']' :: r' => if skip r' = [] then some (some []) else none
  | _ =>
    match readElems (r.length + 1) old r with
    | some (ss, r') => if skip r' = [] then some (some ss) else none
    | none => none

/-- `json.Unmarshal` into a slice of strings (oas.go:315). `none` is an error. -/
def unmarshalArray (old : List GoStr) (t : Text) : Option TypeSet :=
  match skip t with
  | 'n' :: 'u' :: 'l' :: 'l' :: r => if skip r = [] then some none else none
  | '[' :: r => readArray old r
  | _ => none

/-- `json.Unmarshal` into a string, of a text that starts with a quotation mark (oas.go:308-311). -/
def unmarshalString : Text → Option GoStr
  | '"' :: r =>
    match lexStr r with
    | some (is, r') => if skip r' = [] then some (ofText (combine is)) else none
    | none => none
  | _ => none

/-- `TypeSet.UnmarshalJSON` (oas.go:303-316): the set afterwards, or an error. An empty text changes nothing. -/
def unmarshalTypes (old : TypeSet) (t : Text) : Option TypeSet :=
  match t with
  | [] => some old
  | c :: r =>
    if c = '"' then (unmarshalString (c :: r)).map fun s => some [s]
    else unmarshalArray (old.getD []) (c :: r)

/-- `Static.UnmarshalJSON` (xyz/xyz.go:274-283): is the text accepted? `own` is what `json.Marshal` gives for the value, or
its error. -/
def staticAccepts (own : Option Text) (t : Text) : Bool :=
  match own with
  | none => false
  | some o => o = t

end Verif.Json
