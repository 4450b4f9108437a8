import Verif.Rest.TagsSpec
/-!
# What the formats of a `rest` tag mean

As in package fmt: `%v` stands for the argument after the one used last, `%[n]v` for the n-th.
-/
namespace Verif.Rest.Spec

/-- The value of a decimal numeral, place by place. -/
def decVal : List Char → Nat
  | [] => 0
  | c :: cs => (c.toNat - '0'.toNat) * 10 ^ cs.length + decVal cs

/-- A format: `%v` or `%[n]v`. -/
inductive Place where
  | next
  | nth (digits : List Char)

/-- How a format is written. -/
def Place.text : Place → List Char
  | .next => "%v".toList
  | .nth d => "%[".toList ++ d ++ "]v".toList

/-- A named format in the path or the query. -/
structure Slot where
  name : List Char
  place : Place
  inPath : Bool

/-- The argument (from 1) each of a sequence of formats stands for, when the last one used
was `last`. -/
def targets : Nat → List Place → List Nat
  | _, [] => []
  | last, .next :: ps => (last + 1) :: targets (last + 1) ps
  | _, .nth d :: ps => decVal d :: targets (decVal d) ps

/-- A use of an argument: its number from 1, the name, whether in the path. -/
abbrev Use := Nat × List Char × Bool

/-- The uses a sequence of named formats makes of the arguments. -/
def usesOf (slots : List Slot) : List Use :=
  (targets 0 (slots.map Slot.place)).zip (slots.map (fun s => (s.name, s.inPath)))

/-- How a named format is written: `name=%v`. -/
def Slot.text (s : Slot) : List Char := s.name ++ '=' :: s.place.text

/-- A path: literal text before, between and after the named formats in braces. -/
inductive Piece where
  | text (s : List Char)
  | slot (name : List Char) (place : Place)

/-- How it is written. -/
def Piece.write : Piece → List Char
  | .text s => s
  | .slot n p => '{' :: n ++ '=' :: p.text ++ ['}']

/-- The named formats of a path. -/
def pathSlots : List Piece → List Slot
  | [] => []
  | .text _ :: ps => pathSlots ps
  | .slot n p :: ps => ⟨n, p, true⟩ :: pathSlots ps

/-- How a whole path is written. -/
def writePath (ps : List Piece) : List Char := '/' :: (ps.map Piece.write).flatten

/-- How a query is written: named formats with ampersands between. -/
def writeQuery : List (List Char × Place) → List Char
  | [] => []
  | [(n, p)] => n ++ '=' :: p.text
  | (n, p) :: y :: xs => n ++ '=' :: p.text ++ '&' :: writeQuery (y :: xs)

/-- A name that cannot be taken for something else. -/
def CleanName (n : List Char) : Prop :=
  n ≠ [] ∧ n.head? ≠ some '%' ∧ '=' ∉ n ∧ '{' ∉ n ∧ '}' ∉ n ∧ '?' ∉ n ∧ '&' ∉ n

/-- A format whose numeral is a numeral of a reasonable size. -/
def Place.Clean : Place → Prop
  | .next => True
  | .nth d => d ≠ [] ∧ (∀ c ∈ d, '0' ≤ c ∧ c ≤ '9') ∧ decVal d < 2 ^ 63

/-- Clean literal text and clean names. -/
def Piece.Clean : Piece → Prop
  | .text s => '{' ∉ s ∧ '}' ∉ s ∧ '?' ∉ s
  | .slot n p => CleanName n ∧ p.Clean

/-- A path and a query as they are written in a tag. -/
def writeBoth (ps : List Piece) (qs : List (List Char × Place)) : List Char :=
  writePath ps ++ (if qs = [] then [] else '?' :: writeQuery qs)

/-- All named formats of a path and a query, in the order they are written. -/
def slotsOf (ps : List Piece) (qs : List (List Char × Place)) : List Slot :=
  pathSlots ps ++ qs.map (fun q => ⟨q.1, q.2, false⟩)

/-- Every use is of an argument that exists, and uses of one argument share a name. -/
def UsesFit (n : Nat) (us : List Use) : Prop :=
  (∀ u ∈ us, 1 ≤ u.1 ∧ u.1 ≤ n) ∧ ∀ u ∈ us, ∀ v ∈ us, u.1 = v.1 → u.2.1 = v.2.1

/-- The arguments (from 0) below `n` that no format uses. -/
def unused (us : List Use) (n : Nat) : List Nat :=
  (List.range n).filter (fun j => us.all (fun u => u.1 != j + 1))

end Verif.Rest.Spec
