import Verif.Rest.MuxSpec
/-!
# What a `rest` tag says

`METHOD PATH (ARGUMENT_RULES) RESULT_RULES`, the last two optional, as rest.go:303 words it.
-/
namespace Verif.Rest.Spec

/-- A tag in its parts. -/
structure Tag where
  method : List Char
  path : List Char
  args : Option (List (List Char))
  results : Option (List (List Char))

/-- Words separated by commas. -/
def commas : List (List Char) → List Char
  | [] => []
  | [x] => x
  | x :: y :: xs => x ++ ',' :: commas (y :: xs)

/-- How a tag is written. -/
def Tag.text (t : Tag) : List Char :=
  t.method ++ ' ' :: t.path ++
    (match t.args with
     | some as => ' ' :: '(' :: commas as ++ [')']
     | none => []) ++
    (match t.results with
     | some rs => ' ' :: commas rs
     | none => [])

/-- A rule is a word without blanks and commas. -/
def Word (w : List Char) : Prop := ' ' ∉ w ∧ ',' ∉ w

/-- Parts that can be told apart: no blanks in method, path and rules, and result rules that
do not start like argument rules. -/
structure Tag.Clean (t : Tag) : Prop where
  method : ' ' ∉ t.method
  path : ' ' ∉ t.path
  args : ∀ as, t.args = some as → as ≠ [] ∧ ∀ w ∈ as, Word w
  results : ∀ rs, t.results = some rs → rs ≠ [] ∧ (∀ w ∈ rs, Word w) ∧
    commas rs ≠ [] ∧ (commas rs).head? ≠ some '('

/-- One piece of the path of a tag: a literal segment, `{name}`, `{name=%v}`, or
`{name=%[n]v}`. -/
inductive TagSeg where
  | lit (s : List Char)
  | field (name : List Char)
  | next (name : List Char)
  | nth (name digits : List Char)

/-- How it is written. -/
def TagSeg.text : TagSeg → List Char
  | .lit s => s
  | .field n => '{' :: n ++ ['}']
  | .next n => '{' :: n ++ "=%v}".toList
  | .nth n d => '{' :: n ++ "=%[".toList ++ d ++ "]v}".toList

/-- What the router is to match there. -/
def TagSeg.seg : TagSeg → Seg
  | .lit s => .lit s
  | .field n => .par n
  | .next n => .par n
  | .nth n _ => .par n

/-- Characters that mean something in the path of a tag. -/
def Plain (s : List Char) : Prop := '=' ∉ s ∧ '}' ∉ s ∧ '?' ∉ s

/-- Names and literals without such characters; digits are digits. -/
def TagSeg.Clean : TagSeg → Prop
  | .lit s => Plain s
  | .field n => Plain n
  | .next n => Plain n
  | .nth n d => Plain n ∧ ∀ c ∈ d, c.isDigit = true

end Verif.Rest.Spec
