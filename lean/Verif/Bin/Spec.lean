import Verif.Bin.Model

/-!
# Binary formats: specification

The tag language as the package documentation has it (`bin.go:1-20`): a tag is a sequence of bytes, each of them a
hexadecimal literal or a sequence of bits, letters (the next bit of an argument, the most significant first), fields
`[a000]` and comparisons `[a>7]`.
-/
namespace Verif.Bin.Spec
open Verif.Bin

/-- A comparison. -/
inductive Op
  | more | less | same
  deriving DecidableEq

def Op.text : Op → Char
  | .more => '>'
  | .less => '<'
  | .same => '='

def Op.holds : Op → Nat → Nat → Bool
  | .more, v, n => decide (n < v)
  | .less, v, n => decide (v < n)
  | .same, v, n => decide (v = n)

/-- A part of a byte; arguments are numbered from 0. -/
inductive Item
  | bit (b : Bool)
  | letter (x : Fin 4)
  | field (x : Fin 4) (k : Nat)
  | test (x : Fin 4) (op : Op) (digits : List Char)
  deriving DecidableEq

/-- `a` to `d`. -/
def nameOf : Fin 4 → Char
  | 0 => 'a'
  | 1 => 'b'
  | 2 => 'c'
  | 3 => 'd'

def Item.text : Item → List Char
  | .bit b => [if b then '1' else '0']
  | .letter x => [nameOf x]
  | .field x k => '[' :: nameOf x :: List.replicate k '0' ++ [']']
  | .test x op digits => '[' :: nameOf x :: op.text :: digits ++ [']']

/-- A byte of a tag. -/
inductive Word
  | hex (high low : Char)
  | bits (items : List Item)

def Word.text : Word → List Char
  | .hex h l => ['0', 'x', h, l]
  | .bits items => items.flatMap Item.text

/-- The bytes with blanks between them. -/
def tagText : List Word → List Char
  | [] => []
  | [w] => w.text
  | w :: v :: ws => w.text ++ ' ' :: tagText (v :: ws)

/-- The items of a tag. -/
def items : List Word → List Item
  | [] => []
  | .hex _ _ :: ws => items ws
  | .bits is :: ws => is ++ items ws

/-- The number a decimal stands for. -/
def decimal (digits : List Char) : Nat := digits.foldl (fun n c => 10 * n + (c.toNat - 48)) 0

/-- How many bits an argument has in the tag: how often its letter occurs. -/
def width (ws : List Word) (x : Fin 4) : Nat := (items ws).count (.letter x)

/-- The bits of an item, if `seen` are the items before it: of a letter, the next bit of its argument. -/
def Item.bits (width : Fin 4 → Nat) (args : Fin 4 → Nat) (seen : List Item) : Item → List Bool
  | .bit b => [b]
  | .letter x => [(args x).testBit (width x - 1 - seen.count (.letter x))]
  | .field x k => (List.range k).reverse.map (args x).testBit
  | .test x op digits => [op.holds (args x) (decimal digits)]

def itemsBits (width : Fin 4 → Nat) (args : Fin 4 → Nat) : List Item → List Item → List Bool
  | _, [] => []
  | seen, i :: is => i.bits width args seen ++ itemsBits width args (seen ++ [i]) is

/-- The number with these bits, the most significant first. -/
def value : List Bool → Nat
  | [] => 0
  | b :: bs => (if b then 2 ^ bs.length else 0) + value bs

/-- The digits with their values; `a` to `d` are letters of arguments. -/
def hexTable : List (Char × Nat) := [('0', 0), ('1', 1), ('2', 2), ('3', 3), ('4', 4), ('5', 5), ('6', 6), ('7', 7),
  ('8', 8), ('9', 9), ('A', 10), ('B', 11), ('C', 12), ('D', 13), ('E', 14), ('F', 15), ('e', 14), ('f', 15)]

/-- The digit's value. -/
def hexValue (c : Char) : Option Nat := hexTable.lookup c

/-- The bytes a tag asks for. -/
def bytes (width : Fin 4 → Nat) (args : Fin 4 → Nat) : List Item → List Word → List Nat
  | _, [] => []
  | seen, .hex h l :: ws => (16 * (hexValue h).getD 0 + (hexValue l).getD 0) :: bytes width args seen ws
  | seen, .bits is :: ws => value (itemsBits width args seen is) :: bytes width args (seen ++ is) ws

/-- How many bits an item has. -/
def Item.size : Item → Nat
  | .bit _ => 1
  | .letter _ => 1
  | .field _ k => k
  | .test _ _ _ => 1

/-- A tag as the documentation describes it: eight bits to a byte, upper-case hexadecimal digits, fields of one bit or
more, comparisons with decimals. -/
def WellFormed (ws : List Word) : Prop :=
  ws ≠ [] ∧ ∀ w ∈ ws,
    match w with
    | .hex h l => (hexValue h).isSome = true ∧ (hexValue l).isSome = true
    | .bits is => (is.map Item.size).sum = 8 ∧ ∀ i ∈ is,
        match i with
        | .field _ k => 0 < k
        | .test _ _ digits => digits ≠ [] ∧ (∀ c ∈ digits, c.isDigit = true) ∧ decimal digits < 2 ^ 64
        | _ => True

/-- The function writes what its tag asks for. -/
def Writes (ws : List Word) (args : Fin 4 → Nat) : Prop :=
  write false (tagText ws) [.uint (args 0), .uint (args 1), .uint (args 2), .uint (args 3)] =
    some (bytes (width ws) args [] ws)

/-- Letters come in one run: between two of one argument there are only bits and more of them. -/
def Runs (ws : List Word) : Prop :=
  ∀ before i after, items ws = before ++ i :: after → (∀ b, i ≠ .bit b) →
    ∀ x, .letter x ∈ before → .letter x ∈ after → i = .letter x

/-- The argument in brackets. -/
def Item.bracket : Item → Option (Fin 4)
  | .field y _ => some y
  | .test y _ _ => some y
  | _ => none

/-- A letter is used for bits, or for fields and comparisons, not for both. -/
def Apart (ws : List Word) : Prop := ∀ x, .letter x ∈ items ws → ∀ i ∈ items ws, i.bracket ≠ some x

/-- Comparisons are with decimals without the digit 0. -/
def NoZero (ws : List Word) : Prop := ∀ x op digits, .test x op digits ∈ items ws → '0' ∉ digits

/-- The arguments fit, and their first bit is 0. -/
def Fits (ws : List Word) (args : Fin 4 → Nat) : Prop :=
  ∀ x, .letter x ∈ items ws → width ws x ≤ 64 ∧ args x < 2 ^ (width ws x - 1)

end Verif.Bin.Spec
