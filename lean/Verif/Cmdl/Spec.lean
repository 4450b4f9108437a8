import Verif.Cmdl.Model
/-!
# Specification of command lines

A tag is a sequence of parts, separated by spaces: words, `%v` and `%[n]v`.
-/
namespace Verif.Cmdl

/-- A part of a tag. -/
inductive Part
  | lit (s : Str)
  | next
  | nth (k : Nat)
deriving DecidableEq

/-- How it is written. -/
def Part.text : Part → Str
  | .lit s => s
  | .next => ['%', 'v']
  | .nth k => '%' :: '[' :: (Nat.toDigits 10 k ++ [']', 'v'])

/-- How a tag is written: the parts with a space between them. -/
def tagOf : List Part → Str
  | [] => []
  | [p] => p.text
  | p :: ps => p.text ++ ' ' :: tagOf ps

/-- Words contain neither spaces nor commas and do not look like placeholders. -/
def Part.Ok : Part → Prop
  | .lit s => s ≠ [] ∧ ' ' ∉ s ∧ ',' ∉ s ∧ s.head? ≠ some '%' ∧ s.head? ≠ some '{'
  | _ => True

/-- Which argument a part stands for, counted from zero, if `n` parts `%v` come before it: `%[k]v` is
the `k`-th argument. -/
def Part.means (n : Nat) : Part → Option Nat
  | .lit _ => none
  | .next => some n
  | .nth k => some (k - 1)

/-- How many `%v` there are. -/
def nexts (ps : List Part) : Nat := ps.countP fun p => p = Part.next

/-- The words a program should be run with: every part by itself, in order. -/
def commandLine {α : Type} (shows : α → Str) (args : List (Val α)) : Nat → List Part → List Str
  | _, [] => []
  | n, p :: ps =>
    (match p, p.means n with
      | .lit s, _ => [s]
      | _, none => []
      | _, some i => match args[i]? with
        | some (.str s) => [s]
        | some (.strs l) => l
        | some (.num a) => [shows a]
        | none => []) ++ commandLine shows args (if p = .next then n + 1 else n) ps

/-- A part of a tag agrees with a word: it is a placeholder or the same. -/
def agrees (comp : Str) (w : Option Str) : Prop := comp.head? = some '%' ∨ w = some comp

/-- What agreement with a part is worth. -/
def weight (comp : Str) : Nat := if comp.head? = some '%' then 1 else 2

end Verif.Cmdl
