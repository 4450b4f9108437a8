import Verif.Zgo.NameModel

/-!
# zgo names: specification

The scopes visible at a point of a Go program, and Zig's rules for the identifiers declared in them: no
identifier may be declared twice in nested scopes, and a use refers to the declaration of that identifier.
-/
namespace Verif.Zgo.Names.Spec
open Verif.Zgo.Names

/-- A letter, digit or underscore of Go: in particular no dot. -/
def GoName (n : Name) : Prop := '.' ∉ n

/-- A chain of nested scopes of a Go program, the innermost first: local scopes, the file's scope, the
package's scope, the universe. Within a scope a name is declared once. Functions are declared in the
package's scope, imports in the file's; a name that is imported is not declared in the package. -/
structure Chain (locals : List Scope) (file package univ : Scope) : Prop where
  goNames : ∀ s ∈ locals ++ [file, package], ∀ d ∈ s, GoName d.1
  once : ∀ s ∈ locals ++ [file, package], ∀ d ∈ s, ∀ e ∈ s, d.1 = e.1 → d = e
  functions : ∀ s ∈ locals, ∀ d ∈ s, d.2 ≠ .function ∧ d.2 ≠ .package
  fileKinds : ∀ d ∈ file, d.2 = .package
  packageKinds : ∀ d ∈ package, d.2 ≠ .package ∧ d.2 ≠ .parameter ∧ d.2 ≠ .receiver
  imports : ∀ d ∈ file, ∀ e ∈ package, d.1 ≠ e.1

/-- All scopes, the universe last. -/
def scopes (locals : List Scope) (file package univ : Scope) : List Scope := locals ++ [file, package, univ]

/-- The declaration `d` in the `i`-th scope. -/
def At (all : List Scope) (i : Nat) (d : Name × Kind) : Prop := ∃ s, all[i]? = some s ∧ d ∈ s

/-- How deep the name of a declaration in the `i`-th scope is nested. -/
def depth (all : List Scope) (i : Nat) (n : Name) : Int := shadow n (all.drop i)

/-- Some of Zig's keywords that Go allows as names. -/
def zigKeywords : List Name :=
  [['f', 'n'], ['p', 'u', 'b'], ['t', 'r', 'y'], ['a', 'n', 'd'], ['o', 'r'], ['t', 'e', 's', 't'],
   ['e', 'r', 'r', 'o', 'r'], ['e', 'n', 'u', 'm'], ['u', 'n', 'i', 'o', 'n'], ['a', 'l', 'i', 'g', 'n'],
   ['i', 'n', 'l', 'i', 'n', 'e'], ['w', 'h', 'i', 'l', 'e'], ['a', 's', 'm']]

end Verif.Zgo.Names.Spec
