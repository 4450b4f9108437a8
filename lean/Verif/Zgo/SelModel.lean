/-!
# zgo selections: model

`loadSelection` (`zgo/internal/parser/parser.go:54-79`) and `Selection`
(`zgo/internal/target/zigc/zigc.go:45-54`): the fields to go through to a promoted field.
-/
namespace Verif.Zgo.Sel

/-- A type, as far as selections look at it (`parser.go:64-76`). -/
inductive Ty
  | struct (fields : List (List Char × Ty))
  | pointer (elem : Ty)
  | other

/-- `parser.go:65-71`: pointers are followed. -/
def deref : Ty → Ty
  | .pointer t => deref t
  | t => t

/-- The `i`-th field of a struct (`rtype.Field(index)`, `parser.go:73`); `none` is a panic. -/
def field (t : Ty) (i : Nat) : Option (List Char × Ty) :=
  match deref t with
  | .struct fs => fs[i]?
  | _ => none

/-- `parser.go:64-76`: one step for every index but the first; the variable of the loop, `index`, is the
position in the list of indices, not the index there. `n` is the number of steps left, `pos` the position. -/
def walk : Ty → Nat → Nat → Option (List (List Char))
  | _, _, 0 => some []
  | t, pos, n + 1 =>
    match field t pos with
    | some (name, u) => (walk u (pos + 1) n).map (name :: ·)
    | none => none

/-- `parser.go:61-77`: the path of a selection whose list of indices (`types.Selection.Index`) is given. -/
def loadPath (t : Ty) (index : List Nat) : Option (List (List Char)) :=
  if index.length > 1 then walk t 0 (index.length - 1) else some []

end Verif.Zgo.Sel
