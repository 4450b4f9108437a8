import Verif.Zgo.LitModel

/-!
# zgo names: model

`loadIdentifier` (`zgo/internal/parser/parser.go:169-207`), which counts what a name shadows, and the names
that `zgo/internal/target/zigc/definitions.go` and `function.go` write for declarations and uses.
-/
namespace Verif.Zgo.Names
open Verif.Zgo.Lit (emitDecimal)

/-- `source.Identifier.String` (`parser.go:200`). -/
abbrev Name := List Char

/-- What a name is declared as (the forms cited at `declaredAs`; `parser.go:169-207`). -/
inductive Kind
  | variable   -- `var`, `:=`, range variables
  | parameter
  | receiver
  | constant
  | function
  | type
  | package    -- an import
  deriving DecidableEq, Repr

/-- A scope: the names declared in it (`types.Scope`, `parser.go:180-184`). -/
abbrev Scope := List (Name × Kind)

/-- `parent.Lookup(in.Name) != nil` (`parser.go:181`). -/
def declares (s : Scope) (n : Name) : Bool := s.any fun d => d.1 == n

/-- `parser.go:179-184`: the number of enclosing scopes, from the object's own scope outwards, that declare
the name, less one. The list is the object's scope and its parents; the last is the universe. -/
def shadow (n : Name) : List Scope → Int
  | [] => -1
  | s :: up => shadow n up + if declares s n then 1 else 0

/-- `definitions.go:17-38`, `:45-52`: the Zig identifier of a variable or constant (`@"x.1"` is the
identifier `x.1`). The suffix `.*` of a heap variable is not part of the identifier. -/
def shadowed (n : Name) (k : Int) : Name :=
  if k > 0 then n ++ '.' :: emitDecimal k.toNat else n

/-- The identifier a use of the name is written as: `DefinedVariable` (`definitions.go:17-38`),
`DefinedConstant` (`:45-52`), `DefinedFunction` (`:40-43`), `TypeOf` of a named type
(`types.go:88-97`), `ImportedPackage` (`expressions.go:17-20`, other than `testing` and `math`). -/
def useName (n : Name) (kind : Kind) (k : Int) : Name :=
  match kind with
  | .variable | .parameter | .receiver | .constant => shadowed n k
  | .function | .type | .package => n

/-- The identifier the declaration is written as: `VariableDefinition` (`definitions.go:164-248`),
parameters (`function.go:68-72`), the receiver (`function.go:52-60`, always the plain name),
`ConstantDefinition` (`definitions.go:250-273`), `FunctionDefinition` (`function.go:43-51`),
`TypeDefinition` (`definitions.go:68-70`), `Package` (`zigc.go:85-90`). -/
def declName (n : Name) (kind : Kind) (k : Int) : Name :=
  match kind with
  | .variable | .parameter | .constant => shadowed n k
  | .receiver | .function | .type | .package => n

/-- `function.go:94-117`: the identifiers in the statement `go.use(.{…})` at the start of a function, which
mentions the receiver and the parameters by their plain names. -/
def mentioned (n : Name) : Name := n

end Verif.Zgo.Names
