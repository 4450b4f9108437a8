/-!
# zgo constant and variable declarations: model

`loadDefinitions` (`zgo/internal/parser/definitions.go:13-68`), which turns the specifications of a `const` or `var`
declaration into definitions, and `ConstantDefinition` (`zgo/internal/target/zigc/definitions.go:250-273`), which writes a
constant as a Zig declaration. Expressions are modelled by their tree: how they are grouped in the text is C165, how
literals are written C162, how names are written C167.
-/
namespace Verif.Zgo.Const

/-- The name of a constant (`definitions.go:29`). -/
abbrev Name := Nat

/-- A Go integer type by sign and width (`zigc/types.go:33-54`; `int` has 64 bits). -/
structure ITy where
  signed : Bool
  bits : Nat
  deriving DecidableEq, Repr

/-- The operators between two operands that are modelled (`zigc/expressions.go:46-53` writes them as in Go). -/
inductive Op | add | sub | mul
  deriving DecidableEq, Repr

/-- The constant expressions that are modelled: literals, `iota`, constants, negation, sums, products and shifts by a literal
(`parser/expressions.go:13-76`). -/
inductive E where
  | lit (n : Nat)
  | iota
  | ref (x : Name)
  | neg (e : E)
  | bin (o : Op) (l r : E)
  | shl (e : E) (k : Nat)
  | shr (e : E) (k : Nat)
  deriving DecidableEq, Repr

/-- One specification of a constant declaration: `a, b T = x, y`; without values it repeats the one before
(`ast.ValueSpec`, `parser/definitions.go:24-34`). -/
structure Spec where
  names : List Name
  type : Option ITy
  values : List E
  deriving DecidableEq, Repr

/-- A written Zig declaration `const name: type = value;` (`zigc/definitions.go:254-271`). -/
structure ZDecl where
  name : Name
  type : ITy
  value : E
  deriving DecidableEq, Repr

/-- The types of the constants in scope: `none` is the untyped integer type (`go/types`, `parser.go:56-58`). -/
abbrev TEnv := List (Name × Option ITy)

/-- The type `go/types` gives an expression (`typedIn`, `parser.go:56-58`): the type of any typed operand. A name that is not
declared has no type, `iota` and literals are untyped. -/
def exprType (Γ : TEnv) : E → Option ITy
  | .lit _ => none
  | .iota => none
  | .ref x => (Γ.lookup x).join
  | .neg e => exprType Γ e
  | .bin _ l r => (exprType Γ l).or (exprType Γ r)
  | .shl e _ => exprType Γ e
  | .shr e _ => exprType Γ e

/-- `typedIn(pkg, spec.Values[i])` (`parser/definitions.go:30`): the value is converted to the type of the specification. -/
def recorded (Γ : TEnv) (type : Option ITy) (e : E) : Option ITy := type.or (exprType Γ e)

/-- `zig.TypeOf` of the recorded type (`zigc/types.go:33-54`, `zigc/definitions.go:258`): the untyped type becomes `go.int`. -/
def zigType : Option ITy → ITy
  | none => ⟨true, 64⟩
  | some t => t

/-- The loop over the names of a constant specification (`parser/definitions.go:26-34`): `spec.Values[i]` panics if there are
fewer values than names. -/
def loadNames (Γ : TEnv) (type : Option ITy) : List Name → List E → Option (List ZDecl × TEnv)
  | [], _ => some ([], [])
  | _ :: _, [] => none
  | x :: xs, e :: es =>
    match loadNames Γ type xs es with
    | none => none
    | some (ds, Δ) => some (⟨x, zigType (recorded Γ type e), e⟩ :: ds, Δ ++ [(x, recorded Γ type e)])

/-- The loop over the specifications (`parser/definitions.go:20-34`) and what is written for them
(`zigc/definitions.go:250-273`); `none` is a panic of the compiler. -/
def load (Γ : TEnv) : List Spec → Option (List ZDecl)
  | [] => some []
  | s :: ss =>
    match loadNames Γ s.type s.names s.values with
    | none => none
    | some (ds, Δ) =>
      match load (Δ ++ Γ) ss with
      | none => none
      | some ds' => some (ds ++ ds')

/-- The loop over the names of a variable specification (`parser/definitions.go:36-58`), by their number: a variable with its
value if there are values at all; `spec.Values[i]` panics if there are fewer values than names. -/
def loadVars {α : Type} : List Name → List α → Option (List (Name × Option α))
  | xs, [] => some (xs.map fun x => (x, none))
  | [], _ => some []
  | [x], e :: _ => some [(x, some e)]
  | _ :: _ :: _, [_] => none
  | x :: y :: xs, e :: e' :: es =>
    match loadVars (y :: xs) (e' :: es) with
    | none => none
    | some ds => some ((x, some e) :: ds)

end Verif.Zgo.Const
