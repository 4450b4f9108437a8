import Verif.Zgo.TypeModel
/-!
# zgo: the description of a type that goes with a value in an interface: model

`describe` (`TypeModel`) is the text that goes into `go.any{.rtype=…}` (`zgo/internal/target/zigc/assignment.go:113-129`)
and into the conversions to interfaces (`function_call.go:113-121`). Here is what the text stands for in Zig: a constant
of the runtime (`build_runtime.zig:5-37`), a constant written for a type definition (`definitions.go:68-99`), or a new
description of a pointer (`build_runtime.zig:474-482`). Descriptions of structs are not looked into: their fields'
descriptions are texts of the same function.
-/
namespace Verif.Zgo.Typ

/-- The names of the descriptions in the runtime, without `.(type)` (`build_runtime.zig:5-37`). -/
def runtimeNames : List Str :=
  [['i', 'n', 't'], ['i', 'n', 't', '8'], ['i', 'n', 't', '1', '6'], ['i', 'n', 't', '3', '2'], ['i', 'n', 't', '6', '4'], ['u', 'i', 'n', 't'], ['u', 'i', 'n', 't', '8'], ['u', 'i', 'n', 't', '1', '6'], ['u', 'i', 'n', 't', '3', '2'], ['u', 'i', 'n', 't', '6', '4'], ['u', 'i', 'n', 't', 'p', 't', 'r'],
   ['f', 'l', 'o', 'a', 't', '3', '2'], ['f', 'l', 'o', 'a', 't', '6', '4'], ['c', 'o', 'm', 'p', 'l', 'e', 'x', '6', '4'], ['c', 'o', 'm', 'p', 'l', 'e', 'x', '1', '2', '8'], ['s', 't', 'r', 'i', 'n', 'g'], ['e', 'r', 'r', 'o', 'r']]

/-- A type definition of the package: its name and the type it is defined as (`definitions.go:68-72`). -/
structure Decl where
  name : Str
  body : Ty

/-- `kindOf` (`definitions.go:101-162`); none is a panic. -/
def kindOf : Ty → Option Str
  | .basic .bool => some ['B', 'o', 'o', 'l']
  | .basic .untypedBool => some ['B', 'o', 'o', 'l']
  | .basic .int => some ['I', 'n', 't']
  | .basic .untypedInt => some ['I', 'n', 't']
  | .basic .int8 => some ['I', 'n', 't', '8']
  | .basic .int16 => some ['I', 'n', 't', '1', '6']
  | .basic .int32 => some ['I', 'n', 't', '3', '2']
  | .basic .int64 => some ['I', 'n', 't', '6', '4']
  | .basic .uint => some ['U', 'i', 'n', 't']
  | .basic .uint8 => some ['U', 'i', 'n', 't', '8']
  | .basic .uint16 => some ['U', 'i', 'n', 't', '1', '6']
  | .basic .uint32 => some ['U', 'i', 'n', 't', '3', '2']
  | .basic .uint64 => some ['U', 'i', 'n', 't', '6', '4']
  | .basic .uintptr => some ['U', 'i', 'n', 't', 'p', 't', 'r']
  | .basic .float32 => some ['F', 'l', 'o', 'a', 't', '3', '2']
  | .basic .float64 => some ['F', 'l', 'o', 'a', 't', '6', '4']
  | .basic .untypedFloat => some ['F', 'l', 'o', 'a', 't', '6', '4']
  | .basic .complex64 => some ['C', 'o', 'm', 'p', 'l', 'e', 'x', '6', '4']
  | .basic .complex128 => some ['C', 'o', 'm', 'p', 'l', 'e', 'x', '1', '2', '8']
  | .basic .untypedComplex => some ['C', 'o', 'm', 'p', 'l', 'e', 'x', '1', '2', '8']
  | .basic .string => some ['S', 't', 'r', 'i', 'n', 'g']
  | .basic .unsafePointer => some ['U', 'n', 's', 'a', 'f', 'e', 'P', 'o', 'i', 'n', 't', 'e', 'r']
  | .array _ _ => some ['A', 'r', 'r', 'a', 'y']
  | .chan _ _ => some ['C', 'h', 'a', 'n']
  | .slice _ => some ['S', 'l', 'i', 'c', 'e']
  | .func _ _ _ => some ['F', 'u', 'n', 'c']
  | .interface _ => some ['I', 'n', 't', 'e', 'r', 'f', 'a', 'c', 'e']
  | .map _ _ => some ['M', 'a', 'p']
  | .pointer _ => some ['P', 'o', 'i', 'n', 't', 'e', 'r']
  | .struct _ => some ['S', 't', 'r', 'u', 'c', 't']
  | _ => none

/-- The members of the union `rdata` that hold nothing, so that `void{}` fits (`build_runtime.zig:106-118`). -/
def voidMembers : List Str := [['V', 'o', 'i', 'd'], ['S', 't', 'r', 'i', 'n', 'g'], ['U', 'n', 's', 'a', 'f', 'e', 'P', 'o', 'i', 'n', 't', 'e', 'r']]

/-- Whether the constant written for a definition is accepted: the data of a struct is a list of fields, of every other
type it is `.Kind=void{}`, which the union must have (`definitions.go:76-93`, `build_runtime.zig:106-118`). -/
def Decl.accepted (d : Decl) : Bool :=
  match kindOf d.body with
  | some k => if k = ['S', 't', 'r', 'u', 'c', 't'] then true else voidMembers.contains k
  | none => false

/-- Descriptions at run time (`build_runtime.zig:76-88`, `:474-482`). -/
inductive Desc
  | runtime (name : Str)
  | own (name : Str)
  | pointer (d : Desc)
  deriving DecidableEq, Repr

/-- What a text stands for in a file with the definitions `ds` (`build_runtime.zig:5-37`, `:474-482`,
`definitions.go:74`). -/
inductive Denotes (ds : List Decl) : Str → Desc → Prop
  | runtime (n : Str) (h : n ∈ runtimeNames) : Denotes ds (['&', 'g', 'o', '.', '@', '"'] ++ (n ++ ['.', '(', 't', 'y', 'p', 'e', ')', '"'])) (.runtime n)
  | own (d : Decl) (h : d ∈ ds) (ok : d.accepted = true) : Denotes ds (['&', '@', '"'] ++ (d.name ++ ['.', '(', 't', 'y', 'p', 'e', ')', '"'])) (.own d.name)
  | pointer (s : Str) (d : Desc) (h : Denotes ds s d) : Denotes ds (['g', 'o', '.', 'r', 'p', 't', 'r', '(', 'g', 'o', 't', 'o', ',', ' '] ++ (s ++ [')'])) (.pointer d)

end Verif.Zgo.Typ
