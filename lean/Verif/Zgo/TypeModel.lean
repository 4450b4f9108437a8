/-!
# zgo types as text: model

`TypeOf` and `ReflectTypeOf` (`zgo/internal/target/zigc/types.go:27-164`, `:166-220`): the Zig text of a Go type. Literals
are spelled as lists of characters. Type parameters, unions and invalid types, for which the compiler panics
(`:161-162`), are one constructor. Interfaces are their method sets (`:110-140`), none of them being `any`.
-/
namespace Verif.Zgo.Typ

/-- Text (`types.go:27`). -/
abbrev Str := List Char

/-- The basic types of `go/types` (`types.go:29-67`). -/
inductive Basic
  | bool | int | int8 | int16 | int32 | int64 | uint | uint8 | uint16 | uint32 | uint64 | uintptr
  | float32 | float64 | string | complex64 | complex128
  | untypedBool | untypedInt | untypedRune | untypedFloat | untypedString | untypedComplex
  | untypedNil | unsafePointer
  deriving DecidableEq, Repr

/-- A package: where it is and what it is called (`typ.Obj().Pkg()`, `types.go:88-98`). -/
structure Pkg where
  path : Str
  name : Str
  deriving DecidableEq, Repr

/-- Directions of channels (dropped at `types.go:103-104`). -/
inductive Dir
  | both | send | receive
  deriving DecidableEq, Repr

mutual
/-- Go types (`go/types`, the cases of `types.go:28-163`). -/
inductive Ty
  | basic (b : Basic)
  | array (n : Nat) (e : Ty)
  | func (variadic : Bool) (params results : Tys)
  | named (pkg : Option Pkg) (name : Str) (args : Tys)
  | pointer (e : Ty)
  | slice (e : Ty)
  | chan (dir : Dir) (e : Ty)
  | map (k v : Ty)
  | interface (ms : Methods)
  | struct (fs : Fields)
  | tuple (ts : Tys)
  | absent
  | aliased (name : Str) (t : Ty)
  | other
/-- Lists of types (`types.go:73-77`). -/
inductive Tys
  | nil
  | cons (t : Ty) (ts : Tys)
/-- The fields of a struct, with whether they are embedded and their tags (`types.go:144-152`). -/
inductive Fields
  | nil
  | cons (name : Str) (embedded : Bool) (tag : Str) (t : Ty) (fs : Fields)
/-- The methods of an interface (`types.go:116-138`). -/
inductive Methods
  | nil
  | cons (name : Str) (variadic : Bool) (params results : Tys) (ms : Methods)
end

/-- The text of a basic type (`types.go:30-67`); none is a panic. -/
def Basic.text : Basic → Option Str
  | .bool => some ['b', 'o', 'o', 'l']
  | .untypedBool => some ['b', 'o', 'o', 'l']
  | .int => some ['g', 'o', '.', 'i', 'n', 't']
  | .untypedInt => some ['g', 'o', '.', 'i', 'n', 't']
  | .int8 => some ['g', 'o', '.', 'i', 'n', 't', '8']
  | .int16 => some ['g', 'o', '.', 'i', 'n', 't', '1', '6']
  | .int32 => some ['g', 'o', '.', 'i', 'n', 't', '3', '2']
  | .untypedRune => some ['g', 'o', '.', 'i', 'n', 't', '3', '2']
  | .int64 => some ['g', 'o', '.', 'i', 'n', 't', '6', '4']
  | .uint => some ['g', 'o', '.', 'u', 'i', 'n', 't']
  | .uint8 => some ['g', 'o', '.', 'u', 'i', 'n', 't', '8']
  | .uint16 => some ['g', 'o', '.', 'u', 'i', 'n', 't', '1', '6']
  | .uint32 => some ['g', 'o', '.', 'u', 'i', 'n', 't', '3', '2']
  | .uint64 => some ['g', 'o', '.', 'u', 'i', 'n', 't', '6', '4']
  | .uintptr => some ['g', 'o', '.', 'u', 'i', 'n', 't', 'p', 't', 'r']
  | .float32 => some ['g', 'o', '.', 'f', 'l', 'o', 'a', 't', '3', '2']
  | .float64 => some ['g', 'o', '.', 'f', 'l', 'o', 'a', 't', '6', '4']
  | .untypedFloat => some ['g', 'o', '.', 'f', 'l', 'o', 'a', 't', '6', '4']
  | .string => some ['g', 'o', '.', 's', 't', 'r', 'i', 'n', 'g']
  | .untypedString => some ['g', 'o', '.', 's', 't', 'r', 'i', 'n', 'g']
  | .complex64 => some ['g', 'o', '.', 'c', 'o', 'm', 'p', 'l', 'e', 'x', '6', '4']
  | .complex128 => some ['g', 'o', '.', 'c', 'o', 'm', 'p', 'l', 'e', 'x', '1', '2', '8']
  | .untypedComplex => some ['g', 'o', '.', 'c', 'o', 'm', 'p', 'l', 'e', 'x', '1', '2', '8']
  | .untypedNil => none
  | .unsafePointer => none

/-- `typ.Key().String() == "string"` (`types.go:106`): an alias is written with its own name, and a basic type with
its own. -/
def Ty.isString : Ty → Bool
  | .basic .string => true
  | _ => false

/-- A number as `%d` prints it (`types.go:69`). -/
def decimal (n : Nat) : Str := Nat.toDigits 10 n

mutual
/-- `TypeOf` (`types.go:27-164`) in the package `cur`; none is a panic. -/
def typeText (cur : Str) : Ty → Option Str
  | .basic b => b.text
  | .array n e => (typeText cur e).map fun s => '[' :: (decimal n ++ (']' :: s))
  | .func _ ps rs =>
    match paramsText cur ps, resultText cur rs with
    | some p, some r => some (['g', 'o', '.', 'f', 'u', 'n', 'c', '(', 'f', 'n', '(', '*', 'c', 'o', 'n', 's', 't', ' ', 'a', 'n', 'y', 'o', 'p', 'a', 'q', 'u', 'e', ',', '?', '*', 'g', 'o', '.', 'r', 'o', 'u', 't', 'i', 'n', 'e'] ++ (p ++ ([')', ' '] ++ (r ++ [')']))))
    | _, _ => none
  | .named none name _ => some (['@', '"', 'g', 'o', '.'] ++ (name ++ ['"']))
  | .named (some p) name _ =>
    if p.name = ['t', 'e', 's', 't', 'i', 'n', 'g'] then some (['g', 'o', '.', 't', 'e', 's', 't', 'i', 'n', 'g', '.'] ++ name)
    else if p.name = cur then some name
    else some (['@', '"'] ++ (p.name ++ ('.' :: (name ++ ['"']))))
  | .pointer e => (typeText cur e).map fun s => ['g', 'o', '.', 'p', 'o', 'i', 'n', 't', 'e', 'r', '('] ++ (s ++ [')'])
  | .slice e => (typeText cur e).map fun s => ['g', 'o', '.', 's', 'l', 'i', 'c', 'e', '('] ++ (s ++ [')'])
  | .chan _ e => (typeText cur e).map fun s => ['g', 'o', '.', 'c', 'h', 'a', 'n', '('] ++ (s ++ [')'])
  | .map k v =>
    if k.isString then (typeText cur v).map fun s => ['g', 'o', '.', 's', 'm', 'a', 'p', '('] ++ (s ++ [')'])
    else
      match typeText cur k, typeText cur v with
      | some a, some b => some (['g', 'o', '.', 'm', 'a', 'p', '('] ++ (a ++ ([',', ' '] ++ (b ++ [')']))))
      | _, _ => none
  | .interface .nil => some ['g', 'o', '.', 'a', 'n', 'y']
  | .interface (.cons name va ps rs ms) =>
    (methodsText cur true (.cons name va ps rs ms)).map fun s => ['g', 'o', '.', 'i', 'n', 't', 'e', 'r', 'f', 'a', 'c', 'e', '(', 's', 't', 'r', 'u', 'c', 't', '{'] ++ (s ++ ['}', ')'])
  | .struct fs => (fieldsText cur true fs).map fun s => ['s', 't', 'r', 'u', 'c', 't', ' ', '{'] ++ (s ++ ['}'])
  | .tuple _ => some ['.', '{', '}']
  | .absent => some ['v', 'o', 'i', 'd']
  | .aliased _ t => typeText cur t
  | .other => none
/-- The parameters, each after a comma (`types.go:73-77`, `:125-129`). -/
def paramsText (cur : Str) : Tys → Option Str
  | .nil => some []
  | .cons t ts =>
    match typeText cur t, paramsText cur ts with
    | some s, some r => some ([',', ' '] ++ (s ++ r))
    | _, _ => none
/-- The result (`types.go:79-85`, `:131-137`): several are a panic. -/
def resultText (cur : Str) : Tys → Option Str
  | .nil => some ['v', 'o', 'i', 'd']
  | .cons t .nil => typeText cur t
  | .cons _ (.cons _ _) => none
/-- The fields (`types.go:144-152`). -/
def fieldsText (cur : Str) (first : Bool) : Fields → Option Str
  | .nil => some []
  | .cons name _ _ t fs =>
    match typeText cur t, fieldsText cur false fs with
    | some s, some r => some ((if first then [] else [',', ' ']) ++ (name ++ ([':', ' '] ++ (s ++ r))))
    | _, _ => none
/-- The methods (`types.go:116-138`). -/
def methodsText (cur : Str) (first : Bool) : Methods → Option Str
  | .nil => some []
  | .cons name _ ps rs ms =>
    match paramsText cur ps, resultText cur rs, methodsText cur false ms with
    | some p, some q, some r => some ((if first then [] else [',', ' ']) ++
        (name ++ ([':', ' ', '*', 'c', 'o', 'n', 's', 't', ' ', 'f', 'n', '(', '?', '*', 'g', 'o', '.', 'r', 'o', 'u', 't', 'i', 'n', 'e', ',', '*', 'c', 'o', 'n', 's', 't', ' ', 'a', 'n', 'y', 'o', 'p', 'a', 'q', 'u', 'e'] ++ (p ++ ([')', ' '] ++ (q ++ r))))))
    | _, _, _ => none
end

/-- The name of the description of a basic type (`types.go:169-206`): the last three are misspelled. -/
def Basic.describe : Basic → Option Str
  | .bool => some ['&', 'g', 'o', '.', '@', '"', 'b', 'o', 'o', 'l', '.', '(', 't', 'y', 'p', 'e', ')', '"']
  | .int => some ['&', 'g', 'o', '.', '@', '"', 'i', 'n', 't', '.', '(', 't', 'y', 'p', 'e', ')', '"']
  | .untypedInt => some ['&', 'g', 'o', '.', '@', '"', 'i', 'n', 't', '.', '(', 't', 'y', 'p', 'e', ')', '"']
  | .int8 => some ['&', 'g', 'o', '.', '@', '"', 'i', 'n', 't', '8', '.', '(', 't', 'y', 'p', 'e', ')', '"']
  | .int16 => some ['&', 'g', 'o', '.', '@', '"', 'i', 'n', 't', '1', '6', '.', '(', 't', 'y', 'p', 'e', ')', '"']
  | .int32 => some ['&', 'g', 'o', '.', '@', '"', 'i', 'n', 't', '3', '2', '.', '(', 't', 'y', 'p', 'e', ')', '"']
  | .int64 => some ['&', 'g', 'o', '.', '@', '"', 'i', 'n', 't', '6', '4', '.', '(', 't', 'y', 'p', 'e', ')', '"']
  | .uint => some ['&', 'g', 'o', '.', '@', '"', 'u', 'i', 'n', 't', '.', '(', 't', 'y', 'p', 'e', ')', '"']
  | .uint8 => some ['&', 'g', 'o', '.', '@', '"', 'u', 'i', 'n', 't', '8', '.', '(', 't', 'y', 'p', 'e', ')', '"']
  | .uint16 => some ['&', 'g', 'o', '.', '@', '"', 'u', 'i', 'n', 't', '1', '6', '.', '(', 't', 'y', 'p', 'e', ')', '"']
  | .uint32 => some ['&', 'g', 'o', '.', '@', '"', 'u', 'i', 'n', 't', '3', '2', '.', '(', 't', 'y', 'p', 'e', ')', '"']
  | .uint64 => some ['&', 'g', 'o', '.', '@', '"', 'u', 'i', 'n', 't', '6', '4', '.', '(', 't', 'y', 'p', 'e', ')', '"']
  | .uintptr => some ['&', 'g', 'o', '.', '@', '"', 'u', 'i', 'n', 't', 'p', 't', 'r', '.', '(', 't', 'y', 'p', 'e', ')', '"']
  | .float32 => some ['&', 'g', 'o', '.', '@', '"', 'f', 'l', 'o', 'a', 't', '3', '2', '.', '(', 't', 'y', 'p', 'e', ')', '"']
  | .float64 => some ['&', 'g', 'o', '.', '@', '"', 'f', 'l', 'o', 'a', 't', '6', '4', '.', '(', 't', 'y', 'p', 'e', ')', '"']
  | .string => some ['&', 'g', 'o', '.', '@', '"', 's', 't', 'r', 'i', 'n', 'g', ')', '"']
  | .complex64 => some ['&', 'g', 'o', '.', '@', '"', 'c', 'o', 'm', 'p', 'l', 'e', 'x', '6', '4', ')', '"']
  | .complex128 => some ['&', 'g', 'o', '.', '@', '"', 'c', 'o', 'm', 'p', 'l', 'e', 'x', '1', '2', '8', ')', '"']
  | _ => none

/-- `ReflectTypeOf` (`types.go:166-220`): the description of the type that goes with a value in an interface; none is a
panic. -/
def describe (cur : Str) : Ty → Option Str
  | .basic b => b.describe
  | .named none name _ => some (['&', '@', '"', 'g', 'o', '.'] ++ (name ++ ['.', '(', 't', 'y', 'p', 'e', ')', '"']))
  | .named (some p) name _ =>
    if p.name = cur then some (['&', '@', '"'] ++ (name ++ ['.', '(', 't', 'y', 'p', 'e', ')', '"']))
    else some (['&', '@', '"'] ++ (p.name ++ ('.' :: (name ++ ['.', '(', 't', 'y', 'p', 'e', ')', '"']))))
  | .pointer e => (describe cur e).map fun s => ['g', 'o', '.', 'r', 'p', 't', 'r', '(', 'g', 'o', 't', 'o', ',', ' '] ++ (s ++ [')'])
  | _ => none

end Verif.Zgo.Typ
