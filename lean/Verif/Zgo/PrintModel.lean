/-!
# Model of the `println` builtin

Models `Target.println` (/repo/zgo/internal/target/zigc/builtins.go:10-46) and the `println` of the runtime
(/repo/zgo/internal/target/zigc/build_runtime.zig:468-471). The code of the arguments is given as the values it evaluates to.
Of Zig's `std.fmt`, the placeholders that are used are modelled.
-/
namespace Verif.Zgo.Print

/-- Texts. -/
abbrev Str := List Char

/-- The kinds of `types.Basic` that a value printed can have (builtins.go:19-29). -/
inductive Basic where
  | int | int8 | int16 | int32 | int64 | uint | uint8 | uint16 | uint32 | uint64 | uintptr
  | float32 | float64 | complex64 | complex128 | string | bool | unsafePointer
  deriving DecidableEq

/-- The type of an argument (`arg.TypeAndValue().Type`, builtins.go:17). -/
inductive Ty where
  /-- A predeclared type. -/
  | basic (b : Basic)
  /-- A defined type, a pointer, a slice and so on. -/
  | other

/-- A finite float by its shortest digits: sign, first digit, further digits, decimal exponent (build_runtime.zig:469). -/
structure Float where
  /-- Negative. -/
  neg : Bool
  /-- The first digit. -/
  digit : Fin 10
  /-- The digits after the point. -/
  rest : List (Fin 10)
  /-- The exponent of ten. -/
  exp : Int

/-- A value at run time (the `args` of build_runtime.zig:468). -/
inductive Val where
  | num (n : Int)
  | float (f : Float)
  | str (s : Str)
  | bool (b : Bool)
  /-- Anything else. -/
  | other

/-- The placeholder of a type (builtins.go:17-33); `none` is the error. -/
def placeholder : Ty → Option Str
  | .basic .int | .basic .int8 | .basic .int16 | .basic .int32 | .basic .int64
  | .basic .uint | .basic .uint8 | .basic .uint16 | .basic .uint32 | .basic .uint64 | .basic .uintptr => some ['{', 'd', '}']
  | .basic .float64 | .basic .float32 => some ['{', 'e', '}']
  | .basic .string => some ['{', 's', '}']
  | .basic .bool => some ['{', '}']
  | .basic .complex64 | .basic .complex128 | .basic .unsafePointer => none
  | .other => none

/-- The loop over the arguments (builtins.go:13-35): `first` is `i == 0`. -/
def format (first : Bool) : List Ty → Option Str
  | [] => some []
  | t :: ts =>
    match placeholder t with
    | none => none
    | some p =>
      match format false ts with
      | none => none
      | some rest => some ((if first then [] else [' ']) ++ p ++ rest)

/-- The format of a call (builtins.go:12-36). -/
def compile (ts : List Ty) : Option Str := format true ts

/-- A decimal digit (`std.fmt`, build_runtime.zig:469). -/
def digitChar (d : Fin 10) : Char := Nat.digitChar d.val

/-- `{d}` of an integer (`std.fmt`, build_runtime.zig:469). -/
def decimal (n : Int) : Str := if n < 0 then '-' :: Nat.toDigits 10 n.natAbs else Nat.toDigits 10 n.natAbs

/-- `{e}` of a float: the shortest digits and the exponent (`std.fmt`, build_runtime.zig:469). -/
def scientific (f : Float) : Str :=
  (if f.neg then ['-'] else []) ++ digitChar f.digit :: (if f.rest = [] then [] else '.' :: f.rest.map digitChar) ++
    'e' :: decimal f.exp

/-- What a placeholder makes of an argument (`std.fmt`, build_runtime.zig:469); `none` is a compile error. -/
def fill : Str → Val → Option Str
  | ['d'], .num n => some (decimal n)
  | ['e'], .float f => some (scientific f)
  | ['s'], .str s => some s
  | [], .bool b => some (if b then ['t', 'r', 'u', 'e'] else ['f', 'a', 'l', 's', 'e'])
  | [], .num n => some (decimal n)
  | _, _ => none

/-- `std.debug.print(fmt, args)` (build_runtime.zig:469): `some p` while in a placeholder of which `p` was read. Too few or too
many arguments are compile errors. Doubled braces do not occur. -/
def debugPrint : Option Str → Str → List Val → Option Str
  | none, [], [] => some []
  | none, [], _ :: _ => none
  | some _, [], _ => none
  | none, c :: s, vs =>
    if c = '{' then debugPrint (some []) s vs
    else if c = '}' then none
    else match debugPrint none s vs with
      | none => none
      | some out => some (c :: out)
  | some p, c :: s, [] => if c = '}' then none else debugPrint (some (p ++ [c])) s []
  | some p, c :: s, v :: vs =>
    if c = '}' then
      match fill p v, debugPrint none s vs with
      | some a, some b => some (a ++ b)
      | _, _ => none
    else debugPrint (some (p ++ [c])) s (v :: vs)

/-- The runtime's `println` (build_runtime.zig:468-471). -/
def println (fmt : Str) (vs : List Val) : Option Str :=
  match debugPrint none fmt vs with
  | none => none
  | some out => some (out ++ ['\n'])

/-- What a call in the program prints: nothing if it is not compiled (builtins.go:10-46, build_runtime.zig:468-471). -/
def run (args : List (Ty × Val)) : Option Str :=
  match compile (args.map Prod.fst) with
  | none => none
  | some fmt => println fmt (args.map Prod.snd)

end Verif.Zgo.Print
