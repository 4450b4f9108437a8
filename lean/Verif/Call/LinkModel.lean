import Verif.Call.TagModel

/-! # Model of linking and calling shared libraries

`api/call/link.go`: `link`, `compile`, `inferValue`; `api/call/call.go`: `platform.Call`;
`api/call/internal/jit/jit.go`: `MakeFunc`, `Convert`, `NullTerminated`, `SliceLen`, `StringLen`,
`NewError`; `api/call/internal/cgo/val.go`: `LookupKind` with the types of `gen_linux_amd64.go`.

Simplifications: floating point numbers are values of an arbitrary type with arbitrary conversions;
memory is abstract (a pointer argument is an address, the text of a string is carried along); the
foreign function is an arbitrary function of the arguments it is passed; functions as results
(`asm.Go`) are an outcome of their own and not followed. -/

namespace Verif.Call

/-! ## Symbols -/

/-- An address (`unsafe.Pointer`, `link.go:71`). -/
abbrev Ptr := Nat

/-- One lookup of a name: the symbol, `none` for nil (`dll.Sym` gives nil with its error, dll/dlfcn.go:34-41). -/
abbrev Lookup := List Char → Option Ptr

/-- The innermost loops of `link` (link.go:78-96): `symbol` is assigned by every lookup, found or not, and
the loops are not left. -/
def lookups (tables : List Lookup) (names : List (List Char)) : Option Ptr → Option Ptr :=
  fun symbol => tables.foldl (fun symbol table => names.foldl (fun _ name => table name) symbol) symbol

/-- The symbol `link` ends up with (link.go:71-101). -/
def resolve (tables : List Lookup) (names : List (List Char)) : Option Ptr :=
  lookups tables names none

/-! ## Kinds -/

/-- The kinds of package reflect (`reflect.Kind`, `link.go:114`). -/
inductive Kind where
  | invalid | bool
  | int | int8 | int16 | int32 | int64
  | uint | uint8 | uint16 | uint32 | uint64 | uintptr
  | float32 | float64 | complex64 | complex128
  | array | chan | func | interface | map | pointer | slice | string | struct | unsafePointer
deriving DecidableEq, Repr

/-- Integer kinds: whether they are signed, and their number of bits (on a 64-bit machine)
(`link.go:116-137`, `call.go:28-61`). -/
def Kind.integer : Kind → Option (Bool × Nat)
  | .int => some (true, 64)
  | .int8 => some (true, 8)
  | .int16 => some (true, 16)
  | .int32 => some (true, 32)
  | .int64 => some (true, 64)
  | .uint => some (false, 64)
  | .uint8 => some (false, 8)
  | .uint16 => some (false, 16)
  | .uint32 => some (false, 32)
  | .uint64 => some (false, 64)
  | .uintptr => some (false, 64)
  | _ => none

/-- Kinds of floating point numbers (`link.go:138-141`, `call.go:62-65`). -/
def Kind.floating : Kind → Bool
  | .float32 => true
  | .float64 => true
  | _ => false

/-- `types.LookupKind` (cgo/val.go:85-97) on the table of `gen_linux_amd64.go`. -/
def lookupKind (name : List Char) : Kind :=
  match String.ofList name with
  | "void" => .unsafePointer
  | "func" => .func
  | "char" => .int8
  | "signed_char" => .int8
  | "unsigned_char" => .uint8
  | "short" => .int16
  | "unsigned_short" => .uint16
  | "int" => .int32
  | "unsigned_int" => .uint32
  | "long" => .int64
  | "unsigned_long" => .uint64
  | "long_long" => .int64
  | "unsigned_long_long" => .uint64
  | "float" => .float32
  | "double" => .float64
  | "long_double" => .array
  | "float_t" => .float32
  | "double_t" => .float64
  | "int8_t" => .int8
  | "int16_t" => .int16
  | "int32_t" => .int32
  | "int64_t" => .int64
  | "uint8_t" => .uint8
  | "uint16_t" => .uint16
  | "uint32_t" => .uint32
  | "uint64_t" => .uint64
  | "char16_t" => .uint16
  | "char32_t" => .uint32
  | "wchar_t" => .int32
  | "wint_t" => .uint32
  | "size_t" => .uint64
  | "time_t" => .int64
  | "clock_t" => .int64
  | "bool" => .bool
  | "uintptr_t" => .uint64
  | "ptrdiff_t" => .int64
  | "intptr_t" => .int64
  | "max_align_t" => .array
  | "sig_atomic_t" => .int32
  | "intmax_t" => .int64
  | "uintmax_t" => .uint64
  | "int_fast8_t" => .int8
  | "int_fast16_t" => .int64
  | "int_fast32_t" => .int64
  | "int_fast64_t" => .int64
  | "uint_fast8_t" => .uint8
  | "uint_fast16_t" => .uint64
  | "uint_fast32_t" => .uint64
  | "uint_fast64_t" => .uint64
  | "int_least8_t" => .int8
  | "int_least16_t" => .int16
  | "int_least32_t" => .int32
  | "int_least64_t" => .int64
  | "uint_least8_t" => .uint8
  | "uint_least16_t" => .uint16
  | "uint_least32_t" => .uint32
  | "uint_least64_t" => .uint64
  | _ => .invalid

/-- `normal` (link.go:114-155): the kinds that have a type; nil for all others. -/
def normal : Kind → Option Kind
  | .int8 => some .int8
  | .int16 => some .int16
  | .int32 => some .int32
  | .int => some .int
  | .int64 => some .int64
  | .uint8 => some .uint8
  | .uint16 => some .uint16
  | .uint32 => some .uint32
  | .uint => some .uint
  | .uint64 => some .uint64
  | .uintptr => some .uintptr
  | .float32 => some .float32
  | .float64 => some .float64
  | .complex64 => some .complex64
  | .complex128 => some .complex128
  | .bool => some .bool
  | .string => some .string
  | .unsafePointer => some .unsafePointer
  | _ => none

/-- Numbers (`link.go:116-141`). -/
def Kind.number (k : Kind) : Bool := k.integer.isSome || k.floating

/-- `reflect.Type.ConvertibleTo` between types of different kinds, one of which is among `normal`: numbers
to numbers, complex to complex, integers to strings. (Slices of bytes or runes convert to strings, too;
no C type is a string.) (`link.go:182`, `:241`) -/
def convertible (from_ into : Kind) : Bool :=
  (from_.number && into.number) ||
  ((from_ == .complex64 || from_ == .complex128) && (into == .complex64 || into == .complex128)) ||
  (from_.integer.isSome && into == .string)

/-! ## Values -/

section
variable {F : Type}

/-- Values of Go as the code tells them apart: `F` are the floating point numbers (`reflect.Value`, `call.go:22`). -/
inductive V (F : Type) where
  | int (k : Kind) (n : Int)
  | float (k : Kind) (x : F)
  | bool (b : Bool)
  | string (bytes : List UInt8)
  | slice (data : Ptr) (len : Nat)
  | pointer (k : Kind) (p : Ptr)
  | nilError
  | other (k : Kind)
deriving DecidableEq, Repr

/-- `reflect.Value.Kind` (`call.go:27`, `link.go:179`). -/
def V.kind : V F → Kind
  | .int k _ => k
  | .float k _ => k
  | .bool _ => .bool
  | .string _ => .string
  | .slice _ _ => .slice
  | .pointer k _ => k
  | .nilError => .interface
  | .other k => k

/-- Conversions of floating point numbers, which are left open (`link.go:183`, `:242`). -/
structure Floats (F : Type) where
  /-- From an integer to a float of a kind. -/
  ofInt : Kind → Int → F
  /-- From a float to an integer of a kind. -/
  toInt : Kind → F → Int
  /-- From one kind of float to another. -/
  round : Kind → F → F
  /-- `IsZero`. -/
  isZero : F → Bool

/-- Conversion of integers to an integer kind: the low bits, read with or without sign (`link.go:183`, `:242`). -/
def wrap (k : Kind) (n : Int) : Int :=
  match k.integer with
  | some (true, w) => n.bmod (2 ^ w)
  | some (false, w) => n.emod (2 ^ w)
  | none => n

/-- The UTF-8 text of an integer (`string(rune)`), left open (`link.go:183`, `:242`). -/
abbrev RuneText := Int → List UInt8

/-- `reflect.Value.Convert` as used by `asm.Convert` (jit.go:109-117); `none` if it panics. -/
def convert (fl : Floats F) (rune : RuneText) (v : V F) (k : Kind) : Option (V F) :=
  match v with
  | .int k' n =>
    if k.integer.isSome then some (.int k (wrap k n))
    else if k.floating then some (.float k (fl.ofInt k n))
    else if k = .string then some (.string (rune n))
    else if k = k' then some v else none
  | .float k' x =>
    if k.integer.isSome then some (.int k (fl.toInt k x))
    else if k.floating then some (.float k (fl.round k x))
    else if k = k' then some v else none
  | .pointer .unsafePointer p => if k = .pointer then some (.pointer .pointer p) else
      if k = .unsafePointer then some v else none
  | v => if v.kind = k then some v else none

/-- `Value.UnsafePointer` (jit/val.go:17-25); `none` if it panics. The bytes behind the pointer to a
string are those of the string. -/
inductive Sent (F : Type) where
  | value (v : V F)
  | text (bytes : List UInt8)
deriving DecidableEq, Repr

/-- `NullTerminated` (jit.go:172-188) on the bytes of a string. -/
def nullTerminated (s : List UInt8) : List UInt8 :=
  if s.getLast? = some 0 then s else s ++ [0]

/-! ## Arguments -/

/-- How a call of a linked function ends before the foreign function is reached (`link.go:162-208`). -/
inductive Stop where
  /-- A panic: errors of the implementation become one (jit.go:52-54). -/
  | panic
deriving DecidableEq, Repr

/-- `inferValue` (link.go:271-294): the length of a slice or string. The index counts the arguments of
the Go function. -/
def inferValue (args : List (V F)) (rule : Head) : Except Stop (Sent F) :=
  match rule.test.equality with
  | some (.index n) =>
    if n = 0 then .error .panic
    else match args[n - 1]? with
      | some (.slice _ l) => .ok (.value (.int .int l))
      | some (.string s) => .ok (.value (.int .int s.length))
      | _ => .error .panic
  | _ => .error .panic

/-- An argument that is neither of the kind of the C type nor convertible to it: link.go:186-206. -/
def sendOther (arg : Head) : V F → Except Stop (Sent F)
  | .string s =>
    if arg.name = "char".toList ∧ arg.free = some '&' then .ok (.text (nullTerminated s))
    else .error .panic
  | .slice p _ =>
    if (arg.name = "void".toList ∨ arg.name = "char".toList) ∧ arg.free = some '&' then
      .ok (.value (.pointer .unsafePointer p))
    else .error .panic
  | .pointer k p =>
    if k = .unsafePointer ∨ k = .pointer then .ok (.value (.pointer .unsafePointer p)) else .error .panic
  | .int k n => if k = .uintptr then .ok (.value (.int .uintptr n)) else .error .panic
  | _ => .error .panic

/-- One argument that is not inferred: link.go:172-207. -/
def sendValue (fl : Floats F) (rune : RuneText) (arg : Head) (v : V F) : Except Stop (Sent F) :=
  let into := lookupKind arg.name
  if v.kind = into then .ok (.value v)
  else match normal into with
    | none => .error .panic
    | some t =>
      if convertible v.kind t then
        match convert fl rune v t with
        | some v => .ok (.value v)
        | none => .error .panic
      else sendOther arg v

/-- One argument: link.go:162-208. -/
def sendArg (fl : Floats F) (rune : RuneText) (args : List (V F)) (arg : Head) : Except Stop (Sent F) :=
  if arg.free = some '-' then inferValue args arg
  else match args[arg.maps - 1]? with
    | none => .error .panic
    | some v => sendValue fl rune arg v

/-- The heads of arguments (`ldType.Args`, `link.go:162`). -/
def Ts.heads : Ts → List Head
  | .nil => []
  | .cons t ts => t.head :: ts.heads

/-! ## The call -/

/-- What the foreign function is passed: an integer of so many bits, a float, a double, a pointer, or a
pointer to bytes (the pushes at `call.go:26-71`). -/
inductive CArg (F : Type) where
  | int (bits : Nat) (n : Nat)
  | float (x : F)
  | double (x : F)
  | pointer (p : Ptr)
  | text (bytes : List UInt8)
deriving DecidableEq, Repr

/-- The pushes of `platform.Call` (call.go:26-71): integers by their bits. The addresses of channels, maps
and functions are not modelled. -/
def push : Sent F → Except Stop (CArg F)
  | .text s => .ok (.text s)
  | .value (.int k n) =>
    match k.integer with
    | some (_, w) => .ok (.int w (n.emod (2 ^ w)).toNat)
    | none => .error .panic
  | .value (.float .float32 x) => .ok (.float x)
  | .value (.float .float64 x) => .ok (.double x)
  | .value (.pointer _ p) => .ok (.pointer p)
  | .value (.other .func) => .ok (.pointer 0)
  | .value (.other .chan) => .ok (.pointer 0)
  | .value (.other .map) => .ok (.pointer 0)
  | .value _ => .error .panic

/-- What a foreign function returns: the register for integers and pointers, and that for floats
(the calls at `call.go:78-122`). -/
structure CRet (F : Type) where
  word : Nat
  float : F
  double : F

/-- Reading an integer of a kind from the low bits of a register (`call.go:86-112`). -/
def readInt (k : Kind) (word : Nat) : Int := wrap k (word : Int)

/-- The result of `platform.Call` (call.go:72-126) for a result of a kind; `none` where the kind is not
supported. Results of kind `func` are pointers. -/
def result (k : Kind) (r : CRet F) : Option (V F) :=
  match k with
  | .bool => some (.bool (r.word % 2 ^ 8 != 0))
  | .float32 => some (.float .float32 r.float)
  | .float64 => some (.float .float64 r.double)
  | .unsafePointer => some (.pointer .unsafePointer r.word)
  | .pointer => some (.pointer .pointer r.word)
  | .func => some (.pointer .unsafePointer r.word)
  | k => if k.integer.isSome then some (.int k (readInt k r.word)) else none

/-- A Go result type: its kind, whether it is a type of its own (`type Status int32`), and whether it is
the type `error` (`goType.Out(0)`, `link.go:223`). -/
structure GoRet where
  kind : Kind
  named : Bool := false
  error : Bool := false
deriving DecidableEq, Repr

/-- The end of a call (`link.go:217-263`). -/
inductive End (F : Type) where
  /-- A panic before the foreign function was called. -/
  | panicked
  /-- A panic after it was called with these arguments. -/
  | calledThenPanicked (args : List (CArg F))
  /-- The function was called with these arguments and the call returned these results. -/
  | returned (args : List (CArg F)) (results : List (V F))
  /-- The function was called and returned a function, which is not followed here. -/
  | function (args : List (CArg F))
deriving DecidableEq, Repr

/-- The type of the result that is asked of `platform.Call` (link.go:209-216): `none` is nil, and the
outer `none` a panic because the Go function has no result. -/
def askFor (func : TOpt) (outs : List GoRet) : Option (Option Kind) :=
  match func with
  | .none => some none
  | .some t =>
    if t.head.name = "func".toList ∨ t.head.name = "void".toList then
      match outs with
      | [] => none
      | o :: _ => some (some o.kind)
    else some (normal (lookupKind t.head.name))

/-- `reflect.MakeFunc` takes a result only if its type is assignable: a type of its own is not
assignable from the plain type of its kind (the results at `link.go:263`, passed on at `jit.go:41-60`). -/
def assignable (o : GoRet) : Bool := !o.named

/-- The conversion of the first result (link.go:222-262); `none` if it panics. -/
def giveBack (fl : Floats F) (rune : RuneText) (name : List Char) (o : GoRet) (v : Option (V F)) :
    Option (V F) :=
  let from_ := lookupKind name
  if from_ = .invalid then none
  else if o.kind = from_ then
    match v with
    | some v => if from_ = .unsafePointer ∨ assignable o then some v else none
    | none => none
  else match normal from_ with
    | none => none
    | some t =>
      if convertible t o.kind then v.bind fun v => convert fl rune v o.kind
      else match o.kind with
        | .bool => v.bind fun v =>
          if assignable o then
            match v with
            | .int _ n => some (.bool (n != 0))
            | .float _ x => some (.bool (!fl.isZero x))
            | .pointer _ p => some (.bool (p != 0))
            | .bool b => some (.bool b)
            | _ => none
          else none
        | .interface => if o.error then some .nilError else none
        | .uintptr => v.bind fun v => convert fl rune v .uintptr
        | .pointer => v.bind fun v =>
          match v with
          | .pointer _ p => some (.pointer .pointer p)
          | _ => none
        | _ => none

/-- A call of a function made by `compile` (link.go:157-265) with `platform.Call`, for a foreign function
that returns `foreign args`. -/
def callLinked (fl : Floats F) (rune : RuneText) (t : T) (outs : List GoRet)
    (foreign : List (CArg F) → CRet F) (args : List (V F)) : End F :=
  match t with
  | .mk _ func ldArgs =>
    match ldArgs.heads.mapM (sendArg fl rune args) with
    | .error _ => .panicked
    | .ok sent =>
      match askFor func outs with
      | none => .panicked
      | some ask =>
        match sent.mapM push with
        | .error _ => .panicked
        | .ok cargs =>
          match ask with
          | none =>
            match func with
            | .none => if outs = [] then .returned cargs [] else .calledThenPanicked cargs
            | .some r =>
              match outs with
              | [] => .calledThenPanicked cargs
              | o :: rest =>
                if o.kind = .func then .calledThenPanicked cargs
                else match giveBack fl rune r.head.name o none with
                  | none => .calledThenPanicked cargs
                  | some v => if rest = [] then .returned cargs [v] else .calledThenPanicked cargs
          | some k =>
            match result k (foreign cargs) with
            | none => .panicked
            | some v =>
              match func, outs with
              | .some r, o :: rest =>
                if o.kind = .func then .function cargs
                else match giveBack fl rune r.head.name o (some v) with
                  | none => .calledThenPanicked cargs
                  | some v => if rest = [] then .returned cargs [v] else .calledThenPanicked cargs
              | _, _ => .calledThenPanicked cargs

end

end Verif.Call
