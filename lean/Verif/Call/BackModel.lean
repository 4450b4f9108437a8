import Verif.Call.LinkModel

/-! # Model of callbacks

`api/call/back.go`: `Back.Set`, `sigRune`, `newSignature`, `newCallback`;
`api/call/internal/cgo/dyncall/dyncall_vm.go`: `NewCallback`; `dyncall.go`: `bridge_callback` and the
accessors of `Args`; `dyncall_args_amd64.c`: `arg_i64`, `arg_f64`, `dcbArg*`;
`api/call/internal/ffi/callback.go`: `newSignature`.

Simplifications: the thunk that dyncall makes is taken to pass the registers and stack of the C caller on
(`dyncall_callback_amd64.S` is not modelled); the slice of handlers is a list that is replaced as a whole;
a function value as a result is its code pointer; no struct with one field has a method `SetPointer`. -/

namespace Verif.Call

/-- Go types of parameters and results as `sigRune` tells them apart (`back.go:37-78`). -/
inductive GT where
  /-- A type that is not a struct, by its kind. -/
  | kind (k : Kind)
  /-- A struct with one field. -/
  | struct1 (field : GT)
  /-- Another struct. -/
  | structs
  /-- `Back[T]` (back.go:17-21): a struct with one field, a pointer. -/
  | callback
deriving DecidableEq, Repr

/-- Characters of a dyncall signature (dyncall.go:15-32). `LongLong` and `UnsignedLongLong` are never
chosen, as `long` has the same kind. -/
inductive Sig where
  | void | bool | char | uchar | short | ushort | int | uint | long | ulong | float | double | string | pointer
deriving DecidableEq, Repr

/-- `sigRune` (back.go:37-78) with the kinds of `gen_linux_amd64.go`; `none` if it panics. -/
def sigRune : GT → Option Sig
  | .callback => some .pointer
  | .struct1 f => sigRune f
  | .structs => none
  | .kind k =>
    if k = lookupKind "bool".toList then some .bool
    else if k = lookupKind "char".toList then some .char
    else if k = lookupKind "unsigned_char".toList then some .uchar
    else if k = lookupKind "short".toList then some .short
    else if k = lookupKind "unsigned_short".toList then some .ushort
    else if k = lookupKind "int".toList then some .int
    else if k = lookupKind "unsigned_int".toList then some .uint
    else if k = lookupKind "long".toList then some .long
    else if k = lookupKind "unsigned_long".toList then some .ulong
    else if k = lookupKind "float".toList then some .float
    else if k = lookupKind "double".toList then some .double
    else if k = .string then some .string
    else if k = .pointer ∨ k = .uintptr ∨ k = .unsafePointer ∨ k = .func then some .pointer
    else none

/-- `newSignature` (back.go:80-91); `least` is the number of results from which on the first counts: 1
there, and 2 in internal/ffi/callback.go:57. -/
def newSignature (least : Nat) (ins outs : List GT) : Option (List Sig × Sig) := do
  let args ← ins.mapM sigRune
  match outs with
  | [] => pure (args, .void)
  | o :: rest => if least ≤ rest.length + 1 then pure (args, ← sigRune o) else pure (args, .void)

section
variable {F : Type}

/-- What is in a register or on the stack (`dyncall_args_amd64.c:34-54`). -/
inductive Slot (F : Type) where
  | word (n : Nat)
  | float (x : F)
  | double (x : F)
deriving DecidableEq, Repr

/-- The arguments that have not been read: six integer registers, eight float registers, and the stack
(dyncall_args_amd64.h). -/
structure CArgs (F : Type) where
  ints : List (Slot F)
  floats : List (Slot F)
  stack : List (Slot F)
deriving Repr

/-- `arg_i64` (dyncall_args_amd64.c:34-42); `none` if there is nothing on the stack. -/
def CArgs.nextInt (a : CArgs F) : Option (Slot F × CArgs F) :=
  match a.ints with
  | s :: rest => some (s, { a with ints := rest })
  | [] => match a.stack with
    | s :: rest => some (s, { a with stack := rest })
    | [] => none

/-- `arg_f64` (dyncall_args_amd64.c:45-54). -/
def CArgs.nextFloat (a : CArgs F) : Option (Slot F × CArgs F) :=
  match a.floats with
  | s :: rest => some (s, { a with floats := rest })
  | [] => match a.stack with
    | s :: rest => some (s, { a with stack := rest })
    | [] => none

/-- `reflect.Value.SetInt` of a new variable of type `t` (`back.go:110, 114, 118, 122, 126`). -/
def setInt (t : GT) (n : Int) : Option (V F) :=
  match t with
  | .kind k => match k.integer with
    | some (true, _) => some (.int k (wrap k n))
    | _ => none
  | _ => none

/-- `reflect.Value.SetUint` of a new variable of type `t` (`back.go:112, 116, 120, 124, 128`). -/
def setUint (t : GT) (n : Int) : Option (V F) :=
  match t with
  | .kind k => match k.integer with
    | some (false, _) => some (.int k (wrap k n))
    | _ => none
  | _ => none

/-- `reflect.Value.SetBool` of a new variable of type `t`; its value is what the switch of back.go:102-107
leaves: `dcbArgBool` is 0 or 1. -/
def setBool (t : GT) (b : Bool) : Option (V F) :=
  match t with
  | .kind .bool => some (.bool b)
  | _ => none

/-- `reflect.Value.SetFloat` of a new variable of type `t` (`back.go:130, 132`). -/
def setFloat (t : GT) (x : F) : Option (V F) :=
  match t with
  | .kind .float32 => some (.float .float32 x)
  | .kind .float64 => some (.float .float64 x)
  | _ => none

/-- The assignments for a pointer (back.go:133-149). -/
def setPointer (t : GT) (p : Ptr) : Option (V F) :=
  match t with
  | .kind .unsafePointer => some (.pointer .unsafePointer p)
  | .kind .uintptr => some (.int .uintptr (wrap .uintptr p))
  | .kind .pointer => some (.pointer .pointer p)
  | _ => none

/-- The argument that is read for a character of the signature (back.go:100-152,
dyncall_args_amd64.c:58-75): `int64(args.Char())` is the low byte with its sign, and so on. -/
def setWord (t : GT) (s : Sig) (n : Nat) : Option (V F) :=
  match s with
  | .bool => setBool t (n % 2 ^ 32 != 0)
  | .char => setInt t (readInt .int8 n)
  | .uchar => setUint t (readInt .uint8 n)
  | .short => setInt t (readInt .int16 n)
  | .ushort => setUint t (readInt .uint16 n)
  | .int => setInt t (readInt .int32 n)
  | .uint => setUint t (readInt .uint32 n)
  | .long => setInt t (readInt .int64 n)
  | .ulong => setUint t (readInt .uint64 n)
  | .pointer => setPointer t n
  | _ => none

/-- One turn of the loop over the arguments (back.go:100-153). -/
def readArg (t : GT) (s : Sig) (a : CArgs F) : Option (V F × CArgs F) :=
  match s with
  | .float => do
    let (x, a) ← a.nextFloat
    match x with
    | .float x => return (← setFloat t x, a)
    | _ => none
  | .double => do
    let (x, a) ← a.nextFloat
    match x with
    | .double x => return (← setFloat t x, a)
    | _ => none
  | .void => none
  | .string => none
  | s => do
    let (x, a) ← a.nextInt
    match x with
    | .word n => return (← setWord t s n, a)
    | _ => none

/-- The loop over the arguments (back.go:95-153); `none` if it panics. -/
def readArgs : List GT → List Sig → CArgs F → Option (List (V F))
  | t :: ts, s :: ss, a => do
    let (v, a) ← readArg t s a
    let vs ← readArgs ts ss a
    return v :: vs
  | _, [], _ => some []
  | [], _ :: _, _ => none

/-- What the C caller finds as the result (`back.go:155-199`). -/
inductive CRes (F : Type) where
  | void
  | bool (b : Bool)
  | int (bits : Nat) (n : Nat)
  | float (x : F)
  | double (x : F)
  | pointer (p : Ptr)
deriving DecidableEq, Repr

/-- An integer result, of so many bits, taken with `Int` (or `Uint`): back.go:163-182. -/
def writeInt (signed : Bool) (w : Nat) : V F → Option (CRes F)
  | .int k n => match k.integer with
    | some (s, _) => if s = signed then some (.int w (n.emod (2 ^ w)).toNat) else none
    | none => none
  | _ => none

/-- The pointer of a result of kind `k` (back.go:191-196). -/
def writePointer : V F → Option (CRes F)
  | .int .uintptr n => some (.pointer (n.emod (2 ^ 64)).toNat)
  | .pointer _ p => some (.pointer p)
  | _ => none

/-- The result (back.go:155-200) of type `t`; `v` is the value inside of all structs. -/
def writeResult (s : Sig) (t : GT) (v : V F) : Option (CRes F) :=
  match s, t with
  | .void, _ => some .void
  | .bool, .kind _ => match v with
    | .bool b => some (.bool b)
    | _ => none
  | .char, .kind _ => writeInt true 8 v
  | .uchar, .kind _ => writeInt false 8 v
  | .short, .kind _ => writeInt true 16 v
  | .ushort, .kind _ => writeInt false 16 v
  | .int, .kind _ => writeInt true 32 v
  | .uint, .kind _ => writeInt false 32 v
  | .long, .kind _ => writeInt true 64 v
  | .ulong, .kind _ => writeInt false 64 v
  | .float, .kind _ => match v with
    | .float _ x => some (.float x)
    | _ => none
  | .double, .kind _ => match v with
    | .float _ x => some (.double x)
    | _ => none
  | .pointer, .kind _ => writePointer v
  | .pointer, .callback => writePointer v
  | .pointer, .struct1 (.kind _) => writePointer v
  | _, _ => none

/-- A Go function as a callback: its types, and what it returns (`back.go:93, 154`). -/
structure GoFunc (F : Type) where
  ins : List GT
  outs : List GT
  run : List (V F) → List (V F)

/-- What happens when C calls a callback (`back.go:94-201`). -/
inductive Called (F : Type) where
  /-- The Go function was not called: a panic on the stack of C. -/
  | panicked
  /-- It was called with these arguments, and there was a panic. -/
  | calledThenPanicked (args : List (V F))
  /-- It was called with these arguments, and C got this result. -/
  | returned (args : List (V F)) (res : CRes F)
deriving DecidableEq, Repr

/-- The handler made by `newCallback` (back.go:93-202). -/
def handle (f : GoFunc F) (sig : List Sig × Sig) (a : CArgs F) : Called F :=
  match readArgs f.ins sig.1 a with
  | none => .panicked
  | some vs =>
    if sig.2 = .void then .returned vs .void
    else match f.outs, f.run vs with
    | t :: _, v :: _ => match writeResult sig.2 t v with
      | some r => .returned vs r
      | none => .calledThenPanicked vs
    | _, _ => .calledThenPanicked vs

/-- `Back.Set` (back.go:23-31) and a call of it from C. The outer `none`: `Set` panics. -/
def setAndCall (least : Nat) (f : GoFunc F) (a : CArgs F) : Option (Called F) :=
  (newSignature least f.ins f.outs).map fun sig => handle f sig a

/-! ## The table of handlers -/

/-- A goroutine in `NewCallback` (dyncall_vm.go:96-102): it has a handler, loads the slice of handlers,
stores it with its own appended, and takes its length for the number of the callback. -/
inductive Maker (H : Type) where
  | start (h : H)
  | loaded (h : H) (seen : List H)
  | stored (h : H)
  | made (h : H) (number : Nat)

/-- The handlers and the goroutines (`dyncall_vm.go:96-102`). -/
structure Makers (H : Type) where
  functions : List H
  threads : List (Maker H)

/-- One step of a goroutine (dyncall_vm.go:97, 101). -/
inductive Makers.Step {H : Type} : Makers H → Makers H → Prop where
  | load {fs : List H} {ts : List (Maker H)} {i : Nat} {h : H} : ts[i]? = some (.start h) →
      Step ⟨fs, ts⟩ ⟨fs, ts.set i (.loaded h fs)⟩
  | store {fs : List H} {ts : List (Maker H)} {i : Nat} {h : H} {seen : List H} :
      ts[i]? = some (.loaded h seen) → Step ⟨fs, ts⟩ ⟨seen ++ [h], ts.set i (.stored h)⟩
  | number {fs : List H} {ts : List (Maker H)} {i : Nat} {h : H} : ts[i]? = some (.stored h) →
      Step ⟨fs, ts⟩ ⟨fs, ts.set i (.made h fs.length)⟩

/-- `bridge_callback` (dyncall.go:42-44): the handler of a number. -/
def bridge {H : Type} (functions : List H) (number : Nat) : Option H :=
  if number = 0 then none else functions[number - 1]?

/-- Callbacks that are made one after the other (dyncall_vm.go:96-102): their numbers. -/
def makeAll {H : Type} : List H → List H → List Nat × List H
  | [], fs => ([], fs)
  | h :: hs, fs =>
    let r := makeAll hs (fs ++ [h])
    ((fs ++ [h]).length :: r.1, r.2)

end

end Verif.Call
