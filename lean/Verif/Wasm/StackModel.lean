/-!
# Model of `api/wasm/export.go`: Go values on the WebAssembly stack

Values are typed by construction (`Ty.Val`). Floating-point numbers are their bit patterns
(simplification: the quieting of signalling NaNs by a conversion is not modelled). Kinds that are
references (slices, maps, channels, functions, pointers, interfaces) have values, but no operation.
-/
namespace Verif.Wasm

/-- A word of the stack (the elements of `stack []uint64`, `export.go:50`, `:108`). -/
abbrev W := BitVec 64

mutual
/-- The Go types told apart by the switches of export.go. `int` is `i64`; `uint` and `uintptr` are
`u64`. -/
inductive Ty where
  | bool | i8 | i16 | i32 | i64 | u8 | u16 | u32 | u64 | f32 | f64 | c64 | c128
  | string
  /-- slice, map, chan, func, pointer, unsafe pointer, interface -/
  | ref
  | struct (fields : Tys)
  | array (len : Nat) (elem : Ty)

/-- The fields of a struct, or the parameters or results of a function (`export.go:36`, `:172`, `:176`). -/
inductive Tys where
  | nil
  | cons (t : Ty) (ts : Tys)
end

/-- The elements of an array of `n` elements (`export.go:97`, `:155`). -/
def Arr (α : Type) : Nat → Type
  | 0 => Unit
  | n + 1 => α × Arr α n

mutual
/-- The values of a type (the `reflect.Value` of `export.go:50`, `:108`). -/
def Ty.Val : Ty → Type
  | .bool => Bool
  | .i8 => BitVec 8
  | .i16 => BitVec 16
  | .i32 => BitVec 32
  | .i64 => BitVec 64
  | .u8 => BitVec 8
  | .u16 => BitVec 16
  | .u32 => BitVec 32
  | .u64 => BitVec 64
  | .f32 => BitVec 32
  | .f64 => BitVec 64
  | .c64 => BitVec 32 × BitVec 32
  | .c128 => BitVec 64 × BitVec 64
  | .string => List UInt8
  | .ref => Nat
  | .struct fs => Tys.Val fs
  | .array n t => Arr (Ty.Val t) n

/-- The values of fields (`export.go:89-93`, `:150-152`). -/
def Tys.Val : Tys → Type
  | .nil => Unit
  | .cons t ts => Ty.Val t × Tys.Val ts
end

mutual
/-- Whether `reflect.Type.Size()` is 0 (`export.go:17`, `:51`). -/
def Ty.empty : Ty → Bool
  | .struct fs => Tys.empty fs
  | .array n t => n == 0 || Ty.empty t
  | _ => false

/-- Whether all fields have size 0 (`export.go:17`, `:51`). -/
def Tys.empty : Tys → Bool
  | .nil => true
  | .cons t ts => Ty.empty t && Tys.empty ts
end

/-- The value types of WebAssembly (`wasm_api.ValueType`, `export.go:22-34`). -/
inductive VT where
  | i32 | i64 | f32 | f64
  deriving DecidableEq, Repr

/-- A loop over the elements of an array that collects lists (`export.go:41-43`). -/
def repeated (α : Type) (l : List α) : Nat → List α
  | 0 => []
  | n + 1 => l ++ repeated α l n

mutual
/-- api/wasm/export.go:16-48, `goTypeToWasmTypes`, without the accumulator. -/
def Ty.wasm : Ty → List VT
  | .bool => [.i32]
  | .i8 => [.i32]
  | .i16 => [.i32]
  | .i32 => [.i32]
  | .u8 => [.i32]
  | .u16 => [.i32]
  | .u32 => [.i32]
  | .i64 => [.i64]
  | .u64 => [.i64]
  | .string => [.i64]
  | .ref => [.i64]
  | .f32 => [.f32]
  | .f64 => [.f64]
  | .c64 => [.f32, .f32]
  | .c128 => [.f64, .f64]
  | .struct fs => if Tys.empty fs then [] else Tys.wasm fs
  | .array n t => if n == 0 || Ty.empty t then [] else repeated VT (Ty.wasm t) n

/-- The loop over the fields, api/wasm/export.go:36-38. -/
def Tys.wasm : Tys → List VT
  | .nil => []
  | .cons t ts => Ty.wasm t ++ Tys.wasm ts
end

/-- The zero of an array (`export.go:52`). -/
def Arr.zero {α : Type} (z : α) : (n : Nat) → Arr α n
  | 0 => ()
  | n + 1 => (z, Arr.zero z n)

mutual
/-- `reflect.Zero` (`export.go:52`). -/
def Ty.zero : (t : Ty) → t.Val
  | .bool => false
  | .i8 => 0#8
  | .i16 => 0#16
  | .i32 => 0#32
  | .i64 => 0#64
  | .u8 => 0#8
  | .u16 => 0#16
  | .u32 => 0#32
  | .u64 => 0#64
  | .f32 => 0#32
  | .f64 => 0#64
  | .c64 => (0#32, 0#32)
  | .c128 => (0#64, 0#64)
  | .string => ([] : List UInt8)
  | .ref => (0 : Nat)
  | .struct fs => Tys.zero fs
  | .array n t => Arr.zero (Ty.zero t) n

/-- The zero of fields (`export.go:52`). -/
def Tys.zero : (ts : Tys) → ts.Val
  | .nil => ()
  | .cons t ts => (Ty.zero t, Tys.zero ts)
end

/-- `stack[0]` and `stack[1:]`; `none` is the panic of an empty slice (`export.go:56-86`). -/
def pop : List W → Option (W × List W)
  | [] => none
  | w :: ws => some (w, ws)

/-- `wasm_api.DecodeU32`, `DecodeI32` and the bits of `DecodeF32` (`export.go:58`, `:66`, `:72-76`, `:80`). -/
def low32 (w : W) : BitVec 32 := w.truncate 32

/-- The loop over the elements of an array, api/wasm/export.go:97-101. -/
def decodeArr {α : Type} (dec : List W → Option (α × List W)) :
    (n : Nat) → List W → Option (Arr α n × List W)
  | 0, stack => some ((), stack)
  | n + 1, stack => do
    let (v, stack) ← dec stack
    let (vs, stack) ← decodeArr dec n stack
    pure ((v, vs), stack)

mutual
/-- api/wasm/export.go:50-106, `decodeGoValueFromWasmStack`; `none` is a panic. -/
def Ty.decode : (t : Ty) → List W → Option (t.Val × List W)
  | .bool, stack => do let (w, stack) ← pop stack; pure (w != 0#64, stack)
  | .i8, stack => do let (w, stack) ← pop stack; pure ((low32 w).truncate 8, stack)
  | .i16, stack => do let (w, stack) ← pop stack; pure ((low32 w).truncate 16, stack)
  | .i32, stack => do let (w, stack) ← pop stack; pure (low32 w, stack)
  | .i64, stack => do let (w, stack) ← pop stack; pure (w, stack)
  | .u8, stack => do let (w, stack) ← pop stack; pure ((low32 w).truncate 8, stack)
  | .u16, stack => do let (w, stack) ← pop stack; pure ((low32 w).truncate 16, stack)
  | .u32, stack => do let (w, stack) ← pop stack; pure (low32 w, stack)
  | .u64, stack => do let (w, stack) ← pop stack; pure (w, stack)
  | .f32, stack => do let (w, stack) ← pop stack; pure (low32 w, stack)
  | .f64, stack => do let (w, stack) ← pop stack; pure (w, stack)
  | .c64, stack => do
    let (a, stack) ← pop stack
    let (b, stack) ← pop stack
    pure ((low32 a, low32 b), stack)
  | .c128, stack => do
    let (a, stack) ← pop stack
    let (b, stack) ← pop stack
    pure ((a, b), stack)
  | .string, _ => none
  | .ref, _ => none
  | .struct fs, stack =>
    if Tys.empty fs then some (Tys.zero fs, stack) else Tys.decode fs stack
  | .array n t, stack =>
    if n == 0 || Ty.empty t then some (Arr.zero (Ty.zero t) n, stack)
    else decodeArr (Ty.decode t) n stack

/-- The loop over the fields, api/wasm/export.go:89-93, and the one over the parameters, :189-191. -/
def Tys.decode : (ts : Tys) → List W → Option (ts.Val × List W)
  | .nil, stack => some ((), stack)
  | .cons t ts, stack => do
    let (v, stack) ← Ty.decode t stack
    let (vs, stack) ← Tys.decode ts stack
    pure ((v, vs), stack)
end

/-- Writing the first word of the stack: the words that were written, and the rest of the slice
(`stack[0] = …; return stack[1:]`, `export.go:110-148`). -/
def put (f : W → W) : List W → Option (List W × List W)
  | [] => none
  | w :: ws => some ([f w], ws)

/-- Two writes, one after the other (`export.go:142-143`, `:146-147`, `:151`, `:156`). -/
def andThen (a : Option (List W × List W)) (f : List W → Option (List W × List W)) :
    Option (List W × List W) :=
  match a with
  | none => none
  | some (done, stack) =>
    match f stack with
    | none => none
    | some (more, stack) => some (done ++ more, stack)

/-- The loop over the elements of an array, api/wasm/export.go:155-157. -/
def encodeArr {α : Type} (enc : α → List W → Option (List W × List W)) :
    (n : Nat) → Arr α n → List W → Option (List W × List W)
  | 0, _, stack => some ([], stack)
  | n + 1, v, stack => andThen (enc v.1 stack) (encodeArr enc n v.2)

/-- `wasm_api.EncodeI32`, `EncodeU32` and `EncodeF32` (`export.go:124`, `:130`, `:136`). -/
def word32 (v : BitVec 32) : W := v.zeroExtend 64

/-- Storing a byte or two bytes at the address of a (little-endian) word (`export.go:118`, `:121`). -/
def store8 (v : BitVec 8) (w : W) : W := (w &&& ~~~0xFF#64) ||| v.zeroExtend 64
/-- See `store8` (`export.go:121`). -/
def store16 (v : BitVec 16) (w : W) : W := (w &&& ~~~0xFFFF#64) ||| v.zeroExtend 64

mutual
/-- api/wasm/export.go:108-165, `encodeGoValueToWasmStack`; the words that are written over the
beginning of the stack and the rest of it. `none` is a panic. `newString` is `ffi.NewString`. -/
def Ty.encode (newString : List UInt8 → W) :
    (t : Ty) → t.Val → List W → Option (List W × List W)
  | .bool, v, stack => put (fun _ => cond v 1#64 0#64) stack
  | .i8, v, stack => put (store8 v) stack
  | .i16, v, stack => put (store16 v) stack
  | .i32, v, stack => put (fun _ => word32 v) stack
  | .i64, v, stack => put (fun _ => v) stack
  | .u8, v, stack => put (fun _ => word32 (BitVec.zeroExtend 32 (v : BitVec 8))) stack
  | .u16, v, stack => put (fun _ => word32 (BitVec.zeroExtend 32 (v : BitVec 16))) stack
  | .u32, v, stack => put (fun _ => word32 v) stack
  | .u64, v, stack => put (fun _ => v) stack
  | .f32, v, stack => put (fun _ => word32 v) stack
  | .f64, v, stack => put (fun _ => v) stack
  | .c64, v, stack => andThen (put (fun _ => word32 v.1) stack) (put (fun _ => word32 v.2))
  | .c128, v, stack => andThen (put (fun _ => v.1) stack) (put (fun _ => v.2))
  | .string, v, stack => put (fun _ => newString v) stack
  | .ref, _, _ => none
  | .struct fs, v, stack => Tys.encode newString fs v stack
  | .array n t, v, stack => encodeArr (Ty.encode newString t) n v stack

/-- The loop over the fields, api/wasm/export.go:150-152. -/
def Tys.encode (newString : List UInt8 → W) :
    (ts : Tys) → ts.Val → List W → Option (List W × List W)
  | .nil, _, stack => some ([], stack)
  | .cons t ts, v, stack => andThen (Ty.encode newString t v.1 stack) (Tys.encode newString ts v.2)
end

/-- The number of fields (`len(outs)`, `export.go:196`). -/
def Tys.length : Tys → Nat
  | .nil => 0
  | .cons _ ts => ts.length + 1

/-- A function of an API: its parameters, its results without the error, whether it returns an error
as well, and its implementation, whose outcome is the results or an error (`none`) (`fn`, `export.go:170-196`). -/
structure Fn where
  ins : Tys
  outs : Tys
  hasErr : Bool
  impl : ins.Val → Option outs.Val

/-- The declared results, api/wasm/export.go:175-181; an error is an interface. -/
def Fn.results (fn : Fn) : List VT :=
  let rs := fn.outs.wasm ++ (if fn.hasErr then [.i64] else [])
  if rs.length > 1 then [.i64] else rs

/-- Encoding `outs[0]`, api/wasm/export.go:200; `none` if there is none. -/
def encodeFirst (newString : List UInt8 → W) : (ts : Tys) → ts.Val → List W → Option (List W × List W)
  | .nil, _, _ => none
  | .cons t _, v, stack => t.encode newString v.1 stack

/-- The exported function, api/wasm/export.go:182-204: what it leaves on the stack, `none` is a
panic. An error of a function without parameters and results is dropped (line 183). -/
def Fn.invoke (newString : List UInt8 → W) (fn : Fn) (stack : List W) : Option (List W) :=
  if fn.ins.length = 0 ∧ fn.outs.length = 0 then some stack
  else
    match fn.ins.decode stack with
    | none => none
    | some (args, _) =>
      match fn.impl args with
      | none => none
      | some outs =>
        match max fn.outs.length fn.results.length with
        | 0 => some stack
        | 1 => match encodeFirst newString fn.outs outs stack with
          | none => none
          | some (done, rest) => some (done ++ rest)
        | _ => none

end Verif.Wasm
