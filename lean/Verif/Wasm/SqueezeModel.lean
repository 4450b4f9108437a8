/-!
# Model of `api/wasm/register_allocation.go`

Go types are seen through `reflect.Type.Size()` (bytes) and, for `defaultRegistersFor`, through their
kind. Go's `int` is unbounded here.
-/
namespace Verif.Wasm

/-- api/wasm/register_allocation.go:8-11, `RegisterMapping`. -/
structure Mapping where
  offset : Int
  spills : Bool
  deriving DecidableEq, Repr

/-- The two assignment loops of `squeezeRegistersFor`, which are the same but for their variables:
api/wasm/register_allocation.go:149-167 (results: bank of 8 bytes, `space` is `resultSize`, `off` is
`resultsOffset`) and :192-209 (arguments: bank of `max_registers*8` bytes, `space` is `registerSpace`,
`off` is `registerOffset`). Returns the mappings and the final offset of the spilled bank. -/
def place (bank : Int) : List Nat → Int → Int → List Mapping × Int
  | [], _, off => ([], off)
  | size :: sizes, space, off =>
    if size = 0 then place bank sizes space off
    else if (size : Int) > space then
      let r := place bank sizes space (off + size)
      (⟨off, true⟩ :: r.1, r.2)
    else
      let r := place bank sizes (space - size) off
      (⟨bank - space, false⟩ :: r.1, r.2)

/-- The result of `squeezeRegistersFor` (`api/wasm/register_allocation.go:146`). -/
structure Squeezed where
  args : List Mapping
  results : List Mapping
  registerOffset : Int
  resultsOffset : Int
  deriving DecidableEq, Repr

/-- The total size of the arguments, api/wasm/register_allocation.go:177-184. -/
def total : List Nat → Nat
  | [] => 0
  | size :: sizes => if size = 0 then total sizes else total sizes + size

/-- The registers that are left for arguments when the pointer to the results has been reserved,
api/wasm/register_allocation.go:171-173. -/
def afterResults (max : Int) (results : List Mapping) : Int :=
  if results.any (·.spills) then max - 1 else max

/-- The registers that are left when the pointer to the arguments has been reserved,
api/wasm/register_allocation.go:185-187. -/
def afterArgs (max : Int) (ins : List Nat) : Int :=
  if (total ins : Int) > max * 8 then max - 1 else max

/-- api/wasm/register_allocation.go:146-211, `squeezeRegistersFor`; `resultsSpillOver` is whether one
of the results was spilled. -/
def squeeze (ins outs : List Nat) (max : Int) : Squeezed :=
  let res := place 8 outs 8 0
  if max = 0 then ⟨[], res.1, 0, res.2⟩
  else
    let max₁ := afterResults max res.1
    if max₁ = 0 then ⟨[], res.1, 0, res.2⟩
    else
      let max₂ := afterArgs max₁ ins
      if max₂ = 0 then ⟨[], res.1, 0, res.2⟩
      else
        let arg := place (max₂ * 8) ins (max₂ * 8) 0
        ⟨arg.1, res.1, arg.2, res.2⟩

/-- `copy(dst[off:], raw)`: `none` is the panic of an offset outside of the slice
(`api/wasm/register_allocation.go:13-25`). -/
def copyAt (dst : List UInt8) (off : Int) (raw : List UInt8) : Option (List UInt8) :=
  if off < 0 ∨ (dst.length : Int) < off then none
  else
    let o := off.toNat
    let k := min raw.length (dst.length - o)
    some (dst.take o ++ raw.take k ++ dst.drop (o + k))

/-- api/wasm/register_allocation.go:13-25, `Write`; `raw` is the memory of the value. -/
def Mapping.write (m : Mapping) (stack spill raw : List UInt8) : Option (List UInt8 × List UInt8) :=
  if m.spills then (copyAt spill m.offset raw).map (fun s => (stack, s))
  else (copyAt stack m.offset raw).map (fun s => (s, spill))

/-- api/wasm/register_allocation.go:27-35, `Read` into a value whose memory is `raw`; `stack` is the
memory of the one word. -/
def Mapping.read (m : Mapping) (stack spill raw : List UInt8) : Option (List UInt8) :=
  let src := if m.spills then spill else stack
  if m.offset < 0 ∨ (src.length : Int) < m.offset then none
  else
    let from_ := src.drop m.offset.toNat
    some (from_.take raw.length ++ raw.drop from_.length)

/-- Writing values one after the other through their mappings (`api/wasm/register_allocation.go:13-25`). -/
def writeAll : List Mapping → List (List UInt8) → List UInt8 → List UInt8 →
    Option (List UInt8 × List UInt8)
  | m :: ms, v :: vs, stack, spill =>
    match m.write stack spill v with
    | none => none
    | some (stack, spill) => writeAll ms vs stack spill
  | _, _, stack, spill => some (stack, spill)

/-- api/wasm/register_allocation.go:37-58, `sizeToMask`; `none` is the panic. -/
def sizeToMask (size : Int) : Option Nat :=
  if size = 1 then some 0xFF
  else if size = 2 then some 0xFFFF
  else if size = 3 then some 0xFFFFFF
  else if size = 4 then some 0xFFFFFFFF
  else if size = 5 then some 0xFFFFFFFFFF
  else if size = 6 then some 0xFFFFFFFFFFFF
  else if size = 7 then some 0xFFFFFFFFFFFFFF
  else if size = 8 then some 0xFFFFFFFFFFFFFFFF
  else none

/-- api/wasm/register_allocation.go:60-82, `jumpType` of a function with arguments of these sizes and
`outs` results. -/
def jumpType (ins : List Nat) (outs : Nat) : Int :=
  let args := ins.foldl (· + ·) 0
  if outs > 0 then -1
  else if args = 0 then 0
  else if args ≤ 8 then 1
  else if args ≤ 16 then 2
  else if args ≤ 32 then 4
  else if args ≤ 64 then 8
  else -1

/-- The kinds of Go types `registersCount` tells apart; arrays and structs have their components.
`slice` stands for the kinds that are not listed in the switch (`api/wasm/register_allocation.go:84-106`). -/
inductive RTy where
  /-- a boolean or a number of this many bytes -/
  | num (size : Nat)
  /-- complex numbers, strings and interfaces: two registers -/
  | two (size : Nat)
  /-- pointers, maps, channels, functions -/
  | word
  | slice
  | array (len : Nat) (elem : RTy)
  | struct (fields : List RTy)

/-- The size in bytes; structs without padding (simplification: it is only compared with 0 and added
to the offset of spilled results) (`api/wasm/register_allocation.go:84-106`). -/
def RTy.size : RTy → Nat
  | .num n => n
  | .two n => n
  | .word => 8
  | .slice => 24
  | .array n t => n * t.size
  | .struct fs => sizes fs
where
  sizes : List RTy → Nat
    | [] => 0
    | t :: ts => t.size + sizes ts

/-- api/wasm/register_allocation.go:84-106, `registersCount`. -/
def RTy.registers : RTy → Nat
  | .num _ => 1
  | .two _ => 2
  | .word => 1
  | .slice => 0
  | .array n t => n * t.registers
  | .struct fs => counts fs
where
  counts : List RTy → Nat
    | [] => 0
    | t :: ts => t.registers + counts ts

/-- The loop over the results, api/wasm/register_allocation.go:112-130. -/
def defaultResults : List RTy → Bool → Int → List Mapping
  | [], _, _ => []
  | t :: ts, used, off =>
    if t.size = 0 then defaultResults ts used off
    else if used ∨ t.registers > 1 then ⟨off, true⟩ :: defaultResults ts used (off + t.size)
    else ⟨0, false⟩ :: defaultResults ts true off

/-- The loop over the arguments, api/wasm/register_allocation.go:131-143. -/
def defaultArgs : List RTy → Int → List Mapping
  | [], _ => []
  | t :: ts, n =>
    if t.size = 0 then defaultArgs ts n
    else ⟨n, false⟩ :: defaultArgs ts (n + t.registers)

end Verif.Wasm
