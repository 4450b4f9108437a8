/-!
# Model: calling conventions

`api/call/internal/abi/abi.go`, `abi_golang.go`, `abi_cgo.go`, `cpu/amd64/amd64.go` and
`cpu/arm64/arm64.go`: what a function's arguments look like to the machine, and where a calling
convention puts them. Sizes are those of a 64-bit machine. Offsets are unbounded numbers.
Unions are modelled as sums.
-/
namespace Verif.Abi

mutual
/-- `Value` (abi.go:81-93): a value of fixed size. -/
inductive Val
  /-- Nothing. -/
  | b0
  /-- One byte. -/
  | b1
  /-- Two bytes. -/
  | b2
  /-- Four bytes. -/
  | b4
  /-- Eight bytes. -/
  | b8
  /-- A 32-bit float. -/
  | f4
  /-- A 64-bit float. -/
  | f8
  /-- A pointer. -/
  | mem
  /-- A size. -/
  | sizing
  /-- A struct. -/
  | struct (fs : Vals)
deriving DecidableEq
/-- The fields of a struct (`abi.go:81-93`). -/
inductive Vals
  /-- No more. -/
  | nil
  /-- One more. -/
  | cons (v : Val) (vs : Vals)
deriving DecidableEq
end

/-- `HardwareLocation` (abi.go:57-65), those that are used. -/
inductive Hw
  /-- A register. -/
  | reg (n : Nat)
  /-- A floating-point register. -/
  | fp (n : Nat)
  /-- An architecture-specific register (only RDX, amd64.go:39). -/
  | specific
  /-- An offset on the stack. -/
  | stack (off : Nat)
  /-- Pushed with dyncall (abi_cgo.go:14-33): the width, and whether it is a float. -/
  | push (v : Val)
deriving DecidableEq

mutual
/-- `Location` (abi.go:20-27). -/
inductive Loc
  /-- The zero `Location`: no location. -/
  | none
  /-- Returned by the call. -/
  | returned
  /-- In hardware. -/
  | hw (h : Hw)
  /-- In several places. -/
  | multi (ls : Locs)
  /-- By reference: where the pointer is (abi.go:51-55), `Relative` is never set. -/
  | indirect (l : Loc)
deriving DecidableEq
/-- Several locations (`abi.go:20-27`). -/
inductive Locs
  /-- No more. -/
  | nil
  /-- One more. -/
  | cons (l : Loc) (ls : Locs)
deriving DecidableEq
end

mutual
/-- `Value.Size` (abi.go:179-205). -/
def Val.size : Val → Nat
  | .b0 => 0 | .b1 => 1 | .b2 => 2 | .b4 => 4 | .b8 => 8 | .f4 => 4 | .f8 => 8
  | .mem => 8 | .sizing => 8
  | .struct fs => fs.size
/-- The sum over the fields (abi.go:199-203). -/
def Vals.size : Vals → Nat
  | .nil => 0
  | .cons v vs => v.size + vs.size
end

mutual
/-- `Value.Align` (abi.go:207-233). -/
def Val.align : Val → Nat
  | .b0 => 1 | .b1 => 1 | .b2 => 2 | .b4 => 4 | .b8 => 8 | .f4 => 4 | .f8 => 8
  | .mem => 8 | .sizing => 8
  | .struct fs => fs.align
/-- The maximum over the fields (abi.go:227-231). -/
def Vals.align : Vals → Nat
  | .nil => 0
  | .cons v vs => max v.align vs.align
end

/-- `align` (abi_golang.go:74-76), for the powers of two it is called with; with `n = 0` the mask
clears every bit. -/
def alignTo (n sp : Nat) : Nat := if n = 0 then 0 else (sp + n - 1) / n * n

/-- How many registers a convention has (`abi_golang.go:58-73`). -/
structure Lim where
  /-- General-purpose registers. -/
  gpr : Nat
  /-- Floating-point registers. -/
  fpr : Nat
deriving DecidableEq

/-- The limits of ABIInternal (abi_golang.go:58-73). -/
def internalLim : String → Option Lim
  | "amd64" => some ⟨9, 15⟩
  | "arm64" => some ⟨16, 16⟩
  | "ppc64" => some ⟨12, 13⟩
  | "riscv64" => some ⟨16, 16⟩
  | _ => none

/-- The check at the end of `assignRegister` (abi_golang.go:101-104). -/
def within (lim : Lim) (r : Loc × Nat × Nat) : Option (Loc × Nat × Nat) :=
  if r.2.1 > lim.gpr ∨ r.2.2 > lim.fpr then none else some r

mutual
/-- `assignRegister` (abi_golang.go:77-105): the location and the next free registers; none is
`false` (the registers are restored by the caller then). -/
def assignReg (lim : Lim) : Val → Nat → Nat → Option (Loc × Nat × Nat)
  | .b0, r, x => some (.none, r, x)
  | .b1, r, x | .b2, r, x | .b4, r, x | .b8, r, x | .mem, r, x | .sizing, r, x =>
    within lim (.hw (.reg r), r + 1, x)
  | .f4, r, x | .f8, r, x => within lim (.hw (.fp x), r, x + 1)
  | .struct fs, r, x => do
    let (ls, r', x') ← assignRegs lim fs r x
    within lim (.multi ls, r', x')
/-- The loop over the fields (abi_golang.go:92-98). -/
def assignRegs (lim : Lim) : Vals → Nat → Nat → Option (Locs × Nat × Nat)
  | .nil, r, x => some (.nil, r, x)
  | .cons v vs, r, x => do
    let (l, r', x') ← assignReg lim v r x
    let (ls, r'', x'') ← assignRegs lim vs r' x'
    some (.cons l ls, r'', x'')
end

/-- The counters of a convention: the next free registers and the top of the stack (`abi_golang.go:48-57`). -/
structure St where
  /-- `r0`. -/
  r : Nat
  /-- `x0`. -/
  x : Nat
  /-- `sp`. -/
  sp : Nat
deriving DecidableEq

/-- `assign` (abi_golang.go:106-120). -/
def assign (lim : Lim) (s : St) (v : Val) : Loc × St :=
  if v.size = 0 then (.none, { s with sp := alignTo v.align s.sp })
  else match assignReg lim v s.r s.x with
    | some (l, r, x) => (l, { s with r := r, x := x })
    | none => (.hw (.stack s.sp), { s with sp := s.sp + v.size })

/-- The loop over the arguments, or over the results (abi_golang.go:121-123,127-129). -/
def assignAll (f : St → Val → Loc × St) : St → List Val → List Loc × St
  | s, [] => ([], s)
  | s, v :: vs =>
    let (l, s') := f s v
    let (ls, s'') := assignAll f s' vs
    (l :: ls, s'')

/-- `Function` (abi.go:97-102). -/
structure Fn where
  /-- Variadic. -/
  vars : Bool := false
  /-- Arguments. -/
  args : List Val
  /-- Results. -/
  rets : List Val
deriving DecidableEq

/-- `CallingConvention` (abi.go:69-75); `Call` is only set by `CGO`: the value asked of dyncall. -/
structure CC where
  /-- Where the arguments are. -/
  args : List Loc
  /-- Where the results are. -/
  rets : List Loc
  /-- The call instruction: none is the zero one, `some none` ignores the result. -/
  call : Option (Option Val) := none
deriving DecidableEq

/-- `Internal` (abi_golang.go:47-135); none is an error or a panic. The frame size is computed
but not returned (131-133), so it is left out. -/
def internal (arch : String) (fn : Fn) : Option CC :=
  if fn.vars then none
  else match internalLim arch with
    | none => none
    | some lim =>
      let (args, s) := assignAll (assign lim) ⟨0, 0, 0⟩ fn.args
      let (rets, _) := assignAll (assign lim) ⟨0, 0, alignTo 8 s.sp⟩ fn.rets
      some ⟨args, rets, none⟩

/-- `Zero` (abi_golang.go:13-41): the slices of the result are never made, so that the first
assignment panics. -/
def zero (fn : Fn) : Option CC :=
  if fn.vars then none
  else match fn.args, fn.rets with
    | [], [] => some ⟨[], [], none⟩
    | _, _ => none

/-- The cases of the switches of `CGO` (abi_cgo.go:14-31,42-59). -/
def scalar : Val → Bool
  | .b1 | .b2 | .b4 | .b8 | .f4 | .f8 | .mem | .sizing => true
  | _ => false

/-- `CGO` (abi_cgo.go:10-64); none is an error. -/
def cgo (fn : Fn) : Option CC :=
  if fn.args.all scalar then
    let args := fn.args.map (fun v => Loc.hw (.push v))
    match fn.rets with
    | [] => some ⟨args, [], some none⟩
    | [v] => if scalar v then some ⟨args, [.returned], some (some v)⟩ else none
    | _ => none
  else none

mutual
/-- `Location.Equals` (abi.go:29-47): `xyz.ValueOf` compares the cases. The loop of `Multiple`
can only say no; none is the panic of an index out of range. -/
def Loc.equals : Loc → Loc → Option Bool
  | .hw a, .hw b => some (decide (a = b))
  | .indirect a, .indirect b => some (decide (a = b))
  | .multi as, .multi bs => (as.equals bs).map (fun _ => false)
  | _, _ => some false
/-- The loop (abi.go:40-44). -/
def Locs.equals : Locs → Locs → Option Bool
  | .nil, _ => some true
  | .cons _ _, .nil => none
  | .cons a as, .cons b bs =>
    match a.equals b with
    | none => none
    | some false => some false
    | some true => as.equals bs
end

/-! ## Go types -/

mutual
/-- A Go type, as far as its layout goes (as `ValueOf` reads it, abi.go:124-177). -/
inductive GTy
  /-- A boolean or an integer of 1, 2, 4 or 8 bytes. -/
  | int (w : Nat)
  /-- `float32`. -/
  | float32
  /-- `float64`. -/
  | float64
  /-- `complex64`. -/
  | complex64
  /-- `complex128`. -/
  | complex128
  /-- Slices. -/
  | slice
  /-- Strings. -/
  | string
  /-- Interfaces. -/
  | iface
  /-- Pointers, unsafe pointers, functions, channels and maps. -/
  | ptr
  /-- Arrays. -/
  | array (n : Nat) (t : GTy)
  /-- Structs. -/
  | struct (fs : GTys)
/-- The fields of a struct (`abi.go:136-140`). -/
inductive GTys
  /-- No more. -/
  | nil
  /-- One more. -/
  | cons (t : GTy) (ts : GTys)
end

/-- A list of values as the fields of a struct (`abi.go:136-140`). -/
def vals : List Val → Vals
  | [] => .nil
  | v :: vs => .cons v (vals vs)

mutual
/-- `ValueOf` (abi.go:124-177), given `reflect.Type.Size`; none is a panic. An array that is not
empty falls out of the switch into the panic, after its elements. -/
def valueOf (size : GTy → Nat) : GTy → Option Val
  | t@(.array _ _) => if size t = 0 then some .b0 else none
  | t@(.struct fs) => if size t = 0 then some .b0 else (fieldsOf size fs).map .struct
  | .float32 => some .f4
  | .float64 => some .f8
  | .complex64 => some (.struct (vals [.f4, .f4]))
  | .complex128 => some (.struct (vals [.f8, .f8]))
  | .slice => some (.struct (vals [.mem, .sizing, .sizing]))
  | .string => some (.struct (vals [.mem, .sizing]))
  | .iface => some (.struct (vals [.mem, .mem]))
  | .ptr => some .mem
  | .int 1 => some .b1
  | .int 2 => some .b2
  | .int 4 => some .b4
  | .int 8 => some .b8
  | .int _ => none
/-- The loop over the fields (abi.go:136-140). -/
def fieldsOf (size : GTy → Nat) : GTys → Option Vals
  | .nil => some .nil
  | .cons t ts => do
    let v ← valueOf size t
    let vs ← fieldsOf size ts
    some (.cons v vs)
end

/-! ## Pins -/

mutual
/-- `Value.Pin` (abi.go:235-253): the registers whose pointers have to be kept alive; none is a
panic (`Multiple.Get` of another case gives nil and the conversion panics, or the index). -/
def Val.pin : Val → Loc → Option (List Nat)
  | .mem, .hw (.reg n) => some [n]
  | .struct fs, .multi ls => fs.pin ls
  | .struct _, _ => none
  | _, _ => some []
/-- The loop over the fields (abi.go:246-248). -/
def Vals.pin : Vals → Locs → Option (List Nat)
  | .nil, _ => some []
  | .cons _ _, .nil => none
  | .cons v vs, .cons l ls => do
    let a ← v.pin l
    let b ← vs.pin ls
    some (a ++ b)
end

/-! ## The C calling conventions -/

/-- The integer registers of the System V convention (amd64.go:53-60), as numbers of the VM's
registers; none is RDX, which is not one of them. -/
def sysvGpr : List Hw := [.reg 3, .reg 4, .specific, .reg 2, .reg 5, .reg 6]

/-- Why a value gets no register: there is none left, or the code panics (amd64.go:75, amd64.go:84, arm64.go:78). -/
inductive Fail
  /-- No register left. -/
  | full
  /-- A panic. -/
  | panics
deriving DecidableEq

/-- The check at the end of amd64's `assignRegister` (amd64.go:95-98). -/
def sysvWithin (r : Loc × Nat × Nat) : Except Fail (Loc × Nat × Nat) :=
  if r.2.1 ≥ 6 ∨ r.2.2 ≥ 8 then .error .full else .ok r

mutual
/-- amd64's `assignRegister` (amd64.go:71-99): the integer register is looked up with the number
of the next floating-point register. An empty value in a struct is taken for a struct: a panic. -/
def sysvReg : Val → Nat → Nat → Except Fail (Loc × Nat × Nat)
  | .b1, r, x | .b2, r, x | .b4, r, x | .b8, r, x | .mem, r, x | .sizing, r, x =>
    match sysvGpr[x]? with
    | some h => sysvWithin (.hw h, r + 1, x)
    | none => .error .panics
  | .f4, r, x | .f8, r, x => sysvWithin (.hw (.fp x), r, x + 1)
  | .struct fs, r, x => do
    let (ls, r', x') ← sysvRegs fs r x
    sysvWithin (.multi ls, r', x')
  | .b0, _, _ => .error .panics
/-- The loop over the fields (amd64.go:86-92). -/
def sysvRegs : Vals → Nat → Nat → Except Fail (Locs × Nat × Nat)
  | .nil, r, x => .ok (.nil, r, x)
  | .cons v vs, r, x => do
    let (l, r', x') ← sysvReg v r x
    let (ls, r'', x'') ← sysvRegs vs r' x'
    .ok (.cons l ls, r'', x'')
end

/-- Where a value is, given the attempt to put it into registers (amd64.go:105-114, arm64.go:124-133); none is a panic. -/
def place (s : St) (v : Val) : Except Fail (Loc × Nat × Nat) → Option (Loc × St)
  | .ok (l, r, x) => some (l, { s with r := r, x := x })
  | .error .full => some (.hw (.stack s.sp), { s with sp := alignTo 8 (s.sp + v.size) })
  | .error .panics => none

/-- amd64's `assignValue` (amd64.go:100-115). -/
def sysvValue (s : St) (v : Val) : Option (Loc × St) :=
  if v.size = 0 then some (.none, { s with sp := alignTo v.align s.sp }) else place s v (sysvReg v s.r s.x)

/-- Whether it is a struct (`amd64.go:117, arm64.go:137`). -/
def Val.isStruct : Val → Bool
  | .struct _ => true
  | _ => false

/-- amd64's `assign` (amd64.go:116-123). -/
def sysvAssign (s : St) (v : Val) : Option (Loc × St) :=
  if v.isStruct = true ∧ v.size > 16 then some (.hw (.stack s.sp), s) else sysvValue s v

/-- The loop over the arguments, or over the results (amd64.go:124-126, arm64.go:159-165). -/
def placeAll (f : St → Val → Option (Loc × St)) : St → List Val → Option (List Loc × St)
  | s, [] => some ([], s)
  | s, v :: vs => do
    let (l, s') ← f s v
    let (ls, s'') ← placeAll f s' vs
    some (l :: ls, s'')

/-- Where amd64 returns a value (amd64.go:130-137); none is an error. -/
def sysvRet : Val → Option Loc
  | .b1 | .b2 | .b4 | .b8 | .mem | .sizing => some (.hw (.reg 0))
  | .f4 | .f8 => some (.hw (.fp 0))
  | _ => none

/-- amd64's `ABI` on Linux (amd64.go:45-139): only the first result is looked at. None is an error or a panic. -/
def sysv (fn : Fn) : Option CC :=
  if fn.vars then none
  else
    match placeAll sysvAssign ⟨0, 0, 0⟩ fn.args with
    | none => none
    | some (args, _) =>
      match fn.rets with
      | [] => some ⟨args, [], none⟩
      | v :: vs => (sysvRet v).map (fun l => ⟨args, l :: vs.map (fun _ => .none), none⟩)

/-- The fields of a struct as a list (`amd64.go:84, arm64.go:78`). -/
def Vals.list : Vals → List Val
  | .nil => []
  | .cons v vs => v :: vs.list

/-- The loop of arm64 that looks for floats of one size (arm64.go:81-90,140-149). -/
def sameFloats : List Val → Bool
  | [] => true
  | [.f4] | [.f8] => true
  | a :: b :: l => (a == .f4 || a == .f8) && b == a && sameFloats (b :: l)
  | _ => false

/-- The check at the end of arm64's `assignRegister` (arm64.go:113-116). -/
def armWithin (r : Loc × Nat × Nat) : Except Fail (Loc × Nat × Nat) :=
  if r.2.1 > 8 ∨ r.2.2 > 8 then .error .full else .ok r

mutual
/-- arm64's `assignRegister` (arm64.go:64-118). A struct of fewer than four fields that are not
all floats gets no location, and that is not a failure. An empty value in a struct is taken for a struct: a panic. -/
def armReg : Val → Nat → Nat → Except Fail (Loc × Nat × Nat)
  | .b1, r, x | .b2, r, x | .b4, r, x | .b8, r, x | .mem, r, x | .sizing, r, x => armWithin (.hw (.reg r), r + 1, x)
  | .f4, r, x | .f8, r, x => armWithin (.hw (.fp x), r, x + 1)
  | .b0, _, _ => .error .panics
  | .struct fs, r, x =>
    if fs.list.length < 4 then
      if sameFloats fs.list then do
        let (ls, r', x') ← armRegs fs r x
        armWithin (.multi ls, r', x')
      else armWithin (.none, r, x)
    else if fs.size ≤ 16 then do
      let (ls, r', x') ← armRegs fs r x
      armWithin (.multi ls, r', x')
    else .error .full
/-- The loops over the fields (arm64.go:92-98,102-108). -/
def armRegs : Vals → Nat → Nat → Except Fail (Locs × Nat × Nat)
  | .nil, r, x => .ok (.nil, r, x)
  | .cons v vs, r, x => do
    let (l, r', x') ← armReg v r x
    let (ls, r'', x'') ← armRegs vs r' x'
    .ok (.cons l ls, r'', x'')
end

/-- arm64's `assignValue` (arm64.go:119-134). -/
def armValue (s : St) (v : Val) : Option (Loc × St) :=
  if v.size = 0 then some (.none, { s with sp := alignTo v.align s.sp }) else place s v (armReg v s.r s.x)

/-- Whether arm64 takes the value for floats (arm64.go:136-151): everything that is not a struct
of fewer than four fields. -/
def armFloats : Val → Bool
  | .struct fs => if fs.list.length < 4 then sameFloats fs.list else true
  | _ => true

/-- arm64's `assign` (arm64.go:135-158). -/
def armAssign (s : St) (v : Val) : Option (Loc × St) :=
  if v.size > 16 ∧ armFloats v = false then (armValue s .b8).map fun r => (.indirect r.1, r.2)
  else armValue s v

/-- arm64's `ABI` (arm64.go:50-167); none is an error or a panic. -/
def aapcs (fn : Fn) : Option CC :=
  if fn.vars then none
  else
    match placeAll armAssign ⟨0, 0, 0⟩ fn.args with
    | none => none
    | some (args, s) =>
      match placeAll armAssign ⟨0, 0, s.sp⟩ fn.rets with
      | none => none
      | some (rets, _) => some ⟨args, rets, none⟩

end Verif.Abi
