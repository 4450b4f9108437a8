import Verif.Xyz.SwitchModel
/-!
# Model of tagged unions: storing and reading a case, and the shared table of cases

Models `/repo/xyz/tagged.go`: `accessors` (413-476), `Values` (485-502), `accessor.get`
(554-580), `accessor.as` (583-639), `caseMethods.As` and `Get` (674-678, 693-695) and
`hasPointers` (697-718). Values are their dynamic type and their memory image; text storage
is modelled apart, for scalar values and formats with one `%v`. Generic instantiation and
reflection on the declaring struct are taken as given: a declaration is the list of what the
cases may hold. The `xyz` tag, which overrides the number of a case, is a field of it.
-/
namespace Verif.Xyz

mutual
/-- A Go type, as far as storage cares: its size and where its pointers are
(`reflect.Type`, `tagged.go:427`, `:450`). -/
inductive Ty where
  /-- Booleans, integers, floats, complex numbers (tagged.go:702-705). -/
  | plain (size : Nat)
  /-- Strings, slices, pointers, maps, channels, functions. -/
  | ptr (size : Nat)
  /-- Interfaces. -/
  | iface
  /-- Structs; the size is given, as it depends on padding. -/
  | struct (size : Nat) (fields : Tys)
  | array (n : Nat) (elem : Ty)
deriving DecidableEq
/-- The fields of a struct (`tagged.go:706-712`). -/
inductive Tys where
  | nil
  | cons (t : Ty) (ts : Tys)
deriving DecidableEq
end

/-- `reflect.Type.Size` (`tagged.go:456`, `:698`). -/
def Ty.size : Ty → Nat
  | .plain n => n
  | .ptr n => n
  | .iface => 16
  | .struct n _ => n
  | .array n e => n * e.size

mutual
/-- `hasPointers` (tagged.go:697-718). -/
def Ty.hasPointers : Ty → Bool
  | .plain _ => false
  | .ptr n => n != 0
  | .iface => true
  | .struct n fs => n != 0 && fs.hasPointers
  | .array n e => n * e.size != 0 && e.hasPointers
/-- The loop over the fields (tagged.go:707-711). -/
def Tys.hasPointers : Tys → Bool
  | .nil => false
  | .cons t ts => t.hasPointers || ts.hasPointers
end

/-- A value in an `any`: its dynamic type and its memory image (the `val any` of `tagged.go:583`). -/
structure Value where
  /-- `reflect.TypeOf`. -/
  ty : Ty
  /-- The bytes of the value. -/
  img : List UInt8
deriving DecidableEq

/-- The storage type of a union (the kinds of `tagged.go:594-636`). -/
inductive Storage where
  /-- `any`. -/
  | iface
  /-- `unsafe.Pointer`. -/
  | ptr
  /-- A slice type. -/
  | slice
  /-- A struct type. -/
  | struct (ty : Ty)
  /-- An array type. -/
  | array (ty : Ty)
  /-- Booleans, integers, floats and complex numbers: the size, and the bytes a case's number
  is stored as (tagged.go:595-606). -/
  | number (size : Nat) (image : Nat → List UInt8)

/-- What is in the storage (`ram Storage`, `tagged.go:74`). -/
inductive Ram where
  /-- An interface, or the copy that a pointer points at; none is nil. -/
  | any (v : Option Value)
  /-- Plain memory. -/
  | bytes (b : List UInt8)

/-- A case, as `accessors` lists it (tagged.go:429-471): its position is its identity. -/
structure Acc where
  /-- The position. -/
  idx : Nat
  /-- The case's number. -/
  enum : Nat
  /-- Whether the storage can take it. -/
  safe : Bool
  /-- What it holds; none for a case without a value. -/
  rtyp : Option Ty

/-- The size of the storage itself (`stype.Size()`, `tagged.go:456`). -/
def Storage.size : Storage → Nat
  | .iface => 16
  | .ptr => 8
  | .slice => 24
  | .struct t => t.size
  | .array t => t.size
  | .number n _ => n

/-- Whether the storage has pointers (tagged.go:428). -/
def Storage.hasPointers : Storage → Bool
  | .iface => true
  | .ptr => true
  | .slice => true
  | .struct t => t.hasPointers
  | .array t => t.hasPointers
  | .number _ _ => false

/-- The check of a case against the storage (tagged.go:448-457). -/
def safeFor (st : Storage) : Option Ty → Bool
  | none => true
  | some t =>
    match st with
    | .iface => true
    | .ptr => true
    | .slice => !t.hasPointers || (decide (t.size ≤ st.size) && !st.hasPointers && !t.hasPointers)
    | st => decide (t.size ≤ st.size) && !st.hasPointers && !t.hasPointers

/-- The table of the cases (tagged.go:429-471); each case is what it holds and its `xyz` tag. -/
def accessorsFrom (st : Storage) : Nat → List (Option Ty × Option Nat) → List Acc
  | _, [] => []
  | i, (t, tag) :: cs =>
    { idx := i, enum := tag.getD i, safe := safeFor st t, rtyp := t } :: accessorsFrom st (i + 1) cs

/-- `Values` (tagged.go:485-502): refused unless the storage can take every case. -/
def values (st : Storage) (cases : List (Option Ty × Option Nat)) : Option (List Acc) :=
  let accs := accessorsFrom st 0 cases
  if accs.all (·.safe) then some accs else none

/-- A union: the case stored last, and the storage (tagged.go:72-75). -/
structure Var where
  /-- The tag. -/
  tag : Option Nat
  /-- The storage. -/
  ram : Ram

/-- The zero union (`var zero Variant`, `tagged.go:675`). -/
def zeroVar (st : Storage) : Var :=
  { tag := none
    ram := match st with
      | .iface => .any none
      | .ptr => .any none
      | st => .bytes (List.replicate st.size 0) }

/-- `reflect.TypeOf(val) != v.rtyp` (tagged.go:591); nil has no type. -/
def sameType (val : Option Value) (t : Option Ty) : Bool :=
  decide (val.map (·.ty) = t)

/-- The storage after storing a value (tagged.go:594-637); none is a panic. For slices and
structs `reflect.NewAt(..).Set` sets a pointer that is not addressable, which panics. -/
def storeRam (st : Storage) (acc : Acc) (old : Ram) (val : Option Value) : Option Ram :=
  match st with
  | .iface => some (.any val)
  | .ptr => match val with
    | some v => some (.any (some v))
    | none => none
  | .slice => none
  | .struct _ => none
  | .array _ => match val, old with
    | some v, .bytes b => some (.bytes (v.img ++ b.drop v.img.length))
    | _, _ => none
  | .number _ image => some (.bytes (image acc.enum))

/-- Whether the storage is an interface (`tagged.go:455`, `:591`). -/
def Storage.isIface : Storage → Bool
  | .iface => true
  | _ => false

/-- `accessor.as` (tagged.go:583-639); none is a panic. -/
def accAs (st : Storage) (acc : Acc) (v : Var) (val : Option Value) : Option Var :=
  if acc.safe = false then none
  else if st.isIface = false ∧ sameType val acc.rtyp = false then none
  else (storeRam st acc v.ram val).map fun ram => { tag := some acc.idx, ram := ram }

/-- The read at the end of `accessor.get` (tagged.go:565-579). -/
def loadRam (t : Ty) : Ram → Option Value
  | .any v => v
  | .bytes b => some { ty := t, img := b.take t.size }

/-- `accessor.get` (tagged.go:554-580); none is a panic. -/
def accGet (acc : Acc) (v : Var) : Option (Option Value) :=
  if acc.safe = false then none
  else if v.tag ≠ some acc.idx then none
  else match acc.rtyp with
    | none => some none
    | some t => some (loadRam t v.ram)

/-- `Case.As` (tagged.go:674-678): from the zero union. -/
def caseAs (st : Storage) (acc : Acc) (val : Option Value) : Option Var :=
  accAs st acc (zeroVar st) val

/-- `Case.Get` (tagged.go:693-695): the assertion to the case's type panics on nil and, unless
that is an interface, on any other type. The result, if there is one, is not nil. -/
def caseGet (acc : Acc) (v : Var) : Option Value :=
  match accGet acc v with
  | some (some x) =>
    match acc.rtyp with
    | some .iface => some x
    | some t => if x.ty = t then some x else none
    | none => none
  | _ => none

/-! ## Text storage -/

/-- A format: the text before its `%v`, and after it (the `txt` tag, `tagged.go:434`). -/
structure Fmt where
  /-- Before. -/
  pre : Str
  /-- After. -/
  post : Str

/-- `fmt.Sprintf` with one verb (tagged.go:611). -/
def Fmt.print (f : Fmt) (v : Val) : Str := f.pre ++ sprint v ++ f.post

/-- Strips a text without spaces or verbs (`fmt.Sscanf`'s `advance`) (`tagged.go:571`). -/
def strip : Str → Str → Option Str
  | [], t => some t
  | _ :: _, [] => none
  | c :: p, d :: t => if c = d then strip p t else none

/-- `fmt.Sscanf` into a new variable of the case's type, the error ignored (tagged.go:570-572):
the text before the verb must not have spaces. -/
def Fmt.scan (f : Fmt) (k : Kind) (t : Str) : Val :=
  ((strip f.pre t).bind (sscan k)).getD k.zero

/-! ## The shared table -/

/-- Where a goroutine is in `Values` (tagged.go:413-476, 485-502). Accessors are the addresses
they were allocated at. -/
inductive PC where
  /-- Before the look into the cache (411-418). -/
  | idle
  /-- Not found (419-421). -/
  | missed
  /-- The table is made, the cache not written (422-466). -/
  | made (s : List Nat)
  /-- It has its table. -/
  | done (s : List Nat)

/-- The shared cache and the goroutines (`tagged.go:410-411`). -/
structure Race where
  /-- `cache[T]` (tagged.go:411). -/
  cache : Option (List Nat)
  /-- The next free address. -/
  next : Nat
  /-- The goroutines. -/
  pc : Nat → PC

/-- Moves one goroutine (`tagged.go:413-500`). -/
def Race.at (r : Race) (g : Nat) (p : PC) : Race :=
  { r with pc := fun h => if h = g then p else r.pc h }

/-- `append` to the cached table unless it is there (tagged.go:362-375). -/
def cacheAppend (c : Option (List Nat)) (a : Nat) : Option (List Nat) :=
  match c with
  | some s => if a ∈ s then some s else some (s ++ [a])
  | none => some [a]

/-- One step of one goroutine, for a union of `n` cases (`tagged.go:362-375`, `:413-476`, `:485-500`). -/
inductive Step (n : Nat) : Race → Race → Prop where
  /-- The cache is read under the lock (tagged.go:414-424). -/
  | hit (r : Race) (g : Nat) (s : List Nat) : r.pc g = .idle → r.cache = some s →
      Step n r (r.at g (.done s))
  | miss (r : Race) (g : Nat) : r.pc g = .idle → r.cache = none → Step n r (r.at g .missed)
  /-- The table is made (tagged.go:425-471). -/
  | make (r : Race) (g : Nat) : r.pc g = .missed →
      Step n r { r.at g (.made ((List.range n).map (r.next + ·))) with next := r.next + n }
  /-- It replaces what is in the cache (tagged.go:472-474). -/
  | write (r : Race) (g : Nat) (s : List Nat) : r.pc g = .made s →
      Step n r { r.at g (.done s) with cache := some s }
  /-- A case of a goroutine's table is appended to the cache (tagged.go:362-375, 653-658). -/
  | append (r : Race) (g : Nat) (s : List Nat) (a : Nat) : r.pc g = .done s → a ∈ s →
      Step n r { r with cache := cacheAppend r.cache a }
  /-- A goroutine asks again. -/
  | again (r : Race) (g : Nat) (s : List Nat) : r.pc g = .done s → Step n r (r.at g .idle)

/-- Any number of steps (`tagged.go:362-375`, `:413-476`, `:485-500`). -/
inductive Steps (n : Nat) : Race → Race → Prop where
  | refl (r : Race) : Steps n r r
  | tail {a b c : Race} : Steps n a b → Step n b c → Steps n a c

end Verif.Xyz
