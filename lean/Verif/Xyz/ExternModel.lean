import Verif.Xyz.PairModel
/-!
# Model of the registry of cases, and of texts of unions

Models `accessors` (/repo/xyz/tagged.go:413-476), `Values` (485-502), `append` (362-375), `set` (653-658, 389), `MarshalText`
(330-342), `UnmarshalText` (344-353), `String` (84-99), `ValueOf` (43-58) and `Get` of a case (693-695, 554-561), with `Extern`
and `Extend` (/repo/xyz/ext.go:20-27). The cases with a value of an extension are cases of its parent (`Variant`, line 646). Every case is taken to be compatible with the storage (otherwise `Values` panics, line
494: see C69), and the goroutines to take turns (C67 is about those that do not).
-/
namespace Verif.Xyz.Ext

/-- A case of a union: its field, and whether it has no value (tagged.go:448-451). -/
structure UCase where
  /-- The field and its tags. -/
  field : PCase
  /-- It is a case without a value. -/
  void : Bool

/-- A type of unions: `Tagged`, `Extern`, or `Extend` of another one (tagged.go:23-25, ext.go:20-27). -/
inductive UDecl where
  /-- `Tagged[Storage, struct{cases}]`. -/
  | plain (cases : List UCase)
  /-- `Extern[T, Storage]`: its only field is `_ [0]T`. -/
  | extern
  /-- `Extend[parent, Storage, struct{cases}]`. -/
  | extend (parent : Nat) (cases : List UCase)

/-- An accessor, at its address (tagged.go:521-533). -/
structure Acc where
  /-- The address. -/
  ptr : Nat
  /-- What it was made from. -/
  case : UCase

/-- `cache` (tagged.go:411), by types, and the next free address. -/
structure Registry where
  /-- The accessors of a type, if they are known. -/
  cache : Nat → Option (List Acc)
  /-- The next free address. -/
  next : Nat

/-- The registry when the program starts (tagged.go:411). -/
def Registry.init : Registry := { cache := fun _ => none, next := 0 }

/-- Writes an entry. -/
def Registry.put (r : Registry) (k : Nat) (l : List Acc) : Registry :=
  { r with cache := fun j => if j = k then some l else r.cache j }

/-- Allocates the accessors (tagged.go:458-470). -/
def allocate : Nat → List UCase → List Acc
  | _, [] => []
  | n, c :: l => Acc.mk n c :: allocate (n + 1) l

/-- The fields of `Values` of a type (tagged.go:425-433), or `none` if line 405 panics: the field `_ [0]T` of an extern type is
not a case (lines 391-406), and with strings for storage it has no text (line 436). -/
def UDecl.fields : UDecl → Option (List UCase)
  | .plain cs => some cs
  | .extern => none
  | .extend _ cs => some cs

/-- `accessors` (tagged.go:413-476): `none` if it panics. With strings for storage (`str`) every case must have a text (line
436), and there may be no more than 256 cases (line 431). -/
def accessorsOf (decls : Nat → UDecl) (str : Bool) (r : Registry) (k : Nat) : Option (Registry × List Acc) :=
  match r.cache k with
  | some l => some (r, l)
  | none =>
    match (decls k).fields with
    | none => none
    | some cs =>
      if cs.length > 256 then none
      else if str && cs.any (fun c => c.field.txt.isNone) then none
      else some ({ r.put k (allocate r.next cs) with next := r.next + cs.length }, allocate r.next cs)

/-- `append` (tagged.go:362-375). -/
def appendAcc (r : Registry) (k : Nat) (a : Acc) : Registry :=
  match r.cache k with
  | some l => if l.any (fun b => b.ptr == a.ptr) then r else r.put k (l ++ [a])
  | none => r.put k [a]

/-- The type whose values the cases are of: the type parameter `Variant` of the cases (tagged.go:646, 653-658). -/
def UDecl.variant (k : Nat) : UDecl → Nat
  | .plain _ => k
  | .extern => k
  | .extend p _ => p

/-- `Values` (tagged.go:485-502): the accessors that are handed out. A case with a value is added to the parent (line 657), one
without only gets its accessor (line 389). The loop is over the fields: with fewer accessors than
fields it panics (line 492), with more the rest is not looked at. -/
def valuesOf (decls : Nat → UDecl) (str : Bool) (r : Registry) (k : Nat) : Option (Registry × List Acc) :=
  match accessorsOf decls str r k, (decls k).fields with
  | some (r', l), some cs =>
    if l.length < cs.length then none
    else some (((l.take cs.length).filter (fun a => !a.case.void)).foldl (fun q a => appendAcc q ((decls k).variant k) a) r', l.take cs.length)
  | _, _ => none

/-- A value of a union: `tag` and `ram` (tagged.go:70-73). -/
structure UVal (S : Type) where
  /-- The accessor of the case, if there is one. -/
  tag : Option Acc
  /-- The storage. -/
  ram : S

/-- `MarshalText` (tagged.go:330-342): the error is `none`. -/
def marshalUText {S : Type} (sprintf : Str → S → Str) (v : UVal S) : Option Str :=
  match v.tag with
  | none => some []
  | some a =>
    if a.case.field.hasText then
      if a.case.field.fmts then some (sprintf a.case.field.text v.ram) else some a.case.field.text
    else none

/-- `String` (tagged.go:84-99). -/
def stringOfU {S : Type} (sprintf : Str → S → Str) (sprint : UCase → S → Str) (v : UVal S) : Str :=
  match v.tag with
  | none => []
  | some a =>
    if a.case.field.hasText then
      if a.case.field.fmts then sprintf a.case.field.text v.ram else a.case.field.text
    else if a.case.void then a.case.field.name
    else sprint a.case v.ram

/-- `UnmarshalText` of a value of type `k` (tagged.go:344-353): `none` if it panics; there is never an error. -/
def unmarshalUText {S : Type} (decls : Nat → UDecl) (str : Bool) (r : Registry) (k : Nat) (v : UVal S) (t : Str) :
    Option (Registry × UVal S) :=
  match accessorsOf decls str r k with
  | none => none
  | some (r', l) =>
    match l.find? (fun a => decide (a.case.field.text = t)) with
    | some a => some (r', { v with tag := some a })
    | none => some (r', v)

/-- `ValueOf`, as it is compared in a switch statement: by the address of the accessor (tagged.go:43-58, 660-662). -/
def valueOfU {S : Type} (v : UVal S) : Option Nat := v.tag.map Acc.ptr

/-- Whether `Get` of a case finds that the union holds it; otherwise it panics (tagged.go:693-695, 554-561). -/
def mayGet {S : Type} (a : Acc) (v : UVal S) : Bool := v.tag.map Acc.ptr == some a.ptr

/-- What a program does with its types of unions: it asks for the cases of one, or reads a text into a value of one. -/
inductive UOp where
  /-- `AccessorFor(T.Values)` or `v.Values(...)` (tagged.go:37-40). -/
  | cases (k : Nat)
  /-- `UnmarshalText` of a value of type `k`. -/
  | read (k : Nat) (t : Str)

/-- The registry after an operation; what panics is taken to be recovered. A panic within `accessors` leaves the registry
alone, as the entry is only written at its end (line 473). -/
def UOp.run (decls : Nat → UDecl) (str : Bool) (r : Registry) : UOp → Registry
  | .cases k => match valuesOf decls str r k with
    | some p => p.1
    | none => r
  | .read k t => match unmarshalUText decls str r k (UVal.mk none ()) t with
    | some p => p.1
    | none => r

/-- The registry after a history. -/
def runOps (decls : Nat → UDecl) (str : Bool) (r : Registry) (h : List UOp) : Registry :=
  h.foldl (UOp.run decls str) r

end Verif.Xyz.Ext
