/-!
# Model of validation (api/data/data.go)

Go pointers to the value being validated are `Ref`s: an address with the type it is a pointer to, which is what `==` on two
interface values that hold pointers compares. Errors are Go pointers that `Reports` updates in place; here `Reports` returns
the updated errors, so an error that is passed to `Reports` twice is not covered. Numbers are integers (floats and complex
numbers have a zero too, and are not modelled). `fmt.Sprintf` is modelled for the verbs that are used.
-/
namespace Verif.Data

/-- A text, as a list of characters (data.go:53). -/
abbrev Str := List Char

/-- A pointer in an interface value: its address and the type of what it points to (data.go:123-127). -/
structure Ref where
  addr : Nat
  ty : Nat
deriving DecidableEq, Repr

/-- `reflect.StructField`, as far as it is used (data.go:123-127): `Name` and `Offset`. -/
structure SField where
  name : Str
  offset : Nat := 0
deriving DecidableEq, Repr

/-- `mirror` (data.go:123-127). -/
structure Mirror where
  value : Ref
  index : List SField := []
  field : SField := ⟨[], 0⟩
deriving DecidableEq, Repr

/-- The three errors about one value: `ErrInvalid`, `ErrExceeds`, `ErrMissing` (data.go:161-166, 187-191, 211-213). -/
inductive Kind where
  | invalid (cls hints : Str)
  | exceeds (limit : Str)
  | missing
deriving DecidableEq, Repr

/-- An error. `foreign` is one that is not of this package, known by its text; it has none of the methods used here.
`reports` is `errReports` (data.go:26-31); its `rvalue` is not in the model because no code sets it, so it is always the
zero `reflect.Value`. -/
inductive Err where
  | foreign (text : Str)
  | leaf (m : Mirror) (k : Kind)
  | reports (m : Mirror) (errs : List Err)
deriving Repr

/-- A field of the struct that is validated, as `Object` sees it: its `reflect.StructField`, the pointer
`rvalue.Field(i).Addr()`, and whether the field is exported (`Interface` panics if it is not)
(`data.go:77-83, 131-136`). -/
structure Fld where
  info : SField
  ref : Ref
  exported : Bool
deriving DecidableEq, Repr

/-- Is the error a `setter` (data.go:100-102)? -/
def Err.isSetter : Err → Bool
  | .foreign _ => false
  | .leaf _ _ => true
  | .reports _ _ => true

/-- `mirror.reflect` (data.go:131-136); `none` is a panic of `field.Interface()`. -/
def Mirror.reflect (m : Mirror) (f : Fld) (index : List SField) : Option Mirror :=
  if f.exported then
    if f.ref = m.value then some { m with index := index, field := f.info } else some m
  else none

/-- `setter.reflect` of an error (data.go:35-51, 131-136); `none` is a panic. In `errReports.reflect`, a setter among the
errors makes it call `NumField` of the zero `reflect.Value`, which panics. -/
def Err.reflect (e : Err) (f : Fld) (index : List SField) : Option Err :=
  match e with
  | .foreign t => some (.foreign t)
  | .leaf m k => (m.reflect f index).map (.leaf · k)
  | .reports m errs =>
    if f.exported then
      if f.ref = m.value then
        if errs.any Err.isSetter then none else some (.reports { m with index := index, field := f.info } errs)
      else some (.reports m errs)
    else none

/-- The loop over the fields (data.go:80-83). -/
def Err.locate (e : Err) : List Fld → Option Err
  | [] => some e
  | f :: fs => (e.reflect f []).bind (·.locate fs)

/-- What `Object` was given: a pointer to a struct with these fields, or to something else, such as a nil pointer
(data.go:68-71). -/
inductive Shape where
  | struct (fields : List Fld)
  | other
deriving Repr

/-- One error of those given to `Reports` (data.go:77-85). -/
def located (shape : Shape) (e : Err) : Option Err :=
  match shape with
  | .struct fields => if e.isSetter then e.locate fields else some e
  | .other => some e

/-- The errors that are kept (data.go:74-88); `none` among the arguments is a nil error, and a `none` result is a panic. -/
def group (shape : Shape) : List (Option Err) → Option (List Err)
  | [] => some []
  | none :: rest => group shape rest
  | some e :: rest => (located shape e).bind fun e' => (group shape rest).map (e' :: ·)

/-- `Object(value).Reports(errs...)` (data.go:67-98). The outer `none` is a panic, the inner one the nil error. -/
def reports (value : Ref) (shape : Shape) (errs : List (Option Err)) : Option (Option Err) :=
  (group shape errs).map fun g =>
    match g with
    | [] => none
    | _ :: _ => some (.reports { value := value } g)

/-- `mirror.FieldName` (data.go:138-159): the path that is built from `index` is not used. -/
def Mirror.fieldName (m : Mirror) : Str := m.field.name

/-- `FieldName` of an error; `errReports` has it by embedding (data.go:27, 138). -/
def Err.fieldName : Err → Option Str
  | .foreign _ => none
  | .leaf m _ => some m.fieldName
  | .reports m _ => some m.fieldName

/-- `StatusHTTP` (data.go:129, 168, 193, 215). -/
def Err.status : Err → Option Nat
  | .foreign _ => none
  | .leaf _ _ => some 400
  | .reports _ _ => some 400

/-- `Unwrap() []error` of `errReports` (data.go:33). -/
def Err.unwrap : Err → List Err
  | .foreign _ => []
  | .leaf _ _ => []
  | .reports _ errs => errs

/-- `WithFieldNameSetTo` (data.go:170-178, 195-202, 217-223); `errReports` has no such method. -/
def Err.withFieldNameSetTo : Err → Str → Option Err
  | .leaf m k, name => some (.leaf { m with field := { m.field with name := name } } k)
  | .foreign _, _ => none
  | .reports _ _, _ => none

/-- The text of the three errors (data.go:180-185, 204-209, 225-230). -/
def Kind.text : Kind → Str → Str
  | .invalid cls hints, [] =>
      "please ensure that all '".toList ++ cls ++ "' parameters are valid\n(".toList ++ hints ++ ")".toList
  | .invalid cls hints, name@(_ :: _) =>
      "please ensure '".toList ++ name ++ "' is valid\n(".toList ++ cls ++ ": ".toList ++ hints ++ ")".toList
  | .exceeds _, [] => "please ensure that all parameters do not exceed their limits".toList
  | .exceeds limit, name@(_ :: _) => "please limit '".toList ++ name ++ "' to less than ".toList ++ limit
  | .missing, [] => "please provide all required parameters".toList
  | .missing, name@(_ :: _) => "please provide '".toList ++ name ++ "'".toList

/-- What `errReports.Error` writes before the text at index `i` of `n` (data.go:56-61). -/
def joint (i n : Nat) : Str :=
  if i > 0 ∧ i = n - 1 then " and ".toList else if i > 0 then ", ".toList else []

/-- The texts with what is written between them (data.go:55-63), from index `i` on, of `n`. -/
def joinFrom (n : Nat) : Nat → List Str → Str
  | _, [] => []
  | i, t :: ts => joint i n ++ t ++ joinFrom n (i + 1) ts

mutual
/-- `Error` (data.go:53-65, 180-185, 204-209, 225-230). -/
def Err.text : Err → Str
  | .foreign t => t
  | .leaf m k => k.text m.field.name
  | .reports _ errs => joinFrom errs.length 0 (textsOf errs)
/-- The texts of the errors of a report (data.go:62). -/
def textsOf : List Err → List Str
  | [] => []
  | e :: es => e.text :: textsOf es
end

/-! ## Checks -/

/-- `strings.Join(hints, "\n")` (data.go:249, 286, 334, 393). -/
def joinHints : List Str → Str
  | [] => []
  | [h] => h
  | h :: h' :: hs => h ++ '\n' :: joinHints (h' :: hs)

/-- `%d` (data.go:295, 351, 402). -/
def showInt : Int → Str
  | .ofNat n => Nat.toDigits 10 n
  | .negSucc n => '-' :: Nat.toDigits 10 (n + 1)

/-- A value that is validated: a number, a string (its bytes), a slice, a map (its entries in the order of one iteration), or
a pointer (`data.go:114-422`). -/
inductive Val where
  | num (n : Int)
  | str (s : List UInt8)
  | slice (vs : List Val)
  | map (kvs : List (Val × Val))
  | ptr (p : Option Val)
deriving Repr

/-- `len(*value)` for strings, slices and maps (data.go:292, 348, 399). -/
def Val.len : Val → Nat
  | .num _ => 0
  | .str s => s.length
  | .slice vs => vs.length
  | .map kvs => kvs.length
  | .ptr _ => 0

/-- The unit of a limit (data.go:295, 351, 402). -/
def Val.unit : Val → Str
  | .str _ => " bytes".toList
  | .num _ => " items".toList
  | .slice _ => " items".toList
  | .map _ => " items".toList
  | .ptr _ => " items".toList

/-- `Missing` of `Number`, `String`, `Sliced` and `Mapped`, and `Absent` (data.go:114-121, 254-261, 300-307, 356-363,
423-430). -/
def missing (ref : Ref) : Val → Option Err
  | .num n => if n = 0 then some (.leaf { value := ref } .missing) else none
  | .ptr p => if p.isNone then some (.leaf { value := ref } .missing) else none
  | .str s => if s.length = 0 then some (.leaf { value := ref } .missing) else none
  | .slice vs => if vs.length = 0 then some (.leaf { value := ref } .missing) else none
  | .map kvs => if kvs.length = 0 then some (.leaf { value := ref } .missing) else none

/-- `Exceeds` of `String`, `Sliced` and `Mapped` (data.go:291-299, 347-355, 398-406). -/
def exceeds (ref : Ref) (v : Val) (limit : Int) : Option Err :=
  if limit < v.len then some (.leaf { value := ref } (.exceeds (showInt limit ++ v.unit))) else none

/-- `Invalid` (data.go:244-253, 281-290, 329-338, 388-397). -/
def invalid (ref : Ref) (v : Val) (cls : Str) (fn : Val → Bool) (hints : List Str) : Option Err :=
  if fn v then none else some (.leaf { value := ref } (.invalid cls (joinHints hints)))

/-- `Exists` (data.go:106-111): the pointer itself is given to the function. -/
def «exists» (p : Option (Ref × Val)) (fn : Ref → Val → Option Err) : Option Err :=
  match p with
  | none => none
  | some (r, v) => fn r v

/-- `Sliced(value).ForEach` (data.go:339-346); `refs` are the pointers `&(*value)[i]`. -/
def forEach (fn : Ref → Val → Option Err) : List (Ref × Val) → Option Err
  | [] => none
  | (r, v) :: rest =>
    match fn r v with
    | some e => some e
    | none => forEach fn rest

/-- `Mapped(value).ForEach` and `MapKeys` (data.go:407-422): the elements in the order of the iteration, each given to the
function by a pointer to a fresh variable, the addresses of which begin at `fresh`. -/
def forEachMapped (fn : Ref → Val → Option Err) (ty : Nat) : Nat → List Val → Option Err
  | _, [] => none
  | fresh, v :: rest =>
    match fn ⟨fresh, ty⟩ v with
    | some e => some e
    | none => forEachMapped fn ty (fresh + 1) rest

end Verif.Data
