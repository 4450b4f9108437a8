import Verif.Xyz.TaggedModel
/-!
# Model of tagged unions as JSON

Models `MarshalJSON` and `UnmarshalJSON` (/repo/xyz/tagged.go:165-328) and `UnmarshalText`
(344-353), over JSON values rather than their texts: objects are lists of distinct names with
their values. How the values of the cases themselves are written and read is a parameter, and
the storage is one that keeps them (`any`).
-/
namespace Verif.Xyz

/-- A JSON value (what `json.Marshal` and `json.Unmarshal` at `tagged.go:165-328` write and read). -/
inductive J where
  | null
  | bool (b : Bool)
  | num (n : Int)
  | str (s : Str)
  | arr (l : List J)
  | obj (fs : List (Str × J))

/-- `strings.Cut` on one character (`tagged.go:179-184`, `:242-244`). -/
def cut (sep : Char) : Str → Str × Str × Bool
  | [] => ([], [], false)
  | c :: s => if c = sep then ([], s, true) else (c :: (cut sep s).1, (cut sep s).2)

/-- A case: its `txt` tag (tagged.go:434,463), its `json` tag, whether it holds a value, and
whether that is of a string type. -/
structure CaseJ where
  /-- The `txt` tag, if there is one. -/
  text : Option Str
  /-- The `json` tag. -/
  json : Str
  /-- No value. -/
  void : Bool
  /-- `rtyp.Kind() == reflect.String`. -/
  isString : Bool

/-- What the standard library does with the values of the cases (`tagged.go:175`, `:211`, `:217`, `:254-274`). -/
structure Codec (V : Type) where
  /-- `json.Marshal`. -/
  enc : Nat → V → J
  /-- `json.Unmarshal` into a new value of the case's type. -/
  dec : Nat → J → Option V
  /-- Reading from a string (tagged.go:251-277). -/
  decText : Nat → Str → Option V
  /-- `fmt.Sprintf` with the `txt` tag. -/
  print : Nat → Option V → Str

/-- The parts of a `json` tag: `name?key=val,kind` (tagged.go:179-184,242-244). -/
structure Parts where
  /-- All but the kind. -/
  base : Str
  /-- After the comma. -/
  kind : Str
  /-- Before the question mark. -/
  name : Str
  /-- After it. -/
  rule : Str
  /-- There was a question mark. -/
  hasKey : Bool
  /-- Before the equals sign. -/
  key : Str
  /-- After it. -/
  val : Str
  /-- There was an equals sign. -/
  hasConst : Bool

/-- The two or three cuts (`tagged.go:179-184`, `:242-244`). -/
def parts (json : Str) : Parts :=
  let b := cut ',' json
  let n := cut '?' b.1
  let k := cut '=' n.2.1
  { base := b.1, kind := b.2.1, name := n.1, rule := n.2.1, hasKey := n.2.2, key := k.1, val := k.2.1,
    hasConst := k.2.2 }

/-- Sets a name of an object (`tagged.go:186-191`). -/
def setName (k : Str) (v : J) (fs : List (Str × J)) : List (Str × J) :=
  fs.filter (fun f => f.1 ≠ k) ++ [(k, v)]

/-- The embedded struct with one more field (tagged.go:195-209). -/
def merge (key val : Str) : J → J
  | .obj fs => .obj (setName key (.str val) fs)
  | j => .obj [("UnionValue".toList, j), (key, .str val)]

/-- The value, if any; nil is null (`access.get(&v)`, `tagged.go:187`). -/
def encOpt {V : Type} (cd : Codec V) (i : Nat) : Option V → J
  | some v => cd.enc i v
  | none => .null

/-- `MarshalJSON` (tagged.go:165-212) of a union that holds case `i`. -/
def marshalJ {V : Type} (cd : Codec V) (i : Nat) (c : CaseJ) (v : Option V) : J :=
  match c.text with
  | some t => .str (if '%' ∈ t then cd.print i v else t)
  | none =>
    let p := parts c.json
    if p.kind = "null".toList then .null
    else if p.name ≠ [] then
      .obj (if p.key ≠ [] then setName p.key (.str p.val) [(p.name, encOpt cd i v)] else [(p.name, encOpt cd i v)])
    else if p.hasConst then merge p.key p.val (encOpt cd i v)
    else encOpt cd i v

/-- The outcome of trying a case (`tagged.go:224-321`). -/
inductive Try (V : Type) where
  /-- Not this one; whether values are read from strings from now on. -/
  | next (fromText : Bool)
  /-- The union holds that case; none if the storage was not written. -/
  | ok (i : Nat) (v : Option V)
  | err
  | panic

/-- `json.Unmarshal` into a string; null is none at all (`tagged.go:227`, `:260`). -/
def asString : J → Option Str
  | .str s => some s
  | .null => some []
  | _ => none

/-- `json.Unmarshal` into a map (`tagged.go:303`). -/
def asObject : J → Option (List (Str × J))
  | .obj fs => some fs
  | .null => some []
  | _ => none

/-- The closure `unmarshal` (tagged.go:215-222,251-277), on a case's own type. -/
def decode {V : Type} (cd : Codec V) (fromText : Bool) (i : Nat) (c : CaseJ) (j : J) : Try V :=
  if c.void then .panic
  else match (if fromText then (asString j).bind (cd.decText i) else cd.dec i j) with
    | some v => .ok i (some v)
    | none => .err

/-- The first byte of the text (tagged.go:280). -/
def J.isNum : J → Bool
  | .num _ => true
  | _ => false
/-- The first byte is a quote (`tagged.go:247`). -/
def J.isStr : J → Bool
  | .str _ => true
  | _ => false
/-- The first byte is a brace (`tagged.go:284`). -/
def J.isObj : J → Bool
  | .obj _ => true
  | _ => false
/-- The first byte is a bracket (`tagged.go:288`). -/
def J.isArr : J → Bool
  | .arr _ => true
  | _ => false
/-- The text is null (`tagged.go:292`). -/
def J.isNull : J → Bool
  | .null => true
  | _ => false

/-- Characters that `strconv.Quote` and `encoding/json` both leave as they are; any other in a
constant is taken to spoil the comparison (`tagged.go:318`). -/
def plainChar (c : Char) : Bool :=
  32 ≤ c.toNat && c.toNat ≤ 126 && c ∉ ['<', '>', '&']

/-- `string(keyValue) == strconv.Quote(val)` (tagged.go:318). -/
def quotedAs (val : Str) : Option J → Bool
  | some (.str s) => s == val && val.all plainChar
  | _ => false

/-- The part of the loop after the kind (tagged.go:298-321). -/
def tryBase {V : Type} (cd : Codec V) (ft : Bool) (i : Nat) (c : CaseJ) (p : Parts) (j : J) : Try V :=
  if p.base = [] then decode cd ft i c j
  else match asObject j with
    | none => .err
    | some fs =>
      if p.rule = [] then
        match fs.lookup p.name with
        | some x => decode cd ft i c x
        | none => .next ft
      else
        if (p.hasKey = true ∧ p.name = []) ∨ (p.hasConst = false ∧ (fs.lookup p.key).isSome = true) then
          decode cd ft i c j
        else if p.hasKey = true ∧ p.hasConst = true ∧ quotedAs p.val (fs.lookup p.key) = true then
          match fs.lookup p.name with
          | some x => decode cd ft i c x
          | none => .err
        else .next ft

/-- The switch on the kind (tagged.go:245-297). -/
def tryKind {V : Type} (cd : Codec V) (ft : Bool) (i : Nat) (c : CaseJ) (p : Parts) (j : J) : Try V :=
  if p.kind = "string".toList then
    if c.isString = true ∧ j.isStr = false then .next ft
    else tryBase cd (ft || !c.isString) i c p j
  else if p.kind = "number".toList then
    if j.isNum then tryBase cd ft i c p j else .next ft
  else if p.kind = "object".toList then
    if j.isObj then tryBase cd ft i c p j else .next ft
  else if p.kind = "array".toList then
    if j.isArr then tryBase cd ft i c p j else .next ft
  else if p.kind = "null".toList then
    if j.isNull then .ok i none else .next ft
  else tryBase cd ft i c p j

/-- One turn of the loop (tagged.go:225-321). -/
def tryCase {V : Type} (cd : Codec V) (ft : Bool) (i : Nat) (c : CaseJ) (j : J) : Try V :=
  match c.text with
  | some t =>
    match asString j with
    | none => .err
    | some s => if t = s then .ok i none else .next ft
  | none => if c.json = [] then .next ft else tryKind cd ft i c (parts c.json) j

/-- The loop. After it the storage itself takes the text (tagged.go:323-327), without a case:
`next`. -/
def tryFrom {V : Type} (cd : Codec V) (j : J) : Bool → Nat → List CaseJ → Try V
  | ft, _, [] => .next ft
  | ft, i, c :: cs =>
    match tryCase cd ft i c j with
    | .next ft => tryFrom cd j ft (i + 1) cs
    | r => r

/-- `UnmarshalJSON` (tagged.go:214-328). -/
def unmarshalJ {V : Type} (cd : Codec V) (cases : List CaseJ) (j : J) : Try V := tryFrom cd j false 0 cases

/-- `UnmarshalText` (tagged.go:344-353): the case afterwards, given the one before, and whether
there was no error. A case without a `txt` tag has the empty text. -/
def unmarshalUnionText (cases : List CaseJ) (old : Option Nat) (t : Str) : Option Nat × Bool :=
  match firstFrom (fun i => (cases[i]?).map (fun c => c.text.getD []) == some t) 0 cases.length with
  | some i => (some i, true)
  | none => (old, true)

end Verif.Xyz
