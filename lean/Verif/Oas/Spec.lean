import Verif.Oas.Model

/-!
# OpenAPI schemas: specification

JSON values; when a JSON schema accepts a value (JSON Schema, draft 2020-12); which values belong to a Go
type; and which values `encoding/json` writes for a Go type.
-/
namespace Verif.Oas.Spec
open Verif.Oas

/-- A JSON value. -/
inductive J
  | null
  | bool (b : Bool)
  | int (i : Int)
  /-- a number that is not an integer -/
  | frac (n : Nat)
  | str (s : Name)
  | arr (js : List J)
  | obj (kvs : List (Name × J))

/-- JSON Schema: the schema accepts the value. -/
inductive Valid (defs : Reg) : Schema → J → Prop
  | any (j : J) : Valid defs .any j
  | ref (k : Key) (s : Schema) (j : J) : defs k = some s → Valid defs s j → Valid defs (.ref k) j
  | bool (b : Bool) : Valid defs .bool (.bool b)
  | int (min max : Option Int) (i : Int) : (∀ m, min = some m → m ≤ i) → (∀ m, max = some m → i ≤ m) →
      Valid defs (.int min max) (.int i)
  | numberInt (i : Int) : Valid defs .number (.int i)
  | numberFrac (n : Nat) : Valid defs .number (.frac n)
  | str (s : Name) : Valid defs .str (.str s)
  | arr (items : Schema) (n : Nat) (js : List J) : (n = 0 ∨ js.length ≤ n) → (∀ j ∈ js, Valid defs items j) →
      Valid defs (.arr items n) (.arr js)
  | map (names values : Schema) (kvs : List (Name × J)) : (∀ kv ∈ kvs, Valid defs names (.str kv.1)) →
      (∀ kv ∈ kvs, Valid defs values kv.2) → Valid defs (.map names values) (.obj kvs)
  | obj (ps : Props) (required : List Name) (kvs : List (Name × J)) :
      (∀ kv ∈ kvs, ∀ s, ps.find kv.1 = some s → Valid defs s kv.2) →
      (∀ n ∈ required, ∃ v, (n, v) ∈ kvs) → Valid defs (.obj ps required) (.obj kvs)

/-- The integers of a numeric kind. -/
def InRange : Num → Int → Prop
  | .int8, i => -2 ^ 7 ≤ i ∧ i < 2 ^ 7
  | .int16, i => -2 ^ 15 ≤ i ∧ i < 2 ^ 15
  | .int32, i => -2 ^ 31 ≤ i ∧ i < 2 ^ 31
  | .int64, i => -2 ^ 63 ≤ i ∧ i < 2 ^ 63
  | .int, i => -2 ^ 63 ≤ i ∧ i < 2 ^ 63
  | .uint8, i => 0 ≤ i ∧ i < 2 ^ 8
  | .uint16, i => 0 ≤ i ∧ i < 2 ^ 16
  | .uint32, i => 0 ≤ i ∧ i < 2 ^ 32
  | .uint64, i => 0 ≤ i ∧ i < 2 ^ 64
  | .uint, i => 0 ≤ i ∧ i < 2 ^ 64
  | .float32, _ => True
  | .float64, _ => True

/-- The numbers a document promises for a numeric kind: signed integers of 32 bits and more, and unsigned of
64 bits, are not bounded by their size. -/
def Promised : Num → Int → Prop
  | .int32, _ => True
  | .int64, _ => True
  | .int, _ => True
  | .uint, i => 0 ≤ i
  | .uint64, i => 0 ≤ i ∧ i ≤ 2 ^ 64
  | k, i => InRange k i

/-- A floating-point kind. -/
def isFloat : Num → Bool
  | .float32 => true
  | .float64 => true
  | _ => false

/-- A field as seen in JSON: name, type, may it be left out, how deep is the struct it was found in. -/
structure Field where
  name : Name
  ty : Ty
  opt : Bool
  depth : Nat

/-- The name of a field in JSON: the name in the tag if there is one. -/
def jsonName (field : Name) : Option Name → Name
  | some (c :: cs) => c :: cs
  | _ => field

/-- The fields of a struct: its own and those of embedded structs without a name in the tag; an embedded
struct with a name in the tag is a field of that name. -/
def allFields : Nat → Fields → List Field
  | _, .nil => []
  | d, .cons f tag opt t rest => ⟨jsonName f tag, t, opt, d⟩ :: allFields d rest
  | d, .embed _ (some (c :: cs)) inner rest => ⟨c :: cs, .struct inner, false, d⟩ :: allFields d rest
  | d, .embed _ (some []) inner rest => allFields (d + 1) inner ++ allFields d rest
  | d, .embed _ none inner rest => allFields (d + 1) inner ++ allFields d rest

/-- The fields of a struct that are in its JSON object: no other field with the name is as shallow (the rule of
`encoding/json`, without its preference for names given by tags). -/
def fieldsOf (fs : Fields) : List Field :=
  (allFields 0 fs).filter fun f =>
    ((allFields 0 fs).filter fun g => g.name = f.name ∧ g.depth ≤ f.depth).length = 1

/-- The type is a boolean or a pointer, declared or not. -/
inductive Optional (env : Env) : Ty → Prop
  | bool : Optional env .bool
  | pointer (t : Ty) : Optional env (.pointer t)
  | named (id : Nat) (d : Decl) : env[id]? = some d → Optional env d.body → Optional env (.named id)

/-- The JSON values a document should promise for a Go type: an object has a property for each field that is
always written, and booleans and pointers may be missing. -/
inductive Conforms (env : Env) : Ty → J → Prop
  | any (j : J) : Conforms env .any j
  | bool (b : Bool) : Conforms env .bool (.bool b)
  | int (k : Num) (i : Int) : Promised k i → Conforms env (.num k) (.int i)
  | frac (k : Num) (n : Nat) : isFloat k = true → Conforms env (.num k) (.frac n)
  | str (s : Name) : Conforms env .str (.str s)
  | slice (t : Ty) (js : List J) : (∀ j ∈ js, Conforms env t j) → Conforms env (.slice t) (.arr js)
  | array (n : Nat) (t : Ty) (js : List J) : js.length ≤ n → (∀ j ∈ js, Conforms env t j) →
      Conforms env (.array n t) (.arr js)
  | map (key t : Ty) (kvs : List (Name × J)) : (∀ kv ∈ kvs, Conforms env key (.str kv.1)) →
      (∀ kv ∈ kvs, Conforms env t kv.2) → Conforms env (.map key t) (.obj kvs)
  | pointer (t : Ty) (j : J) : Conforms env t j → Conforms env (.pointer t) j
  | struct (fs : Fields) (kvs : List (Name × J)) :
      (∀ kv ∈ kvs, ∀ f ∈ fieldsOf fs, f.name = kv.1 → Conforms env f.ty kv.2) →
      (∀ f ∈ fieldsOf fs, f.opt = false → ¬ Optional env f.ty → ∃ v, (f.name, v) ∈ kvs) →
      Conforms env (.struct fs) (.obj kvs)
  | named (id : Nat) (d : Decl) (j : J) : env[id]? = some d → Conforms env d.body j → Conforms env (.named id) j

/-- A key of a map as a JSON name: a string as it is, an integer in decimal. -/
inductive KeyText (env : Env) : Ty → Name → Prop
  | str (s : Name) : KeyText env .str s
  | num (k : Num) (n : Nat) : isFloat k = false → InRange k n → KeyText env (.num k) (toString n).toList
  | named (id : Nat) (d : Decl) (s : Name) : env[id]? = some d → KeyText env d.body s → KeyText env (.named id) s

/-- The elements of a slice are bytes. -/
def isByte : Ty → Bool
  | .num .uint8 => true
  | _ => false

/-- What `encoding/json` writes for a value of a Go type, given whether it holds nil. -/
inductive JsonOf (env : Env) (nils : Bool) : Ty → J → Prop
  | any (j : J) : JsonOf env nils .any j
  | bool (b : Bool) : JsonOf env nils .bool (.bool b)
  | int (k : Num) (i : Int) : InRange k i → JsonOf env nils (.num k) (.int i)
  | frac (k : Num) (n : Nat) : isFloat k = true → JsonOf env nils (.num k) (.frac n)
  | str (s : Name) : JsonOf env nils .str (.str s)
  | slice (t : Ty) (js : List J) : isByte t = false → (∀ j ∈ js, JsonOf env nils t j) →
      JsonOf env nils (.slice t) (.arr js)
  | bytes (t : Ty) (s : Name) : isByte t = true → JsonOf env nils (.slice t) (.str s)
  | array (n : Nat) (t : Ty) (js : List J) : js.length = n → (∀ j ∈ js, JsonOf env nils t j) →
      JsonOf env nils (.array n t) (.arr js)
  | map (key t : Ty) (kvs : List (Name × J)) : (∀ kv ∈ kvs, KeyText env key kv.1) →
      (∀ kv ∈ kvs, JsonOf env nils t kv.2) → JsonOf env nils (.map key t) (.obj kvs)
  | pointer (t : Ty) (j : J) : JsonOf env nils t j → JsonOf env nils (.pointer t) j
  | nilSlice (t : Ty) : nils = true → JsonOf env nils (.slice t) .null
  | nilMap (key t : Ty) : nils = true → JsonOf env nils (.map key t) .null
  | nilPointer (t : Ty) : nils = true → JsonOf env nils (.pointer t) .null
  | struct (fs : Fields) (kvs : List (Name × J)) :
      (∀ kv ∈ kvs, ∃ f ∈ fieldsOf fs, f.name = kv.1) →
      (∀ kv ∈ kvs, ∀ f ∈ fieldsOf fs, f.name = kv.1 → JsonOf env nils f.ty kv.2) →
      (∀ f ∈ fieldsOf fs, f.opt = false → ∃ v, (f.name, v) ∈ kvs) → JsonOf env nils (.struct fs) (.obj kvs)
  | named (id : Nat) (d : Decl) (j : J) : env[id]? = some d → JsonOf env nils d.body j →
      JsonOf env nils (.named id) j

/-! ## The programs for which the properties hold -/

mutual
/-- The types for which documents are right: declared types are declared; arrays have elements; the names of
the fields of a struct, its own and embedded ones, are different from each other and from the names of the
embedded types, which have no name in their tag. -/
def Plain (env : Env) : Ty → Prop
  | .bool => True
  | .num _ => True
  | .str => True
  | .any => True
  | .slice t => Plain env t
  | .array n t => 0 < n ∧ Plain env t
  | .map key t => Plain env key ∧ Plain env t
  | .pointer t => Plain env t
  | .struct fs => PlainFields env fs ∧ ((allFields 0 fs).map Field.name).Nodup ∧
      ∀ n ∈ embeddedNames fs, n ∉ (allFields 0 fs).map Field.name
  | .named id => id < env.length

def PlainFields (env : Env) : Fields → Prop
  | .nil => True
  | .cons _ _ _ t rest => Plain env t ∧ PlainFields env rest
  | .embed _ tag inner rest => (tag = none ∨ tag = some []) ∧ PlainFields env inner ∧ PlainFields env rest

/-- The names of the embedded types. -/
def embeddedNames : Fields → List Name
  | .nil => []
  | .cons _ _ _ _ rest => embeddedNames rest
  | .embed n _ inner rest => n :: (embeddedNames inner ++ embeddedNames rest)
end

/-- The programs: no two types have the same name in packages with the same last element of the path; no
declared type is a pointer or another declared type (the underlying type never is). -/
structure PlainEnv (env : Env) : Prop where
  bodies : ∀ d ∈ env, Plain env d.body
  keys : ∀ (i j : Nat) (c d : Decl), env[i]? = some c → env[j]? = some d → c.name = d.name →
    base c.pkg = base d.pkg → i = j
  underlying : ∀ d ∈ env, (∀ t, d.body ≠ .pointer t) ∧ ∀ i, d.body ≠ .named i

mutual
/-- No slices of bytes, and keys of maps that are strings. -/
def Textual (env : Env) : Ty → Prop
  | .slice t => isByte t = false ∧ Textual env t
  | .array _ t => Textual env t
  | .map key t => (∀ s, KeyText env key s → Conforms env key (.str s)) ∧ Textual env t
  | .pointer t => Textual env t
  | .struct fs => TextualFields env fs
  | .bool => True
  | .num _ => True
  | .str => True
  | .any => True
  | .named _ => True

def TextualFields (env : Env) : Fields → Prop
  | .nil => True
  | .cons _ _ _ t rest => Textual env t ∧ TextualFields env rest
  | .embed _ _ inner rest => TextualFields env inner ∧ TextualFields env rest
end

mutual
/-- The declared types a type mentions are among the first `n` declarations. -/
def Below (n : Nat) : Ty → Prop
  | .slice t => Below n t
  | .array _ t => Below n t
  | .map key t => Below n key ∧ Below n t
  | .pointer t => Below n t
  | .struct fs => BelowFields n fs
  | .bool => True
  | .num _ => True
  | .str => True
  | .any => True
  | .named i => i < n

def BelowFields (n : Nat) : Fields → Prop
  | .nil => True
  | .cons _ _ _ t rest => Below n t ∧ BelowFields n rest
  | .embed _ _ inner rest => BelowFields n inner ∧ BelowFields n rest
end

/-- The program declares the types it uses. -/
def Declared (env : Env) : Prop := ∀ d ∈ env, Below env.length d.body

mutual
/-- The references in a schema. -/
def refs : Schema → List Key
  | .ref k => [k]
  | .arr items _ => refs items
  | .map names values => refs names ++ refs values
  | .obj ps _ => refsOf ps
  | .any => []
  | .bool => []
  | .int _ _ => []
  | .number => []
  | .str => []

def refsOf : Props → List Key
  | .nil => []
  | .cons _ s rest => refs s ++ refsOf rest
end

/-- A document for these types accepts exactly the values that belong to them. -/
def Means (env : Env) (ts : List Ty) : Prop :=
  ∀ n ss defs, document env n noSchemas ts = some (ss, defs) →
    ∀ (i : Nat) t s, ts[i]? = some t → ss[i]? = some s → ∀ j, Valid defs s j ↔ Conforms env t j

/-- A document for these types accepts the values `encoding/json` writes for them. -/
def Accepts (env : Env) (nils : Bool) (ts : List Ty) : Prop :=
  ∀ n ss defs, document env n noSchemas ts = some (ss, defs) →
    ∀ (i : Nat) t s, ts[i]? = some t → ss[i]? = some s → ∀ j, JsonOf env nils t j → Valid defs s j

end Verif.Oas.Spec
