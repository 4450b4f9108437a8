import Verif.Jrpc.Model
import Verif.Jrpc.Spec
import Batteries.Data.List.Basic

/-! Specifications relating Go values to JSON values, for the codec as a whole. -/
namespace Verif.Jrpc

mutual
/-- Which JSON value a Go value stands for: what `encoding/json` documents for these kinds (byte slices as base64, nil as
null, omitted fields left out). -/
inductive Denotes : Val → JV → Prop
  | bool (b : Bool) : Denotes (.bool b) (.bool b)
  | int (i : Int) : Denotes (.int i) (.num i)
  | uint (n : Nat) : Denotes (.uint n) (.num n)
  | str (s : List UInt8) (cs : List Nat) : Decoded s cs → Denotes (.str s) (.str cs)
  | bytesNil : Denotes (.bytes none) .null
  | bytes (b t : List UInt8) : Base64 t b → Denotes (.bytes (some b)) (.str (t.map UInt8.toNat))
  | nilv : Denotes .nilv .null
  | slice (vs : List Val) (js : List JV) : List.Forall₂ Denotes vs js → Denotes (.slice vs) (.arr js)
  | array (vs : List Val) (js : List JV) : List.Forall₂ Denotes vs js → Denotes (.array vs) (.arr js)
  | map (kvs : List (Val × Val)) (ms : List (List Nat × JV)) :
      List.Forall₂ DenotesEntry kvs ms → Denotes (.map kvs) (.obj ms)
  | ptr (v : Val) (j : JV) : Denotes v j → Denotes (.ptr v) j
  | struct (fs : List (List UInt8 × Bool × Val)) (ms : List (List Nat × JV)) :
      List.Forall₂ DenotesField (fs.filter fun f => !f.2.1) ms → Denotes (.struct fs) (.obj ms)
/-- A map entry: the key must stand for a string. -/
inductive DenotesEntry : Val × Val → List Nat × JV → Prop
  | mk (k v : Val) (cs : List Nat) (j : JV) : Denotes k (.str cs) → Denotes v j → DenotesEntry (k, v) (cs, j)
/-- A struct field that is not omitted. -/
inductive DenotesField : List UInt8 × Bool × Val → List Nat × JV → Prop
  | mk (name : List UInt8) (om : Bool) (v : Val) (cs : List Nat) (j : JV) : Decoded name cs → Denotes v j →
      DenotesField (name, om, v) (cs, j)
end

/-- A field name that needs no escaping: well-formed UTF-8 without control characters, quotes and backslashes. -/
def PlainName (name : List UInt8) : Prop :=
  ∃ cs : List Nat, name = cs.flatMap utf8 ∧ ∀ c ∈ cs, Scalar c ∧ 0x20 ≤ c ∧ c ≠ 0x22 ∧ c ≠ 0x5C

/-- Values without arrays, empty byte slices, map keys that are not strings, and structs writing more than one field. -/
inductive Plain : Val → Prop
  | bool (b : Bool) : Plain (.bool b)
  | int (i : Int) : Plain (.int i)
  | uint (n : Nat) : Plain (.uint n)
  | str (s : List UInt8) : Plain (.str s)
  | bytesNil : Plain (.bytes none)
  | bytes (b : List UInt8) : b ≠ [] → Plain (.bytes (some b))
  | nilv : Plain .nilv
  | slice (vs : List Val) : (∀ v ∈ vs, Plain v) → Plain (.slice vs)
  | map (kvs : List (Val × Val)) : (∀ kv ∈ kvs, ∃ s, kv.1 = .str s) → (∀ kv ∈ kvs, Plain kv.2) → Plain (.map kvs)
  | ptr (v : Val) : Plain v → Plain (.ptr v)
  | struct (fs : List (List UInt8 × Bool × Val)) : (fs.filter fun f => !f.2.1).length ≤ 1 →
      (∀ f ∈ fs, PlainName f.1) → (∀ f ∈ fs, Plain f.2.2) → Plain (.struct fs)

/-- A well-formed UTF-8 string. -/
def Utf8 (s : List UInt8) : Prop := ∃ cs : List Nat, s = cs.flatMap utf8 ∧ ∀ c ∈ cs, Scalar c

/-- The values of a Go type that survive a trip through the codec: integers in the range of their width, well-formed
strings, slices and maps with at least one entry (not byte slices), pointers that are not nil. -/
inductive Fits : Ty → Val → Prop
  | bool (b : Bool) : Fits .bool (.bool b)
  | int (w : Nat) (i : Int) : 0 < w → w ≤ 64 → -(2 ^ (w - 1) : Nat) ≤ i → i < (2 ^ (w - 1) : Nat) → Fits (.int w) (.int i)
  | uint (w : Nat) (n : Nat) : w ≤ 64 → n < 2 ^ w → Fits (.uint w) (.uint n)
  | str (s : List UInt8) : Utf8 s → Fits .str (.str s)
  | slice (e : Ty) (vs : List Val) : e ≠ .uint 8 → vs ≠ [] → (∀ v ∈ vs, Fits e v) → Fits (.slice e) (.slice vs)
  | map (e : Ty) (ks : List (List UInt8)) (vs : List Val) : ks ≠ [] → ks.length = vs.length → ks.Nodup → (∀ k ∈ ks, Utf8 k) →
      (∀ v ∈ vs, Fits e v) → Fits (.map e) (.map ((ks.map Val.str).zip vs))
  | ptr (e : Ty) (v : Val) : Fits e v → Fits (.ptr e) (.ptr v)

end Verif.Jrpc
