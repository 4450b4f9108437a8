import Verif.Rest.FormModel
/-!
# C197: what a form contains

The leaves of a value with the names on the way to them. A part is named by those names, with dots between them.
-/
namespace Verif.Rest.Form.Spec

/-- The name in a `json` tag: up to the first comma. -/
def jsonName (tag : Text) : Text := tag.takeWhile (· ≠ ',')

/-- The options of a `json` tag: between the commas after the name. -/
def options (tag : Text) : List Text := (tag.splitOn ',').tail

/-- The name of a field in a form: the `form` tag, else the name in the `json` tag, else its own. -/
def nameOf (f : Field) : Text :=
  if f.form ≠ [] then f.form else if jsonName f.json ≠ [] then jsonName f.json else f.name

/-- A field is left out if it is not part of the JSON of the value. -/
def leftOut (f : Field) : Prop :=
  f.exported = false ∨ f.json = ['-'] ∨ (f.zero = true ∧ (omitempty ∈ options f.json ∨ omitzero ∈ options f.json))

instance (f : Field) : Decidable (leftOut f) := by unfold leftOut; infer_instance

/-- What there is to say about a leaf: a file is sent with its name and the type of its first 512 bytes, a reader with what is
left to read of it. -/
structure Leaf where
  path : List Text
  file : Option Text
  ctype : Option Text
  content : Content
  deriving DecidableEq

/-- The leaf under one more name. -/
def Leaf.under (n : Text) (l : Leaf) : Leaf := { l with path := n :: l.path }

mutual
/-- The leaves of a value, in order; nil pointers have none. -/
def leaves (sniff : List Byte → Text) : Val → List Leaf
  | .marshaler (some t) => [⟨[], none, none, .text t⟩]
  | .marshaler none => []
  | .reader r =>
    let rest := r.bytes.drop r.pos
    [⟨[], r.file, if r.file.isSome ∧ r.seeker then some (sniff (rest.take 512)) else none, .bytes rest⟩]
  | .struct fs => leavesFields sniff fs
  | .map es => leavesEntries sniff es
  | .nilPointer => []
  | .pointer v => leaves sniff v
  | .scalar t => [⟨[], none, none, .text t⟩]
/-- The leaves of the fields. -/
def leavesFields (sniff : List Byte → Text) : Fields → List Leaf
  | .nil => []
  | .cons f v rest =>
    (if leftOut f then [] else (leaves sniff v).map (Leaf.under (nameOf f))) ++ leavesFields sniff rest
/-- The leaves of the entries. -/
def leavesEntries (sniff : List Byte → Text) : Entries → List Leaf
  | .nil => []
  | .cons k v rest => (leaves sniff v).map (Leaf.under k) ++ leavesEntries sniff rest
end

/-- Names with dots between them. -/
def dotted : List Text → Text
  | [] => []
  | [n] => n
  | n :: m :: ns => n ++ '.' :: dotted (m :: ns)

/-- The part of a leaf. -/
def part (l : Leaf) : Part := ⟨dotted l.path, l.file, l.ctype, l.content⟩

/-- The parts of a value. -/
def parts (sniff : List Byte → Text) (v : Val) : List Part := (leaves sniff v).map part

/-- A form has the leaves of the value, once each and in order, named by their paths, or an error is returned (as when a marshaler
fails). -/
def Holds : Prop := ∀ (sniff : List Byte → Text) (v : Val), Encode sniff v = .error ∨ Encode sniff v = .ok (parts sniff v)

end Verif.Rest.Form.Spec
