import Verif.Pair.Model
/-!
# What a pairing should do
-/
namespace Verif.Pair

/-- Neither path leads through the other. -/
def Disjoint (p q : List Nat) : Prop := ¬ p <+: q ∧ ¬ q <+: p

/-- Two pointers that do not overlap; a constant overlaps nothing. -/
def Loc.Apart : Loc → Loc → Prop
  | .path p, .path q => Disjoint p q
  | .const _, _ => True
  | .path _, .const _ => True

/-- A 1:1 mapping: no two pairs overlap, on either side. -/
def OneToOne (mapping : List Field) : Prop :=
  mapping.Pairwise fun a b => a.isFrom.Apart b.isFrom ∧ a.isInto.Apart b.isInto

/-- The path leads to a part of the value. -/
inductive Has : Val → List Nat → Prop
  | here (v : Val) : Has v []
  | there (fs : List Val) (i : Nat) (v : Val) (p : List Nat) : fs[i]? = some v → Has v p → Has (.struct fs) (i :: p)

/-- The pointers of the mapping point into values like these. -/
def Into (mapping : List Field) (zeroFrom zeroInto : Val) : Prop :=
  ∀ m ∈ mapping, (∀ p, m.isFrom = .path p → Has zeroFrom p) ∧ (∀ p, m.isInto = .path p → Has zeroInto p)

/-- A rule that pairs whole elements: `pair.Int`, `pair.String`, ..., or `pair.Slice` with such a rule. -/
inductive Whole : Field → Prop
  | copy : Whole (.copy (.path []) (.path []))
  | slice (zf zi : Val) (rule : Field) : Whole rule → Whole (.slice (.path []) (.path []) zf zi rule)

/-- A pair that is not a map, and whose rule, if it is a slice, pairs whole elements. -/
inductive Plain : Field → Prop
  | copy (f i : Loc) : Plain (.copy f i)
  | slice (f i : Loc) (zf zi : Val) (rule : Field) : Whole rule → Plain (.slice f i zf zi rule)

/-- Two values are the same but for nil slices, which are as good as empty ones. -/
inductive Same : Val → Val → Prop
  | refl (v : Val) : Same v v
  | empty : Same (.slice none) (.slice (some []))
  | slice (xs ys : List Val) : xs.length = ys.length → (∀ i (h : i < xs.length) (h' : i < ys.length), Same xs[i] ys[i]) →
      Same (.slice (some xs)) (.slice (some ys))

/-- The value has the static type that the rule needs: a slice where the rule is one for slices. -/
inductive Fits : Field → Val → Prop
  | copy (f i : Loc) (v : Val) : Fits (.copy f i) v
  | nil (f i : Loc) (zf zi : Val) (rule : Field) : Fits (.slice f i zf zi rule) (.slice none)
  | slice (f i : Loc) (zf zi : Val) (rule : Field) (vs : List Val) : (∀ v ∈ vs, Fits rule v) →
      Fits (.slice f i zf zi rule) (.slice (some vs))

/-- The mapping seen from the other side. -/
def Field.flip : Field → Field
  | .copy f i => .copy i f
  | .slice f i zf zi r => .slice i f zi zf r.flip
  | .map f i zfk zik zfv ziv k v => .map i f zik zfk ziv zfv k.flip v.flip

/-- The mapping pairs a field `old` of the second struct with a field `new` of the first. -/
def Renames (from_ into : List SField) (mapping : List Field) (old new : Str) : Prop :=
  ∃ m ∈ mapping, ∃ a b sf si, m.isFrom = .path [a] ∧ m.isInto = .path [b] ∧ from_[a]? = some sf ∧ into[b]? = some si ∧
    si.name = old ∧ sf.name = new

/-- The fields of a Go struct type that has no blank fields. -/
def Named (fs : List SField) : Prop := (fs.map SField.name).Nodup

/-- All fields are exported. -/
def AllExported (fs : List SField) : Prop := ∀ s ∈ fs, s.exported = true

end Verif.Pair
