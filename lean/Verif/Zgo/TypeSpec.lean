import Verif.Zgo.TypeModel
/-!
# zgo types as text: specification

What two types have in common when one is written like the other: everything but the direction of a channel, tags and
embedding of fields, being variadic, the path of a package (its name stays), the arguments of a generic type, the name
of an alias, and whether a constant's type is still untyped.
-/
namespace Verif.Zgo.Typ

/-- The default type of an untyped constant (the Go specification, "Constants"; `types.go:30-67`). -/
def Basic.typed : Basic → Basic
  | .untypedBool => .bool
  | .untypedInt => .int
  | .untypedRune => .int32
  | .untypedFloat => .float64
  | .untypedString => .string
  | .untypedComplex => .complex128
  | b => b

mutual
/-- A type without what `types.go:27-164` leaves out. -/
def erase : Ty → Ty
  | .basic b => .basic b.typed
  | .array n e => .array n (erase e)
  | .func _ ps rs => .func false (eraseAll ps) (eraseAll rs)
  | .named none name _ => .named none name .nil
  | .named (some p) name _ => .named (some ⟨[], p.name⟩) name .nil
  | .pointer e => .pointer (erase e)
  | .slice e => .slice (erase e)
  | .chan _ e => .chan .both (erase e)
  | .map k v => .map (erase k) (erase v)
  | .interface ms => .interface (eraseMethods ms)
  | .struct fs => .struct (eraseFields fs)
  | .tuple _ => .tuple .nil
  | .absent => .absent
  | .aliased _ t => erase t
  | .other => .other
/-- Each of several types (`types.go:73-77`). -/
def eraseAll : Tys → Tys
  | .nil => .nil
  | .cons t ts => .cons (erase t) (eraseAll ts)
/-- Fields keep their names, order and types (`types.go:144-152`). -/
def eraseFields : Fields → Fields
  | .nil => .nil
  | .cons name _ _ t fs => .cons name false [] (erase t) (eraseFields fs)
/-- Methods keep their names, order and types (`types.go:116-138`). -/
def eraseMethods : Methods → Methods
  | .nil => .nil
  | .cons name _ ps rs ms => .cons name false (eraseAll ps) (eraseAll rs) (eraseMethods ms)
end

/-- The punctuation of types in Zig (`types.go:68-154`). -/
def punctuation : List Char := ['(', ')', '[', ']', '{', '}', ',', '.', ':', ' ', '"', '@', '?', '*']

/-- A name without punctuation, as identifiers are (the Go specification, "Identifiers"). -/
def Ident (s : Str) : Prop := s ≠ [] ∧ ∀ c ∈ s, c ∉ punctuation

/-- The words of Zig that a type of this package can be mistaken for (`types.go:32`, `:143`, `:158`). -/
def zigWords : List Str := [['b', 'o', 'o', 'l'], ['v', 'o', 'i', 'd'], ['s', 't', 'r', 'u', 'c', 't']]

mutual
/-- The types whose text can be read back in the package `cur`: names are identifiers, the package's own types are not
called after Zig's words, and no other package is called `go` (`types.go:88-98`). -/
def Good (cur : Str) : Ty → Prop
  | .basic _ => True
  | .array _ e => Good cur e
  | .func _ ps rs => GoodAll cur ps ∧ GoodAll cur rs
  | .named none name _ => Ident name
  | .named (some p) name _ =>
    Ident name ∧ Ident p.name ∧ (p.name = cur → name ∉ zigWords) ∧ (p.name ≠ cur → p.name ≠ ['g', 'o'])
  | .pointer e => Good cur e
  | .slice e => Good cur e
  | .chan _ e => Good cur e
  | .map k v => Good cur k ∧ Good cur v
  | .interface ms => GoodMethods cur ms
  | .struct fs => GoodFields cur fs
  | .tuple _ => False
  | .absent => False
  | .aliased _ t => Good cur t
  | .other => False
/-- Each of several types (`types.go:73-77`). -/
def GoodAll (cur : Str) : Tys → Prop
  | .nil => True
  | .cons t ts => Good cur t ∧ GoodAll cur ts
/-- The fields of a struct (`types.go:144-152`). -/
def GoodFields (cur : Str) : Fields → Prop
  | .nil => True
  | .cons name _ _ t fs => Ident name ∧ Good cur t ∧ GoodFields cur fs
/-- The methods of an interface (`types.go:116-138`). -/
def GoodMethods (cur : Str) : Methods → Prop
  | .nil => True
  | .cons name _ ps rs ms => Ident name ∧ GoodAll cur ps ∧ GoodAll cur rs ∧ GoodMethods cur ms
end

/-- An alias (of whatever type), or the type of an untyped text constant (`types.go:106`). -/
def Ty.isAlias : Ty → Bool
  | .aliased _ _ => true
  | .basic .untypedString => true
  | _ => false

mutual
/-- Whether no map of the type is keyed by an alias (`types.go:105-109`). -/
def Keyed : Ty → Prop
  | .basic _ => True
  | .array _ e => Keyed e
  | .func _ ps rs => KeyedAll ps ∧ KeyedAll rs
  | .named _ _ _ => True
  | .pointer e => Keyed e
  | .slice e => Keyed e
  | .chan _ e => Keyed e
  | .map k v => k.isAlias = false ∧ Keyed k ∧ Keyed v
  | .interface ms => KeyedMethods ms
  | .struct fs => KeyedFields fs
  | .tuple _ => True
  | .absent => True
  | .aliased _ t => Keyed t
  | .other => True
/-- Each of several types (`types.go:73-77`). -/
def KeyedAll : Tys → Prop
  | .nil => True
  | .cons t ts => Keyed t ∧ KeyedAll ts
/-- The fields of a struct (`types.go:144-152`). -/
def KeyedFields : Fields → Prop
  | .nil => True
  | .cons _ _ _ t fs => Keyed t ∧ KeyedFields fs
/-- The methods of an interface (`types.go:116-138`). -/
def KeyedMethods : Methods → Prop
  | .nil => True
  | .cons _ _ ps rs ms => KeyedAll ps ∧ KeyedAll rs ∧ KeyedMethods ms
end

/-- How many types there are (`typ.Results().Len()`, `types.go:79`). -/
def Tys.length : Tys → Nat
  | .nil => 0
  | .cons _ ts => ts.length + 1

mutual
/-- Whether Zig text exists for the type: no untyped nil, unsafe pointer or type parameter, and no function of several
results, anywhere in it (`types.go:65-66`, `:83-85`, `:135-137`, `:161-162`). -/
def Writable : Ty → Prop
  | .basic b => b ≠ .untypedNil ∧ b ≠ .unsafePointer
  | .array _ e => Writable e
  | .func _ ps rs => WritableAll ps ∧ rs.length ≤ 1 ∧ WritableAll rs
  | .named _ _ _ => True
  | .pointer e => Writable e
  | .slice e => Writable e
  | .chan _ e => Writable e
  | .map k v => Writable k ∧ Writable v
  | .interface ms => WritableMethods ms
  | .struct fs => WritableFields fs
  | .tuple _ => True
  | .absent => True
  | .aliased _ t => Writable t
  | .other => False
/-- Each of several types (`types.go:73-77`). -/
def WritableAll : Tys → Prop
  | .nil => True
  | .cons t ts => Writable t ∧ WritableAll ts
/-- The fields of a struct (`types.go:144-152`). -/
def WritableFields : Fields → Prop
  | .nil => True
  | .cons _ _ _ t fs => Writable t ∧ WritableFields fs
/-- The methods of an interface (`types.go:116-138`). -/
def WritableMethods : Methods → Prop
  | .nil => True
  | .cons _ _ ps rs ms => WritableAll ps ∧ rs.length ≤ 1 ∧ WritableAll rs ∧ WritableMethods ms
end

end Verif.Zgo.Typ
