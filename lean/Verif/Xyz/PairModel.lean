import Verif.Xyz.TaggedJson
/-!
# Model of tagged unions as pairs

Models `MarshalPair`, `UnmarshalPair` (/repo/xyz/tagged.go:101-163), `Get` (76-78) and the keys of cases (`Key`, 683-686;
`accessor.key`, 535-553). The storage is any type; what `fmt.Sprintf` makes of a text with verbs is a parameter.
-/
namespace Verif.Xyz

/-- A case as far as pairs are concerned: a field of the struct of cases, with its tags (tagged.go:430-470). -/
structure PCase where
  /-- The field's name. -/
  name : Str
  /-- The `txt` tag, if there is one (`Tag.Lookup`, line 434). -/
  txt : Option Str
  /-- The `json` tag, empty if there is none (`Tag.Get`, line 464). -/
  json : Str

/-- `access.text` (tagged.go:434, 463). -/
def PCase.text (c : PCase) : Str := c.txt.getD []

/-- `access.zero`: the tag is there and empty (tagged.go:465). -/
def PCase.zero (c : PCase) : Bool := decide (c.text = []) && c.txt.isSome

/-- `access.fmts` (tagged.go:466). -/
def PCase.fmts (c : PCase) : Bool := c.text.contains '%'

/-- `access.text != "" || access.zero` (tagged.go:105, 133, 536). -/
def PCase.hasText (c : PCase) : Bool := decide (c.text ≠ []) || c.zero

/-- The base of the `json` tag (tagged.go:114-117, 143-146, 542-545). -/
def PCase.base (c : PCase) : Str := if (cut ',' c.json).1 = [] then c.name else (cut ',' c.json).1

/-- `name` (tagged.go:118, 147, 546). -/
def PCase.label (c : PCase) : Str := (cut '?' c.base).1

/-- `key` (tagged.go:119, 148, 547). -/
def PCase.ruleKey (c : PCase) : Str := (cut '=' (cut '?' c.base).2.1).1

/-- `val` (tagged.go:119, 148, 547). -/
def PCase.ruleVal (c : PCase) : Str := (cut '=' (cut '?' c.base).2.1).2.1

/-- A value of the union: `tag` and `ram` (tagged.go:70-73); the accessor is given as the index of its case. -/
structure PVar (S : Type) where
  /-- The case, if there is one. -/
  tag : Option Nat
  /-- The storage. -/
  ram : S

/-- How a call of `MarshalPair` ends (tagged.go:101-125). -/
inductive PRes (α : Type) where
  /-- It returns. -/
  | ok (a : α)
  /-- It returns an error. -/
  | err
  /-- It panics. -/
  | panic

/-- `MarshalPair` (tagged.go:101-125). Without a case, `access` is nil and line 105 panics. -/
def marshalPair {S : Type} (sprintf : Str → Nat → S → Str) (zero : S) (cases : List PCase) (v : PVar S) : PRes (Str × S) :=
  match v.tag with
  | none => .panic
  | some i =>
    match cases[i]? with
    | none => .panic
    | some c =>
      if c.hasText then
        if c.fmts then .ok (sprintf c.text i v.ram, zero) else .ok (c.text, zero)
      else if c.json = [] then .err
      else if c.ruleKey ≠ [] ∧ c.ruleVal ≠ [] then .ok (c.ruleVal, v.ram)
      else .ok (c.label, v.ram)

/-- The body of the loop of `UnmarshalPair` (tagged.go:132-161): whether the case is taken. -/
def takes (c : PCase) (s : Str) : Bool :=
  if c.hasText && decide (c.text = s) then true
  else if c.json = [] then false
  else if (decide (c.ruleKey ≠ []) && decide (c.ruleVal ≠ [])) && decide (c.ruleVal = s) then true
  else decide (c.label = s)

/-- The loop (tagged.go:132-161). -/
def firstTaking (s : Str) : Nat → List PCase → Option Nat
  | _, [] => none
  | i, c :: l => if takes c s then some i else firstTaking s (i + 1) l

/-- `UnmarshalPair` (tagged.go:127-163): the value after the call, and whether there was no error. -/
def unmarshalPair {S : Type} (cases : List PCase) (v : PVar S) (p : Str × S) : PVar S × Bool :=
  match firstTaking p.1 0 cases with
  | some i => ({ tag := some i, ram := p.2 }, true)
  | none => (v, false)

/-- `Key` of a case (tagged.go:683-686, 535-553); the error is `none`. -/
def caseKey (c : PCase) : Option Str :=
  if c.hasText then some c.text
  else if c.json = [] then none
  else if c.ruleKey ≠ [] ∧ c.ruleVal ≠ [] then some c.ruleVal
  else some c.label

end Verif.Xyz
