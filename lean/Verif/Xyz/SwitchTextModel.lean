import Verif.Xyz.SwitchModel
import Verif.Json.TextModel
/-!
# Model of the JSON texts of switch types (enums)

Models `/repo/xyz/switch.go` again, where it reads and writes JSON, but on the texts instead of the values they say. Of
`encoding/json` it has `json.Marshal` of a string and `json.Unmarshal` of a text that begins with a quotation mark
(`Verif.Json`). Texts that begin otherwise are not modelled here.
-/
namespace Verif.Xyz.SwitchText

/-- `ValuesJSON` (switch.go:273-290). The `err` of `json.Marshal` of a string is always nil. -/
def valuesJSON : List Str → List Json.Text
  | [] => []
  | name :: names => Json.marshalString (Json.ofText name) :: valuesJSON names

/-- The names of the fields in Go: the `json` tag if there is one, even an empty one, else the name of the field
(switch.go:279-282, 82-85, 133-136). -/
def fieldNames : List (Str × Option Str) → List Str
  | [] => []
  | (_, some tag) :: fields => tag :: fieldNames fields
  | (name, none) :: fields => name :: fieldNames fields

/-- `json.Marshal` of a switch: what `MarshalText` gives (switch.go:129-166), as a string. -/
def marshal (k : Kind) (names : List Str) (v : Val) : Json.Text :=
  Json.marshalString (Json.ofText (marshalText k names v))

/-- The characters of a string that was read: there are no others (`s` at `switch.go:78`). -/
def chars : Json.GoStr → Str
  | [] => []
  | .ch c :: s => c :: chars s
  | .bad _ :: s => Char.ofNat 0xFFFD :: chars s

/-- `UnmarshalJSON` (switch.go:75-126) of a text that begins with a quotation mark: the value afterwards, and whether there
was no error. A string is an error for the storage itself, unless that is a string (switch.go:125). -/
def unmarshalQuoted (k : Kind) (names : List Str) (old : Val) (t : Json.Text) : Val × Bool :=
  match Json.unmarshalString t with
  | none => (old, false)
  | some s =>
    if k = .string then (.s (chars s), true)
    else match byName names (chars s) with
      | some i => ((k.ofIndex i).getD old, true)
      | none => (old, false)

end Verif.Xyz.SwitchText
