/-!
# Forms: model

`multipartEncoder` (`api/rest/mime.go:20-132`), the encoder of the content type `multipart/form-data` (`mime.go:239-243`).
A value is what the encoder's type switches see of it. Texts are lists of characters. `mime/multipart` writes the parts in
the order they are created; a part is its name, its file name, its content type and its content. The quoting of names in
the header is left out.
-/
namespace Verif.Rest.Form

abbrev Byte := UInt8
abbrev Text := List Char

/-- What `reflect.StructField` says (`mime.go:92-111`): its name, whether it is exported, its tags `json` and `form`, and whether
the field of the value is zero (`IsZero`). -/
structure Field where
  name : Text
  exported : Bool
  json : Text
  form : Text
  zero : Bool
  deriving DecidableEq, Repr

/-- An `io.Reader` (`mime.go:55-88`): its bytes, how many have been read already, its `Name` if it has one, whether it is an
`io.Seeker`. -/
structure Reader where
  bytes : List Byte
  pos : Nat
  file : Option Text
  seeker : Bool
  deriving DecidableEq, Repr

mutual
/-- A value as `encode` sees it (`mime.go:41-132`). The entries of a map are in the order of `MapKeys`, their keys are what
`%v` prints. -/
inductive Val where
  /-- an `encoding.TextMarshaler` and what it returns (`none`: an error) -/
  | marshaler (text : Option Text)
  | reader (r : Reader)
  | struct (fs : Fields)
  | map (es : Entries)
  | nilPointer
  | pointer (v : Val)
  /-- any other value, and what `fmt.Sprint` prints for it -/
  | scalar (text : Text)
/-- The fields of a struct. -/
inductive Fields where
  | nil
  | cons (f : Field) (v : Val) (rest : Fields)
/-- The entries of a map. -/
inductive Entries where
  | nil
  | cons (key : Text) (v : Val) (rest : Entries)
end

/-- Content of a part: a text or bytes. -/
inductive Content where
  | text (t : Text)
  | bytes (b : List Byte)
  deriving DecidableEq, Repr

/-- A part of the body: `WriteField`, `CreatePart`, `CreateFormField` (`mime.go:50`, `72`, `81`). -/
structure Part where
  name : Text
  file : Option Text
  ctype : Option Text
  content : Content
  deriving DecidableEq, Repr

/-- The parts written; an error of a marshaler or a file; a panic of `reflect`. -/
inductive Res where
  | ok (ps : List Part)
  | error
  | panic
  deriving DecidableEq, Repr

/-- One after the other, the first that fails ends it. -/
def Res.andThen : Res → Res → Res
  | .ok a, .ok b => .ok (a ++ b)
  | .ok _, r => r
  | r, _ => r

/-- `strings.Cut(tag, ",")` (`mime.go:102`). -/
def cut : Text → Text × Text
  | [] => ([], [])
  | c :: cs => if c = ',' then ([], cs) else (c :: (cut cs).1, (cut cs).2)

/-- `strings.HasPrefix`. -/
def hasPrefix : Text → Text → Bool
  | _, [] => true
  | [], _ :: _ => false
  | c :: cs, p :: ps => c == p && hasPrefix cs ps

/-- `strings.Contains` (`mime.go:106`). -/
def contains : Text → Text → Bool
  | [], p => p.isEmpty
  | c :: cs, p => hasPrefix (c :: cs) p || contains cs p

/-- `omitempty` -/
def omitempty : Text := ['o','m','i','t','e','m','p','t','y']
/-- `omitzero` -/
def omitzero : Text := ['o','m','i','t','z','e','r','o']

/-- The name of a field (`mime.go:100-114`). -/
def fname (f : Field) : Text :=
  let fname := if f.json ≠ [] ∧ (cut f.json).1 ≠ [] then (cut f.json).1 else f.name
  if f.form ≠ [] then f.form else fname

/-- Is a field left out (`mime.go:106-110`)? -/
def skipped (f : Field) : Bool :=
  f.json ≠ [] && (contains (cut f.json).2 omitempty || contains (cut f.json).2 omitzero) && f.zero

/-- The prefix of the fields of a struct (`mime.go:93-99`). -/
def prefixOf (name : Text) : Text :=
  let prefix_ := if name ≠ [] then name ++ ['.'] else name
  if name = ['_'] then [] else prefix_

/-- 512 bytes (`mime.go:66-67`): what was read, then zeros. -/
def buffer (read : List Byte) : List Byte := read.take 512 ++ List.replicate (512 - read.length) 0

/-- `encode` of a reader (`mime.go:55-88`). `sniff` is `http.DetectContentType`. A file's `Read` fills the buffer as far as
it can, and fails at the end of the file; `Seek(0, 0)` goes to the beginning. -/
def encodeReader (sniff : List Byte → Text) (name : Text) (r : Reader) : Res :=
  match r.file with
  | some file =>
    if r.seeker then
      if r.bytes.drop r.pos = [] then .error
      else .ok [⟨name, some file, some (sniff (buffer (r.bytes.drop r.pos))), .bytes r.bytes⟩]
    else .ok [⟨name, some file, none, .bytes (r.bytes.drop r.pos)⟩]
  | none => .ok [⟨name, none, none, .bytes (r.bytes.drop r.pos)⟩]

mutual
/-- `encode` (`mime.go:41-132`). -/
def encode (sniff : List Byte → Text) (name : Text) : Val → Res
  | .marshaler (some t) => .ok [⟨name, none, none, .text t⟩]
  | .marshaler none => .error
  | .reader r => encodeReader sniff name r
  | .struct fs => encodeFields sniff name fs
  | .map es => encodeEntries sniff es
  | .nilPointer => .panic
  | .pointer v => encode sniff name v
  | .scalar t => .ok [⟨name, none, none, .text t⟩]
/-- The loop over the fields (`mime.go:91-118`). `Interface` panics for fields that are not exported. -/
def encodeFields (sniff : List Byte → Text) (name : Text) : Fields → Res
  | .nil => .ok []
  | .cons f v rest =>
    if skipped f then encodeFields sniff name rest
    else if f.exported then
      (encode sniff (prefixOf name ++ fname f) v).andThen (encodeFields sniff name rest)
    else .panic
/-- The loop over the keys of a map (`mime.go:119-124`): the name is the key. -/
def encodeEntries (sniff : List Byte → Text) : Entries → Res
  | .nil => .ok []
  | .cons k v rest => (encode sniff k v).andThen (encodeEntries sniff rest)
end

/-- `multipartEncoder.Encode` (`mime.go:34-39`): `m.k` is empty. -/
def Encode (sniff : List Byte → Text) (v : Val) : Res := encode sniff [] v

end Verif.Rest.Form
