/-!
# Model: errors with traces (api/xray/errs.go)

Texts are lists of characters. Errors of other packages are what `errors` and `fmt` of Go's library make: values
of their own, `fmt.Errorf` with one `%w`, and `errors.Join`.
-/
namespace Verif.Xray.Err

/-- A text (`errs.go:16`). -/
abbrev Str := List Char

/-- `trace` (`errs.go:90-95`), with the name `runtime.FuncForPC` finds for its `pc` (`:108`). -/
structure Place where
  function : Str
  file : Str
  line : Nat
  ok : Bool
  deriving DecidableEq, Repr

/-- A Go error. `value` is one of another package, known by a number (its identity), a text, and what its method
`Source` returns if it has one (`traceable`, `errs.go:86-88`); `wrapped` is `fmt.Errorf(pre + "%w", e)`;
`joined` is `errors.Join(a, b)`; `traced` is an `errorWithTrace` (`errs.go:11-14`). -/
inductive Error
  | value (id : Nat) (text : Str) (source : Option Place)
  | wrapped (pre : Str) (e : Error)
  | joined (a b : Error)
  | traced (p : Place) (e : Error)
  deriving DecidableEq, Repr

/-- `e.Source()`, if `e` has the method (`errs.go:30-32`, `:107-109`). -/
def Error.source : Error → Option Place
  | .value _ _ s => s
  | .traced p _ => some p
  | _ => none

/-- `errors.Unwrap` of Go's library, used at `errs.go:20`: joined errors have no `Unwrap() error`. With it, all
errors from `e` on: the loop at `errs.go:20-22`. -/
def Error.chain : Error → List Error
  | .value i t s => [.value i t s]
  | .wrapped pre e => .wrapped pre e :: e.chain
  | .joined a b => [.joined a b]
  | .traced p e => .traced p e :: e.chain

/-- `strconv.Itoa` for lines (`errs.go:41`). -/
def itoa (n : Nat) : Str := (toString n).toList

/-- What is written for one place (`errs.go:34-43`, `:48-57`). -/
def writePlace (p : Place) : Str :=
  if p.ok then p.function ++ '(' :: ')' :: '\n' :: '\t' :: p.file ++ ':' :: itoa p.line ++ ['\n'] else []

/-- The loop at `errs.go:28-46`, over `trace` backwards. -/
def writeTrace (trace : List Error) : Str :=
  trace.reverse.flatMap fun e => match e.source with
    | some p => writePlace p
    | none => []

/-- `Format` (`errs.go:18-59`) of `traced p e`, given the text of `e`; the verb is not looked at. -/
def format (p : Place) (e : Error) (text : Str) : Str :=
  ['E', 'r', 'r', 'o', 'r', ':', ' '] ++ text ++ '\n' :: '\n' :: writeTrace e.chain ++ writePlace p

/-- `Error()`: of an `errorWithTrace` (`errs.go:16`) that of the error inside. `fmt.Errorf` writes its operand as
`%v` does, which for a value with a method `Format` is what that writes. `errors.Join` puts the texts on lines. -/
def Error.text : Error → Str
  | .value _ t _ => t
  | .wrapped pre (.traced p e) => pre ++ format p e e.text
  | .wrapped pre e => pre ++ e.text
  | .joined a b => a.text ++ '\n' :: b.text
  | .traced _ e => e.text

/-- What `fmt.Sprint(e)`, `%v` or `%s` print: `Format` of an `errorWithTrace` (`errs.go:18-59`), else the text. -/
def Error.printed : Error → Str
  | .traced p e => format p e e.text
  | e => e.text

/-- `errors.Is` of Go's library for a target that is a value; `Unwrap` is `errs.go:61`. -/
def Error.is (id : Nat) : Error → Bool
  | .value i _ _ => i == id
  | .wrapped _ e => e.is id
  | .joined a b => a.is id || b.is id
  | .traced _ e => e.is id

/-- `runtime.Caller`: the frames of the stack, that of the function that calls it first (`errs.go:69`, `:81`). -/
abbrev Stack := Nat → Place

/-- `New` (`errs.go:64-72`); `none` is the nil error. -/
def new (stack : Stack) : Option Error → Option Error
  | none => none
  | some e => some (.traced (stack 1) e)

/-- `Error` (`errs.go:76-84`). -/
def errorSkip (stack : Stack) (skip : Nat) : Option Error → Option Error
  | none => none
  | some e => some (.traced (stack (skip + 1)) e)

end Verif.Xray.Err
