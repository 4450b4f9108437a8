/-!
# Model of the names of schemas

Models `cleanup` and `namespaceName` (/repo/api/rest/docs.go:414-440) on the texts of types that package reflect gives, and
these texts for instances of generic types.
-/
namespace Verif.Oas.Name

/-- Texts. -/
abbrev Str := List Char

/-- `strings.Cut` on one character: before, after, found (docs.go:415, 431). -/
def cut (sep : Char) : Str → Str × Str × Bool
  | [] => ([], [], false)
  | c :: s => if c = sep then ([], s, true) else (c :: (cut sep s).1, (cut sep s).2)

/-- `strings.TrimSuffix` of one character (docs.go:417). -/
def trimSuffix (x : Char) : Str → Str
  | [] => []
  | [c] => if c = x then [] else [c]
  | c :: d :: s => c :: trimSuffix x (d :: s)

/-- `strings.SplitSeq` on one character (docs.go:419). -/
def split (sep : Char) : Str → List Str
  | [] => [[]]
  | c :: s =>
    if c = sep then [] :: split sep s
    else match split sep s with
      | [] => [[c]]
      | p :: ps => (c :: p) :: ps

/-- `path.Base` (docs.go:429, 438). -/
def pathBase (p : Str) : Str :=
  if p = [] then ['.']
  else
    let stripped := p.reverse.dropWhile (· = '/')
    if stripped = [] then ['/'] else (stripped.takeWhile (· ≠ '/')).reverse

/-- The loop that joins the cleaned parts (docs.go:418-424): `renew` is what there is so far. -/
def joinParts (renew : Str) : List Str → Str
  | [] => renew
  | p :: ps => joinParts ((if renew = [] then [] else renew ++ [',', ' ']) ++ p) ps

/-- The parent after the brackets were cut off (docs.go:428-431). -/
def cleanParent (parent : Str) : Str :=
  (cut '·' (if parent.contains '/' then pathBase parent else parent)).1

/-- `cleanup` (docs.go:414-436). The recursion is on shorter texts; the fuel is to be as long as the text. -/
def cleanup : Nat → Str → Str
  | 0, name => name
  | fuel + 1, name =>
    if (cut '[' name).2.2 then
      cleanParent (cut '[' name).1 ++
        '[' :: (joinParts [] ((split ',' (trimSuffix ']' (cut '[' name).2.1)).map (cleanup fuel)) ++ [']'])
    else cleanParent (cut '[' name).1

/-- `namespaceName` of a type with this package path and name (docs.go:437-440). -/
def namespaceName (pkgPath name : Str) : Str × Str := (pathBase pkgPath, cleanup (name.length + 1) name)

/-- A package, by the elements of its path (docs.go:438). -/
structure Pkg where
  /-- All but the last. -/
  dirs : List Str
  /-- The last. -/
  last : Str
  deriving DecidableEq

/-- The path of a package (docs.go:438). -/
def Pkg.path (p : Pkg) : Str := (p.dirs.map (· ++ ['/'])).flatten ++ p.last

/-- What stands before a name in brackets (`rtype.Name()`, docs.go:438). -/
def qualifier : Option Pkg → Str
  | none => []
  | some p => p.path ++ ['.']

mutual
/-- A Go type as far as it can be an argument of a generic type here (docs.go:438). -/
inductive GTy where
  /-- A predeclared type, or one declared in a package, with its arguments. -/
  | named (pkg : Option Pkg) (name : Str) (args : GTys)
  | ptr (t : GTy)
  | slice (t : GTy)
  | map (k v : GTy)

/-- A list of types (docs.go:438). -/
inductive GTys where
  | nil
  | cons (t : GTy) (ts : GTys)
end

mutual
/-- A type as reflect writes it in brackets: packages by their paths, arguments with commas (docs.go:438). -/
def GTy.text : GTy → Str
  | .named pkg name args => qualifier pkg ++ name ++ args.brackets
  | .ptr t => '*' :: t.text
  | .slice t => '[' :: ']' :: t.text
  | .map k v => ['m', 'a', 'p', '['] ++ k.text ++ ']' :: v.text

/-- The arguments in their brackets (docs.go:438). -/
def GTys.brackets : GTys → Str
  | .nil => []
  | .cons t ts => '[' :: (t.text ++ ts.tail ++ [']'])

/-- The arguments after the first (docs.go:438). -/
def GTys.tail : GTys → Str
  | .nil => []
  | .cons t ts => ',' :: (t.text ++ ts.tail)
end

/-- `rtype.PkgPath()` (docs.go:438). -/
def GTy.pkgPath : GTy → Str
  | .named (some p) _ _ => p.path
  | _ => []

/-- `rtype.Name()`: without the package; empty for types that are not declared (docs.go:438). -/
def GTy.name : GTy → Str
  | .named _ name args => name ++ args.brackets
  | _ => []

/-- The key under which the schema of a type is registered (docs.go:467-482). -/
def GTy.key (t : GTy) : Str × Str := namespaceName t.pkgPath t.name

end Verif.Oas.Name
