/-!
# Model of dynamic linking (`api/wasm/export.go`, `api/wasm/import_wasm.go`) and of `Runner`
(`api/wasm/runner.go`)
-/
namespace Verif.Wasm

/-- A Go map that was filled from a list: the last entry of a key counts
(`library_names`, api/wasm/export.go:226-236). -/
def lookup {α : Type} (k : String) : List (String × α) → Option α
  | [] => none
  | (k', v) :: es => match lookup k es with
    | some w => some w
    | none => if k' = k then some v else none

/-- A host API: its name and the handles of its functions (`ffi.NewFunction`) by name (`api/wasm/export.go:226-236`). -/
structure Lib where
  name : String
  functions : List (String × BitVec 64)

/-- The entries of `library_names`, api/wasm/export.go:226-236. -/
def libraryNames : List Lib → Nat → List (String × BitVec 64)
  | [], _ => []
  | l :: ls, n => (l.name, BitVec.ofNat 64 (n + 1)) :: libraryNames ls (n + 1)

/-- api/wasm/export.go:237-254, `dlopen`, after the name has been read from the guest's memory. -/
def dlopen (libs : List Lib) (name : String) : BitVec 64 :=
  (lookup name (libraryNames libs 0)).getD 0

/-- api/wasm/export.go:255-265, `dlsym`; `none` is the panic of an index out of range. -/
def dlsym (libs : List Lib) (lib : BitVec 64) (fn : String) : Option (BitVec 64) :=
  match libs[(lib - 1).toNat]? with
  | none => none
  | some l => some ((lookup fn l.functions).getD 0)

/-- What `Import` makes of a function of the guest's API (`api/wasm/import_wasm.go:76-104`). -/
inductive Linked where
  /-- every call goes to the host function with this handle -/
  | host (handle : BitVec 64)
  deriving DecidableEq, Repr

/-- The second loop of `Import`, api/wasm/import_wasm.go:76-104; `none` is a trap of the guest. -/
def link (libs : List Lib) (lib : BitVec 64) : List String → Option (List (String × Linked))
  | [] => some []
  | fn :: fns =>
    match dlsym libs lib fn with
    | none => none
    | some pc => match link libs lib fns with
      | none => none
      | some ls => some ((fn, .host pc) :: ls)

/-- api/wasm/import_wasm.go:67-106, `Import` of an API of this name with these functions. The functions
that are made to return "dlopen failed" (lines 71-75) are overwritten by the loop that follows. -/
def importApi (libs : List Lib) (name : String) (fns : List String) :
    Option (List (String × Linked)) :=
  link libs (dlopen libs name) fns

/-! ## Runner -/

/-- api/wasm/runner.go:140-149, `Runner`. Runtimes are numbered; `exported` are the runtimes in which
the host modules have been instantiated. Files and APIs are numbers. -/
structure Runner where
  apis : List Nat
  dirty : Bool
  wasm : Option Nat
  /-- the file and the runtime it was compiled by -/
  module : Option (Option Nat × Nat)
  runtime : Option Nat
  next : Nat
  exported : List Nat

/-- `var runner Runner` (`api/wasm/runner.go:140-149`). -/
def Runner.zero : Runner := ⟨[], false, none, none, none, 0, []⟩

/-- api/wasm/runner.go:191-194, `Add`. -/
def Runner.add (r : Runner) (a : Nat) : Runner := { r with apis := r.apis ++ [a], dirty := true }

/-- api/wasm/runner.go:196-199, `SetSystemInterface`. -/
def Runner.system (r : Runner) : Runner := { r with dirty := true }

/-- api/wasm/runner.go:201, `Set`. -/
def Runner.set (r : Runner) (f : Nat) : Runner := { r with wasm := some f }

/-- api/wasm/runner.go:209-224, `assertRuntime`: the runtime in use. The one before is closed. `dirty`
is never cleared. -/
def Runner.assertRuntime (r : Runner) : Runner × Nat :=
  match r.dirty, r.runtime with
  | false, some rt => (r, rt)
  | _, _ => ({ r with runtime := some r.next, next := r.next + 1 }, r.next)

/-- api/wasm/runner.go:203-207, `Compile`. -/
def Runner.compile (r : Runner) : Runner :=
  let (r, rt) := r.assertRuntime
  { r with module := some (r.wasm, rt) }

/-- What a run comes to (`api/wasm/runner.go:226-284`). -/
inductive Outcome where
  /-- the file runs and can use these APIs -/
  | ran (file : Option Nat) (apis : List Nat)
  /-- the module was compiled by another runtime, that has been closed -/
  | foreign
  /-- the host modules exist already -/
  | panic
  deriving DecidableEq, Repr

/-- api/wasm/runner.go:226-284, `Run`. Instantiating a host module twice in the same runtime is an
error of wazero, which `export_api` panics with (api/wasm/export.go:206-208). -/
def Runner.run (r : Runner) : Runner × Outcome :=
  let (r, rt) := r.assertRuntime
  if r.exported.contains rt then (r, .panic)
  else
    let r := { r with exported := rt :: r.exported }
    match r.module with
    | none => (r, .ran r.wasm r.apis)
    | some (f, rt') => (r, if rt' = rt then .ran f r.apis else .foreign)

/-- The methods of a runner (`api/wasm/runner.go:191-284`). -/
inductive Op where
  | add (a : Nat) | system | set (f : Nat) | compile | run
  deriving DecidableEq

/-- The effect of a method (`api/wasm/runner.go:191-284`). -/
def Runner.step (r : Runner) : Op → Runner
  | .add a => r.add a
  | .system => r.system
  | .set f => r.set f
  | .compile => r.compile
  | .run => r.run.1

/-- The runner after a history of calls (`api/wasm/runner.go:191-284`). -/
def after : List Op → Runner := List.foldl Runner.step .zero

/-- api/wasm/runner.go:151-164, `SystemInterface`; a field is `none` if it is nil, readers, writers and functions are
numbers. The environment is in the order in which the map happens to be iterated over. -/
structure System where
  args : Option (List (List Char))
  stdout : Option Nat
  stderr : Option Nat
  stdin : Option Nat
  env : List (List Char × List Char)
  memory : Int
  root : Option Nat
  entropy : Option Nat
  yield : Option Nat
  sleep : Option Nat
  wall : Option Nat
  nano : Option Nat

/-- What the guest is given: `none` is wazero's default, `some none` a nil function (`api/wasm/runner.go:228-265`). -/
structure Config where
  args : List (List Char)
  stdout : Option Nat
  stderr : Option Nat
  stdin : Option Nat
  env : List (List Char × List Char)
  root : Option Nat
  entropy : Option Nat
  yield : Option Nat
  sleep : Option Nat
  wall : Option (Option Nat)
  nano : Option (Option Nat)
  deriving DecidableEq

/-- `ModuleConfig.WithEnv` of wazero, called at api/wasm/runner.go:244: replaces a variable of that name, or adds it. -/
def withEnv (env : List (List Char × List Char)) (k v : List Char) : List (List Char × List Char) :=
  match env with
  | [] => [(k, v)]
  | e :: env => if e.1 = k then (k, v) :: env else e :: withEnv env k v

/-- api/wasm/runner.go:228-265. -/
def System.config (s : System) : Config where
  args := match s.args with
    | some args => args
    | none => [[]]
  stdout := s.stdout
  stderr := s.stderr
  stdin := s.stdin
  env := s.env.foldl (fun e p => withEnv e p.1 p.2) []
  root := s.root
  entropy := s.entropy
  yield := s.yield
  sleep := s.sleep
  nano := if s.wall.isSome then some s.nano else none
  wall := if s.nano.isSome then some s.wall else none

/-- The limit of memory in pages, none being the default (api/wasm/runner.go:217-219): the quotient is cut to 32 bits. -/
def System.pages (s : System) : Option Nat :=
  if s.memory > 0 then some ((s.memory / 65536).toNat % 2 ^ 32) else none

end Verif.Wasm
