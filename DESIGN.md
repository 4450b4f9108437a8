# Formal model of iqhive/runtime.link in Lean 4

## Trusted base

* Lean 4.33.0's kernel. Every theorem is checked by it; no `native_decide`/`bv_decide`, no axiom of
  our own. Theorems depend at most on `propext`, `Classical.choice` and `Quot.sound`; the section
  "Axioms" at the end lists the axioms of every theorem that MANIFEST.json names.
* The correspondence between `/repo` and the model. It is kept checkable by giving every model
  definition a doc comment citing file and lines, and by modelling control flow branch by branch
  (including the branches which are bugs: a property the code violates is refuted by a concrete
  counterexample theorem `..._fails` *and* the strongest true version is proved as `..._partial`,
  in many cases as an exact characterisation, "if and only if").
* Go semantics as encoded in the model: fixed-width wrap-around integers are `BitVec`/`UIntN` or
  `Nat`/`Int` with explicit `%`; slices are lists (or a heap with capacity where aliasing matters: C42);
  a panic is a distinguished outcome; maps iterate in an arbitrary order (a universally quantified
  permutation); goroutines interleave at the granularity of atomic operations
  (sequential consistency, which Go's `sync/atomic` guarantees).
* The standard library where a modelled function calls it: `sync.Map`, `sync.Mutex`, `sort.Slice`,
  `strings.*`, `unicode/utf8`, `fmt.Sscanf` on integers and `reflect` are modelled from their
  documentation, or are a parameter of the model (an arbitrary function) so that the theorem holds for
  any of its behaviours that meets the stated hypothesis.

## Layout

`lean/Verif/<Area>/*Model.lean` – the model (definitions only, cited);
`*Spec.lean` – independent specification vocabulary (RFC decoders, abstract maps, ...), or the `Spec`
section at the head of a `Props` file;
`*Lemmas*.lean` – proof machinery; `*Props.lean` – the property theorems with their non-vacuity examples.
`seeded/LOG.jsonl` – the wrong programs the theorems were tested against.

## What is modelled, property by property

| id | model | proof method |
|----|-------|--------------|
| C01-C03 | `Grpc.Model`: `appendVarint`/`consumeVarint`/`sizeVarint`, unrolled exactly as in Go, on `Nat`<2^64 and lists of bytes | refinement to an independent LEB128 value function |
| C04 | zigzag on `BitVec 64` | bit-vector algebra, all values |
| C05-C06 | tag/fixed/bytes codecs | arithmetic, list algebra |
| C07, C47 | `consumeFieldValueD`, `consumeGroup` by well-founded recursion | induction on input length and depth |
| C08 | `Grpc.EncModel`: reflection values as an inductive type; `sizeof`, `encode` | mutual structural induction; map case refuted |
| C09-C10 | `Jrpc.Model`: `Encoder.string`, `Encoder.base64` over bytes; independent RFC 8259/4648 readers | induction on input |
| C11-C12, C48, C51 | digit loops, string and boolean decoder; the 256-byte window with refill | induction; refutation for short reads |
| C49-C50 | `Encoder.encode` on value trees, `Decoder.decode` on types; independent JSON grammar and parser | mutual induction on values |
| C13-C15 | `Mmm.Model`: heap of slots with revisions, root lists with prv/nxt links exactly as mutated by the code | invariants over reachable states; refutations where the links are wrong |
| C16-C18, C52-C53 | `Qnq.Model`: small-step interleaving semantics of the lock-free list | inductive invariant over all schedules |
| C19-C22, C24, C54-C55 | `Sql.Model`: `sync.Map` as finite map; query evaluator, search, slice, order | refinement / induction; refutations |
| C23, C56 | `Sql.Flat`: types and values as mutually inductive trees; column names | structural induction |
| C57 | `Sql.Conc`: interleaving of map and mutex operations of concurrent calls | invariant over schedules; serialisation; witness for lost upsert |
| C25, C58-C59 | `Kvs.Model`: in-memory and database-backed maps, commits | refinement |
| C26 | `Xyz.SwitchModel`: declarations as lists of names; text codec | induction |
| C27, C67, C69-C70 | `Xyz.TaggedModel`: storage as tag+payload, accessors as goroutine steps | case analysis on storage; schedules |
| C68 | `Xyz.TaggedJson`: the documented JSON schemes over JSON trees | induction over the list of cases |
| C28, C71-C72 | `Xyz.TuplesModel`: tuples, duplex numbers, Maybe | induction |
| C29, C63 | `Rest.MuxModel`: segment trie, ServeHTTP | induction on paths; spec by pattern matching |
| C32, C65 | `Rest.HttpModel`: status table, error writing and reading | case analysis for all naturals |
| C41-C42, C66 | `Rest.ParseModel`: rest tag parser; Go slices with capacity and shared backing arrays | induction; refutation |
| C46, C64 | `Rest.TagsModel`: string splitting, `CleanupPattern` | induction on strings |
| C30-C31, C60-C62 | `Sock.Model`: frame writer/reader over bytes, event stream; independent RFC 6455 reader | case analysis on length; refutations |
| C33-C34 | `Arm64.Model`: encoders over `BitVec`; independent architectural decoder (`Disasm`) | bit-vector reasoning, kernel-checked finite tables lifted by lemmas |
| C35 | `Amd64.Model`: byte encoders; independent decoder of prefixes, opcode, ModRM, immediates | case analysis over all registers, algebra on immediates |
| C36, C73-C74, C76-C79, C81 | `Abi.Model`: values, register/stack assignment, sizes, C conventions, `compile` and its execution | induction over signatures; exact characterisations |
| C43, C80 | `Vm.Model`: instruction encodings, machine steps | case analysis over all operands |
| C40 | `Bit.Model`: bit array buffer | induction; refutation |
| C45, C82 | `Via.Model`: type walk; cached states as memory words | structural induction |
| C44, C83-C86 | `Cmdl.Model`, `Cmdl.OptModel`: scanner of `%` placeholders, client words, scoring loop, option structs | induction over tags and words |
| C39, C87 | `Xray.Model`: queue + lock state machine; readers and writers | invariants over schedules; deadlock witness |
| C37, C75, C88-C89 | `Wasm.SqueezeModel`, `Wasm.StackModel`: register squeezing, masks, stack words | induction over signatures; 64-bit word arithmetic |
| C90-C92 | `Wasm.LinkModel`: dlopen/dlsym tables, runner life cycle, system interface | case analysis, induction over histories |
| C38, C94 | `Ffi.MemModel`, `Ffi.RefModel`: layout, read, encode/decode | mutual induction on types |
| C93, C95 | `Ffi.RefModel`: handle table as concurrent state machine; calls by handle | invariant over schedules; exact characterisation |
| C96 | `Call.TagModel`: parser of call tags; `Call.TagSpec`: grammar and printer | induction over types; fuel shown to suffice |
| C97-C101 | `Call.LinkModel`: symbol lookup, conversion of arguments, dyncall pushes, results | induction over arguments; modular arithmetic; refutations |
| C102-C103 | `Call.BackModel`: signatures of callbacks, registers and stack of the C caller, handler table | induction over arguments; race witness |
| C104-C118 | the same models: parts of C11, C20, C25, C27, C33, C39, C70, C76, C80, C82, C87, C88, C90, C93, C96 that hold or fail separately | as for the property they were split from |
| C119, C120, C122-C132 | `Rest.PipeModel`: the handler of an operation as events (authenticate, authorize, call) and a ResponseWriter; registration order; streams; `clientRead` | case analysis over the pipeline, induction over registrations, parameters and streams; refutations |
| C121 | `Rest.ServeModel` (client write, handler read), `Rest.UrlModel` (escaping, queries), `Rest.ScanModel` (Sscanf %v), the router of C29 | `Travels` lists when a call can travel; induction over parameters, round trips of escaping; refutations from end to end |
| C133-C139 | `Api.FuncModel`: `Make`, `Call`, `Copy`, `MakeError`, `Return`, stubs over a model of `reflect` values, `MakeFunc` and `Value.Call` | a signature as a programmer writes it (`Sig`) and what a caller should see; case analysis for all signatures, code as state transformers |
| C140-C142 | `Api.StructModel`: `StructureOf`, `Iter`, `link` with Go slices and their arrays | mutual induction on structures; `Same` ranges over map orders; invariant on arrays |
| C143-C144 | `Api.DocModel`: `DocumentationOf`, tests of registered errors | induction on lines and on errors |
| C145-C148 | `Data.Model`: `Object`, `Reports`, the checks, errors and their texts | constraints as documented (`Constraint.Holds`); induction on fields and checks |
| C149-C153 | `Pair.Model`: `Make`, `Field`, `Slice`, `Map`, the error wrapper; `Pair.Props` composes it with `Data` | paths into trees, 1:1 as disjointness; induction on the mapping |
| C154-C155 | `Rpc.Model`: `Register`, `Call`, `TypesJSON` | registrations as lists; lookups in maps built by them |
| C156-C157 | `Fmts.Model`: `rank`, the choice of a parser, `fill`, `Link` | unique maximum by a loop invariant; formats and what they print; induction on namespaces |
| C158-C161 | `Zgo.EscModel`: the scanner, the graph of routes and accomplices, the cached walk, `StackAllocated` | operations of the scanner as a list; the walk finds exactly reachable marks; specification of sharing, sinks, addresses independent of the graph |
| C162-C164 | `Zgo.LitModel`: `Literal` | Go's and Zig's literal syntax as reading functions; values as numbers, rationals, bytes |
| C165-C166 | `Zgo.OpModel`: operators as text, and their evaluation | Zig's and Go's precedence as relations between token lists and trees; unique reading; wrap-around integers |
| C167 | `Zgo.NameModel`: the names given to declarations and uses | scopes as lists; Zig's resolution as specification |
| C168 | `Zgo.SelModel`: selectors of embedded fields | structs as trees; Go's index path |
| C169-C170 | `Zgo.FlowModel`: statements and the braces written | Go's and Zig's semantics with a bound on rounds that is universally quantified; mutual induction |
| C171-C173 | `Zgo.ChanModel`: `make`, `send`, `recv` as steps of goroutines | critical sections as atomic steps, any schedule; invariants over schedules; specification over the calls that returned |
| C174-C176 | `Oas.Model`: `schemaFor` over Go types with declarations, the document as registry | JSON Schema validity and Go values as inductive relations; registry invariant with pending entries; termination by unregistered declarations |
| C177 | `Oas.RouteModel`: routes of functions in the server and in the document | the tag reader of `Rest.TagsModel`; any order of visits |
| C178 | `Bin.Model`: `link`, character by character | tags as a syntax tree with a text and bits of its own; induction over items with the run of letters as invariant |
| C179-C180 | `Sdk.Model`: the tree of paths, the statements `sdkFor` writes (a relation: any visiting order), a semantics of those statements in JavaScript | the tree represents the paths; every subtree's statements establish their part of the final client |
| C181 | `Xray.ErrModel`: errors as a tree of values, wraps, joins and traced errors | induction over the hops an error makes |
| C182-C183 | `Rest.HeaderModel`: the transport of `rest.Header`, a client that follows redirects | headers as functions of names; what Go's client drops on a redirect is a parameter |
| C184 | `Vm.RegModel`: getters and setters of both registers as operations on 64 bits | memory beside a variable is a parameter; bitwise extensionality |
| C185 | `Zgo.SliceModel`: slices over blocks of an arena, append in place or moving | both languages refine lists while no slice is shared; separation of blocks as invariant |
| C186 | `Zgo.AsgModel`: the fragments written for an assignment | case analysis for one variable, induction over the variables for what Zig accepts; expressions are a parameter |
| C187 | `Zgo.CallModel`: the tokens of an argument list and a reader of Zig's lists | the reader recovers the arguments, by induction over them; acceptance characterised exactly |
| C188 | `Vm.ChkModel`: compile, assert, check; the machine with ErrorMake | execution of the written code in closed form, then case analysis of the assertion |
| C189 | `Vm.StrModel`: the machine with a memory and an allocator | induction over the arguments: written blocks lie beyond memory in use and are not written again |
| C190 | `Vm.VarModel`: both variants and the choice | simulation between the variants, for any number of steps |
| C191 | `Vm.PinModel`: the pool as a list of slots, histories of operations | invariant: a slot is free and empty or that of one live pointer |
| C192 | `Rest.DenoModel`: Read over chunks and a rest | what is left and what was read make up the body, by induction over the reads; a measure for the end |
| C193 | `Rest.DenoModel`: the handler around `httptest` | folding of headers; case analysis of statuses, exact characterisation |
| C194 | `Vm.CbModel`: signatures, argument and result conversions on 64-bit places | case analysis by kind, induction over parameters |
| C195 | `Vm.CbModel`: goroutines in NewCallback step by step | induction over sequential schedules; a schedule that refutes |
| C196 | `Mmm.CopyModel`: Copy on the model of C13 with the words of the APIs | effect of a copy in every reachable state, by the invariant of C13 |
| C197 | `Rest.FormModel`: values as the encoder's type switches see them, parts of the body | leaves with paths; the prefix carried along is the dotted path, by mutual induction over values, fields and entries |
| C198 | `Rest.TextModel`: `Encode` and `Decode` of text/plain with `Fscan` of words and numbers | induction over texts; exact characterisation for strings |
| C199 | `Zgo.DeferModel`: statements, what is written for a defer and Zig's scoped defers | by structural induction over nested statements against a run with a stack of deferred calls |
| C200 | `Zgo.MemModel`: threads, routines, arenas and objects in any interleaving | invariant that nothing was freed; histories of any length that leak |
| C201 | `Zgo.CompModel`: literals as written and the value Zig gives them | exact characterisation of what is accepted; value by value against Go's indexing and keying rules |
| C202 | `Zgo.CompModel`: hash maps shared by variables | simulation between hash maps and functions from keys |
| C203 | `Jrpc.ObjModel`: the struct case of the decoder, with the fields' decoders as parameters | induction over members of arbitrary object texts; names by the tag rules |
| C204 | `Jrpc.FloatModel`: the float case with 64 bit registers and arbitrary arithmetic | induction over digits; exact rationals as an instance |
| C205 | `Zgo.ConstModel`: specifications to Zig declarations, with the types the checker records | simulation of Go's and Zig's constant arithmetic by induction over expressions, names and specifications |
| C206 | `Kvs.ConcModel`: calls as sequences of atomic map operations, any interleaving | the last operation on a key decides; projection of schedules to goroutines; two-commit counterexample against every serial order |
| C207 | `Kvs.OpenModel`: fields, tags and a database keyed by format and key | simulation of each field by its own map |
| C208 | `Sql.WalkModel`: opening maps, registering the parts of the sentinels, columns of a part | induction over types and positions; invariant of the registry over sequences of opened maps |
| C209 | `Sql.DbModel`: the query builders on registered columns | induction over conditions, rows as named cells; counterexamples |
| C210 | `Sql.DbMapModel`: calls of a map as jobs of a database given by its documented behaviour | simulation of a map over sequences of calls, for every documented database |
| C211 | `Sql.TxModel`: functions as trees of calls and nested transactions; channel, lock and interleavings | exact characterisation by induction over trees; invariant over steps for isolation |
| C212 | `Sql.StatModel`: counters, sums, reports and drivers | induction over statistics and records; table of conversions |
| C213 | `Sql.StatModel`: columns to pointers to values | induction over types, with C185's flattening lemmas |
| C214 | `Rest.ServeModel` against `Rest.ListSpec`: requests of any client | equivalence of reading and saying, then induction over the parameters |
| C215 | `Rest.HttpModel`: error to status to error, iterated | case analysis over statuses; induction over the services in between |
| C216 | `Rest.PipeModel`: `wantsPage` in the handler | `strings.Contains` shown to be infix; case analysis of the handler |
| C217 | `Xyz.SwitchModel`: `fmt.Sscan` with bases, `json.Unmarshal`, conversions of positions | ranges of Go's types spelled out; induction over the digits of a number |
| C218 | `Zgo.TypeModel`: `TypeOf` on all of `go/types` | a reader of the text, shown by mutual induction to read back the type; its converse and totality by mutual induction |
| C219 | `Zgo.DescModel`: `ReflectTypeOf`, `kindOf`, the constants that exist | texts cancelled against each other; induction over pointers |
| C220 | `Oas.FormModel`: `formHandler.ServeHTTP`, the schema as its own registry | C26's theorem on declarations without packages; lookup in the properties by induction |
| C221 | `Api.TagModel`: `DocumentationOf`, `StructTag.Lookup` for any `Unquote` | induction over the pairs of a tag; induction over quoted values |
| C222 | `Api.ExampleModel`: `Guide`, `Setup` and `trace` over the tree of what an example does | mutual induction over the tree; induction over lines with a note that waits for its call |
| C223 | `Api.ExampleModel`: `Example`, `Examples`, `Test` | lookup by name is membership; filters |
| C224 | `Qnq.DurModel`: `Send` and the loop of `Listen` with any mechanism as documented | invariant by induction over histories: sent is a permutation of pending and acknowledged |
| C225 | `Xyz.PairModel`: `MarshalPair`, `UnmarshalPair`, `Key` over the cuts of the tags | tags given by their parts, the cuts computed on them; induction over the cases |
| C226 | `Zgo.PrintModel`: the format `println` emits and the placeholders of Zig's `std.fmt` | induction over the arguments against a relational specification of Go's lines; decimals by strong induction |
| C227 | `Oas.NameModel`: `cleanup` and `namespaceName` on the texts reflect gives | induction over types; unique readability of the shortened names |
| C228 | `Oas.RefModel`: `Document.Lookup` and `Register`, the references as text and the JSON they point into | induction over registrations; JSON pointers (RFC 6901) and fragments (RFC 3986) as specification |
| C229 | `Zgo.RangeModel`: `.range(low, high)` of a pointer to an array, and what is done with the slice | simulation between the compiled program and Go's, by induction over programs; element-wise copy against a simultaneous one |
| C230 | `Json.TextModel`: `TypeSet` on JSON texts, with Go's string escapes, scanner, `unquote` and array reader | grammar and meaning of RFC 8259 as inductive relations; induction over derivations and over texts |
| C231 | `Json.TextModel`: `Static` compares its own JSON with the text | from C230's meaning of texts |
| C232 | `Ffi.BoxModel`: slices, pointers, channels and maps of the FFI, by handle, over a flat memory | simulation with Go statements over named variables; induction over programs; invariants for what stays empty |
| C233 | `Xyz.ExternModel`: the registry of accessors by types, what adds to it, and texts of unions | invariants of the registry (ownership, growth, distinct addresses) over all histories |
| C234 | `Sql.ValueModel`: `String` and `IsZero` of database values, with Go's `appendInt`, RFC 3339 format and `Time.sec` | texts as relations (RFC 4648, RFC 3339) shown unambiguous; days of the Gregorian calendar by linear arithmetic |
| C235 | `Xyz.SwitchTextModel`: `ValuesJSON`, and reading and writing the JSON texts of enums | texts of RFC 8259 as a relation; lemmas of C26 on names and positions |
| C236 | `Api.AnswerModel`: error types, `StatusHTTP`, `Error`, `Register`, and the status and message `handle` gives | tags as they are written (specification of C221); induction over chains of wrapping |
| C237 | `Rest.FieldModel`: `fieldByIndex` and the fields of the arguments of a handler | get and set laws by induction on the index; types and values as nested trees |

Properties which turn out to be false of the code are stated in full, refuted, and then proved in the
strongest correct `_partial` form. MANIFEST.json's notes say for each what is missing.

## Limits of the models

* **Grpc**: varints, tags, groups and the encoder. Reflection values are trees; the HTTP/2 transport
  and code that registers services are not modelled.
* **Jrpc**: the encoding of floats is not modelled; the decoder is modelled for booleans, integers, strings, slices, maps,
  pointers, byte slices, structs (the fields' decoders being parameters) and floats (the arithmetic being a parameter), not for arrays and interfaces. The HTTP client and server are not modelled.
* **Mmm**: New, Get, Set, End, Move, Pin, Life, lifetimes; `Copy` on top of these (`Mmm.CopyModel`). Concurrency of lifetimes is not
  modelled (the package documents them as not safe for concurrent use), nor is `Let`.
* **Qnq**: the list of listeners and `send`/`register`; SQL-backed queues are not modelled.
* **Sql**: the in-memory database and the flattening of records; drivers of real databases are not.
* **Kvs**: a `Database` is an arbitrary map whose calls take effect or fail.
* **Rest**: routing, tags, parameters, statuses, frames, and a call from client to handler and back. The
  encoders of media types are parameters. `net/http` parsing, TLS, CORS headers, content sniffing, compression,
  cancellation, `io.Reader` arguments, the switch to websockets and documentation pages are not modelled.
* **Api**: types are what the code asks of them; assignability is identity or implementing an interface; calls
  that never return are left out. Hosts, instances, tags and `docs` tags are not modelled.
* **Data**: pointers are an address and a type; errors that are passed to `Reports` twice (they are updated in place)
  are left out, and so are floats.
* **Pair**: a mapping is a fixed list of pairs; values are trees, keys of maps are scalars.
* **Rpc**: what `encoding/json` does is a parameter; recursive pointer types are left out; `MarshalJSON` is not modelled.
* **Fmts**: `sprintf` and `sscanf` are parameters of the code and are not modelled beyond what a format prints.
* **Arm64/Amd64**: all exported instructions; execution semantics of the processors are not modelled,
  only the decoding of the words against an independent decoder written from the manuals.
* **Abi/Vm**: floating-point arithmetic of the VM and the assembly trampolines are not modelled.
* **Wasm**: wazero itself is a parameter; memory is a function from addresses to bytes.
* **Call**: memory is abstract, floats are values of an arbitrary type; the foreign function is an arbitrary
  function of its arguments; dyncall's assembly is trusted to follow the System V convention; only the
  type table of linux/amd64 is used.
* **Ffi**: pointers are abstract; `unsafe` reinterpretation is modelled at the level of bytes.

* **Zgo**: the syntax tree is the part of Go the scanner distinguishes; Zig is modelled as far as its literals (and, for
  other properties, its operators and names) are read; `strconv.Unquote`, `IsPrint` and UTF-8 are parameters. The
  Zig compiler itself is not modelled; hexadecimal floating-point literals and underscores in floats are not.

* **Oas**: types without schema methods (`TypeJSON`, `ValuesJSON`, `MarshalText`, …), `const` tags, iterators and
  generic names; the keywords that do not restrict values are left out, as are parameters of operations.

* **Bin**: functions with at most four arguments; bit counts are numbers (Go: `uint8`); bytes appended before a panic are
  not looked at.

* **Sdk**: statements rather than text; a target that is not a chain of ASCII names is taken for a syntax error, `fetch`
  and promises are requests and answers; headers and bodies are left out.

* **Zgo.Asg, Zgo.Call, Zgo.Slice**: what is written is a list of fragments rather than text; boxing to interfaces, array
  elements and builtin functions are left out of assignments and calls; elements of slices are opaque values.

* **Vm.Reg**: registers are 64 bits, floating-point values their bits.
* **Vm.Cb**: parameters are passed in 64 bits each, in order; conversions between float and double keep the bits.
* **Rest.Form/Plain**: what `fmt` prints for a value and `http.DetectContentType` are parameters; quoting in part headers is left out; texts are valid UTF-8.
* **Rest.Deno**: JavaScript's `ReadableStream`, `Headers` and `Response` as the standards say; cancellation is left out.
* **Vm.Chk/Str/Var/Pin**: results that are functions are left out of checks; the allocator takes new blocks from beyond memory in use; instructions on memory are assumed not to look at registers (`Blind`), as they do not; `runtime.Pinner` is the list of what it pins.

- **zgo statements (C199–C202).** Expressions are functions of the state; Zig's semantics of `defer`, struct literals and hash maps are written from its language reference. Threads are steps of an interleaving, arenas sets of objects. Literals' element values are parameters evaluated in order.
- **zgo declarations (C205).** Integer constants with `+`, `-`, `*`, and shifts by a literal; Zig operands of different signs are taken to be refused; declarations are evaluated in the order written; the blank name is not modelled. Boolean, string, float and complex constants are not modelled.
- **sql on a database (C208–C210).** Positions stand for addresses inside the sentinels; `rtype` is a number. The database is any state machine that does what sodium's comments say; each call is one job in its own transaction, contexts are not cancelled. `Search` with orders and ranges other than the first record, `Add`, `Output` and transactions over several calls are not part of C210.
- **sql transactions and statistics (C211–C213).** A method is one job, a function from table to table and answer; the database commits on close as documented. Counters are numbers in a store; a scanner delivers the values stored, without converting them.

- **zgo types (C218, C219).** `go/types` types as trees; recursive named types are their names. Type sets of constraint interfaces are not modelled. What Zig makes of a description of a struct (its fields, constness of lists, `goto` outside functions) is not looked into.
* **Oas.Form**: the texts of the page and `form.js`, the redundant `type` beside a `$ref`, user types that are called like
  Go's own (`int`), which the lookup by name alone would mistake for them.
* **Api.Example**: categories (file names), titles and stories; examples that are not pointers to structs; the examples are
  made the same way each time.
* **Api.Tag**: `strconv.Unquote` is a parameter; `Docs` methods are what they return.
* **Qnq.Dur**: one listener; the mechanism is as its comments say and has a subscription from the first `Recv`; contexts
  are not cancelled.
* **Json.Text**: documents are texts of Unicode characters; Go's `encoding/json` is modelled for strings, null and arrays of
  them, other elements of arrays are errors. The slice as it was is given to the end of its memory.
* **Ffi.Box**: one goroutine, handles as positions of a table (that they are found is C93); elements of scalar kinds and
  strings; handles are not freed; nil slices, channels and maps cannot be made through the API.
* **Xyz.Ext**: goroutines take turns, cases are compatible with the storage, and the cases of an extension with a value are
  cases of its parent; what fmt prints for a text with verbs is a parameter.
* **Sql.Value**: times are given by their date and time of day in their zone; `FormatFloat` is a parameter; floats by bits.

## Not modelled

Networking, TLS, the Go runtime and garbage collector, JIT/assembly stubs, code generation for SDKs, documentation pages, and floating-point formatting. Where a modelled function
calls into these, the call is a parameter of the model (an arbitrary function), so the theorems hold for
any of its behaviours unless a hypothesis says otherwise.

## Axioms

Generated with `#print axioms` for every theorem named in MANIFEST.json. No other axiom occurs.

* **none** (40 theorems): `Grpc.bool_round_trip`, `Qnq.chan_send_result`, `Kvs.db_lookup`, `Xyz.tuple_components`, `Xyz.duplex_empty_panics`, `Abi.empty_struct_loses_the_stack`, `Via.internal_new`, `Wasm.squeeze_assigned_fails`, `Wasm.default_results_fails`, `Wasm.default_slice_fails`, `Wasm.config_fails`, `Ffi.read_complex_fails`, `Ffi.read_bool_fails`, `Kvs.lookup_absent_panics`, `Rest.Serve.status_zero_panics`, `Rest.Serve.zero_printed`, `Rest.Serve.remainder_never_used`, `Rest.Serve.headers_read_only_nil`, `Data.exists_spec`, `Data.set_name`, `Pair.wrap_nil`, `Pair.wrap_other`, `Pair.wrap_not_struct_fails`, `Rpc.register_no_result_fails`, `Sdk.results_delivered_fails`, `Xray.Err.nil_kept`, `Vm.Reg.read_back_bool`, `Rest.Deno.remote_fails`, `Rest.Plain.reads_back_fails`, `Rest.Plain.nil_fails`, `Zgo.Defer.arguments_late_fails`, `Zgo.Defer.panic_fails`, `Zgo.Defer.deferred_calls_fails`, `Zgo.Const.repetition_panics`, `Zgo.Const.var_call_panics`, `Sql.Tx.mem_nest_fails`, `Sql.Stat.mem_sum_fails`, `Json.static_escape_fails`, `Xyz.Ext.extern_alone_panics`, `Api.Answer.one_case`

* **`propext`** (208 theorems): `Mmm.use_after_free_detected_fails`, `Mmm.freed_at_most_once_fails`, `Mmm.end_pinned_twice_noop_fails`, `Jrpc.chunking_fails`, `Jrpc.unscan_fails`, `Jrpc.bool_fails`, `Sql.add_unique_fails`, `Sql.combinators_boolean_fails`, `Sql.unsafe_delete_empty_slice`, `Kvs.values_prefix`, `Sock.sse_never_delivers`, `Sock.sse_delivers_fails`, `Xyz.cases_collide`, `Xyz.tuple_round_trip`, `Xyz.tuple_long_accepted`, `Xyz.expand_leaves`, `Xyz.maybe_round_trip`, `Xyz.maybe_null`, `Xyz.maybe_error_keeps`, `Xyz.maybe_null_value`, `Abi.internal_accepts_iff`, `Abi.value_panics_iff`, `Abi.value_size_fails`, `Abi.equals_refl_fails`, `Abi.equals_panics`, `Abi.sysv_result_partial`, `Abi.sysv_distinct_fails`, `Abi.sysv_last_register_fails`, `Abi.sysv_packed_fails`, `Abi.sysv_result_fails`, `Abi.aapcs_packed_struct_fails`, `Abi.pins_on_stack_fails`, `Abi.internal_stack_aligned_fails`, `Abi.internal_stack_overlap_fails`, `Via.accepted_fails`, `Via.cached_newCache`, `Via.cached_other`, `Via.proxy_reused`, `Via.proxy_replaced`, `Cmdl.numbers_count_from_here`, `Cmdl.client_section`, `Xray.writer_spec`, `Wasm.string_param_fails`, `Wasm.default_args_fails`, `Wasm.dlopen_missing`, `Ffi.structure_partial`, `Ffi.structure_mismatch`, `Ffi.structure_iface_fails`, `Ffi.call_nothing`, `Ffi.call_number_fails`, `Ffi.call_args_fails`, `Call.callbacks_race_fails`, `Sql.add_never_overwrites`, `Sql.add_stores`, `Kvs.kvs_is_a_map_fails`, `Xyz.read_fails`, `Xyz.number_forgets`, `Xyz.slice_and_struct_panic`, `Xyz.nil_cannot_be_read`, `Xray.get_panics`, `Xray.get_alone`, `Abi.zero_fails`, `Via.tryCache_value`, `Via.tryCache_fails`, `Xray.reader_off`, `Xray.reader_fails`, `Rest.Serve.parameter_formatted_partial`, `Api.any_panics`, `Api.call_nil`, `Api.call_variadic_fails`, `Api.typed_partial`, `Api.wrong_type`, `Api.typed_fails`, `Api.return_short_fails`, `Api.path_fails`, `Api.path_fails_other`, `Api.root_fails`, `Api.scenario_fails`, `Api.documentation`, `Api.scenario_test_fails`, `Rpc.types_json`, `Fmts.link_choice_fails`, `Zgo.Esc.package_variables_are_static`, `Zgo.Esc.address_in_var_initialiser_fails`, `Zgo.Esc.address_in_global_field_fails`, `Zgo.Esc.captured_variable_fails`, `Zgo.Esc.address_through_parameter_fails`, `Zgo.Esc.outliving_is_on_the_heap_fails`, `Zgo.Esc.increment_disagrees_fails`, `Zgo.Esc.range_variable_disagrees_fails`, `Zgo.Lit.imaginary_underscore_fails`, `Zgo.Lit.imaginary_zero`, `Zgo.Lit.imaginary_digit_fails`, `Zgo.Lit.imaginary_binary_fails`, `Zgo.Op.zig_reads_one_way`, `Zgo.Op.bitwise_fails`, `Zgo.Op.shift_fails`, `Zgo.Op.expressions_keep_their_shape_fails`, `Zgo.Sel.promoted_field_partial`, `Zgo.Sel.promoted_field_fails`, `Zgo.Sel.promoted_fields_fails`, `Zgo.Flow.break_in_switch_fails`, `Zgo.Flow.break_labelled_range_fails`, `Zgo.Flow.fallthrough_fails`, `Zgo.Flow.continue_labelled_range_fails`, `Zgo.Flow.switch_without_default_fails`, `Zgo.Flow.not_compiled_fails`, `Zgo.Flow.control_flow_fails`, `Zgo.Chan.stolen_value_fails`, `Zgo.Chan.spurious_wakeup_fails`, `Oas.schema_means_type_fails_packages`, `Oas.schema_means_type_fails_embedded`, `Oas.schema_means_type_fails_pointer`, `Sdk.client_sends_fails_clash`, `Xray.Err.matches_kept`, `Xray.Err.place_noted`, `Rest.Header.request_kept_fails`, `Zgo.Asg.assignment_partial`, `Zgo.Asg.call_fails`, `Zgo.Asg.dropped_fails`, `Zgo.Asg.operator_fails`, `Zgo.Asg.elements_fail`, `Zgo.Asg.andNot_fails`, `Zgo.Call.receiver_twice_fails`, `Vm.Pin.loads_its_address`, `Vm.Cb.result_fails`, `Vm.Cb.own_function_fails`, `Vm.Cb.own_function_fails_length`, `Mmm.copy_released_twice_fails`, `Mmm.copy_never_freed_fails`, `Mmm.stale_copy_fails`, `Rest.Form.form_nil_fails`, `Rest.Form.form_map_fails`, `Rest.Form.form_excluded_fails`, `Rest.Form.form_file_fails`, `Rest.Form.form_fails`, `Rest.Plain.wrapped_list`, `Rest.Plain.list_marshalers_fails`, `Zgo.Mem.memory_valid_fails`, `Zgo.Comp.maps_fails`, `Zgo.Const.vars_partial`, `Zgo.Const.large_untyped_fails`, `Zgo.Const.shift_fails`, `Kvs.Open.own_maps_fails`, `Kvs.Open.same_tag_same_map`, `Kvs.Open.unexported_panics`, `Sql.pointers_open_table_fails`, `Sql.db_no_cases_fails`, `Sql.db_no_column_fails`, `Sql.Tx.db_error_fails`, `Sql.Tx.db_empty_fails`, `Sql.Tx.mem_ok_iff`, `Sql.Tx.mem_partial`, `Sql.Tx.mem_error_fails`, `Sql.Tx.progress_partial`, `Sql.Tx.isolated_fails`, `Sql.Stat.count_reported_fails`, `Sql.Stat.count_overflow_fails`, `Sql.Stat.count_error_fails`, `Sql.Stat.count_twice_fails`, `Sql.Stat.scan_error_reported`, `Zgo.Typ.same_text_partial`, `Zgo.Typ.lost_fails`, `Zgo.Typ.words_fails`, `Zgo.Typ.alias_fails`, `Zgo.Typ.written_fails`, `Oas.Form.form_names_fails`, `Oas.Form.form_pointer_fails`, `Oas.Form.form_unknown`, `Api.Tag.text_documents`, `Api.Example.notes_fails`, `Api.Example.nested_notes_fails`, `Api.Example.setup_fails`, `Qnq.Dur.send_reported`, `Qnq.Dur.listen_fails`, `Qnq.Dur.once_fails`, `Qnq.Dur.send_error_fails`, `Xyz.pair_written`, `Xyz.pair_round_trip_fails`, `Xyz.text_storage_lost`, `Xyz.unset_pair_panics`, `Xyz.key_fails`, `Xyz.untagged_no_pair`, `Zgo.Print.float_differs`, `Oas.Name.own_schema_fails`, `Oas.Name.map_keys_fails`, `Oas.Name.local_types_fails`, `Json.types_nil_round_trip`, `Json.types_null_element_fails`, `Json.types_round_trip_fails`, `Json.types_leading_space_fails`, `Json.static_own`, `Json.static_accepts_partial`, `Ffi.Box.channels_fail`, `Ffi.Box.channels_fails`, `Ffi.Box.closed_channel_fails`, `Ffi.Box.maps_stay_empty`, `Ffi.Box.pointer_nil_fails`, `Xyz.Ext.text_verbs_fails`, `Xyz.Ext.text_empty_fails`, `Xyz.Ext.extend_plain_fails`, `Xyz.SwitchText.field_name`, `Xyz.SwitchText.refused_unchanged`, `Api.Answer.held_text`, `Rest.Field.zero_at`, `Rest.Field.fetch_at`, `Rest.Field.client_reads_partial`, `Rest.Field.client_nil_fails`

* **`Quot.sound`, `propext`** (300 theorems): `Grpc.varint_truncated_iff`, `Grpc.varint_overflow_iff`, `Grpc.encoder_unsupported`, `Grpc.encoder_empty_map_fails`, `Mmm.lifetime_end_frees_all_fails`, `Jrpc.base64_unambiguous`, `Jrpc.bytes_base64_fails`, `Jrpc.string_decoded_fails`, `Jrpc.encoder_json_fails`, `Jrpc.encoder_array_fails`, `Jrpc.encoder_other_fails`, `Jrpc.nil_read_iff`, `Jrpc.codec_round_trip_fails`, `Jrpc.bool_partial`, `Qnq.cancelled_not_called_fails`, `Qnq.cancelled_pair_called`, `Sql.ram_is_a_map`, `Sql.add_unique_partial`, `Sql.combinators_boolean_partial`, `Sql.unsafe_delete_partial`, `Sql.update_partial`, `Sql.hits_iff`, `Sql.unsafe_delete_count_fails`, `Sql.flatten_round_trip_fails`, `Sql.search_sorted_partial`, `Sql.insertion_sort_contract`, `Sql.search_sorted_fails`, `Sql.search_two_orders_fails`, `Sql.search_exact`, `Sql.search_conditions`, `Sql.search_sliced_fails`, `Kvs.commit_applies`, `Kvs.db_commit_applies`, `Kvs.db_commit_touches_only_batch`, `Kvs.values_exact`, `Sock.server_frames_partial`, `Sock.long_server_frames_lost`, `Sock.server_frames_fails`, `Sock.frames_read_fails`, `Sock.client_to_server_fails`, `Sock.client_never_panics_partial`, `Sock.server_never_panics_fails`, `Sock.client_never_panics_fails`, `Sock.sse_texts_partial`, `Sock.sse_crashes_client`, `Sock.fragments_fail`, `Arm64.encode_fails`, `Arm64.negative_immediate_fails`, `Amd64.allowed_calls_panic`, `Xyz.never_wrong_case`, `Xyz.tuple_short_refused`, `Xyz.agree_partial`, `Xyz.alone_settles`, `Xyz.agree_fails`, `Xyz.pointers_found`, `Xyz.store_in_bounds`, `Xyz.maybe_apart_fails`, `Abi.go_values_have_alignment`, `Vm.decode_new`, `Vm.new_decode`, `Vm.new_large_fails`, `Abi.value_size`, `Abi.value_size_partial`, `Abi.value_align_partial`, `Abi.equals_iff`, `Abi.cgo_iff`, `Abi.sysv_doubles_partial`, `Abi.sysv_big_structs_fails`, `Vm.run_straight`, `Vm.usesFast_sound`, `Vm.fast_variant_drops_arguments_fails`, `Vm.slices_panic`, `Vm.amd64_registers_fails`, `Vm.math_meaning`, `Vm.jump_fails`, `Vm.math_docs_fails`, `Bit.long_bytes_lost`, `Bit.long_string_panics`, `Bit.write_fails`, `Via.accepted_size`, `Via.accepts_all`, `Via.accepted_iff_partial`, `Via.arrays_accepted`, `Cmdl.score_spec`, `Cmdl.client_fails`, `Wasm.encode_words_partial`, `Wasm.encode_words_fails`, `Wasm.default_args_partial`, `Wasm.export_error_dropped`, `Wasm.export_error_panics`, `Wasm.export_struct_fails`, `Wasm.export_many_fails`, `Wasm.symbols`, `Wasm.symbols_missing`, `Wasm.run_exact`, `Wasm.run_partial`, `Wasm.run_compiled_fails`, `Wasm.run_again_fails`, `Wasm.config_partial`, `Wasm.memory_partial`, `Wasm.memory_fails`, `Ffi.read_partial`, `Ffi.read_short`, `Ffi.readAt_partial`, `Ffi.readAt_many`, `Ffi.handles_distinct`, `Ffi.handles_get`, `Ffi.handles_only`, `Ffi.string_decoded`, `Ffi.call_partial`, `Ffi.call_exact`, `Call.resolve_exact`, `Call.preferred_partial`, `Call.preference_fails`, `Call.libraries_fails`, `Jrpc.int_reject_fails`, `Kvs.kvs_is_a_map_partial`, `Kvs.lookup_present_partial`, `Xyz.read_partial`, `Xyz.unknown_text_kept`, `Xray.reader_partial`, `Wasm.mask_spec`, `Wasm.import_partial`, `Wasm.import_fails`, `Ffi.free_fails`, `Ffi.nothing_released`, `Rest.Serve.last_function_wins`, `Api.generic_partial`, `Api.any_partial`, `Api.any_error_fails`, `Api.any_nil_result_fails`, `Api.own_error_type_fails`, `Api.call_partial`, `Api.in_params`, `Api.call_own_error_type_fails`, `Api.wrap_partial`, `Api.wrap_fails`, `Api.wrap_variadic_fails`, `Api.makeError_partial`, `Api.makeError_own_error_type_fails`, `Api.makeError_generic_fails`, `Api.return_partial`, `Api.stub_partial`, `Api.stub_own_error_type_fails`, `Api.iter_stops`, `Api.path_partial`, `Api.path_thin_partial`, `Api.root_partial`, `Api.iter_root`, `Api.scenario_partial`, `Api.lines_exist`, `Api.scenario_test_partial`, `Api.scenario_test_sound`, `Data.validate_foreign`, `Data.reports_other`, `Data.forEach_first`, `Data.forEachMapped_nil`, `Pair.round_trip_nil_fails`, `Pair.convert_last`, `Pair.convert_ignored`, `Pair.wrap_unexported_fails`, `Pair.wrap_report_fails`, `Rpc.resolve_partial`, `Rpc.call_any_partial`, `Rpc.call_unknown`, `Fmts.choose_spec`, `Fmts.parser_single_fails`, `Zgo.Esc.scanner_marks_plain`, `Zgo.Lit.capital_prefix_fails`, `Zgo.Lit.double_zero_fails`, `Zgo.Lit.integer_literal_fails`, `Zgo.Lit.rune_literal_keeps_value`, `Zgo.Lit.text_determines`, `Zgo.Op.and_mul_fails`, `Zgo.Op.arithmetic_partial`, `Zgo.Op.go_value_in_range`, `Zgo.Op.overflow_fails`, `Zgo.Op.arithmetic_fails`, `Zgo.Names.local_type_fails`, `Zgo.Names.keyword_fails`, `Zgo.Sel.promoted_field_iff`, `Zgo.Flow.control_flow_partial`, `Zgo.Flow.compiled_statement_agrees_partial`, `Zgo.Flow.braces_iff`, `Zgo.Flow.braces_left_open`, `Zgo.Flow.if_with_init_fails`, `Zgo.Chan.received_is_a_prefix_of_sent`, `Zgo.Chan.calls_in_program_order`, `Zgo.Chan.everything_is_received`, `Zgo.Chan.sends_are_bounded_partial`, `Zgo.Chan.sends_are_bounded_fails`, `Zgo.Chan.never_panics_partial`, `Zgo.Chan.sender_not_woken_fails`, `Zgo.Chan.receiver_not_woken_fails`, `Oas.schema_means_type_fails_tagged`, `Oas.document_ends`, `Oas.references_resolve`, `Oas.document_lists_served_fails_method`, `Bin.first_letter_zero`, `Bin.bad_decimal_panics`, `Rest.Header.headers_added`, `Rest.Header.headers_added_in_any_order`, `Rest.Header.request_kept_iff`, `Rest.Header.credentials_leave_the_host`, `Rest.Header.credentials_stay_fails`, `Vm.Reg.whole_register_partial`, `Vm.Reg.whole_register_fails`, `Vm.Reg.whole_register_fails_fpr`, `Vm.Reg.truth_fails`, `Vm.Reg.c_false_is_go_true_fails`, `Zgo.Slice.shared_append_fails`, `Zgo.Slice.longer_copy_fails`, `Zgo.Slice.make_fails`, `Zgo.Slice.refused_fails`, `Zgo.Asg.define_text`, `Zgo.Asg.swap_fails`, `Zgo.Asg.blank_takes_fails`, `Zgo.Call.accepted_iff`, `Zgo.Call.call_partial`, `Zgo.Call.go_fails`, `Vm.Chk.parameter_fails`, `Vm.Str.read_as_it_is`, `Vm.Str.empty_string_fails`, `Vm.Str.size_of_c_string`, `Vm.Str.copy_of_c_string`, `Vm.Str.reads_unique`, `Vm.Var.variants_agree_partial`, `Vm.Var.third_argument_fails`, `Vm.Pin.freed_twice_fails`, `Rest.Deno.reads_in_order`, `Rest.Deno.read_fits`, `Rest.Deno.end_is_the_end`, `Rest.Deno.delivered_iff`, `Rest.Deno.status_and_body_partial`, `Rest.Deno.headers_fails`, `Rest.Deno.no_content_fails`, `Vm.Cb.parameter_fails`, `Vm.Cb.byte_fails`, `Vm.Cb.own_function_partial`, `Rest.Plain.list_by_line_partial`, `Zgo.Defer.accepted_iff`, `Zgo.Defer.deferred_calls_partial`, `Zgo.Mem.memory_valid_partial`, `Zgo.Mem.nothing_released`, `Zgo.Mem.released_fails`, `Zgo.Comp.accepted_iff`, `Zgo.Comp.literals_refused`, `Zgo.Comp.literals_fails`, `Zgo.Comp.maps_accepted_iff`, `Jrpc.Obj.empty_object_fails`, `Jrpc.Obj.names_fails`, `Jrpc.Fl.float_read_partial`, `Jrpc.Fl.whole_number_fails`, `Zgo.Const.iota_refused`, `Kvs.Conc.atomic_partial`, `Kvs.Conc.key_by_key_partial`, `Kvs.Conc.disjoint_partial`, `Kvs.Conc.every_moment_partial`, `Kvs.Open.own_maps_partial`, `Sql.failures_reported`, `Sql.Stat.db_stats_partial`, `Sql.Stat.count_report_partial`, `Rest.trimSpace_twice`, `Zgo.Typ.written`, `Zgo.Typ.described_iff`, `Zgo.Typ.described_own`, `Zgo.Typ.described_fails`, `Zgo.Typ.defined_number_fails`, `Api.Tag.key_is_read`, `Api.Tag.docs_are_no_tags`, `Api.Example.steps_partial`, `Api.Example.notes_partial`, `Api.Example.example_iff`, `Api.Example.test_iff`, `Qnq.Dur.kept_partial`, `Qnq.Dur.acked_succeeded`, `Qnq.Dur.acked_called`, `Xyz.pair_read_iff`, `Xyz.pair_refused`, `Xyz.key_agrees`, `Oas.Name.own_schema_partial`, `Oas.Name.name_read_partial`, `Oas.Ref.ref_resolves_partial`, `Zgo.Range.no_upper_bound`, `Zgo.Range.no_upper_bound_fails`, `Zgo.Range.capacity_fails`, `Zgo.Range.append_fails`, `Zgo.Range.overlapping_copy_fails`, `Json.types_written`, `Xyz.Ext.text_storage_fails`, `Sql.Value.time_text_fails`, `Sql.Value.no_case_not_zero`, `Xyz.SwitchText.listed`, `Api.Answer.scenarios_listed`, `Rest.Field.stored`, `Rest.Field.found_is`, `Rest.Field.others_kept`, `Rest.Field.look`, `Rest.Field.pointer_argument_fails`, `Rest.Field.pointer_pointer_fails`

* **`Classical.choice`, `Quot.sound`, `propext`** (541 theorems): `Grpc.varint_round_trip`, `Grpc.varint_is_minimal`, `Grpc.varint_size_exact`, `Grpc.varint_accepts_iff`, `Grpc.varint_total`, `Grpc.zigzag_encode_value`, `Grpc.zigzag_decode_encode`, `Grpc.zigzag_encode_decode`, `Grpc.zigzag_ordered`, `Grpc.tag_round_trip`, `Grpc.tag_injective`, `Grpc.tag_accepts_iff`, `Grpc.fixed32_round_trip`, `Grpc.fixed64_round_trip`, `Grpc.fixed_truncated_iff`, `Grpc.bytes_round_trip`, `Grpc.bytes_accepts_iff`, `Grpc.bytes_long_prefix_truncated`, `Grpc.skip_accepts_iff`, `Grpc.skip_in_bounds`, `Grpc.skip_field_accepts`, `Grpc.skip_refuses_wrong_end`, `Grpc.skip_depth_refused`, `Grpc.group_body`, `Grpc.group_never_panics`, `Grpc.encoder_faithful_partial`, `Grpc.encoder_top_partial`, `Grpc.encoder_uniform_map_partial`, `Grpc.encoder_size_exact_partial`, `Grpc.wire_unambiguous`, `Grpc.encoder_faithful_fails`, `Grpc.encoder_nested_map_fails`, `Mmm.use_after_free_detected_partial`, `Mmm.live_pointer_reads_its_value_partial`, `Mmm.freed_at_most_once_partial`, `Mmm.lifetime_end_frees_all_partial`, `Mmm.disciplined_reads_partial`, `Mmm.end_twice_noop_partial`, `Mmm.end_pinned_twice_noop_partial`, `Jrpc.string_escaped`, `Jrpc.bytes_base64_partial`, `Jrpc.int_round_trip`, `Jrpc.uint_round_trip`, `Jrpc.int_text`, `Jrpc.int_accepts`, `Jrpc.chunking_partial`, `Jrpc.string_decoded_partial`, `Jrpc.string_accepts`, `Jrpc.string_round_trip`, `Jrpc.encoder_json_partial`, `Jrpc.codec_round_trip_partial`, `Jrpc.repeated_key_last_wins`, `Qnq.send_reaches_listener`, `Qnq.send_calls_once`, `Qnq.registered_exactly_once`, `Qnq.registration_order`, `Qnq.send_result`, `Qnq.never_crashes`, `Qnq.send_obstruction_free`, `Qnq.register_obstruction_free`, `Sql.flatten_round_trip_partial`, `Sql.column_count_fails`, `Sql.column_names_partial`, `Sql.column_names_fails`, `Sql.array_names_fails`, `Sql.concurrent_calls_atomic_partial`, `Sql.concurrent_calls_atomic_fails`, `Sock.understood_once`, `Sock.client_frames_partial`, `Sock.frames_read_partial`, `Sock.unmasked_frames_read_partial`, `Sock.masked_recovered_iff`, `Sock.conforming_never_panics_partial`, `Sock.text_crashes_server`, `Sock.ping_answered_partial`, `Sock.pong_echoes_fails`, `Arm64.encode_sound_partial`, `Arm64.and_immediate_partial`, `Arm64.and_immediate_fails`, `Arm64.word_correct_partial`, `Arm64.word_injective`, `Arm64.assemble_fetch`, `Arm64.word_fails`, `Arm64.word_fails_as`, `Amd64.call_correct_partial`, `Amd64.program_correct_partial`, `Amd64.call_correct_fails`, `Amd64.adc_swaps_operands`, `Amd64.adc_eax_is_add`, `Amd64.add_memory_stores`, `Amd64.adc_memory_writes_eight`, `Amd64.extended_registers`, `Rest.dispatch_partial`, `Rest.dispatch_sound_partial`, `Rest.dispatch_iff_partial`, `Rest.dispatch_fails`, `Rest.dispatch_fails_other_method`, `Rest.dispatch_fails_short`, `Rest.dispatch_fails_method_name`, `Rest.no_error_iff`, `Rest.status_carried_partial`, `Rest.status_fails`, `Rest.tag_parts_partial`, `Rest.tag_method_fails`, `Rest.tag_rules_panic`, `Rest.tag_unclosed_rules`, `Rest.arguments_bound_partial`, `Rest.too_few_rules_refused`, `Rest.misfit_refused_partial`, `Rest.argument_zero_panics`, `Rest.odd_formats_panic`, `Rest.destructured_partial`, `Rest.destructured_fails`, `Rest.destructured_index_ignored`, `Rest.not_found_path_partial`, `Rest.not_found_path_fails`, `Rest.route_path_partial`, `Rest.route_path_fails_equals`, `Rest.error_travels_partial`, `Rest.handle_status`, `Rest.handle_scenario`, `Rest.error_travels_fails`, `Rest.names_field_partial`, `Rest.tagged_field_reads`, `Rest.names_field_fails`, `Rest.names_field_panics`, `Xyz.round_trip_partial`, `Xyz.round_trip_string_partial`, `Xyz.round_trip_fails`, `Xyz.uintptr_ignores_names`, `Xyz.cases_distinct_partial`, `Xyz.unknown_refused_partial`, `Xyz.unknown_fails`, `Xyz.json_round_trip_partial`, `Xyz.json_fails`, `Xyz.json_names_partial`, `Xyz.json_const_partial`, `Xyz.json_merged_partial`, `Xyz.json_kinds_partial`, `Xyz.json_null_partial`, `Xyz.json_texts_partial`, `Xyz.json_fails_first`, `Xyz.first_takes_all`, `Xyz.text_first_refuses_objects`, `Xyz.void_name_panics`, `Xyz.string_leaks`, `Xyz.union_text`, `Xyz.duplex_values`, `Xyz.maybe_apart_partial`, `Abi.internal_registers`, `Abi.internal_location`, `Abi.internal_stack_disjoint`, `Abi.sysv_singles_iff`, `Abi.aapcs_singles_partial`, `Abi.aapcs_floats_partial`, `Abi.aapcs_reference_partial`, `Abi.aapcs_big_struct_fails`, `Abi.aapcs_small_struct_fails`, `Abi.pins_are_the_pointers_partial`, `Vm.compiled_call_partial`, `Abi.internal_stack_aligned_partial`, `Bit.write_short`, `Bit.write_partial`, `Bit.stream_partial`, `Bit.stream_error`, `Bit.flush_forgets`, `Bit.stream_fails`, `Cmdl.dispatch_iff`, `Cmdl.dispatch_none`, `Cmdl.literals_fail`, `Cmdl.placeholders_preferred`, `Cmdl.flags_are_words`, `Cmdl.scan_partial`, `Cmdl.numbers_exact`, `Cmdl.client_partial`, `Cmdl.round_trip_partial`, `Cmdl.round_trip_numbered_partial`, `Cmdl.alone_found`, `Cmdl.numbered_numbers_refused`, `Cmdl.empty_shows_help`, `Cmdl.slices_refused`, `Cmdl.flags_partial`, `Cmdl.flags_round_trip_partial`, `Cmdl.value_round_trip_partial`, `Cmdl.zero_omitted`, `Cmdl.rounds_fuel`, `Cmdl.values_stop`, `Cmdl.values_are_options`, `Cmdl.next_word_refused`, `Cmdl.inverted_flips`, `Xray.fifo`, `Xray.typed`, `Xray.add_never_blocks`, `Xray.look_never_waits`, `Wasm.squeeze_results`, `Wasm.squeeze_args`, `Wasm.decode_words`, `Wasm.words_declared`, `Wasm.round_trip`, `Wasm.squeeze_assigned_partial`, `Wasm.default_results_partial`, `Wasm.export_call_partial`, `Wasm.environment`, `Ffi.number_restored`, `Call.tag_round_trip`, `Call.tag_garbage_fails`, `Call.documented_capacity_fails`, `Call.documented_sizeof_fails`, `Call.documented_order_fails`, `Call.documented_example_fails`, `Call.sendValue_arrives`, `Call.arrives_fits`, `Call.tags_numbered`, `Call.call_arguments_partial`, `Call.call_result_partial`, `Call.call_float_result_partial`, `Call.bool_argument_fails`, `Call.named_result_fails`, `Call.dropped_result_fails`, `Call.void_pointer_result`, `Call.text_and_slice_only`, `Call.opaque_fails`, `Call.text_result_fails`, `Call.pointer_result_fails`, `Call.inferred_length`, `Call.inferred_only_lengths`, `Call.after_inferred_fails`, `Call.error_result_fails`, `Call.value_and_error_fails`, `Call.callback_partial`, `Call.callback_int_fails`, `Call.callback_unread_fails`, `Call.ffi_result_fails`, `Call.callbacks_own_partial`, `Xyz.text_int_partial`, `Xyz.text_string_partial`, `Xyz.text_fails`, `Arm64.encode_accepts_iff`, `Xray.get_never_waits_partial`, `Xray.stuck_forever`, `Xray.get_fails`, `Xyz.unknown_text_fails`, `Vm.push_little_endian`, `Wasm.results_read_back`, `Wasm.args_written`, `Wasm.jump_spec`, `Call.tag_ends`, `Call.tag_unambiguous`, `Rest.Serve.call_is_authorized`, `Rest.Serve.refused_is_alone`, `Rest.Serve.unauthorized_is_alone`, `Rest.Serve.no_authenticator`, `Rest.Serve.accepted_is_called`, `Rest.Serve.operations_authenticate_partial`, `Rest.Serve.pages_fails`, `Rest.Serve.pages_fails_form`, `Rest.Serve.pages_fails_examples`, `Rest.Serve.preflight_open`, `Rest.Serve.arguments_arrive_partial`, `Rest.Serve.putPost_travels`, `Rest.Serve.arguments_fails_empty_path_string`, `Rest.Serve.arguments_fails_slash`, `Rest.Serve.arguments_fails_rest_of_path`, `Rest.Serve.arguments_fails_method_name`, `Rest.Serve.arguments_fails_text_in_path`, `Rest.Serve.arguments_fails_text_string`, `Rest.Serve.arguments_fails_json_number`, `Rest.Serve.arguments_fails_pointer_query`, `Rest.Serve.arguments_fails_pointer_body`, `Rest.Serve.arguments_fails_bodiless`, `Rest.Serve.arguments_fails_two_in_body`, `Rest.Serve.arguments_fails_slices`, `Rest.Serve.arguments_fails_slice`, `Rest.Serve.arguments_fails_path_strings`, `Rest.Serve.arguments_fails_query_slices`, `Rest.Serve.result_arrives_partial`, `Rest.Serve.results_arrive_partial`, `Rest.Serve.no_results_arrive`, `Rest.Serve.status_result_read_as_text`, `Rest.Serve.arguments_no_panic_partial`, `Rest.Serve.form_panics`, `Rest.Serve.no_panic_fails`, `Rest.Serve.first_supported`, `Rest.Serve.result_written`, `Rest.Serve.unsupported_written`, `Rest.Serve.unsupported_fails`, `Rest.Serve.quality_fails`, `Rest.Serve.any_type_written`, `Rest.Serve.handlers_partial`, `Rest.Serve.options_order_fails`, `Rest.Serve.order_fails`, `Rest.Serve.preflight_fails`, `Rest.Serve.paths_order_fails`, `Rest.Serve.iterator_events`, `Rest.Serve.iterator_array`, `Rest.Serve.pairs_collected_partial`, `Rest.Serve.pairs_fails`, `Rest.Serve.channel_sends_one`, `Rest.Serve.channel_fails`, `Rest.Serve.empty_channel_status`, `Rest.Serve.events_fails`, `Rest.Serve.stream_refused`, `Rest.Serve.status_loses_type`, `Rest.Serve.reader_type_replaced`, `Rest.Serve.status_type_fails`, `Rest.Serve.duplicates_fails`, `Rest.Serve.decimals_read_partial`, `Rest.Serve.decimals_fails`, `Rest.Serve.decimals_exact`, `Rest.Serve.based_exact`, `Rest.Serve.octal_exact`, `Rest.Serve.read_begins`, `Rest.Serve.redacted_partial`, `Rest.Serve.redacted_fails`, `Rest.Serve.error_written`, `Api.iter_complete`, `Api.iter_order`, `Data.validate_nil_partial`, `Data.validate_errors_partial`, `Data.validate_unexported_fails`, `Data.validate_nested_fails`, `Data.element_name_fails`, `Data.report_text`, `Data.exceeds_text`, `Data.exceeds_text_fails`, `Pair.toInto_copies`, `Pair.toFrom_copies`, `Pair.toInto_slice`, `Pair.round_trip_partial`, `Pair.round_trip_back_partial`, `Pair.map_empty_partial`, `Pair.map_fails`, `Pair.map_back_fails`, `Pair.wrap_renames_partial`, `Pair.wrap_nested_fails`, `Pair.wrap_registered_partial`, `Pair.wrap_check_fails`, `Rpc.resolve_same_type_fails`, `Rpc.call_fails`, `Rpc.call_documentation_fails`, `Fmts.recognised_partial`, `Fmts.parser_of_format_partial`, `Fmts.recognised_fails`, `Fmts.unseparated_fails`, `Fmts.parser_default_fails`, `Fmts.link_complete`, `Fmts.link_choice_partial`, `Fmts.link_error_top`, `Fmts.link_error_fails`, `Fmts.link_print_error_fails`, `Zgo.Esc.answer_is_reachability`, `Zgo.Esc.shared_with_a_sink_is_on_the_heap`, `Zgo.Esc.nothing_escapes_without_a_sink`, `Zgo.Esc.returned_or_stored_address_is_on_the_heap_partial`, `Zgo.Esc.scanned_uses_agree_partial`, `Zgo.Lit.integer_literal_partial`, `Zgo.Lit.string_literal_partial`, `Zgo.Lit.string_literal_bell_fails`, `Zgo.Lit.string_literal_unicode_fails`, `Zgo.Lit.float_literal_partial`, `Zgo.Lit.float_underscores_partial`, `Zgo.Lit.float_underscore_fails`, `Zgo.Lit.imaginary_literal_partial`, `Zgo.Lit.zero_with_exponent_fails`, `Zgo.Lit.float_literal_fails`, `Zgo.Lit.imaginary_zeros_fails`, `Zgo.Op.reads_back_iff`, `Zgo.Op.expression_keeps_shape_partial`, `Zgo.Op.unreadable_fails`, `Zgo.Names.names_resolve_partial`, `Zgo.Names.receiver_fails`, `Zgo.Names.parameter_mention_fails`, `Zgo.Chan.never_stuck_partial`, `Oas.schema_means_type_partial`, `Oas.schema_accepts_encoded_partial`, `Oas.schema_accepts_encoded_fails_nil`, `Oas.schema_accepts_encoded_fails_bytes`, `Oas.schema_accepts_encoded_fails_keys`, `Oas.document_lists_served_partial`, `Oas.document_lists_served_fails_duplicate`, `Oas.document_lists_served_fails_http`, `Bin.writes_tag_partial`, `Bin.top_bit_fails`, `Bin.arm64_add_fails`, `Bin.amd64_add_fails`, `Bin.zero_fails`, `Bin.signed_fails`, `Bin.aligned_fails`, `Bin.return_written`, `Bin.bad_byte_panics`, `Sdk.client_sends_partial`, `Sdk.client_sends_fails_get`, `Sdk.client_sends_fails_parameter`, `Sdk.client_sends_fails_root`, `Sdk.client_sends_fails_dash`, `Sdk.results_delivered_partial`, `Xray.Err.message_kept_partial`, `Xray.Err.message_kept_fails`, `Xray.Err.places_printed_partial`, `Xray.Err.places_printed_fails`, `Vm.Reg.read_back`, `Vm.Reg.read_narrower`, `Vm.Reg.truth_partial`, `Vm.Reg.c_true_is_go_true`, `Zgo.Slice.slices_partial`, `Zgo.Asg.several_accepted`, `Vm.Chk.checked_result_partial`, `Vm.Chk.or_equal_fails`, `Vm.Chk.negative_fails`, `Vm.Chk.narrow_fails`, `Vm.Chk.unchecked_fails`, `Vm.Chk.code_fails`, `Vm.Str.strings_arrive_partial`, `Vm.Var.dyncall_fails`, `Vm.Pin.pinned_until_freed_partial`, `Vm.Pin.pool_bounded`, `Rest.Deno.reads_end`, `Rest.Deno.request_arrives`, `Vm.Cb.arguments_arrive_partial`, `Vm.Cb.first_result_partial`, `Mmm.copy_reads_partial`, `Mmm.copy_released_early_fails`, `Mmm.copy_counts_in_api_fails`, `Rest.Form.form_fields_partial`, `Rest.Plain.string_reads_back_iff`, `Rest.Plain.integer_reads_back_partial`, `Rest.Plain.blank_refused_iff`, `Zgo.Comp.literal_partial`, `Zgo.Comp.maps_partial`, `Jrpc.Obj.struct_read_partial`, `Jrpc.Obj.struct_nested_partial`, `Jrpc.Obj.struct_trip_partial`, `Jrpc.Obj.unknown_member_fails`, `Jrpc.Obj.unexported_fails`, `Jrpc.Fl.float_exact_partial`, `Jrpc.Fl.negative_fails`, `Jrpc.Fl.space_fails`, `Jrpc.Fl.float_fails`, `Zgo.Const.constants_partial`, `Zgo.Const.constants_compile_partial`, `Kvs.Conc.atomic_fails`, `Kvs.Conc.half_commit_fails`, `Sql.part_columns_partial`, `Sql.pointers_mean_partial`, `Sql.pointers_mean_fails`, `Sql.pointers_same_table_fails`, `Sql.pointers_tag_options_fails`, `Sql.db_query_partial`, `Sql.db_empty_fails`, `Sql.db_clash_fails`, `Sql.db_unexported_fails`, `Sql.db_map_partial`, `Sql.db_map_fails`, `Sql.Tx.db_ok_iff`, `Sql.Tx.db_one_call_partial`, `Sql.Tx.db_transfer_fails`, `Sql.Tx.isolated_partial`, `Sql.Stat.mem_counts_partial`, `Sql.Stat.driver_round_trip`, `Rest.Serve.arguments_as_requested_partial`, `Rest.Serve.unreadable_refused_partial`, `Rest.Serve.says_unique`, `Rest.Serve.unknown_type_refused_partial`, `Rest.Serve.lists_of_one`, `Rest.Serve.lists_fails`, `Rest.client_error_iff`, `Rest.error_arrives_iff`, `Rest.bodiless_error`, `Rest.relayed_partial`, `Rest.relayed_fails`, `Rest.Serve.page_or_call`, `Rest.Serve.page_authenticated`, `Rest.Serve.page_fails`, `Xyz.Reading.always_of_type`, `Xyz.Reading.json_number_exact`, `Xyz.Reading.text_number`, `Xyz.Reading.text_signed`, `Xyz.Reading.text_octal_cut`, `Zgo.Typ.text_partial`, `Oas.Form.whole_means`, `Oas.Form.form_means_partial`, `Oas.Form.form_tabs`, `Oas.Form.form_tabs_fails`, `Api.Tag.tag_documents`, `Api.Tag.type_documents`, `Xyz.pair_round_trip_partial`, `Zgo.Print.println_partial`, `Zgo.Print.compiled_iff`, `Zgo.Print.println_fails`, `Zgo.Print.defined_fails`, `Oas.Name.nested_fails`, `Oas.Ref.ref_uri_partial`, `Oas.Ref.lookup_iff`, `Oas.Ref.generic_ref_not_uri`, `Oas.Ref.ref_fails`, `Oas.Ref.percent_ref_fails`, `Zgo.Range.slicing_partial`, `Zgo.Range.range_bounded`, `Json.types_read_string`, `Json.types_read_array`, `Json.types_round_trip`, `Json.types_injective`, `Json.types_accepts_partial`, `Json.static_only`, `Json.static_space_fails`, `Ffi.Box.handles_are_go_partial`, `Xyz.Ext.texts_restored_partial`, `Xyz.Ext.text_selects`, `Xyz.Ext.cases_told_apart`, `Sql.Value.string_says_partial`, `Sql.Value.string_tells_apart_partial`, `Sql.Value.times_same_second`, `Sql.Value.zero_iff`, `Sql.Value.time_zone_fails`, `Xyz.SwitchText.listed_distinct`, `Xyz.SwitchText.name_read_partial`, `Xyz.SwitchText.listed_read_partial`, `Xyz.SwitchText.accepts_partial`, `Xyz.SwitchText.others_refused_partial`, `Xyz.SwitchText.case_written_partial`, `Xyz.SwitchText.claim_fails`, `Api.Answer.test_iff`, `Api.Answer.status_partial`, `Api.Answer.message_partial`, `Api.Answer.answered_partial`, `Api.Answer.silent_500`, `Api.Answer.others_own`, `Api.Answer.own_status`, `Api.Answer.own_status_default`, `Api.Answer.texts`, `Api.Answer.wrapping_same`, `Api.Answer.claim_fails`, `Api.Answer.wrapped_fails`, `Api.Answer.bad_status_fails`, `Api.Answer.not_implemented_501`, `Api.Answer.zero_is_500`, `Api.Answer.coded_answer`, `Api.Answer.signed_partial`, `Rest.Field.total`, `Rest.Field.all_stored_partial`, `Rest.Field.client_agrees_partial`

(All names are prefixed with `Verif.`)
