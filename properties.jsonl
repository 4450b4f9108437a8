{"id": "C01", "title": "Varint round trip", "statement": "Appending any uint64 as a protobuf varint and consuming from the result, followed by arbitrary further bytes, returns the same value and exactly the number of bytes that were appended.", "quantifier": "all 2^64 values, all suffixes of bytes", "why_tests_cant": "the 2^64 values times arbitrary suffixes cannot be enumerated", "anchors": ["api/grpc/pb.go: appendVarint, consumeVarint"]}
{"id": "C02", "title": "Varint size is exact", "statement": "The size predicted for a varint equals the number of bytes appended for it, and lies between 1 and 10.", "quantifier": "all 2^64 values", "why_tests_cant": "the size formula is an approximation (9/64 for 1/7) whose exactness has to hold for every bit length and every value", "anchors": ["api/grpc/pb.go: sizeVarint, appendVarint"]}
{"id": "C03", "title": "Varint decoding is total, in-bounds and correctly classified", "statement": "Consuming a varint from any byte sequence never reads past the end; it reports truncation exactly when the input ends before a terminating byte, overflow exactly when ten bytes do not fit 64 bits, and otherwise returns the little-endian base-128 value of the bytes consumed.", "quantifier": "all byte sequences of any length", "why_tests_cant": "unbounded inputs", "anchors": ["api/grpc/pb.go: consumeVarint, parseError"]}
{"id": "C04", "title": "ZigZag is a bijection ordered by magnitude", "statement": "ZigZag encoding and decoding are mutually inverse on all 64-bit values, with non-negative x mapped to 2x and negative x to -2x-1.", "quantifier": "all int64 / uint64 values", "why_tests_cant": "2^64 values", "anchors": ["api/grpc/pb.go: encodeZigZag, decodeZigZag"]}
{"id": "C05", "title": "Field tags round trip", "statement": "Every valid field number (1..2^29-1) with every wire type 0..7 survives appendTag followed by consumeTag with any suffix, distinct (number,type) pairs get distinct tags, and any tag accepted by the parser has a field number of at least 1.", "quantifier": "all field numbers, wire types, suffixes, byte inputs", "why_tests_cant": "unbounded combinations", "anchors": ["api/grpc/pb.go: encodeTag, decodeTag, appendTag, consumeTag, sizeTag"]}
{"id": "C06", "title": "Fixed-width and length-prefixed values round trip", "statement": "fixed32, fixed64, bytes and string values consumed from append(v)++suffix return v and the exact length; a length prefix larger than the remaining input is reported as truncated and never sliced out of bounds.", "quantifier": "all values, all suffixes, all inputs", "why_tests_cant": "unbounded", "anchors": ["api/grpc/pb.go: appendFixed32, consumeFixed32, appendFixed64, consumeFixed64, appendBytes, consumeBytes, appendString, consumeString"]}
{"id": "C07", "title": "Skipping a field stays within the input", "statement": "Skipping an arbitrary field (including nested groups) terminates on every input, and the returned length, when non-negative, never exceeds the input; a group is only accepted when it ends with an end marker of its own field number, and nesting beyond the recursion limit is refused.", "quantifier": "all byte sequences, field numbers, wire types and nesting depths", "why_tests_cant": "adversarial inputs of unbounded nesting", "anchors": ["api/grpc/pb.go: consumeField, consumeFieldValue, consumeFieldValueD, consumeGroup"]}
{"id": "C08", "title": "gRPC messages have correct length prefixes", "statement": "For every value the encoder accepts, the length prefix written in front of each nested message equals the number of bytes of that message, so that a generic protobuf parser recovers exactly the encoded fields.", "quantifier": "all Go values reachable by reflection (structs, arrays, slices, maps, pointers, scalars) of any shape and depth", "why_tests_cant": "unbounded recursive shapes", "anchors": ["api/grpc/enc.go: sizeof, encode, sizeof_map, encode_map"]}
{"id": "C09", "title": "JSON strings are escaped losslessly", "statement": "Every string written by the JSON-RPC encoder is a well-formed JSON string (no raw control characters, quotes or backslashes inside) and an RFC 8259 reader recovers the original code points, with each ill-formed UTF-8 byte replaced by U+FFFD.", "quantifier": "all byte strings", "why_tests_cant": "unbounded strings, all ill-formed UTF-8", "anchors": ["api/jrpc/enc.go: Encoder.string"]}
{"id": "C10", "title": "Byte slices are encoded as base64", "statement": "The JSON-RPC encoder writes every byte slice as its RFC 4648 base64 text so that a base64 reader recovers the bytes.", "quantifier": "all byte slices", "why_tests_cant": "unbounded lengths and contents", "anchors": ["api/jrpc/enc.go: Encoder.base64"]}
{"id": "C11", "title": "JSON-RPC integers decode to the value written", "statement": "Decoding the decimal text of any integer that fits the type of the variable, of any width and sign, yields that integer if it is followed by the end or by a byte that cannot continue a number; encoding and decoding an integer yields it.", "quantifier": "all integers, all digit strings", "why_tests_cant": "unbounded digit strings", "anchors": ["api/jrpc/dec.go: Decoder.decode (integer kinds)"]}
{"id": "C12", "title": "JSON-RPC decoding does not depend on how the reader chunks its data", "statement": "For every byte stream and every way the underlying reader splits it into reads, the decoder sees exactly the bytes of the stream in order.", "quantifier": "all streams, all chunkings", "why_tests_cant": "schedules of short reads", "anchors": ["api/jrpc/dec.go: peek_byte, scan_byte"]}
{"id": "C13", "title": "Use after free is detected", "statement": "After a managed pointer has been freed (directly, by its lifetime ending, or by being moved), every later Get through any old handle panics instead of returning memory that may belong to another allocation.", "quantifier": "all histories of New/Get/Set/Free/Move/End operations", "why_tests_cant": "unbounded histories with slot reuse", "anchors": ["mmm/mmm.go: New, Get, End, Move, Lifetime.End"]}
{"id": "C14", "title": "Ending a lifetime frees each of its allocations exactly once", "statement": "When a lifetime ends, the user's Free is called exactly once for every allocation still alive in that lifetime, and for nothing else.", "quantifier": "all histories of allocation and individual frees before the end", "why_tests_cant": "unbounded histories and interleavings of lifetimes", "anchors": ["mmm/mmm.go: New, free, End, Lifetime.End"]}
{"id": "C15", "title": "Ending a lifetime twice is harmless", "statement": "A second End of the same lifetime value has no effect even after its root has been recycled for another lifetime.", "quantifier": "all histories", "why_tests_cant": "recycling makes it history dependent", "anchors": ["mmm/mmm.go: Lifetime.End, NewLifetime"]}
{"id": "C16", "title": "Published messages reach every registered listener", "statement": "A Send that begins after a listener's registration completed calls that listener's handler with the message, whatever registrations and sends run concurrently, provided no earlier handler reports an error and the listener's context is not cancelled.", "quantifier": "all interleavings of concurrent register and send steps", "why_tests_cant": "schedules", "anchors": ["qnq/qnq.go: register, send"]}
{"id": "C17", "title": "Listeners are never lost by concurrent registration", "statement": "Any number of concurrent registrations all end up in the channel, each exactly once, in the order their links were published.", "quantifier": "all interleavings", "why_tests_cant": "schedules", "anchors": ["qnq/qnq.go: register"]}
{"id": "C18", "title": "Send reports an empty channel exactly when no handler ran", "statement": "Send returns the empty-channel error exactly when it invoked no handler, and the first handler error stops delivery and is returned.", "quantifier": "all listener lists and handler outcomes", "why_tests_cant": "unbounded lists", "anchors": ["qnq/qnq.go: send"]}
{"id": "C19", "title": "The in-memory SQL map behaves like a key-value map", "statement": "Under every sequence of Insert, Lookup, Delete and Mutate the in-memory database answers exactly like a mathematical partial map: Create never overwrites and reports a duplicate, Upsert overwrites, Delete removes only when every check holds, Mutate changes only the named key.", "quantifier": "all operation sequences, keys, values and conditions", "why_tests_cant": "unbounded histories", "anchors": ["sql/ram.go: Insert, Lookup, Delete, Mutate"]}
{"id": "C20", "title": "Auto-increment keys are unique", "statement": "Add never returns the same key twice and never overwrites an existing record.", "quantifier": "all histories mixing Add and Insert", "why_tests_cant": "unbounded histories", "anchors": ["sql/ram.go: Add"]}
{"id": "C21", "title": "Query combinators mean boolean logic", "statement": "Cases is disjunction, Merge is conjunction and Avoid is negation of the conditions they combine, when evaluated by the in-memory database.", "quantifier": "all conditions and records", "why_tests_cant": "unbounded nesting of combinators", "anchors": ["sql/sql.go: Cases, Merge, Avoid; sql/ram.go: match"]}
{"id": "C22", "title": "Ranged delete and update touch only records inside the slice", "statement": "UnsafeDelete/Update with Slice(from,upto) affect only matching records and at most upto-from of them, and report how many they affected.", "quantifier": "all tables, queries and slices", "why_tests_cant": "unbounded tables", "anchors": ["sql/ram.go: UnsafeDelete, Update; sql/sql.go: Slice"]}
{"id": "C23", "title": "Records survive flattening into columns", "statement": "Reading back the column values of any record yields the same record; the number of column values equals the number of columns of its type.", "quantifier": "all struct/array/scalar shapes and values of any depth", "why_tests_cant": "recursive shapes", "anchors": ["sql/sql.go: ValuesOf, columnsOf, decode"]}
{"id": "C24", "title": "Ordered searches are sorted", "statement": "A Search with an Order returns the matching records sorted by the order expressions, earlier expressions taking precedence.", "quantifier": "all tables and orders", "why_tests_cant": "unbounded tables", "anchors": ["sql/ram.go: Search"]}
{"id": "C25", "title": "Key-value commits apply in order", "statement": "A commit to a key-value map leaves each key inserted unless it is also deleted, deletions winning, whatever the order the inserted records are visited in.", "quantifier": "all batches and stores", "why_tests_cant": "unbounded histories", "anchors": ["kvs/kvs.go: Commit, Lookup, Get, Set, Del"]}
{"id": "C26", "title": "Enum text round trips", "statement": "For every switch type, marshalling any declared value to text and unmarshalling it yields the same value, and unknown text is rejected leaving the value unchanged.", "quantifier": "all switch declarations (any number of names) and all values", "why_tests_cant": "unbounded declarations", "anchors": ["xyz/switch.go: MarshalText, UnmarshalText, Values"]}
{"id": "C27", "title": "Tagged unions never yield the wrong variant", "statement": "If reading a union through a case accessor gives a value, that case is the last one that was stored successfully, whatever was stored before, for every kind of storage.", "quantifier": "all declarations, all write/read sequences", "why_tests_cant": "unbounded histories", "anchors": ["xyz/tagged.go: As, Get, get, ValueOf"]}
{"id": "C28", "title": "Tuples round trip as JSON arrays", "statement": "Nested pairs, trios and quads marshal to JSON arrays of their components in order and unmarshal back to the same tuple; arrays that are too short are refused; as arguments of a format a nested tuple is its values from left to right.", "quantifier": "all nestings and values", "why_tests_cant": "recursive shapes", "anchors": ["xyz/tuples.go: MarshalJSON, UnmarshalJSON, push, expand"]}
{"id": "C29", "title": "REST routing finds exactly the registered handler", "statement": "A request is dispatched to a handler iff some registered pattern for its method matches the path segment by segment, static segments taking precedence over parameters, and every path parameter of that pattern is bound to the corresponding segment.", "quantifier": "all route tables and all request paths", "why_tests_cant": "unbounded tables and paths", "anchors": ["api/rest/path.go: Handle, ServeHTTP"]}
{"id": "C30", "title": "WebSocket frames written by the server are well-formed", "statement": "Every message sent over a websocket is framed such that an RFC 6455 receiver recovers exactly the payload and stays in sync for the next frame.", "quantifier": "all payload lengths and contents", "why_tests_cant": "lengths around every boundary and sequences of frames", "anchors": ["api/rest/sock.go: websocketServeHTTP"]}
{"id": "C31", "title": "WebSocket frames from a conforming client are unmasked correctly", "statement": "For every payload and mask key, the server recovers the payload a conforming RFC 6455 client masked.", "quantifier": "all payloads and keys", "why_tests_cant": "2^32 keys times unbounded payloads", "anchors": ["api/rest/sock.go: websocketServeHTTP, websocketOpen"]}
{"id": "C32", "title": "HTTP statuses map to errors faithfully", "statement": "A response with a success status yields no error and every failure status yields an error carrying that status.", "quantifier": "all status codes", "why_tests_cant": "policy over all status codes", "anchors": ["api/internal/http/http.go: ResponseError"]}
{"id": "C33", "title": "ARM64 bitmask immediates are encoded correctly", "statement": "Whenever the assembler accepts a 64-bit bit-pattern immediate, decoding the produced fields by the architecture's DecodeBitMasks yields that immediate.", "quantifier": "all 2^64 patterns", "why_tests_cant": "2^64 values", "anchors": ["cpu/arm64/bit.go: encode"]}
{"id": "C34", "title": "ARM64 instruction operands do not interfere", "statement": "For register-form ARM64 instructions the emitted word has each operand exactly in its architectural field and the fixed opcode bits are independent of the operands; distinct operands give distinct words.", "quantifier": "all register operands and in-range immediates", "why_tests_cant": "all operand combinations", "anchors": ["cpu/arm64/asm.go: API, rd, rn, rm, imm12"]}
{"id": "C35", "title": "AMD64 arithmetic encodes the requested operation", "statement": "Every call of Add, AddWithCarry, BitwiseAnd/Or/Xor and their Memory variants emits bytes that the processor decodes to exactly one instruction: the requested operation with the requested destination, source and width.", "quantifier": "all calls the types allow, all named registers and all immediates", "why_tests_cant": "operand combinations times 2^32 immediates", "anchors": ["cpu/amd64/asm.go: adc, add, and, or, xor", "cpu/amd64/api.go"]}
{"id": "C36", "title": "Go internal ABI assignment never aliases", "statement": "Within the arguments (and within the results) of any function, no two register-assigned words share a register, registers are used in order and within the limits of the architecture, a value is in registers exactly if all its words fit in those left and then each word is in a register of its kind, and values on the stack occupy slots that are disjoint by their sizes.", "quantifier": "all function signatures with nested structs of any depth, four architectures", "why_tests_cant": "recursive signatures", "anchors": ["api/call/internal/abi/abi_golang.go: Internal; abi.go: Size, Align"]}
{"id": "C37", "title": "WASM register squeezing never overlaps", "statement": "For every function signature the byte ranges assigned to results and to arguments are pairwise disjoint within each bank and lie within the bank.", "quantifier": "all signatures and register budgets", "why_tests_cant": "unbounded signatures", "anchors": ["api/wasm/register_allocation.go: squeezeRegistersFor"]}
{"id": "C38", "title": "FFI layout agrees with its size", "statement": "The number of bytes written for a value equals the size computed for its type, and reading several slice elements lays them out consecutively.", "quantifier": "all types and values", "why_tests_cant": "recursive types", "anchors": ["ffi/mem.go: sizeOf, read, sliceReader.ReadAt"]}
{"id": "C39", "title": "X-ray queues are FIFO and never lose values", "statement": "Values added to an x-ray context come back in the order they were added, once each, per type, in every interleaving; adding and looking never wait for others to get.", "quantifier": "all histories and interleavings of Add and Get", "why_tests_cant": "schedules", "anchors": ["api/xray/xray.go: ContextAdd, ContextGet, ContextHas, ContextOff"]}
{"id": "C40", "title": "Bit writers do not lose data", "statement": "Everything written to a bit array or stream comes out of Bytes/Flush unchanged and in order.", "quantifier": "all byte sequences and chunkings", "why_tests_cant": "unbounded", "anchors": ["bit/bit.go: WriteBytes, WriteString, WriteBits, Flush"]}
{"id": "C41", "title": "REST format parameters bind each argument once", "statement": "Positional format parameters in a rest tag bind argument k to the k-th parameter (or the indexed one), every argument not placed in path or query travels in the body, and out-of-range indexes are rejected with an error rather than a panic.", "quantifier": "all tags and signatures", "why_tests_cant": "unbounded tags", "anchors": ["api/rest/rest.go: parseParam, parsePath, parseQuery, parseBody"]}
{"id": "C42", "title": "Destructured query parameters address their own field", "statement": "When a struct argument is expanded into query parameters, every parameter's index path leads to the field it is named after.", "quantifier": "all struct types of any nesting depth", "why_tests_cant": "needs deep nesting and Go slice aliasing", "anchors": ["api/rest/rest.go: parseQuery (walk)"]}
{"id": "C43", "title": "Calling-convention VM instructions round trip", "statement": "Every instruction built by the program builder decodes to the operation and operand it was built from, and every byte is such an instruction.", "quantifier": "all instructions and operands", "why_tests_cant": "all encodings", "anchors": ["api/call/internal/cpu/ops.go: NewBits, NewFunc, NewLoad, NewMove, Decode; api/call/internal/ffi/asm.go: compile"]}
{"id": "C44", "title": "Command-line dispatch picks the best matching command", "statement": "The command chosen for a command line is the first one with the strictly highest score, every literal word of which is matched by the command line.", "quantifier": "all command tables and argument vectors", "why_tests_cant": "unbounded tables", "anchors": ["api/cmdl/main.go: match"]}
{"id": "C45", "title": "Cacheable types contain no pointers", "statement": "A type accepted for byte-wise caching is at most 16 bytes and contains no pointers at any depth.", "quantifier": "all types", "why_tests_cant": "recursive types", "anchors": ["via/via.go: canCache"]}
{"id": "C46", "title": "Rest tags parse into their parts", "statement": "For a tag composed of method, content type, path, argument rules and result rules, each accessor returns its own part unchanged.", "quantifier": "all well-formed tags", "why_tests_cant": "unbounded strings", "anchors": ["api/internal/rtags/rtags.go: MethodOf, PathOf, ArgumentRulesOf, ResultRulesOf"]}
{"id": "C47", "title": "Reading a group yields its contents", "statement": "Reading a protobuf group returns exactly its contents without the end marker, even when the marker is a padded varint, reports the length including the marker, and never slices out of bounds.", "quantifier": "all byte sequences and field numbers", "why_tests_cant": "all inputs, all paddings", "anchors": ["api/grpc/pb.go: consumeGroup"]}
{"id": "C48", "title": "The JSON-RPC decoder understands JSON strings", "statement": "Every RFC 8259 string is decoded to the UTF-8 of the code points it denotes; in particular every well-formed string written by the encoder is read back unchanged.", "quantifier": "all string texts", "why_tests_cant": "unbounded strings and every escape", "anchors": ["api/jrpc/dec.go: Decoder.decode (string kind)", "api/jrpc/enc.go: Encoder.string"]}
{"id": "C49", "title": "The JSON-RPC encoder writes JSON", "statement": "Whatever value is encoded, the output is an RFC 8259 text denoting that value.", "quantifier": "all values of any shape and depth", "why_tests_cant": "recursive shapes", "anchors": ["api/jrpc/enc.go: Encoder.encode, encode_map"]}
{"id": "C50", "title": "Values survive the JSON-RPC codec", "statement": "Decoding what was encoded into a variable of the same type restores the value and consumes exactly its text.", "quantifier": "all types and values built from booleans, integers, strings, slices, maps and pointers", "why_tests_cant": "recursive shapes", "anchors": ["api/jrpc/enc.go: Encoder.encode", "api/jrpc/dec.go: Decoder.decode"]}
{"id": "C51", "title": "JSON-RPC booleans are read exactly", "statement": "A boolean variable is set to the value the text says, and text other than true and false is refused.", "quantifier": "all texts and prior values", "why_tests_cant": "all inputs", "anchors": ["api/jrpc/dec.go: Decoder.decode (boolean kind)"]}
{"id": "C52", "title": "Cancelled listeners receive nothing", "statement": "A send that starts after a listener's context was cancelled does not call that listener.", "quantifier": "all histories", "why_tests_cant": "schedules and list shapes", "anchors": ["qnq/qnq.go: register, send"]}
{"id": "C53", "title": "Channel operations do not wait for each other", "statement": "From any reachable state, a send or a registration that is run on its own returns after finitely many steps, wherever the other goroutines are suspended.", "quantifier": "all histories, all suspension points", "why_tests_cant": "schedules", "anchors": ["qnq/qnq.go: register, send"]}
{"id": "C54", "title": "Searches yield exactly the matching records", "statement": "A Search of the in-memory database that is run to its end yields every record that meets all conditions of the query, each once, and no other.", "quantifier": "all tables, queries and visiting orders", "why_tests_cant": "unbounded tables", "anchors": ["sql/ram.go: Search; sql/sql.go: Search"]}
{"id": "C55", "title": "Slices limit searches", "statement": "A Search with Slice(from,upto) yields at most upto-from records.", "quantifier": "all tables, queries and slices", "why_tests_cant": "unbounded tables", "anchors": ["sql/ram.go: Search; sql/sql.go: Slice"]}
{"id": "C56", "title": "Columns are named as documented", "statement": "The column of a nested field is named by the names of the fields leading to it joined with underscores, embedded structures adding nothing; all columns of a record have different names.", "quantifier": "all struct/array shapes of any depth", "why_tests_cant": "recursive shapes", "anchors": ["sql/sql.go: columnsOf"]}
{"id": "C57", "title": "Concurrent calls on the in-memory database are atomic", "statement": "However concurrent Insert, Lookup, Delete and Mutate calls interleave, there is an order of the calls, respecting which call returned before which was made, that explains every answer and the final contents.", "quantifier": "all interleavings of any number of calls", "why_tests_cant": "schedules", "anchors": ["sql/ram.go: Insert, Lookup, Delete, Mutate"]}
{"id": "C58", "title": "Commits to a key-value database report failure truthfully", "statement": "A commit that reports no error applied the whole batch; a commit that fails leaves every key either as it was, or with the value the batch inserts, or (if the batch deletes it) absent; a lookup reports absence with the zero value.", "quantifier": "all databases, failures, batches and map iteration orders", "why_tests_cant": "failures at every point", "anchors": ["kvs/kvs.go: Map.open"]}
{"id": "C59", "title": "Ranging over a key-value map yields its records", "statement": "Ranging over all values of an in-memory map yields every record exactly once; stopping early yields a prefix.", "quantifier": "all maps, visiting orders and consumers", "why_tests_cant": "unbounded maps", "anchors": ["kvs/kvs.go: New (Values)"]}
{"id": "C60", "title": "Peers cannot crash the process over a websocket", "statement": "No sequence of bytes a peer sends over a websocket makes the reading goroutine panic.", "quantifier": "all byte streams", "why_tests_cant": "adversarial streams", "anchors": ["api/rest/sock.go: websocketServeHTTP, websocketOpen", "api/rest/host.go: handleStreamingResult"]}
{"id": "C61", "title": "Server-sent events arrive", "statement": "Every value the server sends as an event arrives in the client's receive channel, in order.", "quantifier": "all sequences of values", "why_tests_cant": "unbounded sequences", "anchors": ["api/rest/sock.go: sseServeHTTP, sseClientOpen"]}
{"id": "C62", "title": "Control frames and fragments are handled", "statement": "A ping is answered by one pong with the same payload; a message sent in fragments is delivered whole.", "quantifier": "all conforming streams", "why_tests_cant": "all payloads and fragmentations", "anchors": ["api/rest/sock.go: websocketServeHTTP"]}
{"id": "C63", "title": "The not-found handler sees the request", "statement": "When no route is found the not-found handler is given the request with the path it arrived with.", "quantifier": "all route tables and requests", "why_tests_cant": "unbounded tables", "anchors": ["api/rest/path.go: ServeHTTP"]}
{"id": "C64", "title": "The path of a tag becomes the route", "statement": "The route registered for a rest tag has the literal segments of the tag's path in order, and for every named format in braces a parameter of that name.", "quantifier": "all tag paths", "why_tests_cant": "unbounded strings", "anchors": ["api/internal/rtags/rtags.go: CleanupPattern", "api/rest/rest.go: loadOperation"]}
{"id": "C65", "title": "Errors reach the caller", "statement": "An error returned by an implementation is reported over HTTP with its status, and the caller of the client gets an error with the same status, text and registered scenario.", "quantifier": "all errors, scenarios and texts", "why_tests_cant": "unbounded texts and tables", "anchors": ["api/rest/host.go: handle", "api/internal/http/http.go: ResponseError", "api/rest/link.go: decodeError"]}
{"id": "C66", "title": "Parameters that name a field read that field", "statement": "A braced parameter without a format reads the field of that name or of that rest tag in the only struct argument.", "quantifier": "all signatures, struct shapes and name paths", "why_tests_cant": "recursive shapes", "anchors": ["api/rest/rest.go: parseStructParam"]}
{"id": "C67", "title": "Goroutines agree on the cases of a union", "statement": "Whichever goroutines ask for the accessors of a union first, and however they interleave, a value stored through the accessor one of them got can be read through the accessor another got.", "quantifier": "all interleavings of any number of goroutines", "why_tests_cant": "schedules", "anchors": ["xyz/tagged.go: accessors, append, Values"]}
{"id": "C68", "title": "Tagged unions round trip as JSON", "statement": "A union that holds a value of a case, marshalled to JSON and unmarshalled, holds the same case and value, for each of the documented tag schemes.", "quantifier": "all declarations and values", "why_tests_cant": "unbounded declarations and values", "anchors": ["xyz/tagged.go: MarshalJSON, UnmarshalJSON"]}
{"id": "C69", "title": "Storing a case never overruns the storage or hides a pointer", "statement": "A declaration whose storage is plain memory is only accepted if every case fits in it and has no pointers at any depth, and storing a case writes within the storage.", "quantifier": "all types of any depth", "why_tests_cant": "recursive types", "anchors": ["xyz/tagged.go: hasPointers, accessors, as"]}
{"id": "C70", "title": "Texts of a union select its case", "statement": "Unmarshalling the text of a case selects that case, whatever was selected before.", "quantifier": "all declarations, texts and previous states", "why_tests_cant": "unbounded", "anchors": ["xyz/tagged.go: UnmarshalText"]}
{"id": "C71", "title": "Duplex numbers stand for every choice of signs", "statement": "The values of a duplex number of n terms are exactly the 2^(n-1) sums over all choices of signs, in the documented order.", "quantifier": "all lengths and terms", "why_tests_cant": "exponentially many values, unbounded lengths", "anchors": ["xyz/duplex.go: Values"]}
{"id": "C72", "title": "Optional values round trip and are independent", "statement": "An included value is restored from its JSON, an omitted one is null and null omits, an error leaves the variable as it was, and reading into one variable does not change another.", "quantifier": "all values, variables and JSON", "why_tests_cant": "unbounded", "anchors": ["xyz/xyz.go: Maybe, New, Get, MarshalJSON, UnmarshalJSON"]}
{"id": "C73", "title": "Go types keep their size as values", "statement": "The value that stands for a Go type in a calling convention has the size of the type, and every type has one.", "quantifier": "all Go types of any nesting", "why_tests_cant": "recursive types", "anchors": ["api/call/internal/abi/abi.go: ValueOf, Size"]}
{"id": "C74", "title": "A place is equal to itself", "statement": "Comparing two places in a calling convention gives true exactly if they are the same place, and never panics.", "quantifier": "all places of any nesting", "why_tests_cant": "recursive places", "anchors": ["api/call/internal/abi/abi.go: Location.Equals"]}
{"id": "C76", "title": "Dyncall takes exactly the functions it can call", "statement": "The dyncall convention accepts a function exactly if its arguments and its at most one result are single values, pushes every argument with its own width and asks for the width of the result.", "quantifier": "all signatures", "why_tests_cant": "unbounded signatures", "anchors": ["api/call/internal/abi/abi_cgo.go: CGO", "api/call/internal/abi/abi_golang.go: Zero"]}
{"id": "C77", "title": "Arguments are passed as the platform's C convention says", "statement": "On arm64 and amd64 every argument of a C function is placed where the procedure call standard of the platform says, no two in the same place.", "quantifier": "all signatures", "why_tests_cant": "unbounded signatures", "anchors": ["api/call/internal/cpu/arm64/arm64.go: ABI", "api/call/internal/cpu/amd64/amd64.go: ABI"]}
{"id": "C78", "title": "Pointers passed in registers are kept alive", "statement": "The registers that are pinned during a call are exactly those that hold pointers of the arguments.", "quantifier": "all signatures", "why_tests_cant": "recursive signatures", "anchors": ["api/call/internal/abi/abi.go: Value.Pin"]}
{"id": "C79", "title": "A compiled call delivers every argument", "statement": "A program compiled for a call calls the function with every argument in the register its convention says, whatever registers they were in, and returns what the function returns.", "quantifier": "all numbers and permutations of arguments, all register contents, all functions", "why_tests_cant": "unbounded programs", "anchors": ["api/call/internal/ffi/asm.go: compile", "api/call/internal/abi/abi.go: Read, Send", "api/call/internal/cpu/run.go: callArch; cpu.go: MakeFunc"]}
{"id": "C80", "title": "VM operations mean what they say", "statement": "Arithmetic is 64-bit arithmetic of the documented operands, comparisons write what they are documented to, jumps go to the instruction they name, and heap pushes append little-endian bytes.", "quantifier": "all machine states", "why_tests_cant": "all 64-bit values", "anchors": ["api/call/internal/cpu/run.go: callArch; ops.go"]}
{"id": "C81", "title": "Stack slots suit the types they hold", "statement": "A value on the stack of Go's internal convention starts at a multiple of its alignment and does not overlap another by the size of its Go type.", "quantifier": "all signatures of Go types", "why_tests_cant": "recursive signatures", "anchors": ["api/call/internal/abi/abi_golang.go: Internal; abi.go: ValueOf, Size"]}
{"id": "C82", "title": "Cached states hold what was stored", "statement": "A state made for a proxy gives back the stored value to that proxy and to no other; Proxy reuses a living proxy and otherwise tells the old one about the new.", "quantifier": "all values of the cacheable types, all proxies, all memory contents", "why_tests_cant": "memory layout", "anchors": ["via/via.go: NewCache, Cached, TryCache, New, Internal, Proxy"]}
{"id": "C83", "title": "Placeholders name their argument", "statement": "In a tag, the k-th %v stands for the k-th argument and %[n]v for the n-th, wherever it is written; a placeholder for an argument that does not exist is an error.", "quantifier": "all tags and numbers of arguments", "why_tests_cant": "all combinations", "anchors": ["api/api.go: ArgumentScanner.Scan"]}
{"id": "C84", "title": "The client's command line is the tag with its arguments", "statement": "A linked command-line function runs the program with exactly the words of its tag, every placeholder replaced by its argument as one word, and runs nothing if an argument is missing.", "quantifier": "all tags and arguments", "why_tests_cant": "unbounded tags", "anchors": ["api/cmdl/link.go: link, cmdInput.add", "api/api.go: ArgumentScanner.Scan"]}
{"id": "C85", "title": "Command-line arguments survive the round trip", "statement": "If a client linked to a program calls a function, the program calls the function of the same tag with the same arguments.", "quantifier": "all tags, command tables and arguments", "why_tests_cant": "two programs, unbounded", "anchors": ["api/cmdl/link.go: link, cmdInput.add", "api/cmdl/main.go: Run, match"]}
{"id": "C86", "title": "Options set their own field", "statement": "Every option word on a command line sets exactly its own field and is used up, the words after the options are left alone, and what a client sends is what the program gets.", "quantifier": "all option structs and command lines", "why_tests_cant": "unbounded", "anchors": ["api/cmdl/main.go: consume", "api/cmdl/link.go: cmdInput.add"]}
{"id": "C87", "title": "X-ray writers are transparent", "statement": "Wrapping a writer does not change what is written or reported, and Bytes shows all of it, for every sequence of writes.", "quantifier": "all byte streams, with and without errors", "why_tests_cant": "all streams", "anchors": ["api/xray/xray.go: NewReader, NewWriter, writer.Write"]}
{"id": "C75", "title": "Values cross the WebAssembly boundary", "statement": "A value made of booleans and numbers in any nesting occupies the words its declared value types say, is read from the words that stand for it, and written as them.", "quantifier": "all types of any nesting, all values, all stack contents", "why_tests_cant": "recursive types", "anchors": ["api/wasm/export.go: goTypeToWasmTypes, decodeGoValueFromWasmStack, encodeGoValueToWasmStack"]}
{"id": "C88", "title": "Wasm registers hold every value", "statement": "Every argument and result is assigned a place that suits its size.", "quantifier": "all signatures, values and register contents", "why_tests_cant": "unbounded signatures", "anchors": ["api/wasm/register_allocation.go: squeezeRegistersFor, defaultRegistersFor, RegisterMapping.Write, Read, sizeToMask, jumpType, registersCount"]}
{"id": "C89", "title": "Exported functions are called as declared", "statement": "When a guest calls an exported function, the implementation gets the arguments the guest passed, and the guest gets the result and learns of an error.", "quantifier": "all signatures, arguments and implementations", "why_tests_cant": "unbounded signatures", "anchors": ["api/wasm/export.go: export_api"]}
{"id": "C90", "title": "Guests link to the functions of the named library", "statement": "dlopen and dlsym find the function of that name in the API of that name; names that do not exist give zero.", "quantifier": "all tables of libraries and names", "why_tests_cant": "unbounded tables", "anchors": ["api/wasm/export.go: dynamic_link", "api/wasm/import_wasm.go: Import"]}
{"id": "C91", "title": "A runner runs what it was given", "statement": "Run runs the file that was set last, with all the APIs that were added, however Add, Set, SetSystemInterface, Compile and Run were called before.", "quantifier": "all histories of calls", "why_tests_cant": "unbounded histories", "anchors": ["api/wasm/runner.go: Runner.Add, Set, SetSystemInterface, Compile, Run, assertRuntime"]}
{"id": "C92", "title": "A guest sees the system interface it was given", "statement": "Every field of a SystemInterface that is set is what the guest is given for it, and fields that are not set have their default.", "quantifier": "all combinations of fields", "why_tests_cant": "all combinations", "anchors": ["api/wasm/runner.go: Runner.Run"]}
{"id": "C93", "title": "FFI handles stand for their values", "statement": "Handles are never 0 and never reused, a handle gives its value from when it was returned, whatever other goroutines do, and no other number gives a value.", "quantifier": "all interleavings of any number of goroutines", "why_tests_cant": "schedules", "anchors": ["ffi/src.go: handle.New, Get, End"]}
{"id": "C94", "title": "Structures keep what is encoded into them", "statement": "A value encoded into a structure is the value decoded from it; a value of another kind is refused.", "quantifier": "all kinds, values and structures", "why_tests_cant": "all values", "anchors": ["ffi/src.go: New (Encoding, Decoding)", "ffi/enc.go: encode", "ffi/dec.go: decode, decodeRef"]}
{"id": "C95", "title": "Functions can be called by their handle", "statement": "Calling a function by its handle calls it with the arguments that were passed and gives its results.", "quantifier": "all functions, arguments and results", "why_tests_cant": "unbounded signatures and strings", "anchors": ["ffi/src.go: Functions.Args, Call; String", "ffi/dec.go: Decode", "api/wasm/import_wasm.go: Import"]}
{"id": "C96", "title": "Call tags say what they document", "statement": "Every type that can be written in the documented notation of call tags is read as the structure it stands for, and other texts are refused.", "quantifier": "all tags of any length and nesting", "why_tests_cant": "unbounded nesting", "anchors": ["api/call/internal/ffi/tag.go: ParseTag", "api/call/call.go (documentation)"]}
{"id": "C97", "title": "Functions are linked to their preferred symbol", "statement": "A function with several symbol names is linked to the first name a library has, and functions of an API are found in any of its libraries.", "quantifier": "all tables of symbols, lists of names and libraries", "why_tests_cant": "unbounded lists", "anchors": ["api/call/link.go: link"]}
{"id": "C98", "title": "Numbers cross the C boundary", "statement": "A Go number passed for a C number arrives as the same number whenever it fits, and a C result arrives in Go, for every combination of types and any number of arguments.", "quantifier": "all types, values and numbers of arguments", "why_tests_cant": "all values, unbounded signatures", "anchors": ["api/call/link.go: compile", "api/call/call.go: platform.Call", "api/call/internal/jit/jit.go"]}
{"id": "C99", "title": "Texts and memory cross the C boundary", "statement": "Strings arrive terminated by a zero byte, slices and pointers as their address, and results that are pointers or texts come back.", "quantifier": "all strings, slices, pointers and tags", "why_tests_cant": "all values", "anchors": ["api/call/link.go: compile", "api/call/internal/jit/jit.go: NullTerminated"]}
{"id": "C100", "title": "Arguments that are left out are inferred", "statement": "An argument marked with - is inferred from the others as its tag says, and the other arguments are not disturbed.", "quantifier": "all tags and arguments", "why_tests_cant": "unbounded signatures", "anchors": ["api/call/link.go: inferValue, compile"]}
{"id": "C101", "title": "Failed assertions become errors", "statement": "If the result of a C function fails the assertion of its tag, the Go function returns an error that says why; values are returned together with errors.", "quantifier": "all tags, results and functions", "why_tests_cant": "all results", "anchors": ["api/call/link.go: compile"]}
{"id": "C102", "title": "C can call Go functions", "statement": "A Go function set as a callback is called with exactly the values C passes, in registers or on the stack, and C gets its result.", "quantifier": "all signatures, arguments and functions", "why_tests_cant": "unbounded signatures, all values", "anchors": ["api/call/back.go: Back.Set, sigRune, newSignature, newCallback", "api/call/internal/cgo/dyncall/dyncall_args_amd64.c: arg_i64, arg_f64", "api/call/internal/ffi/callback.go: newSignature"]}
{"id": "C103", "title": "A callback calls its own function", "statement": "However many callbacks are set, in whatever goroutines, calling one calls the function that was set for it.", "quantifier": "all histories and interleavings", "why_tests_cant": "schedules", "anchors": ["api/call/internal/cgo/dyncall/dyncall_vm.go: NewCallback", "api/call/internal/cgo/dyncall/dyncall.go: bridge_callback"]}
{"id": "C104", "title": "JSON-RPC integers out of range are refused", "statement": "Text that is not an integer of the type of the variable is refused rather than silently changed.", "quantifier": "all integers, all digit strings", "why_tests_cant": "unbounded digit strings", "anchors": ["api/jrpc/dec.go: Decoder.decode (integer kinds)"]}
{"id": "C105", "title": "Add never overwrites a record", "statement": "Add never changes an existing record, whatever other goroutines do, and if it reports success the record is stored under the key it returns.", "quantifier": "all histories mixing Add and Insert", "why_tests_cant": "unbounded histories", "anchors": ["sql/ram.go: Add"]}
{"id": "C106", "title": "Absent keys are reported", "statement": "Reading a key that was never inserted, or that was deleted, reports that it is absent.", "quantifier": "all batches and stores", "why_tests_cant": "unbounded histories", "anchors": ["kvs/kvs.go: Commit, Lookup, Get, Set, Del"]}
{"id": "C107", "title": "Tagged unions hold what was stored", "statement": "Reading a tagged union through the accessor of the case stored last gives the stored value.", "quantifier": "all declarations, all write/read sequences", "why_tests_cant": "unbounded histories", "anchors": ["xyz/tagged.go: As, Get, get, ValueOf"]}
{"id": "C108", "title": "ARM64 bitmask immediates are accepted exactly if there is an encoding", "statement": "The assembler accepts a 64-bit immediate of a logical instruction exactly if the architecture has an encoding for it.", "quantifier": "all 2^64 patterns", "why_tests_cant": "2^64 values", "anchors": ["cpu/arm64/bit.go: encode"]}
{"id": "C109", "title": "Getting an x-ray value never blocks", "statement": "Get never blocks nor panics and, without an x-ray context, does nothing.", "quantifier": "all histories and interleavings of Add and Get", "why_tests_cant": "schedules", "anchors": ["api/xray/xray.go: ContextAdd, ContextGet, ContextHas, ContextOff"]}
{"id": "C110", "title": "Unknown texts of a union are refused", "statement": "Unmarshalling a text that no case has is an error.", "quantifier": "all declarations, texts and previous states", "why_tests_cant": "unbounded", "anchors": ["xyz/tagged.go: UnmarshalText"]}
{"id": "C111", "title": "Go's stack convention takes every function", "statement": "Go's stack convention accepts every function that is not variadic.", "quantifier": "all signatures", "why_tests_cant": "unbounded signatures", "anchors": ["api/call/internal/abi/abi_cgo.go: CGO", "api/call/internal/abi/abi_golang.go: Zero"]}
{"id": "C112", "title": "VM pushes append little-endian bytes", "statement": "Pushing n bytes to the heap appends the n low bytes of the value, least significant first, and changes no other buffer.", "quantifier": "all machine states", "why_tests_cant": "all 64-bit values", "anchors": ["api/call/internal/cpu/run.go: callArch; ops.go"]}
{"id": "C113", "title": "TryCache stores the value it is given", "statement": "If TryCache reports success, the state it makes gives back the value it was given.", "quantifier": "all values of the cacheable types, all proxies, all memory contents", "why_tests_cant": "memory layout", "anchors": ["via/via.go: NewCache, Cached, TryCache, New, Internal, Proxy"]}
{"id": "C114", "title": "X-ray readers are transparent", "statement": "Wrapping a reader does not change what is read, and Bytes shows all of it.", "quantifier": "all byte streams, with and without errors", "why_tests_cant": "all streams", "anchors": ["api/xray/xray.go: NewReader, NewWriter, writer.Write"]}
{"id": "C115", "title": "Values written to Wasm registers are read back", "statement": "With at least three registers, values written through their mappings are read back from their places without touching the registers of pointers, and the tables of masks and jump types are exact.", "quantifier": "all signatures, values and register contents", "why_tests_cant": "unbounded signatures", "anchors": ["api/wasm/register_allocation.go: squeezeRegistersFor, defaultRegistersFor, RegisterMapping.Write, Read, sizeToMask, jumpType, registersCount"]}
{"id": "C116", "title": "A missing API makes functions that report an error", "statement": "Importing an API the host does not have makes functions that report an error when they are called.", "quantifier": "all tables of libraries and names", "why_tests_cant": "unbounded tables", "anchors": ["api/wasm/export.go: dynamic_link", "api/wasm/import_wasm.go: Import"]}
{"id": "C117", "title": "FFI handles end when they are freed", "statement": "A handle that was freed is invalid afterwards and its value is released.", "quantifier": "all interleavings of any number of goroutines", "why_tests_cant": "schedules", "anchors": ["ffi/src.go: handle.New, Get, End"]}
{"id": "C118", "title": "Call tags are unambiguous", "statement": "Every type of the notation the parser implements, printed and read, is that type again, no two types have the same tag, and reading any text ends.", "quantifier": "all tags of any length and nesting", "why_tests_cant": "unbounded nesting", "anchors": ["api/call/internal/ffi/tag.go: ParseTag", "api/call/call.go (documentation)"]}
{"id": "C119", "title": "A REST function runs only after it was authorized", "statement": "If the host has an authenticator, a function of the API is called only after Authenticate accepted the request and Authorize accepted the context and arguments of that very call, at most once; a refused request reaches neither the arguments nor the function.", "quantifier": "all authenticators, operations and requests", "why_tests_cant": "all requests and authenticators", "anchors": ["api/rest/host.go: attach", "api/api.go: Auth"]}
{"id": "C120", "title": "Every page of a REST host is behind the authenticator", "statement": "Whatever Handlers serves asks the authenticator first.", "quantifier": "all APIs, all requests", "why_tests_cant": "all APIs", "anchors": ["api/rest/host.go: Handlers, attach", "api/rest/form.go: formHandler.ServeHTTP"]}
{"id": "C121", "title": "REST arguments arrive", "statement": "A call of a linked function reaches the handler of its operation, whatever other routes there are, and the implementation sees the arguments the caller passed.", "quantifier": "all operations, tables of routes, argument values", "why_tests_cant": "unbounded values and tables", "anchors": ["api/rest/link.go: clientWrite, encodeQuery, link", "api/rest/host.go: attach", "api/rest/path.go: mux"]}
{"id": "C122", "title": "REST results arrive", "statement": "The results of the implementation are those the linked function returns.", "quantifier": "all operations, results, encodings", "why_tests_cant": "all values", "anchors": ["api/rest/host.go: attach", "api/rest/link.go: clientRead, link"]}
{"id": "C123", "title": "No request makes a REST handler panic", "statement": "Reading the arguments of a request ends with arguments or an error response, whatever the request.", "quantifier": "all requests", "why_tests_cant": "all requests", "anchors": ["api/rest/host.go: attach", "api/rest/mime.go: contentTypes"]}
{"id": "C124", "title": "The Accept header is honoured", "statement": "The response has the first acceptable type the host can write, types the client excludes are not sent, and a request answered 415 had no effect.", "quantifier": "all Accept headers", "why_tests_cant": "unbounded headers", "anchors": ["api/rest/host.go: attach", "api/rest/mime.go: contentTypes"]}
{"id": "C125", "title": "What a path answers does not depend on map order", "statement": "Which handler answers a method of a path is the same for every order in which Go ranges over the maps of the specification, and a preflight is answered for the function it is about.", "quantifier": "all APIs and iteration orders", "why_tests_cant": "iteration order of maps", "anchors": ["api/rest/host.go: attach", "api/rest/rest.go: specification"]}
{"id": "C126", "title": "Streams deliver every value once, in order", "statement": "The values of a channel or iterator a function returns are sent to the client, each once and in order, and nothing else is.", "quantifier": "all streams, methods and Accept headers", "why_tests_cant": "unbounded streams", "anchors": ["api/rest/host.go: handleStreamingResult, handleStreamingData, channelSource, iteratorSource, jsonStreamWriter, sseStreamWriter"]}
{"id": "C127", "title": "Headers and status of results are sent", "statement": "A result that sets headers or a status is sent with them and with the content type of its encoding.", "quantifier": "all results", "why_tests_cant": "all results", "anchors": ["api/rest/host.go: attach", "api/rest/rest.go (documentation: Response Headers)"]}
{"id": "C128", "title": "Duplicate endpoints are refused", "statement": "Two functions with the same method and path are an error; otherwise each function answers its own.", "quantifier": "all APIs", "why_tests_cant": "unbounded APIs", "anchors": ["api/rest/rest.go: specificationOf, loadOperation"]}
{"id": "C129", "title": "Malformed numbers are refused", "statement": "A path or query parameter that is not the decimal text of an integer is refused, and every decimal is read as it.", "quantifier": "all texts, all ints", "why_tests_cant": "unbounded texts", "anchors": ["api/rest/host.go: attach"]}
{"id": "C130", "title": "Patterns are made for other routers", "statement": "Handlers formats every parameter of a path with param_format and a trailing remainder with remainder_format.", "quantifier": "all paths and formats", "why_tests_cant": "unbounded paths", "anchors": ["api/rest/host.go: Handlers"]}
{"id": "C131", "title": "Redaction hides the error", "statement": "What is answered for an error depends only on what Redact makes of it.", "quantifier": "all errors and authenticators", "why_tests_cant": "all errors", "anchors": ["api/rest/host.go: handle"]}
{"id": "C132", "title": "Arguments can read headers", "statement": "An argument with ReadHeadersHTTP is given the headers of the request.", "quantifier": "all operations", "why_tests_cant": "all operations", "anchors": ["api/rest/host.go: attach", "api/rest/rest.go (documentation: Response Headers)"]}
{"id": "C133", "title": "A generic implementation implements the function", "statement": "A function made with func(ctx, args) (results, error) calls it once with the caller's context and arguments and returns its results and error to the caller.", "quantifier": "all function types, implementations and arguments", "why_tests_cant": "all function types", "anchors": ["api/api.go: Function.Make"]}
{"id": "C134", "title": "Call hides contexts and errors", "statement": "Function.Call passes the context if the function takes one, returns the results without the error, an error exactly if the function returned one, and ErrNotImplemented for a function that is not there.", "quantifier": "all function types, implementations and arguments", "why_tests_cant": "all function types", "anchors": ["api/api.go: Function.Call, Function.In, Function.NumIn, Function.NumOut"]}
{"id": "C135", "title": "A function can be wrapped", "statement": "A function wrapped (Copy, Make) by one that only calls the original behaves as the original.", "quantifier": "all function types, implementations, arguments and effects", "why_tests_cant": "all implementations", "anchors": ["api/api.go: Function.Copy, Function.Make, Function.Call"]}
{"id": "C136", "title": "An implementation of the right type is the function", "statement": "After Make with a function of its own type a function is that function; one of another type is refused and never called.", "quantifier": "all function types", "why_tests_cant": "all function types", "anchors": ["api/api.go: Function.Make"]}
{"id": "C137", "title": "A failed link fails every call", "statement": "A function made with MakeError returns that error with zero results, or panics with it if it has no error result.", "quantifier": "all function types, errors and arguments", "why_tests_cant": "all function types", "anchors": ["api/api.go: Function.MakeError, Import"]}
{"id": "C138", "title": "Return fills in results", "statement": "Function.Return gives a caller the results and the error, with zero values for what is missing.", "quantifier": "all function types and results", "why_tests_cant": "all function types", "anchors": ["api/api.go: Function.Return"]}
{"id": "C139", "title": "Stubs return empty values", "statement": "A stubbed function returns zero values (an empty reader for io.ReadCloser) and the error of the stub.", "quantifier": "all function types and errors", "why_tests_cant": "all function types", "anchors": ["api/stub/stub.go: linker.stub"]}
{"id": "C140", "title": "A structure has every function once", "statement": "Iterating over the structure of a Go struct yields every function field of it and its nested structs once, in an order that does not depend on map order, and stops when told to.", "quantifier": "all structs and map orders", "why_tests_cant": "unbounded nesting, map order", "anchors": ["api/api.go: StructureOf, Structure.Iter"]}
{"id": "C141", "title": "The path of a function leads to it", "statement": "Function.Path is the names of the namespaces that lead to the function.", "quantifier": "all structs and map orders", "why_tests_cant": "unbounded nesting, map order, aliasing", "anchors": ["api/api.go: StructureOf, Structure.link"]}
{"id": "C142", "title": "The root of a function is the API", "statement": "Function.Root is the structure Function.Path starts from, and errors registered in an API apply to all its functions.", "quantifier": "all structs", "why_tests_cant": "unbounded nesting", "anchors": ["api/api.go: StructureOf", "api/err.go: Register", "api/rest/host.go: handle"]}
{"id": "C143", "title": "Documentation is the tag without indentation", "statement": "The documentation of a field is the lines after the first of its tag, less the indentation of the first of them.", "quantifier": "all tags", "why_tests_cant": "unbounded texts", "anchors": ["api/api.go: DocumentationOf"]}
{"id": "C144", "title": "Registered errors are recognised", "statement": "The test of a registered error holds for exactly the errors that are it or wrap it.", "quantifier": "all errors", "why_tests_cant": "unbounded wrapping", "anchors": ["api/err.go: Register.addToStructure", "xyz/tagged.go: Reflection"]}
{"id": "C145", "title": "Validation is exact", "statement": "Object(&x).Reports(checks...) returns nil exactly if every constraint holds, and otherwise a 400 error that unwraps to one error for each constraint that does not hold, in order, each naming its field.", "quantifier": "all structs, values, constraints", "why_tests_cant": "unbounded structs and values", "anchors": ["api/data/data.go: Object, mirror.reflect, Number, String, Sliced, Mapped, Absent"]}
{"id": "C146", "title": "Structs within structs can be validated", "statement": "Reporting the error of the Validate method of a nested struct adds it to the report.", "quantifier": "all structs and nested structs", "why_tests_cant": "unbounded nesting and values", "anchors": ["api/data/data.go: errReports.reflect, Object"]}
{"id": "C147", "title": "Elements are validated", "statement": "ForEach reports the error of the first element that has one, and an error about an element says which parameter it is about.", "quantifier": "all slices, maps, iteration orders and checks", "why_tests_cant": "unbounded collections, map order", "anchors": ["api/data/data.go: Sliced, Mapped, Exists"]}
{"id": "C148", "title": "A report reads as English and is right", "statement": "The text of a report lists the texts of its errors as 'a, b and c', says what is accepted, and names follow WithFieldNameSetTo.", "quantifier": "all reports", "why_tests_cant": "unbounded lists", "anchors": ["api/data/data.go: errReports.Error, ErrExceeds.Error, WithFieldNameSetTo"]}
{"id": "C149", "title": "A pairing copies what it pairs", "statement": "The functions of pair.Make copy every paired field in either direction, give constants their value, and leave the rest zero.", "quantifier": "all 1:1 mappings and values", "why_tests_cant": "unbounded structs and mappings", "anchors": ["api/pair/pair.go: Make, Bool ... String, Slice, Const"]}
{"id": "C150", "title": "A pairing loses nothing it pairs", "statement": "Mapping a value to the other API and back leaves the paired fields as they were, from either side.", "quantifier": "all 1:1 mappings and values", "why_tests_cant": "unbounded structs and mappings", "anchors": ["api/pair/pair.go: Make, Slice"]}
{"id": "C151", "title": "Maps can be paired", "statement": "pair.Map maps the entries of a map by the rules for keys and values.", "quantifier": "all maps and rules", "why_tests_cant": "unbounded maps", "anchors": ["api/pair/pair.go: Map"]}
{"id": "C152", "title": "Errors are renamed between paired APIs", "statement": "The error wrapper of pair.Make renames an error about a paired field and returns any other error as it is.", "quantifier": "all mappings, structs, registries and errors", "why_tests_cant": "unbounded structs and registries", "anchors": ["api/pair/pair.go: Make, Registry.Register"]}
{"id": "C153", "title": "Validation errors are renamed", "statement": "The error wrapper of pair.Make renames the errors of package data.", "quantifier": "all validations and mappings", "why_tests_cant": "composition of two packages", "anchors": ["api/pair/pair.go: Make", "api/data/data.go: errReports, FieldName, WithFieldNameSetTo"]}
{"id": "C154", "title": "Remote functions are found by name", "statement": "A transport finds the function registered under a name and its runtime, in whatever order they were registered, and TypesJSON lists every registered function.", "quantifier": "all registrations", "why_tests_cant": "all orders and numbers of registrations", "anchors": ["rpc/rpc.go: Transport.Register, Any.Call, Any.TypesJSON"]}
{"id": "C155", "title": "A remote function is called with its arguments", "statement": "Any.Call returns the closure of the registered function for the receiver in the arguments and the registered runtime, and the zero value if there is none.", "quantifier": "all registrations, types and arguments", "why_tests_cant": "all types", "anchors": ["rpc/rpc.go: Any.Call"]}
{"id": "C156", "title": "The parser of a format is chosen for what it prints", "statement": "The Parser function of a format specification chooses, for a text printed with one of the formats, the parser of that format, and no parser for a text that no format prints.", "quantifier": "all formats and texts", "why_tests_cant": "unbounded texts and formats", "anchors": ["api/fmts/fmts.go: candidate.rank, linker.Link, linker.fill"]}
{"id": "C157", "title": "A format specification is linked completely", "statement": "Link implements every function in every namespace or returns an error.", "quantifier": "all structures", "why_tests_cant": "unbounded nesting", "anchors": ["api/fmts/fmts.go: linker.Link, linker.fill"]}
{"id": "C158", "title": "Escape answers do not depend on the questions asked before", "statement": "The four answers of the escape analysis about a variable say whether a value with that mark can be reached from it through shared values, whatever was asked and cached before, also in cycles.", "quantifier": "all programs, all sequences of questions", "why_tests_cant": "unbounded graphs and histories of caching", "anchors": ["zgo/internal/escape/analysis.go", "zgo/internal/escape/relation.go", "zgo/internal/escape/scanner.go"]}
{"id": "C159", "title": "What is handed out is on the heap", "statement": "A local variable that shares values with an argument of a call, a returned reference or a package variable is allocated on the heap; a program that hands nothing out allocates nothing; package variables are never on the heap of a goroutine.", "quantifier": "all programs", "why_tests_cant": "unbounded programs and chains of assignments", "anchors": ["zgo/internal/escape/scanner.go", "zgo/internal/target/zigc/allocations.go: Target.StackAllocated"]}
{"id": "C160", "title": "A variable that outlives its function is not on its stack", "statement": "A variable whose address is returned, stored in a package variable or captured by a function that is, is not allocated on the stack.", "quantifier": "all programs", "why_tests_cant": "unbounded programs", "anchors": ["zgo/internal/escape/scanner.go", "zgo/internal/target/zigc/allocations.go: Target.StackAllocated"]}
{"id": "C161", "title": "A variable's uses agree with its declaration", "statement": "The declaration of a variable and all its uses are compiled alike, as a value or as a pointer to the heap.", "quantifier": "all programs, all orders of compilation", "why_tests_cant": "unbounded programs", "anchors": ["zgo/internal/escape/scanner.go", "zgo/internal/target/zigc/allocations.go: Target.StackAllocated", "zgo/internal/target/zigc/loops.go"]}
{"id": "C162", "title": "Integer literals keep their value", "statement": "An integer literal compiles to a Zig literal of the same value.", "quantifier": "all integer literals", "why_tests_cant": "unbounded literals", "anchors": ["zgo/internal/target/zigc/constants.go: Target.Literal"]}
{"id": "C163", "title": "Rune and string literals keep their value", "statement": "A rune literal compiles to a number of the same value, a string literal to a Zig string of the same bytes.", "quantifier": "all runes and strings", "why_tests_cant": "unbounded strings", "anchors": ["zgo/internal/target/zigc/constants.go: Target.Literal"]}
{"id": "C164", "title": "Floating-point and imaginary literals keep their value", "statement": "A floating-point or imaginary literal compiles to a Zig number of the same value.", "quantifier": "all decimal literals", "why_tests_cant": "unbounded literals", "anchors": ["zgo/internal/target/zigc/constants.go: Target.Literal"]}
{"id": "C165", "title": "Expressions group in Zig as they do in Go", "statement": "The text written for an expression is read by Zig with the same operands for every operator.", "quantifier": "all expressions of the operators", "why_tests_cant": "unbounded nesting and all mixtures of precedences", "anchors": ["zgo/internal/target/zigc/expressions.go: Target.ExpressionBinary, ExpressionUnary", "zgo/internal/target/zigc/parenthesized"]}
{"id": "C166", "title": "Integer arithmetic is Go's", "statement": "An arithmetic expression gives in Zig the value it has in Go, which wraps around.", "quantifier": "all integer types, expressions and values", "why_tests_cant": "unbounded expressions and values", "anchors": ["zgo/internal/target/zigc/expressions.go: Target.ExpressionBinary"]}
{"id": "C167", "title": "Names mean what they mean in Go", "statement": "A name in the compiled program refers to the declaration it refers to in Go, and every declaration has a name Zig accepts.", "quantifier": "all programs of declarations and uses", "why_tests_cant": "unbounded scopes and shadowing", "anchors": ["zgo/internal/parser/parser.go: loadIdentifier", "zgo/internal/target/zigc/definitions.go", "zgo/internal/target/zigc/function.go", "zgo/internal/target/zigc/types.go"]}
{"id": "C168", "title": "Promoted fields are found", "statement": "A selector of a field promoted through embedded structs compiles to the path of embedded fields.", "quantifier": "all structures of embedded fields", "why_tests_cant": "unbounded depth of embedding", "anchors": ["zgo/internal/parser/parser.go: loadSelection"]}
{"id": "C169", "title": "Control flow is Go's", "statement": "A compiled statement is accepted by Zig and does what the Go statement does, whatever its conditions and simple statements do.", "quantifier": "all statements Go accepts, all states, all numbers of rounds", "why_tests_cant": "unbounded nesting and iteration", "anchors": ["zgo/internal/target/zigc/loops.go", "zgo/internal/target/zigc/branches.go", "zgo/internal/target/zigc/statements.go"]}
{"id": "C170", "title": "Braces are closed", "statement": "Every brace written for a statement is closed.", "quantifier": "all statements", "why_tests_cant": "unbounded nesting", "anchors": ["zgo/internal/target/zigc/loops.go", "zgo/internal/target/zigc/branches.go: Target.StatementIf", "zgo/internal/target/zigc/statements.go"]}
{"id": "C171", "title": "Channels are queues", "statement": "Whatever the schedule, the values received from a channel are those sent, in the order sent, without loss or repetition, and every goroutine's calls return in program order.", "quantifier": "all programs, capacities and schedules, with spurious wake-ups", "why_tests_cant": "all interleavings", "anchors": ["zgo/internal/target/zigc/build_runtime.zig: chan"]}
{"id": "C172", "title": "Sends wait for receivers beyond the capacity", "statement": "No more sends return than receives and the capacity allow.", "quantifier": "all programs, capacities and schedules", "why_tests_cant": "all interleavings", "anchors": ["zgo/internal/target/zigc/build_runtime.zig: chan"]}
{"id": "C173", "title": "Channels do not get stuck or panic", "statement": "Goroutines that wait on a channel go on when they can, and a receive does not panic.", "quantifier": "all programs, capacities and schedules", "why_tests_cant": "all interleavings and wake-ups", "anchors": ["zgo/internal/target/zigc/build_runtime.zig: chan"]}
{"id": "C174", "title": "Schemas mean their Go types", "statement": "The schema a generated document gives for a parameter, body or result accepts exactly the JSON values that belong to the Go type.", "quantifier": "all programs of declared types, all lists of types, all JSON values", "why_tests_cant": "recursive types and unbounded values", "anchors": ["api/rest/docs.go: schemaFor, addFieldsToSchema, namespaceName", "api/internal/oas/oas.go: Document.Lookup, Document.Register"]}
{"id": "C175", "title": "Schemas accept what the server writes", "statement": "The schema of a type accepts whatever encoding/json writes for a value of the type.", "quantifier": "all programs, types and values", "why_tests_cant": "unbounded values", "anchors": ["api/rest/docs.go: schemaFor, addFieldsToSchema"]}
{"id": "C176", "title": "Documents end and their references resolve", "statement": "Making the document of an API ends, for recursive types as well, and every reference in it is to a schema in it.", "quantifier": "all programs of declared types, recursive or not", "why_tests_cant": "all recursive structures", "anchors": ["api/rest/docs.go: schemaFor", "api/internal/oas/oas.go: Document.Lookup, Document.Register"]}
{"id": "C177", "title": "The document lists what is served", "statement": "The document lists a function at a method and path if and only if the server has it there and it is not hidden.", "quantifier": "all APIs, all orders in which Go visits the namespaces", "why_tests_cant": "all map iteration orders and tags", "anchors": ["api/rest/docs.go: oasDocumentOf, addNamespaceTo, addFunctionTo", "api/rest/rest.go: specification.load, loadOperation", "api/internal/rtags/rtags.go"]}
{"id": "C178", "title": "Binary formats write what their tags say", "statement": "A function of a binary format appends the bytes its bin tag asks for: literal bytes and bits, the bits of arguments in the order of their letters, wrapped fields and comparisons.", "quantifier": "all tags of the documented form and all arguments", "why_tests_cant": "unbounded tags and all argument values", "anchors": ["api/call/internal/bin/bin.go: link", "api/call/internal/bin/std/cpu/amd64/amd64.go", "api/call/internal/bin/std/cpu/arm64/arm64.go"]}
{"id": "C179", "title": "The JavaScript client sends the documented requests", "statement": "For every path and method of the document the generated client has a function that sends that method to that path of the host, and no others.", "quantifier": "all documents, all orders in which Go visits the paths", "why_tests_cant": "unbounded documents and map iteration orders", "anchors": ["api/rest/code.go: sdkFor"]}
{"id": "C180", "title": "The JavaScript client delivers results", "statement": "A successful answer's value reaches the caller of the generated client, an error rejects.", "quantifier": "all status codes", "why_tests_cant": "every status", "anchors": ["api/rest/code.js: wrap"]}
{"id": "C181", "title": "Errors passed through xray are the same errors", "statement": "An error passed through xray.New stays nil if nil, matches what it matched with errors.Is, reads the same, and when printed lists every place it passed.", "quantifier": "all errors and all sequences of passing, wrapping and joining", "why_tests_cant": "unbounded histories of an error", "anchors": ["api/xray/errs.go: New, Error"]}
{"id": "C182", "title": "A client adds its headers", "statement": "Every request of a client with headers or credentials carries them, whatever order Go visits them in, and the request of the caller is as it was afterwards.", "quantifier": "all headers, requests and redirects", "why_tests_cant": "map iteration orders, unbounded redirects", "anchors": ["api/rest/link.go: Header", "api/rest/auth.go"]}
{"id": "C183", "title": "Credentials stay with their host", "statement": "The credentials of a client are sent to no other host than the one it was made for.", "quantifier": "all clients, all sequences of redirects", "why_tests_cant": "all servers' redirects", "anchors": ["api/rest/link.go: Header", "api/rest/auth.go"]}
{"id": "C184", "title": "Registers hold what is put into them", "statement": "The getter of a type returns what its setter put into a register; a narrower getter returns the low bits, a wider one the extended value; a register is true exactly if its value is not zero.", "quantifier": "all values of all types, all contents of memory", "why_tests_cant": "all values and all memory beside the variables", "anchors": ["api/call/internal/cpu/gpr.go", "api/call/internal/cpu/fpr.go", "api/call/internal/cpu/cpu_64.go", "api/call/internal/cpu/run.go: CallBytes1, Bool"]}
{"id": "C185", "title": "Slices behave as Go's", "statement": "A compiled program of slice operations (make, literals, append, copy, clear, indices, len) prints what Go says it prints.", "quantifier": "all programs, all ways memory is reused and lists grow", "why_tests_cant": "unbounded programs and allocator behaviour", "anchors": ["zgo/internal/target/zigc/build_runtime.zig: slice, append, copy", "zgo/internal/target/zigc/builtins.go", "zgo/internal/target/zigc/composite.go", "zgo/internal/target/zigc/expressions.go: ExpressionIndex, ExpressionSlice"]}
{"id": "C186", "title": "Assignments assign as in Go", "statement": "An assignment or short variable declaration compiles to Zig that evaluates its operands and then assigns, as Go's does.", "quantifier": "all assignments, of any number of variables, and whatever their expressions do", "why_tests_cant": "unbounded numbers of variables, arbitrary expressions", "anchors": ["zgo/internal/target/zigc/assignment.go: StatementAssignment", "zgo/internal/target/zigc/definitions.go: VariableDefinition"]}
{"id": "C187", "title": "Calls pass their arguments as in Go", "statement": "A call compiles to a Zig call of the same function with the same arguments, each evaluated once, variadic ones gathered, and a go statement does not wait.", "quantifier": "all calls, of any number of arguments", "why_tests_cant": "unbounded numbers of arguments and arbitrary expressions", "anchors": ["zgo/internal/target/zigc/function_call.go: FunctionCall, StatementGo", "zgo/internal/target/zigc/build_runtime.zig: variadic, func"]}
{"id": "C188", "title": "Checked results become errors", "statement": "A function that returns error and whose tag asserts something of its C result returns nil if and only if the assertion holds of the result, and otherwise an error from which the result can be read.", "quantifier": "all signatures of values, all assertions and all results", "why_tests_cant": "all results of C and all tags", "anchors": ["api/call/internal/ffi/asm.go: compile, assert, check", "api/call/internal/cpu/run.go: ErrorMake", "api/call/docs.go"]}
{"id": "C189", "title": "Strings arrive in C and come back", "statement": "A Go string given for a char pointer is read by C as that string, and the string C returns has the bytes before its first zero.", "quantifier": "all strings, all memory, all signatures", "why_tests_cant": "unbounded strings and all contents of memory", "anchors": ["api/call/internal/cpu/run.go: StringMake, StringSize, StringCopy", "api/call/internal/ffi/asm.go: compile"]}
{"id": "C190", "title": "The fast variant does what the other does", "statement": "Whichever variant of the machine is chosen for a program, the program returns the same, panics the same and ends the same.", "quantifier": "all programs, all arguments, all numbers of steps", "why_tests_cant": "unbounded programs and jumps", "anchors": ["api/call/internal/cpu/cpu.go: Program.MakeFunc", "api/call/internal/cpu/run.go: callArch", "api/call/internal/cpu/run_fast.go: callFast"]}
{"id": "C191", "title": "Pointers stay pinned until they are freed", "statement": "A pointer made by a program is pinned until it is freed and no longer, whatever else is made and freed, and it loads the address it was made of; the pool grows no further than the pointers in use.", "quantifier": "all histories of making and freeing, of all goroutines", "why_tests_cant": "unbounded histories and interleavings", "anchors": ["api/call/internal/cpu/cpu.go: Program.pin", "api/call/internal/cpu/run.go: PointerMake, PointerFree, PointerLoad"]}
{"id": "C192", "title": "Bodies arrive through Deno in order", "statement": "Whatever chunks JavaScript delivers a request's body in and whatever buffers it is read into, the bytes read are those of the body, in order; the end is reported when all was read and not before, an error only if the body failed.", "quantifier": "all bodies, all ways of cutting them into chunks, all sequences of buffer sizes", "why_tests_cant": "unbounded bodies and all sequences of reads", "anchors": ["api/rest/host_js.go: jsReadableStream.Read"]}
{"id": "C193", "title": "Requests and answers pass through Deno", "statement": "Under Deno the handler is given the method, URL, headers, body and address of the request, and the client gets the status, headers and body the handler wrote.", "quantifier": "all requests, all handlers, all answers", "why_tests_cant": "all headers and statuses", "anchors": ["api/rest/host_js.go: ListenAndServe"]}
{"id": "C194", "title": "Go functions given to C are called", "statement": "C's call of a function pointer made of a Go function calls that function once with the values C passed and returns its result to C.", "quantifier": "all types of functions, all arguments, results and memory", "why_tests_cant": "all types and all values", "anchors": ["api/call/internal/ffi/callback.go: callback, newSignature, sigRune"]}
{"id": "C195", "title": "Callbacks call their own function", "statement": "Whatever number of functions are given to C, by whatever goroutines, each function pointer calls the function it was made of.", "quantifier": "all numbers of callbacks and all schedules", "why_tests_cant": "all interleavings", "anchors": ["api/call/internal/cgo/dyncall/dyncall_vm.go: NewCallback", "api/call/internal/cgo/dyncall/dyncall.go: bridge_callback"]}
{"id": "C196", "title": "Copies are freed with the last of them", "statement": "Copies of a managed pointer read what the pointer reads; what they point to is freed once, when the last of them has been freed; the user's API is left alone.", "quantifier": "all histories, all APIs", "why_tests_cant": "unbounded histories of copies and frees", "anchors": ["mmm/mmm.go: Copy, freeable.free, Lifetime.End"]}
{"id": "C197", "title": "A form has every field", "statement": "A call of a function with content type multipart/form-data sends one part for each field of its argument, in order, with the field's value, named by the names on the way to it with dots between them; files are sent with their name, type and content; fields that encoding/json leaves out are left out.", "quantifier": "all values, tags and nestings", "why_tests_cant": "unbounded nesting and values", "anchors": ["api/rest/mime.go: multipartEncoder.Encode, multipartEncoder.encode"]}
{"id": "C198", "title": "Plain text carries the value", "statement": "A text/plain body is the text of the value, one line for each element of a list, and what the server writes the linked function reads back.", "quantifier": "all values", "why_tests_cant": "unbounded texts and lists", "anchors": ["api/rest/mime.go: contentTypes"]}
{"id": "C199", "title": "Deferred calls are made at the end", "statement": "A deferred call is made when its function returns or panics, the last one first, with the arguments it had at the defer statement.", "quantifier": "all functions, however nested, all states", "why_tests_cant": "unbounded nesting and all control flow", "anchors": ["zgo/internal/target/zigc/statements.go: StatementDefer", "zgo/internal/target/zigc/function.go", "zgo/internal/target/zigc/definitions.go"]}
{"id": "C200", "title": "Memory stays valid while it is used", "statement": "Whatever goroutines a program starts and in whatever order they run, memory that is used has not been given back, and memory that nothing can use does not pile up.", "quantifier": "all histories of goroutines, calls, allocations and uses", "why_tests_cant": "all interleavings and unbounded histories", "anchors": ["zgo/internal/target/zigc/build_runtime.zig: routine", "zgo/internal/target/zigc/function.go", "zgo/internal/target/zigc/expressions.go: ExpressionFunction"]}
{"id": "C201", "title": "Composite literals have their values", "statement": "A literal of an array, slice, struct or map compiles and has the value Go gives it.", "quantifier": "all literals", "why_tests_cant": "unbounded literals of all forms", "anchors": ["zgo/internal/target/zigc/composite.go: DataComposite", "zgo/internal/target/zigc/expressions.go: ExpressionKeyValue", "zgo/internal/target/zigc/build_runtime.zig: smap, slice"]}
{"id": "C202", "title": "Maps behave as Go's", "statement": "A compiled program of map operations (make, literals, elements, assignments, sharing, delete, len, range) prints what Go says it prints.", "quantifier": "all programs of map operations", "why_tests_cant": "unbounded programs", "anchors": ["zgo/internal/target/zigc/build_runtime.zig: smap", "zgo/internal/target/zigc/builtins.go: make, clear, len", "zgo/internal/target/zigc/expressions.go: ExpressionIndex", "zgo/internal/target/zigc/assignment.go: StatementAssignment"]}
{"id": "C203", "title": "JSON-RPC objects are read into structs", "statement": "An object is read into a struct: every member into the field it names, in any order, with any white space, repeated or not; other fields keep their values, and exactly the object is taken from the stream.", "quantifier": "all objects, structs and streams", "why_tests_cant": "unbounded objects, all orders of members, nested structs", "anchors": ["api/jrpc/dec.go: Decoder.decode", "api/jrpc/enc.go: Encoder.encode"]}
{"id": "C204", "title": "JSON-RPC numbers are read into floats", "statement": "A JSON number read into a float is the number it denotes, up to rounding, wherever JSON lets it end.", "quantifier": "all numbers and streams", "why_tests_cant": "unboundedly many numbers", "anchors": ["api/jrpc/dec.go: Decoder.decode"]}
{"id": "C205", "title": "Constants have their values", "statement": "Every constant of a constant declaration, with iota, implicit repetition, types and untyped arithmetic, has in the compiled program the value Go gives it; variables declared together each get their value.", "quantifier": "all declarations, of any number of specifications and names, all expressions", "why_tests_cant": "unbounded declarations and expressions", "anchors": ["zgo/internal/parser/definitions.go: loadDefinitions", "zgo/internal/target/zigc/definitions.go: ConstantDefinition", "zgo/internal/target/zigc/types.go: TypeOf"]}
{"id": "C206", "title": "Concurrent calls of a key-value map are atomic", "statement": "However the calls of several goroutines on one in-memory map interleave, what they find and what is left is as if whole calls, commits included, had been made one after the other.", "quantifier": "all goroutines, all calls, all interleavings", "why_tests_cant": "all schedules", "anchors": ["kvs/kvs.go: New, Commit, Lookup, Get, Set, Del"]}
{"id": "C207", "title": "The maps of a schema are their own", "statement": "Every map of an opened schema answers like a map of its own, whatever is done to the others.", "quantifier": "all schemas and all histories of calls", "why_tests_cant": "unbounded histories over all maps", "anchors": ["kvs/kvs.go: Open, Map.open"]}
{"id": "C208", "title": "Query pointers mean their columns", "statement": "In every program that opens maps on a database, a pointer into the key or value that a query function is given stands for exactly the columns of the map's table in which that part is stored; to assign to the part is to change just these columns.", "quantifier": "all types, parts at any depth, all sequences of opened maps", "why_tests_cant": "unbounded types and programs", "anchors": ["sql/map.go: Map.open, sentinal.assert, sentinal.walk", "sql/sql.go: columnOf, columnsOf, ValuesOf"]}
{"id": "C209", "title": "A query means the same to the database", "statement": "A record stored in the database is found by a query just when it meets the conditions the author wrote with Index, Where, Match, Empty, Avoid, Cases and Merge.", "quantifier": "all types, records and nested conditions", "why_tests_cant": "unbounded conditions and types", "anchors": ["sql/sql.go: Index, Where, Match, Empty, Avoid, Cases, Merge"]}
{"id": "C210", "title": "A map on a database is a map", "statement": "On any database that does what sodium documents, every sequence of Insert, Lookup, Delete and Mutate, with checks and patches, answers as a map does.", "quantifier": "all types, databases and sequences of calls", "why_tests_cant": "unbounded sequences of calls over all databases", "anchors": ["sql/map.go: Map.Insert, Map.Lookup, Map.Delete, Map.UnsafeDelete, Map.Mutate, Map.Update", "sql/sql.go: Set, Index"]}
{"id": "C211", "title": "Transactions are all or nothing", "statement": "The calls made inside Manage take effect together if its function returns no error and not at all otherwise, and transactions of several goroutines do not see each other half done.", "quantifier": "all functions, also nested, all interleavings of goroutines", "why_tests_cant": "all control flow and all schedules", "anchors": ["sql/map.go: Map.Manage, Map.manage, Map.Insert, Map.Update, Map.UnsafeDelete, Map.Search, Map.Output", "sql/std/sodium/sql.go: Database.Manage"]}
{"id": "C212", "title": "Statistics are right", "statement": "Count leaves in its counter the number of records that match, and Sum the sum of the field, in memory and on a database, whatever integer type the database reports.", "quantifier": "all lists of statistics, numbers of records and reports", "why_tests_cant": "unbounded numbers and lists", "anchors": ["sql/sql.go: Count, Sum, NewOutput, newPointerFor", "sql/map.go: Map.Output, Map.Count", "sql/ram.go: Output"]}
{"id": "C213", "title": "Drivers give back the record", "statement": "A driver that stores the values it is given for a record and scans them back with NewResult gives back the same key and value, for every type built from scalars, structs and arrays with exported fields.", "quantifier": "all such types and values", "why_tests_cant": "unbounded types and values", "anchors": ["sql/sql.go: NewResult, newPointerFor, ValuesOf, decode, columnsOf"]}
{"id": "C214", "title": "Arguments are what the request says", "statement": "For any client: an argument outside the body is the first non-empty value of its name in the query, else the segment of the path, else zero; a list is every value under name[] in order; if one cannot be read, or the body has a type nobody knows (422), the function is not called.", "quantifier": "all operations and requests", "why_tests_cant": "all requests of all clients", "anchors": ["api/rest/host.go: attach"]}
{"id": "C215", "title": "The caller learns of an error", "statement": "An error of an implementation reaches the caller of the linked function as an error, with its status and text, also through services in between that pass it on.", "quantifier": "all errors, statuses, methods and numbers of services", "why_tests_cant": "unbounded chains of services", "anchors": ["api/rest/host.go: handle", "api/rest/link.go: decodeError", "api/internal/http/http.go: ResponseError, responseError.StatusHTTP, responseError.Error"]}
{"id": "C216", "title": "A page for people, an answer for programs", "statement": "A request is answered with the page about an operation just when it asks for it, and calls the function otherwise; the page is behind the authenticator.", "quantifier": "all operations and Accept headers", "why_tests_cant": "unbounded headers", "anchors": ["api/rest/host.go: attach"]}
{"id": "C217", "title": "An enum only holds values of its type", "statement": "Whatever text or JSON is read into a boolean, integer or string enum, and whether or not it is refused, it holds a value of its storage type afterwards; the text or JSON of a number that is not a name is read as exactly that number if the type has it and refused, changing nothing, otherwise.", "quantifier": "all storage types, declarations, texts and JSON values", "why_tests_cant": "unbounded texts and numbers", "anchors": ["xyz/switch.go: UnmarshalText, UnmarshalJSON, Values"]}
{"id": "C218", "title": "The text of a type determines the type", "statement": "The Zig text the compiler writes for a Go type determines the type: types written alike are the same type, and identical types are written alike; every Go type has a text.", "quantifier": "all types, of any depth", "why_tests_cant": "unbounded types", "anchors": ["zgo/internal/target/zigc/types.go: TypeOf"]}
{"id": "C219", "title": "A value in an interface carries its type", "statement": "A value assigned or converted to an interface is accompanied by the description of its own type, which exists in the program.", "quantifier": "all types, of any depth of pointers, and all type definitions", "why_tests_cant": "unbounded types and definitions", "anchors": ["zgo/internal/target/zigc/types.go: ReflectTypeOf", "zgo/internal/target/zigc/definitions.go: TypeDefinition, kindOf", "zgo/internal/target/zigc/build_runtime.zig: rtype, rptr, rdata", "zgo/internal/target/zigc/assignment.go: StatementAssignment"]}
{"id": "C220", "title": "The form of an operation asks for what its body takes", "statement": "The schema that the form of a resource is built from accepts exactly the bodies the operation takes, and the form has a tab for every operation of the resource.", "quantifier": "all operations, argument types and declared types", "why_tests_cant": "unbounded types, also recursive", "anchors": ["api/rest/form.go: formHandler.ServeHTTP", "api/rest/docs.go: schemaFor", "api/internal/oas/oas.go: Schema.Lookup, Schema.Register"]}
{"id": "C221", "title": "Tags and documentation do not disturb each other", "statement": "Every key of a conventionally written tag is read as its first value and nothing in the documentation after the tag is read as one; the documentation of a field is the text after its tag, else its docs value, else what its type says (by its Docs method, else by the struct it embeds first).", "quantifier": "all tags, texts and types", "why_tests_cant": "unbounded texts and types", "anchors": ["api/api.go: DocumentationOf"]}
{"id": "C222", "title": "An example shows what it did", "statement": "The steps of a documentation example are the calls it made, in the order they returned, with their arguments, results, errors, depth and whether they were part of a setup, each with the note that was given before it.", "quantifier": "all examples: any nesting of calls, notes and setups, any results and panics", "why_tests_cant": "unbounded nesting and sequences", "anchors": ["api/doc.go: Documentation.Example, Example.trace, TestingFramework.Guide, TestingFramework.Setup"]}
{"id": "C223", "title": "All examples are tested", "statement": "Test reports exactly the examples that return an error or panic, and every example can be asked for by its name, with or without its category.", "quantifier": "all sets of examples", "why_tests_cant": "unbounded sets of examples", "anchors": ["api/doc.go: Test, Documentation.Example, Documentation.Examples"]}
{"id": "C224", "title": "A durable channel handles every message", "statement": "On a channel with a delivery mechanism, every message sent after Listen returned, by this or another process, stays pending until the listener returned without an error for it, and is acknowledged exactly then; Send reports an error if and only if the message was not buffered.", "quantifier": "all listeners, failures, histories of sends and deliveries", "why_tests_cant": "all histories and failures", "anchors": ["qnq/qnq.go: Chan.Send, Chan.Listen, Channels"]}
{"id": "C225", "title": "Tagged unions round trip through pairs", "statement": "In a union whose cases have different keys, a value written with MarshalPair is restored by UnmarshalPair; a pair whose key no case has is refused and leaves the value alone; Key of a case is the key MarshalPair writes.", "quantifier": "all unions, tags, storages and values", "why_tests_cant": "unboundedly many unions and tags", "anchors": ["xyz/tagged.go: MarshalPair, UnmarshalPair, accessor.key, caseMethods.Key"]}
{"id": "C226", "title": "println prints as Go's does", "statement": "A compiled call of println writes its arguments as Go's println does, with spaces between them and a newline at the end.", "quantifier": "all numbers of arguments, all types and values", "why_tests_cant": "unbounded numbers of arguments and all values", "anchors": ["zgo/internal/target/zigc/builtins.go: println", "zgo/internal/target/zigc/build_runtime.zig: println"]}
{"id": "C227", "title": "Types have their own schemas", "statement": "In the document of a program in which no two packages have the same last element, declared types, also instances of generic types, have the same schema only if they are the same type, and its name is the type's with the packages shortened.", "quantifier": "all packages, types and type arguments of any depth", "why_tests_cant": "unboundedly many and deep types", "anchors": ["api/rest/docs.go: namespaceName, cleanup, schemaFor"]}
{"id": "C228", "title": "References in documents resolve", "statement": "A reference that the document has for a type is a URI reference and designates, as a JSON pointer, the schema registered last under the type's namespace and name; there is one exactly for what was registered.", "quantifier": "all sequences of registrations, all names", "why_tests_cant": "unbounded histories and all names", "anchors": ["api/internal/oas/oas.go: Document.Lookup, Document.Register"]}
{"id": "C229", "title": "Slicing an array is Go's", "statement": "A compiled program that slices arrays through pointers, reads, copies and clears the slices and changes the arrays prints what Go says it prints: bounds are checked, a bound that is left out is the end of the array, and the slice shares the array's elements.", "quantifier": "all programs of these statements, all sizes, bounds and contents", "why_tests_cant": "unbounded programs; sharing between any number of slices", "anchors": ["zgo/internal/target/zigc/expressions.go: ExpressionSlice", "zgo/internal/target/zigc/build_runtime.zig: pointer.range, slice, append, copy"]}
{"id": "C230", "title": "Sets of types round trip", "statement": "The type of a schema is written as a JSON string if it is one type and as an array of strings otherwise; any JSON text of a string or of an array of strings is read as exactly those types, whatever was there before, and nothing else is read.", "quantifier": "all sets, all JSON texts, all previous sets", "why_tests_cant": "unboundedly many texts for the same set: white space and escapes anywhere", "anchors": ["api/internal/oas/oas.go: TypeSet.MarshalJSON, TypeSet.UnmarshalJSON"]}
{"id": "C231", "title": "Static values only accept themselves", "statement": "A static value marshals to its value and unmarshalling accepts the JSON of that value and nothing else.", "quantifier": "all values and all texts", "why_tests_cant": "all texts", "anchors": ["xyz/xyz.go: staticMethods.MarshalJSON, UnmarshalJSON"]}
{"id": "C232", "title": "Slices, pointers, channels and maps by handle are Go's", "statement": "A client that makes, slices, copies, measures, reads and writes slices, variables, channels and maps through the FFI's handles sees what the same statements do in Go.", "quantifier": "all programs of these statements, all sizes, contents and sharing", "why_tests_cant": "unbounded programs; any number of slices that share elements", "anchors": ["ffi/src.go: New (Slice, Pointer, Channel, Map)", "ffi/enc.go: encode", "ffi/dec.go: decode"]}
{"id": "C233", "title": "Texts select the case of a union, whoever added it", "statement": "In a program whose extern unions are extended by any packages in any order, a value of a case is written as the case's text and reading that text into a value of the type gives the value back; cases are told apart whatever is registered when, and reading never selects a case that does not have the text.", "quantifier": "all programs of types of unions, all histories of registrations and reads, all values and storages", "why_tests_cant": "unbounded histories of registrations; any number of extensions", "anchors": ["xyz/tagged.go: MarshalText, UnmarshalText, String, ValueOf, accessors, append, Values", "xyz/ext.go: Extern, Extend"]}
{"id": "C234", "title": "Values of databases print what they are", "statement": "The string of a database value says the value given its type (true or false, decimal, the string itself, base64 of RFC 4648, RFC 3339), so values of the same type with the same string are the same; IsZero holds of exactly the zero values of the types.", "quantifier": "all values of all types", "why_tests_cant": "unbounded strings and bytes, all numbers and times", "anchors": ["sql/std/sodium/sql.go: Value.String, Value.IsZero"]}
{"id": "C235", "title": "The JSON values an enum lists are those it accepts", "statement": "The list of JSON values an enum gives (for schemas) has one JSON string per case, saying its name (the json tag if there is one), the enum reads every JSON text of a name, however escaped, as the value of its case and refuses other strings without changing, and the JSON of a value is one of those listed.", "quantifier": "all names and tags, however strange, all values, all JSON string texts", "why_tests_cant": "unbounded names, texts and escapes", "anchors": ["xyz/switch.go: ValuesJSON, UnmarshalJSON, MarshalText"]}
{"id": "C236", "title": "Errors of registered cases are answered as they are declared", "statement": "The scenarios of an API are the cases of the error types it registers, each with its name, tag and documentation; an error that is a value of a registered case, or wraps one however deep, is answered with the status its http tag says (500 if none) and its documentation (or its own text if none); other errors are answered with their own status and text.", "quantifier": "all declarations and tags, all registrations, all errors however wrapped or joined", "why_tests_cant": "unbounded declarations, tags and nesting of errors", "anchors": ["api/err.go: Error, StatusHTTP, Register", "api/rest/host.go: handle", "xyz/tagged.go: Tag, Get, String, Reflection"]}
{"id": "C237", "title": "Parameters are stored in the fields they name", "statement": "Storing the parameters of a request in the nested fields of an argument leaves each in the field its index names, through pointers that are made if they are nil, leaves all other fields alone, keeps the argument a value of its type and does not panic.", "quantifier": "all types of nested structs and pointers, all values and indexes, any number of parameters in any order", "why_tests_cant": "recursive types and unbounded depth", "anchors": ["api/rest/host.go: fieldByIndex, attach", "api/rest/link.go: send, deref"]}
