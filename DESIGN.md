# A Lean 4 model of json_struct

The code modelled is `/repo/include/json_struct/json_struct.h` (JSH below) and
`/repo/include/json_struct/json_struct_diff.h` (JSD).

## 1. Layout

| Module (under `lean/Verif/`) | Contents |
|---|---|
| `Model/Basic` | bytes, `Type`, `Error`, `DataRef`, `Token`, lookup table (JSH 272-423, 1273-1306) |
| `Model/Scan` | scalar scanners and their SSE2/AVX2/NEON counterparts (JSH 443-1267, 1923-2128) |
| `Model/Tokenizer`, `Model/Feed` | `Tokenizer` as a state record and `nextToken` as a total function (JSH 1353-2808); buffers added before, between and by callbacks |
| `Model/Escape`, `Model/EscapeMemory` | string escaping and unescaping (JSH 5837-6111) |
| `Model/Number`, `Model/Bool` | `count_chars`, `to_buffer`, `parseNumber`, `convert_to_integer` (JSH 6619-6716, 7902-8276); `bool` |
| `Model/FloatTables`, `Model/Float`, `Model/Float32`, `Model/FloatHandler` | Ryu tables (generated by `tools/tables.py`), `decode`, texts, `convertToNumber`, `correctly_round_float` (JSH 6116-8643) |
| `Model/Time` | `std::chrono::time_point` (JSH 8949-9004) |
| `Model/Serializer` | options, buffers, `Serializer::write`, `SerializerContext`, `reformat` (JSH 1466-1574, 2905-2943, 3095-3431, 4621-4683) |
| `Model/Output` | `SerializerContext` with the bytes of its string, over histories of writes and flushes (JSH 4621-4660) |
| `Model/Message` | `ParseContext::makeErrorString` (JSH 3907-3955) |
| `Model/Handler`, `Model/Struct`, `Model/Types` | `ParseContext`, the `TypeHandler`s and the universe `CType` of types built from them (JSH 3864-3966, 4020-4683, 5645-5832, 8648-9720, 10099-10314) |
| `Model/Own` | handlers that users write themselves, as programs over tokens, and the types around them (JSH 4216-4221; README 207-262; examples 01, 08, 09) |
| `Model/Raw` | `JsonObject`, `JsonArray`, `JsonObjectOrArray` and their `Ref` forms (JSH 3708-3738, 9216-9479) |
| `Model/RawType` | types with raw captures anywhere in them |
| `Model/Tuple` | `JS::Tuple` (JSH 2944-3088) |
| `Model/Map` | `metaForTokens`, `JS::Map` (JSH 3744-3811, 9784-10097) |
| `Model/MapWhole` | `findFirstChildWithData` (JSH 3813-3831), reading a map as a whole (9880-9886) |
| `Model/MapMemory` | `JS::Map` with the strings of `json_data` (JSH 9854, 9929-10075) |
| `Model/Diff` | `json_struct_diff.h` |
| `Model/Call`, `Model/CallReport` | function calling (JSH 4728-5556), the record of calls as JSON (4686-4744) |
| `Model/EnumNames` | names of the enumerators in `JS_ENUM` (JSH 5557-5620) |
| `Model/ErrorContext` | `updateErrorContext`, `makeErrorString` (JSH 1308-1328, 1878-1908, 2819-2903) |
| `Spec/*` | small independent specifications: JSON values and their texts, UTF-8, decimal numerals, IEEE 754, balanced bracket words, decoding and encoding of C++ types |
| `Lemmas/*` | helper lemmas |
| `Props/*` | the property theorems, each beside an `example` meeting its hypotheses |
| `Conformance/*` | the project's own tests, evaluated in the model; made by `tools/conformance` from the test files |

Model functions are total and computable over `List UInt8`, `Nat`, `Int`. Every
definition cites the lines it models. `assert`s are no-ops in release builds; a
state in which the C++ would have undefined behaviour is a distinct outcome of
the model where the code can reach it (`Err.ub`, `NumErr.ub`, `WRes.ub`, or
`none`, as said at each definition).

## 2. Plan per property

* C01 types are described by an inductive universe; `to`/`from` are recursive functions; round trip by induction on the type and value, first at token level, then composed with C02/C03 down to bytes.
* C02 spec: inductive JSON values and the set of texts (with white space) denoting a value; proved by induction on the value against the tokenizer state machine.
* C03, C04, C43 serializer output of a value's tokens is one of the spec's texts of that value; then C02.
* C05, C48 buffers as a list of sizes; invariant: concatenation of used bytes = bytes requested so far.
* C06 invariant over all `nextToken` histories: the container stack is the stack of the balanced-word automaton run on the delivered tokens.
* C07, C08 invariants over all histories: `cursor ≤ size`, token ranges, byte count measure.
* C09 false in general (negations proved by witness); `Spec/Cut` is a small lexer that names the place behind every beginning of a text, and the places where a buffer may end; partial theorem for all options and all cuts at such places, for buffers registered in advance, after `NeedMoreData` and by callback. Proof: a suspendable machine on byte lists (`Lemmas/Cut`), its agreement with the model per buffer (`CutModel`), with the lexer (`CutPlace`), and the loops over buffers and calls (`CutRun`, `CutFeed`).
* C10 block-wise definitions of each vector scanner, refinement to the scalar one; false when an escape is pending at a buffer start (negation by witness).
* C11, C12, C13 induction on the byte string; UTF-8 spec separate; table facts by exhaustive kernel computation.
* C14-C16 induction on digit strings, parametric in the width; saturation above 2^64 false (wrap around), negation by witness.
* C17 case analysis over all byte strings.
* C18-C21 struct descriptions as lists of members with names and aliases; object parse as a fold over members.
* C22 lookup lemma over the name list.
* C23, C24 induction over balanced token words; 16 bit depth counter modelled, so C23 needs depth < 65535 and the failure beyond is proved.
* C25-C27 `metaForTokens` against a recursive spec on JSON values; `Map` as state with `setValue` step. C27 is false (stale positions), negation by witness.
* C28-C30 diff as a recursive function on token positions; C28 needs distinct names; C30 false (`missingArrayItems` kept).
* C31, C55 call engine over a table of abstract functions (any function of the container and its argument); induction over the members of the object; results by C03. Functions that are given the whole context may set errors and write to the results, in any order (`Spec/CallContext`).
* C32, C58 invariants of the two loops of `updateErrorContext`; the marker line against a spec of lines and columns (`Spec/Report`). Undefined across memory blocks, and the marker is wrong in reports of several lines (negations by witness); what it is there is proved (`C58_several_lines_partial`).
* C33 false for the doubles 2^-140 and -2^-140 (negation by witness). All other doubles and all floats: error bounds of the table products give the interval of `decode` (`FloatMul`, `FloatScale`, `FloatDecode`), the digits written lie in it (`FloatShort`, `FloatText`), and reading a number in it gives the same float (`FloatRead`, `FloatBack`, `FloatTrip`, `FloatBack32`).
* C34 by kernel computation over the whole tables.
* C35-C40, C49, C50 per handler, in the universe or parametric in an element handler. Captured tokens given to a tokenizer are delivered like the tokens of the text, so any type reads the same from both.
* C41 positions carried by `DataRef`.
* C42 false after an unfinished document (negation by witness); partial: after a complete one.
* C44, C45, C46 tokenizer state machine; C45 and C46 false for some inputs (negations by witness), partial theorems for the rest.
* C47 false (8 bit depth); partial for depth ≤ 255.
* C51 the escaped text against the grammar of JSON strings; false for control characters (negation by witness).
* C52 `Spec/Shape` says which brackets a type takes; induction over types. False for strings given a bracket (negation by witness).
* C65 `Spec/Lenient` gives the grammar of accepted texts. One direction: inversion of the scanners, and an invariant between two calls that says which part of the grammar has been read (a zipper over the open containers). Other direction: induction over the grammar.
* C66 two tokenizers that answer alike (`Spec/Alike`) are related; by induction over types every handler keeps contexts related. False for maps, and for `JsonTokens` after an error (negations by witness).
* C67 invariant of every history of calls: released buffers, then held ones, then those of the callback, are in the order they came in.
* C68 `Run` of a concatenation of documents, and the simulation of handlers by decoders with a condition on the tokenizer behind the last token (`EndCond`); buffers by C66.
* C69 `decode` follows `shortest_between`: a multiple of 10^k between the rounded ends makes the loop run k times; powers of two are checked one by one (`powOk`).
* C70 `OutCtx` keeps the bytes of the string besides the serializer; invariant: the string is as large as the buffers and begins with the text, or it is the text.
* C72 `Spec/Lines` gives the texts with line breaks as separators. They are embedded into the grammar of C65, which gives their tokens; C66 gives the parsing. For the serializer: induction over the value, as in C03.
* C73 the message of a call: the error context is carried along the loop of C31, with an invariant that keeps the tokenizer inside of its data, so that a report can always be made; only `custom_message` survives from call to call. The report: `FromSem` of the handler of the record, as in C01. False after a call that set a text (negation by witness).
* C74 `Model/DiffNumber` has `std::stod` (the longest number at the start of the text, rounded to the nearest double; an exception if there is none or it is out of range; what happens on underflow is a parameter) and the two comparisons. The text of a number is read back as its mantissa and scale; the machine's rounding is the nearest double (`roundTo_nearest`), and rounding is unique. The comparison is then an instance of the one of C28, C29. False out of range (negation by witness).
* C75 `CType.enc` says what JSON value is written for a value; by induction over types the handler writes its tokens, and the text of tokens is a document in the grammar of `Spec/Grammar` (as in C03). No condition that the value is kept. False for names and keys that need escapes (negation by witness).
* C76 the members of a struct are accesses that do not touch each other (`Access.Apart`). Induction over the members of the object (`ReadsTo` of C19): an access that is not resolved is kept; one that is gets the results of its decoder in turn. False for two members with one name (negation by witness).
* C77 `Spec/Replace` says for which types. Induction over types: the decoder, if it ends without error, gives the same from any old value; for structs, `ReadsTo` from two old values agrees on the members that are mentioned, and without unassigned members these are all. False for maps, `Nullable`, `OneOrMany`, structs with unassigned members, and after errors (negations by witness).
* C71 `parseMessage` over the two lists and the error context; from the reports of C19 and the error context of C32.
* C53, C64 `Spec/DiffReport` gives the mark and the missing tokens for every token; the comparison works on ranges of tokens, and by induction it turns a range without marks into the specified one. C53 false for arrays as new items (negation by witness).
* C54 diff of arbitrary texts: false in general (negations by witness); partial for documents.
* C56, C57 over all histories of the tokenizer and all types without maps: a measure (bytes left) bounds every loop; success implies that every token was accepted. False for maps (negation by witness).
* C59 false for texts that start with 0 (division by zero, shift by more than 63; negations by witness); for all other texts, well formed or not, and for those without exponent that do not start with 19 zeros, from the invariants of `digitsIn`. For JSON numbers an exact condition (`NumText.Undefined`): the general case of the conversion shifts by more than 63 if and only if the digits that are kept come to less than 2^-1077; that rounding errors do not matter for this follows from how far 64-bit multiples of powers of ten stay away from 2^-1077 (19 cases, by evaluation).
* C60, C61 error bound of the product with the table entry, against the rational value of the numeral; for `float` the comparison with the exact midpoint (big integers) decides ties. False for long integers, leading zeros with large exponents, and at the overflow and underflow thresholds of `float` (negations by witness).
* C62 case analysis over the units; false close to the epoch, before it, and after 2286 (negations by witness).
* C63 the scanner run over a name, white space and a comma; induction over the names. False for names that start with an underscore (negation by witness).
* C78 The light machine of `Lemmas/Light` on byte lists: one step on `s ++ q` is the step on `s`, with `q` left over (`Lemmas/Beginning`), so runs and tokens are prefixes; an error is the same unless the text ends in half a `//`. Values: `Lemmas/Follow`, induction over types, one sided: where the right tokenizer gives all the tokens the left one gives, a success on the left is one on the right.
* C79 By C78 a success on the beginning is a success on the whole at the same place; on the whole the place is behind the last bracket, so nothing is missing. Maps do not look at errors, but behind `NeedMoreData` no call of the tokenizer succeeds, so that they do not return `NoError` either. False where a string is given a bracket.
* C80 Undefined operations are outcomes of the model (`Err.ub`, `none`). Invariant over all handlers, by induction over types (`Lemmas/Defined`): the tokenizer is in a state that calls lead to, and what is reported is not `ub`, where the texts of all tokens to come are such that numbers and time points can be read from them. `JS::Map`: the tokens collected never close more brackets than they open, so that `metaForTokens` does not pop an empty vector. False for a map in a `std::array` or a tuple, and for the numbers and time points of C59 and C62 (witnesses).
* C81 `Model/MapMemory` adds to the map of C26 and C27 the strings of `json_data`, and for every token the string it refers to. Invariant over histories (`OwnedMap.Keeps`, `Lemmas/MapMemory`): the tokens of a member have one owner, whose entry has the index of the member or 0. False where C27 is: when a scalar in front of an array was replaced, replacing the array frees a string that tokens still refer to.
* C82 `Model/EscapeMemory` is the decoder of C11 to C13 with positions, and with arrays whose elements may not have been written. Proved equal to the decoder by induction; a read outside never happens, a read of an element not written happens only behind the first half of a surrogate pair.
* C83 `GenSequence` by strong induction gives 0, 1, ..., n-1; the element with index i is then unique.
* C84 the light machine run of C02 with a NUL byte behind the document: at the end of a document the byte is skipped and more data is asked for.
* C85 the metadata of a value are those of its containers in order (C25); from the entry of a container on they begin with those inside of it, so that adding up `skip` leads from one child to the next.
* C86 induction over the calls from the last one: all fields but the indentation are those set last, the indentation is if the shift size did not change since; an outdated one is white space in front of the first token only.
* C87 a relation between two runs of a handler, one in a context that allows everything: either they go on in step, or the strict one has ended with its error and the other one has found a name. It is kept by sequencing since names are only ever added; induction over the types, the loops and the members.
* C88 handlers of users are terms of an inductive type of programs (return, next token, store an error, call another handler, loop over tokens), mutually with the types around them. Each relation that the handlers of the library were shown to keep (C56, C57, C66, C78, C87) is shown for programs by structural induction, where errors of `nextToken` and of calls are passed on.
* C89 `Spec/Codec` is `Spec/Encode` with one more kind of type: a handler of a user with the JSON value it writes and the outcome of reading it (`Codec`). What is asked of the handler (`Codec.Faithful`) is what C01 shows of those of the library; the induction over types is that of C01. The loop of the handler in examples/01 is shown to be that of `ArrayVariableContent`.
* C90 two builds of the same type: one with the captures of the code, which record bytes while the tokenizer reads on, one with captures that look the bytes up afterwards (`Spec/RawType`). A relation between the two runs (the same context, with nothing recorded; after an error the same but for recordings) is kept by all handlers that are given related element handlers; induction over the type. That the templates around captures (and around handlers of users, C88) are those of the library is shown by spelling out the types of the library with them (`Spec/Embed`). The capture itself: C41, with the loop that counts brackets shown to be one that matches them.
* C91 `Spec/Source`: JSON values whose arrays and objects remember their text, and decoders over them. The tokens of such a value say where the input goes on behind them; by induction over types the handlers do what the decoders say (`Handler.ASem`), by induction over the grammar the tokens of a document stand where they say (`Lemmas/SourceText`). Unlike C90 this covers maps, since in a document no token is an error; but there is one buffer only. New lines as separators are not covered.
* C92 `Spec/RawWritten`: `RType` with the encoding, the valid values and the fresh variables of C01. A capture's text is written as it is, as the digits of a number are, so the serializer's theorems apply with a dialect in which texts of arrays and objects may stand for numbers (`rawTexts`); `Fills` says which values that remember their text such a document has, and by induction over types reading one of them (C91) gives the value back. Proved for texts that begin with a bracket, without new lines as separators. Empty captures do not survive (`C92_false_empty`, `C92_false_empty_ref`), and neither do blanks around the text in a capture (`C92_false_blanks`).
* C93 `Spec/Saved`: `Loaded` is any history of successful calls of `parseTo`, each from an arbitrary state of a context. The part of `Valid` (C01) that says how a value is put together is an invariant of every handler on every input, not only on documents: by induction over types each handler keeps it, and what it read is written as something, as `null` only if the token was `null`. What is left of `Valid` is said about the scalars in the final value (`Ordinary`) and about the type (`Storable`); C01 does the rest. The order of `std::map` and of containers that append is kept (`C93_sorted`, `C93_appending`).
* C94 `Model/Checked`: the constructors, assignments and accessors of the four wrapper classes (JSH 3433-3687) as functions on the data and the flag, and programs as lists of statements over numbered variables. `Spec/Checked`: the same programs with `std::optional`. The relation "the flag says whether there is a value, the data is the value" (and, for `OptionalChecked`, "the data of an empty one is the default value") is kept by every statement. What a moved-from value of `T` is, is a parameter.
* C95 `Spec/Evolve`: the relation `Newer a b R` between an old type, a new type and what becomes of values, with one rule for every change, closed under nesting. By induction over `Newer`: reading the JSON value that `a` means for `v` with the decoder of `b` succeeds and gives a value related by `R`; C01's theorems about writing and C20's about parsing give the statement about texts.
* C96 (editing a struct by way of a map): `Spec/Edit.lean` says what is meant: an edit is a declared member with a value, `op` is the call of `setValue`, `edited` the assignments. `Lemmas/Edit.lean` shows by induction over the history that the members of the map are those of the edited struct in some order (a permutation of the declared members), so that C27 gives the map, its text and `castToType`, and the reading lemma of C01, which holds for any order of the members, gives the struct. That the brackets of the map stay the same tokens (`Lemmas/MapWhole.lean`) gives `castToType` of the whole map, for C27 and C96. The defect of `setValue` spoils the metadata only: the tokens are right until the next call, so one call is always right (`Lemmas/MapLast`).

## 3. Trusted base

* Lean's kernel and elaborator, the statements in `Props/*` and the definitions they use: `Spec/*` and `Model/*`. Mathlib for proofs about rational numbers.
* Axioms: at most `propext`, `Classical.choice`, `Quot.sound` (each theorem's by `#print axioms`). No `sorry`, no `native_decide`, no `bv_decide`, no axioms added. Concrete witnesses are evaluated by the kernel (`decide +kernel`).
* The transcription of the C++ into the model, as documented at each definition. It was made by reading; the code was not run.
  `Conformance/*` tests it: the inputs and expectations of the project's test files (tokenizer, structs, escapes, numbers, enums, optional and nullable types, maps, comments, function calls, diff) are evaluated in the model by the kernel, and agree. These are tests of the model, not proofs, and no claim rests on them.
* C++ itself: `char` is compared as unsigned where the code casts it; `int` has 32 and `size_t` 64 bits; conversions between integers wrap. Memory allocation never fails, and no exception is thrown by the standard library except where a definition says so.
* Floating point: `double` and `float` are IEEE 754 binary64 and binary32, products, quotients and conversions round to nearest, ties to even, and nothing is computed in a wider format (no x87, no contraction to FMA). This is `roundTo` in `Model/Float`.

### What is modelled

Everything a program calls to read or write JSON: the tokenizer with all its
options, the serializer, all `TypeHandler`s of the header, declared structs,
`Map`, the diff library, function calls from JSON, error reports. In `CType`
types nest arbitrarily.

Loops of handlers have a bound on their steps, and `none` says that it did not
suffice. The bound is not part of any claim: a reading that ends within one
bound ends in the same way within every larger one (`CType.steady` and
`parseTo_steady` in `Lemmas/Fuel`, for all types). C57 says when a bound exists.

### What is not

* The macros that make the declarations of structs (`JS_OBJ` and so on): a struct is given by its list of members. Only the scanner of `JS_ENUM` for the names of enumerators is modelled.
* Templates as such: overload resolution, `static_assert`s, and which handler is chosen for a type.
* User defined handlers other than programs that look at tokens, fetch the next one, call other handlers and loop over tokens (Model/Own), callbacks that do something else than `addData`, `user_handle`, the file and stream helpers.
* the C library's `strtod` behind `std::stod` in the diff library: in C28, C29, C53, C54 and C64 any function that reads numbers, in C74 (Model/DiffNumber) the one that rounds to the nearest double, in the locale "C"; containers of the standard library, which are lists with an insert function.
* Lifetimes: a captured token is its bytes (`Tok`). What is left dangling is not a state of the model, except where C09, C32 and C41 speak about it.
* Sizes of counters in `JsonMeta` (`uint32_t`) and `int` indices in the diff library.
* Equality of floating point numbers in sets (0.0 and -0.0).

## 4. Where the code does not do what is claimed

A property that is false of the code has a theorem `Cxx_false_...` with a
concrete input, and the theorem that holds has the suffix `_partial`. In short:

| | |
|---|---|
| C01 | scalars at the root are written but not accepted; NaN is written as `null`, which is no number; empty optionals in arrays vanish |
| C03 | empty member names are dropped |
| C09 | names, colons, elements, escapes and comments that meet the end of a buffer |
| C10 | vector scanners with an escape pending at the start of a buffer |
| C15 | integers wrap around above 2^64, unsigned types accept a minus; `C15_exact` gives the value read for every accepted text (Spec/Register) |
| C18, C19, C76 | aliases; a string that is given an object takes its `{`, and the struct reads what follows as its own members: `C18_false_string`, `C19_false_string`, `C76_false_string` |
| C20, C35, C52 | strings swallow brackets |
| C23, C31, C47 | depth counters of 16 and 8 bits |
| C26, C27 | `Map`: the closing bracket is visited; replacing scalars leaves stale positions |
| C28-C30, C53, C54 | diff: members of the same name, scalar roots, missing items kept, wrong marks |
| C32, C58 | error reports across buffers, of several lines, and of function calls |
| C33 | the double 2^-140 |
| C36 | exactly `COUNT` elements do not set the size |
| C37, C56, C57 | a `std::map` reads a truncated object for ever, and some malformed ones successfully |
| C38 | keys that need escapes, empty keys |
| C41 | capturing into variables that are not empty; `Ref` forms across buffers |
| C42 | `resetData` inside a document |
| C44-C46 | comments behind words, commas behind scalars, some malformed texts |
| C50 | `OneOrMany` is not cleared |
| C51 | control characters are not escaped |
| C59-C61 | numbers: undefined behaviour after many zeros, long integers, thresholds of `float` |
| C62 | the unit of a time point is guessed |
| C63 | enumerators that start with an underscore lose it, or vanish |
| C66 | maps read on behind an error; `JsonTokens` keep the token of the failed call |
| C68 | documents with a comma between them, as one `Serializer` writes several values, are not read |
| C69 | the lower end of the range is rounded to the nearest integer, so that shorter numbers next to it are passed over (808.488, or 0.544f) |
| C70 | `flush` shrinks the string but not the buffer in it: the next write goes beyond the end of the string, and the next `flush` overwrites it with zeros |
| C71 | without tracking the message is empty; an unknown member of an object inside of the object is not named (the error is another one); the lists are not cleared, so a context used before also names members earlier objects lacked |
| C73 | once a function has set a text, the message of every later call that fails without one is `Error NoError` and this text; an `Error` in a struct is written but never read |
| C75 | names and keys of maps are written without escapes, an empty key not at all |
| C76 | of two members with the same name only the one declared last is read |
| C77 | maps keep the keys they had, `Nullable` keeps its value on `null`, `OneOrMany` appends a single value to what it had |
| C78 | where comments are allowed, `/` at the end of a text is an error although a second one may follow |
| C79 | a string that is given an object takes its `{`, so that the `}` of the object closes the struct: `{"a":{}` is accepted |
| C80 | `[]` read into a `std::array` or tuple of `JS::Map`: the closing bracket is taken for an element, and `pop_back` is called on an empty vector |
| C81 | a member that is a scalar and one behind it that is an array are set, then both are replaced: tokens of the old array stay in the map, and refer to a freed string |
| C88 | handlers that hide errors; the one in examples/01 does not store the number of elements if the array is full |
| C89 | a full list with the handler in examples/01 |
| C92 | an empty `JsonObject` is written as `{}` and read back as that; a vector of two empty `JsonObjectRef`s is written as `[,]`, which is not JSON; blanks around the text in a capture are lost |
| C93 | `[1e400]` is loaded as infinity, saved as `null` and not loaded again; a number that is no enumerator is loaded, saving it is undefined; a filled `ArrayVariableContent` is saved as empty; an empty key is loaded and saved as `{1}`; `[[]]` as a vector of `OneOrMany` and `[[1]]` as a `OneOrMany` of vectors do not come back |
| C94 | a value put into an empty wrapper by way of `x()` is neither seen by `opt()` nor written; data hidden by a parsed `null` comes back with the next object that leaves a member out; an `OptionalChecked` counts as assigned after its value was refused |
| C95 | a signed integer read as an unsigned one loses its sign without an error; elements of a set that become the same are an error; a value becomes a `std::vector`, a pointer a value, or a vector an `OneOrMany` of vectors: not accepted; two members merged by an alias: the last one wins; with `allow_missing_members` or `allow_unassigned_required_members` off, removing or adding members is an error |
| C96 | Setting a member whose old value is a scalar in front of an array or object (C27) makes the map forget where its members are; setting another member then writes a text that is not JSON (`{2],"a":5,"b":[9]`) |
| C90 | types with maps, as C56; after an error a `JsonArray` that was an element of a set is still registered with the tokenizer, and is gone; a name that occurs twice leaves both values in the string |
| C86 | `setStyle(Compact)` on default options: new lines and indentation are still written, since the shift size stays 2; `setDepth` before `setShiftSize`: the first line keeps the old indentation |
| C01 | required members must not be missing: an empty `OneOrMany` is not written, but required |
| C82 | `"\uD83D\u12x4"`: digits of the second half of the pair are combined (`lo_cp`) that were never written; the value is not used |
| C74 | comparing documents with a number like `1e400` throws `std::out_of_range`, even if both have it |
