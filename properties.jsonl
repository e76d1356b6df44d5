{"id": "C01", "title": "Serialize-then-parse round trip", "statement": "For every supported value type built from bool, integers, std::string, std::vector, fixed arrays, tuples, nullable/optional wrappers, owning pointers, enums and JS_OBJECT structs, and every value of it, ParseContext(serializeStruct(v)).parseTo(w) returns NoError and leaves w equal to v, whichever SerializerOptions style was used.", "quantifier": "all type descriptions (arbitrarily nested), all values of the type, both styles", "why_tests_cant": "The set of types and values is infinite and the composition of serializer and tokenizer has to agree on every one of them.", "anchors": [{"file": "include/json_struct/json_struct.h", "symbol": "serializeStruct"}, {"file": "include/json_struct/json_struct.h", "symbol": "ParseContext::parseTo"}, {"file": "include/json_struct/json_struct.h", "symbol": "TypeHandler"}, {"file": "include/json_struct/json_struct.h", "symbol": "Serializer::write"}, {"file": "include/json_struct/json_struct.h", "symbol": "Tokenizer::nextToken"}]}
{"id": "C02", "title": "Every well formed JSON document is tokenized to its own structure", "statement": "For every JSON document whose root is an object or an array (RFC 8259 grammar, any amount of insignificant white space, any nesting depth), repeated nextToken returns NoError and yields exactly the token sequence of the document in order: names, raw string contents, number text, literals and brackets, and then NeedMoreData.", "quantifier": "all JSON values with object/array root, all white space choices, all tokenizer options except allowNewLineAsTokenDelimiter (which changes the grammar), all SIMD builds", "why_tests_cant": "The grammar is infinite and nests without bound.", "anchors": [{"file": "include/json_struct/json_struct.h", "symbol": "Tokenizer::nextToken"}, {"file": "include/json_struct/json_struct.h", "symbol": "Tokenizer::populateNextTokenFromDataRef"}]}
{"id": "C03", "title": "Serializer output re-tokenizes to the tokens that were written", "statement": "Writing the token sequence of any JSON value through Serializer::write yields text which, tokenized again, gives back the same names, values and types.", "quantifier": "all token sequences of JSON values up to the serializer's depth limit, both styles", "why_tests_cant": "Unbounded documents and depths.", "anchors": [{"file": "include/json_struct/json_struct.h", "symbol": "Serializer::write"}, {"file": "include/json_struct/json_struct.h", "symbol": "Tokenizer::nextToken"}]}
{"id": "C04", "title": "Pretty and Compact output denote the same document", "statement": "For the same token sequence, the Pretty and the Compact output differ only in insignificant white space: removing the white space outside string literals from the Pretty text gives the Compact text, and both tokenize identically.", "quantifier": "all token sequences of JSON values up to the depth limit", "why_tests_cant": "Unbounded documents.", "anchors": [{"file": "include/json_struct/json_struct.h", "symbol": "SerializerOptions"}, {"file": "include/json_struct/json_struct.h", "symbol": "Serializer::write"}]}
{"id": "C05", "title": "Serializer output does not depend on the buffers supplied", "statement": "However the output is cut into buffers by setBuffer / the request-buffer callback (any sizes, as long as every callback supplies a non empty buffer), the concatenation of the used bytes is the same, no write overruns a buffer, and write reports success.", "quantifier": "all token sequences, all sequences of positive buffer sizes", "why_tests_cant": "Every literal and value may straddle a buffer end at every offset.", "anchors": [{"file": "include/json_struct/json_struct.h", "symbol": "Serializer::write"}, {"file": "include/json_struct/json_struct.h", "symbol": "SerializerBuffer::append"}, {"file": "include/json_struct/json_struct.h", "symbol": "Serializer::markCurrentSerializerBufferFull"}]}
{"id": "C06", "title": "Brackets in the token stream always match", "statement": "Whatever bytes are fed in, in whatever buffers and with whatever options, the ObjectStart/ArrayStart/ObjectEnd/ArrayEnd tokens returned with NoError are properly nested at every moment; a closing bracket that does not match the innermost open container is reported as UnexpectedObjectEnd / UnexpectedArrayEnd and never delivered as NoError.", "quantifier": "all byte strings, all splits into buffers, all option settings, all call histories", "why_tests_cant": "Must hold for every malformed input and every prefix of every run.", "anchors": [{"file": "include/json_struct/json_struct.h", "symbol": "Tokenizer::nextToken"}]}
{"id": "C07", "title": "Tokens are in-bounds views of the input", "statement": "The cursor never passes the end of the current buffer, no scan reads outside it, and every name and value returned with NoError is either a contiguous range inside the current buffer (with the bytes found there) or the tokenizer's own copy of a token that straddled buffers.", "quantifier": "all byte strings, buffers, options and call histories", "why_tests_cant": "Memory safety has to hold on hostile input; tests only exercise chosen inputs.", "anchors": [{"file": "include/json_struct/json_struct.h", "symbol": "Tokenizer::nextToken"}, {"file": "include/json_struct/json_struct.h", "symbol": "Tokenizer::populateFromDataRef"}, {"file": "include/json_struct/json_struct.h", "symbol": "Tokenizer::findStringEnd"}]}
{"id": "C08", "title": "Tokenizing terminates and makes progress", "statement": "nextToken always returns; every token delivered with NoError consumes at least one input byte, so a finite input yields at most as many tokens as it has bytes before nextToken stops returning NoError.", "quantifier": "all byte strings, buffers, options", "why_tests_cant": "Non termination is not observable by a finite test.", "anchors": [{"file": "include/json_struct/json_struct.h", "symbol": "Tokenizer::nextToken"}, {"file": "include/json_struct/json_struct.h", "symbol": "Tokenizer::populateNextTokenFromDataRef"}]}
{"id": "C09", "title": "Streaming: the split into buffers does not matter", "statement": "Feeding a document in several addData calls, cut anywhere, gives the same sequence of tokens as feeding it in one buffer.", "quantifier": "all documents, all cut points", "why_tests_cant": "Every byte position is a potential cut, in every tokenizer state.", "anchors": [{"file": "include/json_struct/json_struct.h", "symbol": "Tokenizer::addData"}, {"file": "include/json_struct/json_struct.h", "symbol": "Tokenizer::nextToken"}, {"file": "include/json_struct/json_struct.h", "symbol": "IntermediateToken"}]}
{"id": "C10", "title": "SIMD builds agree with the scalar build", "statement": "The SSE2, AVX2 and NEON scanners return the same end positions as the portable byte loop, so a document tokenizes identically on every build.", "quantifier": "all buffers, all start offsets, all scanner kinds and instruction sets", "why_tests_cant": "Alignment of the interesting byte in a vector lane, tail lengths and escape runs give unboundedly many cases.", "anchors": [{"file": "include/json_struct/json_struct.h", "symbol": "findStringEndSIMD"}, {"file": "include/json_struct/json_struct.h", "symbol": "findNumberEndSIMD"}, {"file": "include/json_struct/json_struct.h", "symbol": "findAsciiEndSIMD"}, {"file": "include/json_struct/json_struct.h", "symbol": "skipWhitespaceSIMD"}, {"file": "include/json_struct/json_struct.h", "symbol": "skipCommentSIMD"}, {"file": "include/json_struct/json_struct.h", "symbol": "findStringEndAVX2"}, {"file": "include/json_struct/json_struct.h", "symbol": "skipWhitespaceAVX2"}, {"file": "include/json_struct/json_struct.h", "symbol": "findStringEndNEON"}]}
{"id": "C11", "title": "String escaping round trip", "statement": "For every byte string s, unescaping the escaped form written for s gives s back, so every std::string survives serialize then parse unchanged.", "quantifier": "all byte strings of any length", "why_tests_cant": "All byte sequences including quotes, backslashes, control bytes and invalid UTF-8.", "anchors": [{"file": "include/json_struct/json_struct.h", "symbol": "handle_json_escapes_out"}, {"file": "include/json_struct/json_struct.h", "symbol": "handle_json_escapes_in"}, {"file": "include/json_struct/json_struct.h", "symbol": "TypeHandler<std::string>"}]}
{"id": "C12", "title": "A serialized string cannot break out of its quotes", "statement": "The text written for any std::string contains no unescaped quote and does not end inside an escape, so the tokenizer finds the end of the literal exactly at the quote the serializer wrote, whatever follows.", "quantifier": "all byte strings, all following text", "why_tests_cant": "Injection safety is a for-all-inputs claim.", "anchors": [{"file": "include/json_struct/json_struct.h", "symbol": "handle_json_escapes_out"}, {"file": "include/json_struct/json_struct.h", "symbol": "Tokenizer::findStringEnd"}]}
{"id": "C13", "title": "\\u escapes decode to UTF-8", "statement": "A \\uXXXX escape of a non surrogate code point, or a high/low surrogate pair, decodes to the UTF-8 encoding of that code point, in either hex case, and text around it is preserved.", "quantifier": "all Unicode scalar values, all hex case variants, all surrounding text", "why_tests_cant": "1.1 million scalar values times surrounding context.", "anchors": [{"file": "include/json_struct/json_struct.h", "symbol": "handle_json_escapes_in"}]}
{"id": "C14", "title": "Integer print/parse round trip", "statement": "For every integer type supported (8 to 128 bit, signed and unsigned) and every value, the text written parses back to the same value.", "quantifier": "all integer widths, all values", "why_tests_cant": "2^64 and 2^128 values.", "anchors": [{"file": "include/json_struct/json_struct.h", "symbol": "integer::to_buffer"}, {"file": "include/json_struct/json_struct.h", "symbol": "integer::to_integer"}, {"file": "include/json_struct/json_struct.h", "symbol": "TypeHandlerIntType"}]}
{"id": "C15", "title": "Integer parsing denotes the decimal value", "statement": "A decimal integer literal within the range of the target type parses to that value, one outside the range saturates to the nearest representable value, a fraction is truncated toward zero, and text which is not a number is rejected with FailedToParseInt.", "quantifier": "all digit strings of any length, all target types", "why_tests_cant": "Literals are unbounded in length.", "anchors": [{"file": "include/json_struct/json_struct.h", "symbol": "parseNumber"}, {"file": "include/json_struct/json_struct.h", "symbol": "integer::convert_to_integer"}, {"file": "include/json_struct/json_struct.h", "symbol": "integer::make_integer_return_value"}]}
{"id": "C16", "title": "Integers are written in canonical decimal", "statement": "The text written for an integer is an optional minus sign followed by its decimal digits without leading zeros, and is a valid JSON number.", "quantifier": "all integer widths, all values", "why_tests_cant": "All values including the minimum of each signed type.", "anchors": [{"file": "include/json_struct/json_struct.h", "symbol": "integer::to_buffer"}, {"file": "include/json_struct/json_struct.h", "symbol": "count_chars"}]}
{"id": "C17", "title": "Booleans and keywords are recognised exactly", "statement": "A bare word becomes Bool iff it is exactly true or false and Null iff it is exactly null; parsing into bool succeeds iff the token text is true or false.", "quantifier": "all byte strings", "why_tests_cant": "All other words of every length must be refused.", "anchors": [{"file": "include/json_struct/json_struct.h", "symbol": "Internal::getType"}, {"file": "include/json_struct/json_struct.h", "symbol": "TypeHandler<bool>"}]}
{"id": "C18", "title": "Struct members may come in any order", "statement": "If the members of an object have distinct names, permuting them in the input does not change the struct obtained.", "quantifier": "all structs, all objects, all permutations", "why_tests_cant": "n! orders of arbitrarily many members.", "anchors": [{"file": "include/json_struct/json_struct.h", "symbol": "TypeHandler<T, JsonStructBase>::to"}, {"file": "include/json_struct/json_struct.h", "symbol": "MemberChecker"}]}
{"id": "C19", "title": "Missing and unassigned member reports are exact", "statement": "After parsing an object into a struct, missing_members lists exactly the input member names with no matching struct member, unassigned_required_members lists exactly the required struct members that did not occur in the input, and parse fails with MissingPropertyMember (at the first such name) / UnassignedRequiredMember exactly when the corresponding option forbids a non empty list.", "quantifier": "all struct descriptions, all objects, both options", "why_tests_cant": "All combinations of present and absent members.", "anchors": [{"file": "include/json_struct/json_struct.h", "symbol": "TypeHandler<T, JsonStructBase>::to"}, {"file": "include/json_struct/json_struct.h", "symbol": "ParseContext::allow_missing_members"}, {"file": "include/json_struct/json_struct.h", "symbol": "ParseContext::allow_unasigned_required_members"}]}
{"id": "C20", "title": "Unknown members are skipped without side effects", "statement": "Adding to an object members whose names match nothing in the struct, with values of any shape, changes neither the struct obtained nor the result (apart from missing_members).", "quantifier": "all structs, all objects, all inserted members with arbitrarily nested values", "why_tests_cant": "Skipped values nest without bound.", "anchors": [{"file": "include/json_struct/json_struct.h", "symbol": "skipArrayOrObject"}, {"file": "include/json_struct/json_struct.h", "symbol": "TypeHandler<T, JsonStructBase>::to"}]}
{"id": "C21", "title": "Names before aliases", "statement": "An input member whose name is the primary name of a struct member is stored there even if it is also an alias of another member; an alias only matches when no primary name does.", "quantifier": "all struct descriptions with aliases, all names", "why_tests_cant": "All declaration orders and name overlaps.", "anchors": [{"file": "include/json_struct/json_struct.h", "symbol": "MemberChecker::unpackMembers"}, {"file": "include/json_struct/json_struct.h", "symbol": "NameChecker"}, {"file": "include/json_struct/json_struct.h", "symbol": "unpackMember"}]}
{"id": "C22", "title": "Enum values round trip by name", "statement": "Every declared enumerator is written as its name and parses back to itself; a string which is no declared name is rejected with IllegalDataValue.", "quantifier": "all enum declarations with distinct names, all strings", "why_tests_cant": "All enum declarations and all strings.", "anchors": [{"file": "include/json_struct/json_struct.h", "symbol": "EnumHandler"}, {"file": "include/json_struct/json_struct.h", "symbol": "populateEnumNames"}]}
{"id": "C23", "title": "Scopes end exactly at the matching bracket", "statement": "pushScope on a just opened object or array followed by goToEndOfScope consumes exactly the tokens up to and including the bracket closing it, after which nextToken reports ScopeHasEnded until popScope.", "quantifier": "all contents of the scope, any nesting", "why_tests_cant": "Unbounded nesting depth.", "anchors": [{"file": "include/json_struct/json_struct.h", "symbol": "Tokenizer::pushScope"}, {"file": "include/json_struct/json_struct.h", "symbol": "Tokenizer::goToEndOfScope"}, {"file": "include/json_struct/json_struct.h", "symbol": "ScopeCounter::handleType"}]}
{"id": "C24", "title": "Skipping consumes exactly one value", "statement": "skipping an unwanted member value consumes exactly the tokens of that value, no more and no less, whatever its shape.", "quantifier": "all values of any nesting, all following tokens", "why_tests_cant": "Unbounded nesting.", "anchors": [{"file": "include/json_struct/json_struct.h", "symbol": "skipArrayOrObject"}, {"file": "include/json_struct/json_struct.h", "symbol": "TypeHandler<std::vector<Token>>"}]}
{"id": "C25", "title": "Token metadata is exact", "statement": "metaForTokens records, for every object or array in a token list and in document order, its position, its token count, its number of direct children and of nested containers, so position+size is the token after its closing bracket.", "quantifier": "all token lists of JSON values", "why_tests_cant": "Unbounded nesting.", "anchors": [{"file": "include/json_struct/json_struct.h", "symbol": "metaForTokens"}, {"file": "include/json_struct/json_struct.h", "symbol": "JsonMeta"}]}
{"id": "C26", "title": "Map iteration and lookup visit top level members only", "statement": "Iterating over a JS::Map parsed from an object visits exactly its direct members in order, and find(name) returns the first direct member with that name or end().", "quantifier": "all objects of any nesting, all names", "why_tests_cant": "Unbounded nesting and member counts.", "anchors": [{"file": "include/json_struct/json_struct.h", "symbol": "Map::It::operator++"}, {"file": "include/json_struct/json_struct.h", "symbol": "Map::begin"}, {"file": "include/json_struct/json_struct.h", "symbol": "Map::find"}]}
{"id": "C27", "title": "Map setValue then lookup", "statement": "After setValue(name, v) on a JS::Map, find(name) yields v, every other member is still found with its former value, and the object has one more member if name was new and the same number otherwise.", "quantifier": "all histories of setValue calls, all names and values", "why_tests_cant": "All histories of updates.", "anchors": [{"file": "include/json_struct/json_struct.h", "symbol": "Map::setValue"}, {"file": "include/json_struct/json_struct.h", "symbol": "Map::find"}]}
{"id": "C28", "title": "Diff of a document with itself is empty", "statement": "Comparing a document with an equal document reports no differences.", "quantifier": "all documents", "why_tests_cant": "Unbounded documents.", "anchors": [{"file": "include/json_struct/json_struct_diff.h", "symbol": "Internal::Diff::diff"}, {"file": "include/json_struct/json_struct_diff.h", "symbol": "diffObjects"}, {"file": "include/json_struct/json_struct_diff.h", "symbol": "diffArrays"}]}
{"id": "C29", "title": "Diff reports every difference", "statement": "If a comparison reports zero differences then the two documents are equal up to member order in objects (and to the configured tolerance in numbers).", "quantifier": "all pairs of documents with distinct member names", "why_tests_cant": "All pairs of documents.", "anchors": [{"file": "include/json_struct/json_struct_diff.h", "symbol": "diffObjects"}, {"file": "include/json_struct/json_struct_diff.h", "symbol": "diffArrays"}, {"file": "include/json_struct/json_struct_diff.h", "symbol": "DiffTokens::diff_count"}]}
{"id": "C30", "title": "Re-running a diff gives the same report", "statement": "DiffContext::invalidate() recomputes every diff from scratch: the report afterwards is the one a fresh DiffContext with the same base, documents and options would give.", "quantifier": "all histories of diff/invalidate calls", "why_tests_cant": "State left over from earlier runs only shows after particular histories.", "anchors": [{"file": "include/json_struct/json_struct_diff.h", "symbol": "DiffTokens::invalidate"}, {"file": "include/json_struct/json_struct_diff.h", "symbol": "DiffContext::invalidate"}, {"file": "include/json_struct/json_struct_diff.h", "symbol": "DiffContext::changeBase"}]}
{"id": "C31", "title": "Function calls: one call per member, in order", "statement": "callFunctions calls, for every member of the input object in input order, the function registered under that name exactly once with the member's value, records one result per member, reports MissingFunction for names not registered, and after any outcome of one call resumes at the next member.", "quantifier": "all function tables, all input objects, all outcomes of the functions", "why_tests_cant": "All call histories and failure patterns.", "anchors": [{"file": "include/json_struct/json_struct.h", "symbol": "CallFunctionContext"}, {"file": "include/json_struct/json_struct.h", "symbol": "matchAndCallFunction"}, {"file": "include/json_struct/json_struct.h", "symbol": "callFunctions"}, {"file": "include/json_struct/json_struct.h", "symbol": "FunctionObjectTraverser"}]}
{"id": "C32", "title": "Error context stays inside the input", "statement": "When an error is reported, every source line copied for the message is a range of the current buffer, the reported line index addresses one of them, and no arithmetic underflows.", "quantifier": "all buffers, all cursor positions, all context settings", "why_tests_cant": "Hostile input chooses the position of line breaks around the error.", "anchors": [{"file": "include/json_struct/json_struct.h", "symbol": "Tokenizer::updateErrorContext"}, {"file": "include/json_struct/json_struct.h", "symbol": "Tokenizer::makeErrorString"}]}
{"id": "C33", "title": "Floating point print/parse round trip", "statement": "For every finite double (float), parsing the text written for it gives the same value bit for bit; NaN and infinities are written as null.", "quantifier": "all finite doubles and floats", "why_tests_cant": "2^64 values.", "anchors": [{"file": "include/json_struct/json_struct.h", "symbol": "ryu::decode"}, {"file": "include/json_struct/json_struct.h", "symbol": "ryu::convert_parsed_to_buffer"}, {"file": "include/json_struct/json_struct.h", "symbol": "convertToNumber"}, {"file": "include/json_struct/json_struct.h", "symbol": "TypeHandler<double>"}, {"file": "include/json_struct/json_struct.h", "symbol": "TypeHandler<float>"}]}
{"id": "C34", "title": "Power-of-five tables are correct", "statement": "Every entry of the four multiplication tables used for floating point printing is the correctly truncated power of five (or its reciprocal) at its index.", "quantifier": "all table entries", "why_tests_cant": "A single wrong digit in one of 690 entries only shows on particular values.", "anchors": [{"file": "include/json_struct/json_struct.h", "symbol": "cache_values<double>"}, {"file": "include/json_struct/json_struct.h", "symbol": "cache_values<float>"}]}
{"id": "C35", "title": "Fixed size arrays and tuples demand the exact element count", "statement": "Parsing into T[N], std::array or a tuple succeeds only if the input array has exactly N elements, and then element i of the input is stored at index i.", "quantifier": "all N, all element types, all input arrays", "why_tests_cant": "All lengths.", "anchors": [{"file": "include/json_struct/json_struct.h", "symbol": "TypeHandler<T[N]>"}, {"file": "include/json_struct/json_struct.h", "symbol": "TypeHandler<std::tuple<Ts...>>"}, {"file": "include/json_struct/json_struct.h", "symbol": "TypeHandler<std::array<T, N>>"}]}
{"id": "C36", "title": "Variable content arrays record their size", "statement": "Parsing an input array of at most COUNT elements into ArrayVariableContent<T,COUNT> stores the elements and sets size to their number; more elements are an error.", "quantifier": "all COUNT, all input lengths", "why_tests_cant": "The boundary length COUNT is one of unboundedly many.", "anchors": [{"file": "include/json_struct/json_struct.h", "symbol": "TypeHandler<ArrayVariableContent<T, COUNT>>"}]}
{"id": "C37", "title": "Maps keep the last value of each key", "statement": "Parsing an object into std::map / std::unordered_map yields the unescaped member names as keys, each with its last value, and parsing terminates on every input.", "quantifier": "all objects, all truncated or malformed inputs", "why_tests_cant": "Termination on every malformed input.", "anchors": [{"file": "include/json_struct/json_struct.h", "symbol": "TypeHandlerMap::to"}]}
{"id": "C38", "title": "Maps round trip", "statement": "Every map with string keys is written as an object which parses back to the same map.", "quantifier": "all maps, all keys", "why_tests_cant": "All key strings.", "anchors": [{"file": "include/json_struct/json_struct.h", "symbol": "TypeHandlerMap::from"}, {"file": "include/json_struct/json_struct.h", "symbol": "TypeHandlerMap::to"}]}
{"id": "C39", "title": "Sets reject duplicates", "statement": "Parsing an array into std::set succeeds iff its elements are pairwise different, and then the set holds exactly the elements.", "quantifier": "all arrays", "why_tests_cant": "All lengths and duplicate positions.", "anchors": [{"file": "include/json_struct/json_struct.h", "symbol": "TypeHandlerSet::to"}]}
{"id": "C40", "title": "Nullable and pointer types represent null", "statement": "null parses to the empty state of NullableChecked, shared_ptr and unique_ptr and the empty state is written as null; any other value is parsed and written as the wrapped type.", "quantifier": "all wrapped types and values", "why_tests_cant": "All wrapped types.", "anchors": [{"file": "include/json_struct/json_struct.h", "symbol": "TypeHandler<NullableChecked<T>>"}, {"file": "include/json_struct/json_struct.h", "symbol": "TypeHandler<std::unique_ptr<T>>"}, {"file": "include/json_struct/json_struct.h", "symbol": "TypeHandler<std::shared_ptr<T>>"}]}
{"id": "C41", "title": "Raw capture is verbatim", "statement": "Parsing a member into JsonObject, JsonArray or their Ref forms captures exactly the input bytes of that value from its opening to its matching closing bracket.", "quantifier": "all values, any nesting, any white space, any buffer split for the owning forms", "why_tests_cant": "Unbounded values and split points.", "anchors": [{"file": "include/json_struct/json_struct.h", "symbol": "TypeHandler<JsonObject>"}, {"file": "include/json_struct/json_struct.h", "symbol": "TypeHandler<JsonArray>"}, {"file": "include/json_struct/json_struct.h", "symbol": "TypeHandler<JsonObjectRef>"}, {"file": "include/json_struct/json_struct.h", "symbol": "Tokenizer::copyFromValue"}, {"file": "include/json_struct/json_struct.h", "symbol": "Tokenizer::copyIncludingValue"}, {"file": "include/json_struct/json_struct.h", "symbol": "Tokenizer::releaseFirstDataRef"}]}
{"id": "C42", "title": "resetData gives a fresh start", "statement": "After resetData the tokenizer behaves on the new data as a newly constructed tokenizer with the same options, whatever was parsed before.", "quantifier": "all histories before the reset", "why_tests_cant": "All earlier histories, including ones that ended in an error.", "anchors": [{"file": "include/json_struct/json_struct.h", "symbol": "Tokenizer::resetData"}, {"file": "include/json_struct/json_struct.h", "symbol": "Tokenizer::resetForNewToken"}]}
{"id": "C43", "title": "reformat is idempotent and style changes are lossless", "statement": "reformat of any JSON document succeeds and its output tokenizes to the same tokens; reformatting the output again with the same options changes nothing, and compact-of-pretty equals compact.", "quantifier": "all JSON documents with object/array root up to the depth limit", "why_tests_cant": "Unbounded documents.", "anchors": [{"file": "include/json_struct/json_struct.h", "symbol": "reformat"}]}
{"id": "C44", "title": "Comments are invisible", "statement": "With allowComments, inserting // comments (ended by a new line) wherever white space is allowed does not change the token sequence.", "quantifier": "all documents, all comment texts and positions", "why_tests_cant": "All positions and contents of comments.", "anchors": [{"file": "include/json_struct/json_struct.h", "symbol": "Tokenizer::skipComment"}, {"file": "include/json_struct/json_struct.h", "symbol": "Tokenizer::allowComments"}]}
{"id": "C45", "title": "Trailing commas are rejected unless allowed", "statement": "Unless allowSuperfluousComma is set, a comma directly before a closing bracket is reported as an error; if it is set the comma is ignored.", "quantifier": "all documents, all positions of the comma", "why_tests_cant": "All kinds of preceding element.", "anchors": [{"file": "include/json_struct/json_struct.h", "symbol": "Tokenizer::allowSuperfluousComma"}, {"file": "include/json_struct/json_struct.h", "symbol": "Tokenizer::findDelimiter"}, {"file": "include/json_struct/json_struct.h", "symbol": "Tokenizer::findTokenEnd"}]}
{"id": "C46", "title": "Malformed structure is reported", "statement": "A document which is not well formed JSON (missing values, missing separators, unquoted names, bracket mismatch) makes nextToken return an error other than NeedMoreData.", "quantifier": "all malformed documents", "why_tests_cant": "All malformed documents.", "anchors": [{"file": "include/json_struct/json_struct.h", "symbol": "Tokenizer::nextToken"}]}
{"id": "C47", "title": "Nesting depth is not limited", "statement": "The serializer writes balanced output for token sequences of any nesting depth.", "quantifier": "all depths", "why_tests_cant": "Fails only beyond a depth no unit test reaches.", "anchors": [{"file": "include/json_struct/json_struct.h", "symbol": "SerializerOptions::setDepth"}, {"file": "include/json_struct/json_struct.h", "symbol": "Serializer::write"}]}
{"id": "C48", "title": "serializeStruct returns exactly the serialized text", "statement": "The growing buffer used by SerializerContext never loses, duplicates or leaves stale bytes: after flush the string is exactly the serialized text for every length.", "quantifier": "all output lengths", "why_tests_cant": "Growth happens at lengths 4096, 8192, ... and at every straddle offset.", "anchors": [{"file": "include/json_struct/json_struct.h", "symbol": "SerializerContext"}, {"file": "include/json_struct/json_struct.h", "symbol": "SerializerContext::flush"}, {"file": "include/json_struct/json_struct.h", "symbol": "serializeStruct"}]}
{"id": "C49", "title": "JsonTokens capture round trip", "statement": "Parsing any object or array into JsonTokens stores exactly its token sequence, and writing a JsonTokens value writes these tokens.", "quantifier": "all values", "why_tests_cant": "Unbounded nesting.", "anchors": [{"file": "include/json_struct/json_struct.h", "symbol": "TypeHandler<std::vector<Token>>"}, {"file": "include/json_struct/json_struct.h", "symbol": "TypeHandler<JsonTokens>"}]}
{"id": "C50", "title": "OneOrMany", "statement": "A single value and a one element array parse to the same OneOrMany contents, and every non empty OneOrMany is written so that it parses back to the same contents (element type not itself an array).", "quantifier": "all element types and values", "why_tests_cant": "All element types.", "anchors": [{"file": "include/json_struct/json_struct.h", "symbol": "TypeHandler<OneOrMany<T>>"}]}
{"id": "C51", "title": "Serialized strings are valid JSON strings", "statement": "The text written for any std::string is a valid RFC 8259 string: no unescaped quote, backslash or control character.", "quantifier": "all byte strings", "why_tests_cant": "All byte strings of every length.", "anchors": [{"file": "include/json_struct/json_struct.h", "symbol": "Internal::handle_json_escapes_out"}]}
{"id": "C52", "title": "A value of the wrong shape is rejected, never misread", "statement": "If parsing into a variable reports no error, the JSON value has the shape of the type, at every depth: arrays for array types, objects for structs and maps, strings for strings, numbers for numbers; in particular a container given to a scalar member is an error and does not desynchronise the rest of the parse.", "quantifier": "all types, all JSON values", "why_tests_cant": "Every type paired with every kind of value at every depth.", "anchors": [{"file": "include/json_struct/json_struct.h", "symbol": "TypeHandler<std::string>::to"}, {"file": "include/json_struct/json_struct.h", "symbol": "TypeHandler<std::vector<T>>::to"}, {"file": "include/json_struct/json_struct.h", "symbol": "TypeHandler<T>::to"}]}
{"id": "C53", "title": "Diff marks the tokens that differ", "statement": "A comparison marks every token of a member or array item that is new with NewMember or NewArrayItem, every token of a member that has another type with TypeDiff, and every token of a document whose root has another type with RootItemDiff.", "quantifier": "all pairs of documents with distinct member names", "why_tests_cant": "Which tokens are marked depends on the nesting of both documents.", "anchors": [{"file": "include/json_struct/json_struct_diff.h", "symbol": "setStateForEntireToken"}, {"file": "include/json_struct/json_struct_diff.h", "symbol": "diffArrays"}, {"file": "include/json_struct/json_struct_diff.h", "symbol": "DiffTokens::set"}]}
{"id": "C54", "title": "Diff is safe on any text", "statement": "DiffContext can be used with any texts: a text that is not JSON is reported by error, and no call of diff, invalidate or changeBase reads or writes outside of its data.", "quantifier": "all texts and all histories of calls", "why_tests_cant": "Malformed texts and histories are unbounded.", "anchors": [{"file": "include/json_struct/json_struct_diff.h", "symbol": "DiffTokens::generateTokens"}, {"file": "include/json_struct/json_struct_diff.h", "symbol": "DiffContext::diff"}, {"file": "include/json_struct/json_struct_diff.h", "symbol": "DiffContext::changeBase"}]}
{"id": "C55", "title": "Function results are one JSON array in call order", "statement": "With a DefaultCallFunctionContext, the string of results after callFunctions is a JSON text: an array holding the values returned by the functions that were called and set no error, in the order of the members of the input object.", "quantifier": "all function tables, all input objects, all outcomes of the functions, all styles", "why_tests_cant": "All call histories and failure patterns.", "anchors": [{"file": "include/json_struct/json_struct.h", "symbol": "DefaultCallFunctionContext"}, {"file": "include/json_struct/json_struct.h", "symbol": "FunctionCaller"}, {"file": "include/json_struct/json_struct.h", "symbol": "ArrayEndWriter"}]}
{"id": "C56", "title": "A successful parse swallowed no error", "statement": "If parseTo returns NoError, every call of nextToken it made returned NoError: malformed input inside the value that was read is never passed over in silence.", "quantifier": "all types without handlers of the user's own, all texts (JSON or not) in any number of buffers, all histories of the tokenizer, all options", "why_tests_cant": "Ranges over all malformed texts, all places in them where an error may occur, and all nestings of types.", "anchors": [{"file": "include/json_struct/json_struct.h", "symbol": "ParseContext::parseTo"}, {"file": "include/json_struct/json_struct.h", "symbol": "TypeHandler"}, {"file": "include/json_struct/json_struct.h", "symbol": "TypeHandlerMap"}, {"file": "include/json_struct/json_struct.h", "symbol": "Tokenizer::nextToken"}]}
{"id": "C57", "title": "Parsing terminates", "statement": "parseTo returns for every input: the number of iterations of its loops is bounded by the number of bytes handed to the tokenizer.", "quantifier": "all types without handlers of the user's own, all texts (JSON or not) in any number of buffers, all histories of the tokenizer, all options", "why_tests_cant": "Termination on all inputs; a test can only wait.", "anchors": [{"file": "include/json_struct/json_struct.h", "symbol": "ParseContext::parseTo"}, {"file": "include/json_struct/json_struct.h", "symbol": "TypeHandler"}, {"file": "include/json_struct/json_struct.h", "symbol": "TypeHandlerMap"}, {"file": "include/json_struct/json_struct.h", "symbol": "skipArrayOrObject"}]}
{"id": "C58", "title": "The marker of an error message points at the error", "statement": "An error message shows the line in which the input was found to be wrong, once, and the marker in the next line of the message stands below the byte at which reading stopped.", "quantifier": "all buffers, all positions, all context settings", "why_tests_cant": "The layout of lines around an error is chosen by the input.", "anchors": [{"file": "include/json_struct/json_struct.h", "symbol": "Tokenizer::updateErrorContext"}, {"file": "include/json_struct/json_struct.h", "symbol": "Tokenizer::makeErrorString"}, {"file": "include/json_struct/json_struct.h", "symbol": "Internal::add_error"}]}
{"id": "C59", "title": "Reading a floating point number is defined", "statement": "Reading a number token into a double (float) executes no undefined operation, such as a division by zero or a shift by the width of the type, whatever the text of the token is.", "quantifier": "all texts of number tokens", "why_tests_cant": "The undefined operations are reached only for particular digit counts and magnitudes.", "anchors": [{"file": "include/json_struct/json_struct.h", "symbol": "parseNumber"}, {"file": "include/json_struct/json_struct.h", "symbol": "convertToNumber"}, {"file": "include/json_struct/json_struct.h", "symbol": "copy_denormal_to_type"}, {"file": "include/json_struct/json_struct.h", "symbol": "TypeHandler<double>"}]}
{"id": "C60", "title": "Numbers read into a double have the value that is written", "statement": "A JSON number read into a double gives the double nearest to it: no other double is nearer by more than the 2^-100th part of the number. Numbers too large give infinity.", "quantifier": "all JSON numbers: any number of digits, any exponent", "why_tests_cant": "Unboundedly many decimal numbers; the distance to the midpoint between two doubles can be arbitrarily small.", "anchors": [{"file": "include/json_struct/json_struct.h", "symbol": "parseNumber"}, {"file": "include/json_struct/json_struct.h", "symbol": "convertToNumber"}, {"file": "include/json_struct/json_struct.h", "symbol": "to_ieee_t"}]}
{"id": "C61", "title": "Numbers read into a float are rounded correctly", "statement": "A JSON number read into a float gives the float nearest to it, and of two that are equally near the one with the even mantissa; numbers from halfway between the largest float and 2^128 on give infinity.", "quantifier": "all JSON numbers: any number of digits, any exponent", "why_tests_cant": "Unboundedly many decimal numbers; a number can lie arbitrarily close to the midpoint between two floats.", "anchors": [{"file": "include/json_struct/json_struct.h", "symbol": "correctly_round_float"}, {"file": "include/json_struct/json_struct.h", "symbol": "compare_value_scaled"}, {"file": "include/json_struct/json_struct.h", "symbol": "float_pair_midpoint"}, {"file": "include/json_struct/json_struct.h", "symbol": "to_ieee_t"}, {"file": "include/json_struct/json_struct.h", "symbol": "TypeHandler<float>"}]}
{"id": "C62", "title": "Time points round trip", "statement": "A std::chrono::time_point that is written and read back is the same time point (for other clocks than the high resolution clock: if it is a whole number of microseconds), and reading a time point executes no undefined operation.", "quantifier": "all time points of all clocks with ticks of at most a microsecond", "why_tests_cant": "2^64 time points; the unit is guessed from the magnitude, so that only particular ranges and multiples of 1000 go wrong.", "anchors": [{"file": "include/json_struct/json_struct.h", "symbol": "TypeHandler<std::chrono::time_point>"}]}
{"id": "C63", "title": "JS_ENUM takes the names of the enumerators", "statement": "The names with which the values of an enum declared by JS_ENUM are written and read are the names of its enumerators, in their order; so every enumerator that is written and read back is the same.", "quantifier": "all lists of identifiers, with any white space between them", "why_tests_cant": "Identifiers and white space are unbounded; names are found by scanning the text of the macro's arguments.", "anchors": [{"file": "include/json_struct/json_struct.h", "symbol": "populateEnumNames"}, {"file": "include/json_struct/json_struct.h", "symbol": "JS_ENUM"}, {"file": "include/json_struct/json_struct.h", "symbol": "TypeHandler<EnumName>"}]}
{"id": "C64", "title": "Diff lists exactly what is missing, and counts the differences", "statement": "For each array or object of the second document a comparison lists the tokens of the items or members of the base that are missing there, all of them and no others, in their order; and the number of differences is the number of tokens marked for themselves plus the number of missing tokens.", "quantifier": "all pairs of documents with distinct member names", "why_tests_cant": "Documents are unbounded in size and nesting; each nested container has its own list.", "anchors": [{"file": "include/json_struct/json_struct_diff.h", "symbol": "addMissingMembers"}, {"file": "include/json_struct/json_struct_diff.h", "symbol": "addMissingArrayItems"}, {"file": "include/json_struct/json_struct_diff.h", "symbol": "DiffTokens::set"}, {"file": "include/json_struct/json_struct_diff.h", "symbol": "diffObjects"}]}
{"id": "C65", "title": "Exactly the texts of a lenient grammar are accepted", "statement": "The tokenizer reports tokens without an error until all brackets are closed exactly for the texts that begin with documents of one grammar (RFC 8259 plus a fixed list of lenient forms), and the tokens reported are the ones this grammar assigns to the text.", "quantifier": "all byte sequences in one buffer, all options, all builds", "why_tests_cant": "All malformed texts are concerned, not only all well-formed ones; tests can only show single texts to be rejected.", "anchors": [{"file": "include/json_struct/json_struct.h", "symbol": "Tokenizer::nextToken"}, {"file": "include/json_struct/json_struct.h", "symbol": "Tokenizer::populateNextTokenFromDataRef"}, {"file": "include/json_struct/json_struct.h", "symbol": "Tokenizer::findStartOfNextValue"}, {"file": "include/json_struct/json_struct.h", "symbol": "Tokenizer::findDelimiter"}, {"file": "include/json_struct/json_struct.h", "symbol": "Tokenizer::findTokenEnd"}]}
{"id": "C66", "title": "What is read depends only on the tokens", "statement": "Reading a text into a variable gives the same error, the same value and the same lists of missing and unassigned members as reading any other text with the same tokens: it does not depend on white space, comments, superfluous commas, the buffers the text comes in, callbacks, or the instruction set.", "quantifier": "all types, all pairs of inputs with the same tokens, all options of the parse context, all previous values of the variable", "why_tests_cant": "Both the types and the layouts of a text are unbounded, and handlers may look at the state of the tokenizer.", "anchors": [{"file": "include/json_struct/json_struct.h", "symbol": "ParseContext::parseTo"}, {"file": "include/json_struct/json_struct.h", "symbol": "TypeHandler"}, {"file": "include/json_struct/json_struct.h", "symbol": "Tokenizer::nextToken"}]}
{"id": "C67", "title": "Buffers are released once each and in order", "statement": "The tokenizer calls the release callbacks of the buffers it was given in the order in which they were added, each at most once; no buffer is lost; nextToken returning NeedMoreData means that all of them have been released; and a token just delivered refers to no released buffer.", "quantifier": "all sequences of addData, resetData, pushScope, popScope and nextToken calls, all buffers, all answers of the need-more-data callback", "why_tests_cant": "It must hold after every history of calls and for every way a text is cut into buffers: a release too early leaves dangling tokens, one too late or never leaks.", "anchors": [{"file": "include/json_struct/json_struct.h", "symbol": "Tokenizer::releaseFirstDataRef"}, {"file": "include/json_struct/json_struct.h", "symbol": "Tokenizer::nextToken"}, {"file": "include/json_struct/json_struct.h", "symbol": "Tokenizer::resetData"}, {"file": "include/json_struct/json_struct.h", "symbol": "Tokenizer::setReleaseCallback"}]}
{"id": "C68", "title": "Documents in a stream are read one by one", "statement": "If arrays and objects stand one behind the other in the input, repeated calls of parseTo on one ParseContext read one document each, into variables of any types, and the call behind the last document returns NeedMoreData and leaves its variable alone. In particular values serialized one by one and concatenated are all read back. It does not matter how the stream is cut into buffers.", "quantifier": "all numbers of documents, all texts, all types of variables, all cuts into buffers at safe places, buffers added in advance or from a callback", "why_tests_cant": "A parse must stop exactly at the end of its document for every document and every type; tests can only read some sequences.", "anchors": [{"file": "include/json_struct/json_struct.h", "symbol": "ParseContext::parseTo"}, {"file": "include/json_struct/json_struct.h", "symbol": "Tokenizer::nextToken"}, {"file": "include/json_struct/json_struct.h", "symbol": "serializeStruct"}]}
{"id": "C69", "title": "Floating point numbers are written with as few digits as possible", "statement": "A finite double or float is written as the decimal number with the fewest significant digits that is read back as the same value, and of those the nearest one. In particular a decimal number of up to 15 digits (6 for float) that was read is written back unchanged.", "quantifier": "all finite doubles and floats; all decimal numbers that might have been written instead", "why_tests_cant": "There are 2^64 doubles, and for each one all shorter decimal numbers have to be ruled out; the failures found are less than one percent of the everyday numbers.", "anchors": [{"file": "include/json_struct/json_struct.h", "symbol": "ft::ryu::compute_shortest"}, {"file": "include/json_struct/json_struct.h", "symbol": "ft::ryu::decode"}, {"file": "include/json_struct/json_struct.h", "symbol": "ft::to_buffer"}]}
{"id": "C70", "title": "A serializer context can be used for several values", "statement": "Values serialized one after the other through one SerializerContext, with any number of flushes in between and the one of the destructor at the end, appear one after the other in the string, and no write ever leaves the string's memory.", "quantifier": "all histories of writes and flushes on one context, all contents of the string before, all options, all tokens", "why_tests_cant": "A write behind the end of a string usually goes to memory the string still owns, so a test sees no crash; whether it happens depends on the length of every text written before.", "anchors": [{"file": "include/json_struct/json_struct.h", "symbol": "SerializerContext::serialize"}, {"file": "include/json_struct/json_struct.h", "symbol": "SerializerContext::flush"}, {"file": "include/json_struct/json_struct.h", "symbol": "Serializer::write"}]}
{"id": "C71", "title": "The message of a failed parse names what is wrong", "statement": "If parseTo fails since an object has a member the struct does not have, makeErrorString() of the context names exactly the first such member. If it fails since the object lacks required members, the message names exactly the required members it lacks. For every other error it starts with the name of the error.", "quantifier": "all structs, all objects in any text form, all options of the context, all states of the context before the call", "why_tests_cant": "Which members are unknown or absent depends on the struct and the object, and the lists the message is made of survive from one call to the next.", "anchors": [{"file": "include/json_struct/json_struct.h", "symbol": "ParseContext::makeErrorString"}, {"file": "include/json_struct/json_struct.h", "symbol": "ParseContext::parseTo"}, {"file": "include/json_struct/json_struct.h", "symbol": "Tokenizer::makeErrorString"}]}
{"id": "C72", "title": "Line breaks can stand for commas", "statement": "With allowNewLineAsTokenDelimiter, a text in which elements of arrays and members of objects are separated by commas or by line breaks (a line break may follow the last one; with comments allowed, a comment may end the line) gives the tokens of its JSON value, and any type is parsed from it as from a plain JSON text of that value without the option. Everything the library writes, compact or pretty, is such a text, so it can be parsed with the option as well.", "quantifier": "all JSON values with an array or object at the root, all their texts of this form, all value types, all other options", "why_tests_cant": "The texts, their nesting and the places of line breaks are unbounded, and whether a line break is white space or a separator depends on the place.", "anchors": [{"file": "include/json_struct/json_struct.h", "symbol": "Tokenizer::allowNewLineAsTokenDelimiter"}, {"file": "include/json_struct/json_struct.h", "symbol": "Tokenizer::findDelimiter"}, {"file": "include/json_struct/json_struct.h", "symbol": "Tokenizer::findTokenEnd"}, {"file": "include/json_struct/json_struct.h", "symbol": "Tokenizer::skipComment"}]}
{"id": "C73", "title": "The record of function calls tells what went wrong with each", "statement": "After callFunctions there is a message for every entry of execution_list: empty for a call that succeeded, and for one that failed beginning with the name of its own error and the text the function gave to setError, whatever other calls did. execution_list can be serialized: it is written as a JSON array with one object for each call, holding the name, the error, and the context, message and lists of members where they are not empty; what is written for an error can be read again.", "quantifier": "all function tables, argument and result types, objects of calls, errors and texts set by the functions, and earlier uses of the context; all lists of records and serializer styles", "why_tests_cant": "The order of calls and the errors and texts they set are unbounded, and one call can leave something behind for another.", "anchors": [{"file": "include/json_struct/json_struct.h", "symbol": "CallFunctionErrorContext::setError"}, {"file": "include/json_struct/json_struct.h", "symbol": "Internal::add_error"}, {"file": "include/json_struct/json_struct.h", "symbol": "CallFunctionContext::callFunctions"}, {"file": "include/json_struct/json_struct.h", "symbol": "TypeHandler<Error>"}, {"file": "include/json_struct/json_struct.h", "symbol": "CallFunctionExecutionState"}, {"file": "include/json_struct/json_struct.h", "symbol": "Internal::ErrorContext::clear"}]}
{"id": "C74", "title": "Numbers in compared documents are compared by value", "statement": "When two documents are compared, two numbers are found equal exactly if the doubles nearest to their values are equal, or, with FuzzyFloatComparison, at most fuzzyEpsilon apart. So numbers of the same value are never reported, however they are written, numbers farther apart than the tolerance always are, it makes no difference which document is the base, and the comparison never throws.", "quantifier": "all number texts of any length and exponent, all pairs of documents, all options and what the C library may do on underflow", "why_tests_cant": "Notations of a number are unbounded, and rounding decides for values arbitrarily near to each other.", "anchors": [{"file": "include/json_struct/json_struct_diff.h", "symbol": "Internal::Diff::diffNumberValues"}, {"file": "include/json_struct/json_struct_diff.h", "symbol": "Internal::Diff::fuzzyEquals"}, {"file": "include/json_struct/json_struct_diff.h", "symbol": "DiffOptions"}]}
{"id": "C75", "title": "What is serialized is valid JSON", "statement": "Serializing any value in any style gives a text that is JSON as of RFC 8259, also if the value cannot be read back from it: with NaN or infinities, empty pointers within pointers, empty optionals within arrays.", "quantifier": "all types, all values of them, all serializer styles and indentations", "why_tests_cant": "Values are unbounded in size and nesting, and one byte that is not escaped makes the whole text useless.", "anchors": [{"file": "include/json_struct/json_struct.h", "symbol": "serializeStruct"}, {"file": "include/json_struct/json_struct.h", "symbol": "Serializer::write"}, {"file": "include/json_struct/json_struct.h", "symbol": "TypeHandler::from"}]}
{"id": "C76", "title": "Each member of a struct is read on its own", "statement": "After an object is parsed into a struct, a member that the object does not mention is what it was before, also when there is an error; and every other member is what reading the values given under its names, one after the other, makes of it, whatever the object says about the other members and in whatever order.", "quantifier": "all structs with any members and super classes, all objects, all options, all values the struct had before", "why_tests_cant": "The number and the order of members, repeated ones and aliases are unbounded; a test sees only a few combinations.", "anchors": [{"file": "include/json_struct/json_struct.h", "symbol": "JsonStructBase"}, {"file": "include/json_struct/json_struct.h", "symbol": "TypeHandler<T>::to"}, {"file": "include/json_struct/json_struct.h", "symbol": "Internal::MemberChecker"}, {"file": "include/json_struct/json_struct.h", "symbol": "ParseContext::parseTo"}]}
{"id": "C77", "title": "Reading replaces what was in the variable", "statement": "A variable that is used again for parsing ends up as a new one would: if a text is read without an error, then the result does not depend on what was in the variable before.", "quantifier": "all types whose reading is meant to replace, all texts, all values that were in the variable before", "why_tests_cant": "What is left of an old value depends on its shape relative to the new one; both are unbounded.", "anchors": [{"file": "include/json_struct/json_struct.h", "symbol": "TypeHandler<std::vector<T>>::to"}, {"file": "include/json_struct/json_struct.h", "symbol": "TypeHandler<std::shared_ptr<T>>::to"}, {"file": "include/json_struct/json_struct.h", "symbol": "TypeHandler<T[N]>::to"}, {"file": "include/json_struct/json_struct.h", "symbol": "TypeHandlerMap::to"}, {"file": "include/json_struct/json_struct.h", "symbol": "TypeHandler<Nullable<T>>::to"}, {"file": "include/json_struct/json_struct.h", "symbol": "OneOrMany"}, {"file": "include/json_struct/json_struct.h", "symbol": "ParseContext::parseTo"}]}
{"id": "C78", "title": "What is reported for the beginning of a text stays true", "statement": "A reader that has only the beginning of a text may act on what it is told: the tokens reported so far are the first tokens of every text that begins like this; an error other than NeedMoreData stays the same error behind the same tokens, whatever follows; and a value read without error is the value read from the longer text.", "quantifier": "all options, all texts, JSON or not, and everything that may follow them; for values, all types without maps", "why_tests_cant": "The number of texts and of continuations is infinite; a wrong guess about a number, a word or a comment at the end shows only with the right continuation.", "anchors": [{"file": "include/json_struct/json_struct.h", "symbol": "Tokenizer::nextToken"}, {"file": "include/json_struct/json_struct.h", "symbol": "Tokenizer::populateNextTokenFromDataRef"}, {"file": "include/json_struct/json_struct.h", "symbol": "Tokenizer::findEndOfNumber"}, {"file": "include/json_struct/json_struct.h", "symbol": "ParseContext::parseTo"}]}
{"id": "C79", "title": "A truncated document is never taken for a complete one", "statement": "If a document lost its end, reading the rest of it does not report success: a file that was not written to the end is noticed, for every type that is read from it.", "quantifier": "all types, all documents and all places where they may be cut off, all options, all values the variable had before", "why_tests_cant": "Every byte of every document is a place to cut; whether a handler notices depends on the type and on what stands at the cut.", "anchors": [{"file": "include/json_struct/json_struct.h", "symbol": "ParseContext::parseTo"}, {"file": "include/json_struct/json_struct.h", "symbol": "TypeHandlerMap::to"}, {"file": "include/json_struct/json_struct.h", "symbol": "TypeHandler<T>::to"}, {"file": "include/json_struct/json_struct.h", "symbol": "Tokenizer::nextToken"}]}
{"id": "C80", "title": "Parsing executes no undefined operation", "statement": "Whatever the input, parsing it into a type does not execute an operation whose behaviour the language leaves undefined: no access or pop of an empty container, no division by zero, no oversized shift, no signed overflow. The outcome is a value or an error code.", "quantifier": "all texts, JSON or not, in any number of buffers, all histories of the tokenizer, all types, all options, all values the variable had before", "why_tests_cant": "Undefined behaviour needs particular combinations of a type and malformed or extreme input; that there is none is a statement about all of them.", "anchors": [{"file": "include/json_struct/json_struct.h", "symbol": "ParseContext::parseTo"}, {"file": "include/json_struct/json_struct.h", "symbol": "TypeHandler<T>::to"}, {"file": "include/json_struct/json_struct.h", "symbol": "metaForTokens"}, {"file": "include/json_struct/json_struct.h", "symbol": "parseNumber"}, {"file": "include/json_struct/json_struct.h", "symbol": "convertToNumber"}]}
{"id": "C81", "title": "A map keeps the text of its members alive", "statement": "The members of a map that were set by the program refer to strings the map owns. Whatever members are set, replaced or removed, in whatever order, and whatever is assigned to or parsed into the map as a whole, every string a member refers to is still owned by the map.", "quantifier": "all histories of setValue calls with any names and values, of assignments of the whole map, and of texts parsed into it", "why_tests_cant": "A use after free needs a particular history of replaced members, and often has no visible effect; that no history leads to one is a statement about all of them.", "anchors": [{"file": "include/json_struct/json_struct.h", "symbol": "Map::setValue"}, {"file": "include/json_struct/json_struct.h", "symbol": "Map::json_data"}, {"file": "include/json_struct/json_struct.h", "symbol": "TypeHandler<Map>::to"}]}
{"id": "C82", "title": "Decoding a string reads only memory it may read", "statement": "Parsing into a std::string decodes the escapes of the string value. Whatever bytes stand between the quotes, valid escapes or not, nothing outside of the value is read, and no variable is read before it was written.", "quantifier": "all byte sequences a string value can have", "why_tests_cant": "A read out of bounds or of an uninitialised variable usually has no visible effect; that there is none is a statement about all byte sequences.", "anchors": [{"file": "include/json_struct/json_struct.h", "symbol": "handle_json_escapes_in"}, {"file": "include/json_struct/json_struct.h", "symbol": "TypeHandler<std::string>::to"}]}
{"id": "C83", "title": "A tuple has its elements at their positions", "statement": "JS::makeTuple(a0, ..., an) makes a tuple of which get<i>() is ai, for any number of elements: the members, super classes and functions of a struct are found at the positions they were declared at.", "quantifier": "all numbers of elements and all positions", "why_tests_cant": "The sequence of indices is made by recursive halving; tests try some lengths only.", "anchors": [{"file": "include/json_struct/json_struct.h", "symbol": "JS::Tuple"}, {"file": "include/json_struct/json_struct.h", "symbol": "GenSequence"}, {"file": "include/json_struct/json_struct.h", "symbol": "makeTuple"}]}
{"id": "C84", "title": "A literal is compared like the same text in a string", "statement": "DiffContext::diff(\"...\") with a string literal, which passes the NUL byte at the end of the literal on, gives the same index, the same report and the same error as diff(std::string(\"...\")), for every literal that is a JSON array or object.", "quantifier": "all JSON arrays and objects, and all states of the context", "why_tests_cant": "The NUL byte follows every document in every state of the tokenizer; tests try a few literals.", "anchors": [{"file": "include/json_struct/json_struct_diff.h", "symbol": "DiffContext::diff"}, {"file": "include/json_struct/json_struct.h", "symbol": "Tokenizer::nextToken"}]}
{"id": "C85", "title": "The first child that holds data", "statement": "Given the metadata of a document and the index of an array or object in it, findFirstChildWithData returns which of the arrays and objects directly inside of it is the first that contains a string, number, boolean or null at any depth, counted from 0, and size_t(-1) if none does. It reads no metadata that does not exist.", "quantifier": "all JSON values, all arrays and objects in them", "why_tests_cant": "The children are found by adding up how many entries the ones before take; tests try two documents.", "anchors": [{"file": "include/json_struct/json_struct.h", "symbol": "Internal::findFirstChildWithData"}, {"file": "include/json_struct/json_struct.h", "symbol": "metaForTokens"}]}
{"id": "C86", "title": "Serializer options are those set last", "statement": "A SerializerOptions object behaves according to the style, shift size, depth, quoting and delimiter set last, in whatever order and how often the setters were called: setStyle has the same effect as giving the style to the constructor, and the output for any tokens depends on the last values only. Whatever setters were called before, what is written for an array or object is a JSON text of it.", "quantifier": "all sequences of calls of the setters, all arrays and objects, all sequences of buffers", "why_tests_cant": "Histories of calls are unbounded; the indentation is computed when some of the setters are called and kept until then.", "anchors": [{"file": "include/json_struct/json_struct.h", "symbol": "SerializerOptions::setStyle"}, {"file": "include/json_struct/json_struct.h", "symbol": "SerializerOptions::setShiftSize"}, {"file": "include/json_struct/json_struct.h", "symbol": "SerializerOptions::setDepth"}, {"file": "include/json_struct/json_struct.h", "symbol": "Serializer::write"}]}
{"id": "C87", "title": "Strict options only turn reports into errors", "statement": "For every target type, text and previous value, compare a ParseContext that allows missing members and unassigned required members and tracks the names with one that has other options. If the first found no names that the options of the second forbid, the second returns the same error, leaves the same value, and reports the same names if it tracks them. If it found some, the second fails with MissingPropertyMember, UnknownPropertyMember or UnassignedRequiredMember, according to the option. So a strict parse succeeds exactly if the lenient one does and reports nothing forbidden, and then leaves the same value.", "quantifier": "all target types that can be described, all values of them, all inputs (well formed or not, in any buffers), all contexts with any history, all options", "why_tests_cant": "Types nest without bound, and names may be found anywhere in a document; the options are looked at in each struct while the result of the parts is put together by the handlers of all the other types.", "anchors": [{"file": "include/json_struct/json_struct.h", "symbol": "ParseContext::allow_missing_members"}, {"file": "include/json_struct/json_struct.h", "symbol": "ParseContext::allow_unasigned_required_members"}, {"file": "include/json_struct/json_struct.h", "symbol": "ParseContext::track_member_assignement_state"}, {"file": "include/json_struct/json_struct.h", "symbol": "ParseContext::parseTo"}]}
{"id": "C88", "title": "Type handlers of the user's own are on a par with the library's", "statement": "A TypeHandler that a user writes for a type of theirs, by looking at context.token, calling context.nextToken(), looping over tokens and calling the handlers of other types, can be used wherever a type of the library can: in vectors, optionals, pointers, arrays, tuples, sets, maps, structs and super classes, nested in any way. If such handlers hide no error, parsing ends for every input after every history; it returns NoError only if every nextToken did; what is read from the beginning of a text is read from the whole text; strict options only turn reports into errors. Whatever the handlers do, the outcome depends only on the tokens, not on white space or how the input was split into buffers.", "quantifier": "all handlers that users can write this way (programs over tokens with loops and calls), all types of the library built around them, all inputs, all histories of the tokenizer", "why_tests_cant": "There are infinitely many programs that users can write, types to put them in, and inputs.", "anchors": [{"file": "include/json_struct/json_struct.h", "symbol": "TypeHandler"}, {"file": "README.md", "symbol": "TypeHandler<uint32_t>"}, {"file": "examples/01_simple_struct.cpp", "symbol": "TypeHandler<ModuleList>"}, {"file": "examples/08_custom_types.cpp", "symbol": "TypeHandler<Vec3<T>>"}]}
{"id": "C89", "title": "Values of types with handlers of users inside survive the round trip", "statement": "Let a type be built of types of the library (vectors, optionals, pointers, arrays, tuples, sets, maps, structs, super classes) around types for which users have written TypeHandlers. If each of those handlers, on its own, reads back what it writes, then serializing a value of the whole type and parsing the text into a fresh variable gives the value back, without errors and reports, in every style and with every option. The handlers in the README and in examples 01, 08 and 09 read back what they write.", "quantifier": "all handlers of users that read back what they write, all types built around them, all values, styles, options of the parser", "why_tests_cant": "There are infinitely many handlers, types and values; a test shows one combination of them.", "anchors": [{"file": "include/json_struct/json_struct.h", "symbol": "TypeHandler"}, {"file": "include/json_struct/json_struct.h", "symbol": "serializeStruct"}, {"file": "README.md", "symbol": "TypeHandler<uint32_t>"}, {"file": "examples/01_simple_struct.cpp", "symbol": "TypeHandler<ModuleList>"}, {"file": "examples/08_custom_types.cpp", "symbol": "TypeHandler<Vec3<T>>"}]}
{"id": "C90", "title": "Raw captures may stand anywhere in a type", "statement": "JsonArray, JsonObject, JsonObjectOrArray (and their Ref forms) may be members of structs and elements of vectors, arrays, tuples, sets, optionals and pointers, at any depth. Wherever one stands, parsing appends to it exactly the bytes of the input from the opening to the closing bracket of its value, however the input is cut into buffers; everything around it is read as if the value had merely been stepped over. Parsing ends, success means that no token was an error, not even within a captured value, and after success the tokenizer records nothing any more.", "quantifier": "all types with raw captures in them, all histories of the tokenizer, all buffers, options and variables", "why_tests_cant": "Types nest without bound and buffers may end anywhere, also within a captured value; a test shows one type and one cut.", "anchors": [{"file": "include/json_struct/json_struct.h", "symbol": "TypeHandler<JsonArray>"}, {"file": "include/json_struct/json_struct.h", "symbol": "TypeHandler<JsonObject>"}, {"file": "include/json_struct/json_struct.h", "symbol": "TypeHandler<JsonObjectOrArray>"}, {"file": "include/json_struct/json_struct.h", "symbol": "Tokenizer::copyFromValue"}, {"file": "include/json_struct/json_struct.h", "symbol": "Tokenizer::copyIncludingValue"}]}
{"id": "C91", "title": "In every document, raw captures hold the text of their values", "statement": "Parsing a JSON document into a type with JsonArray, JsonObject or JsonObjectOrArray members or elements anywhere in it succeeds or fails as the declaration says, and gives every capture the text of its value to the byte (appended to what it held; the Ref forms replace it), blanks, comments and escapes included. A value of the wrong kind (a scalar, an array for JsonObject, an object for JsonArray) is refused, and everything else is read as if there were no captures. The text in a capture is a JSON text of that very value, so that it can be parsed later, into any type.", "quantifier": "all JSON documents whose root is an array or object, in any layout, all types with raw captures in them, all previous contents of the variable and all options", "why_tests_cant": "Both the documents and the types nest without bound, and a capture must end at the right bracket whatever is inside; tests show single documents.", "anchors": [{"file": "include/json_struct/json_struct.h", "symbol": "TypeHandler<JsonArray>"}, {"file": "include/json_struct/json_struct.h", "symbol": "TypeHandler<JsonObject>"}, {"file": "include/json_struct/json_struct.h", "symbol": "TypeHandler<JsonObjectOrArray>"}, {"file": "include/json_struct/json_struct.h", "symbol": "TypeHandler<JsonArrayRef>"}, {"file": "include/json_struct/json_struct.h", "symbol": "TypeHandler<JsonObjectRef>"}]}
{"id": "C92", "title": "Types with raw captures survive serialization, captured bytes included", "statement": "If every JsonArray, JsonObject and JsonObjectOrArray (or Ref form) within a value holds the text of a JSON array or object of its kind, what serializeStruct returns is a JSON document that contains these texts as they are, and parsing it into a fresh variable restores the value, the captured texts to the byte, whatever the style and indentation of the rest and whatever blanks, comments or escapes the captured texts contain.", "quantifier": "all types with raw captures in them, all values of them whose captures hold JSON texts, all styles and indentations and all parser options without new lines as separators", "why_tests_cant": "Captured texts and the types around them nest without bound, and no escape or blank within a captured text may be touched; tests show single texts.", "anchors": [{"file": "include/json_struct/json_struct.h", "symbol": "TypeHandler<JsonArray>"}, {"file": "include/json_struct/json_struct.h", "symbol": "TypeHandler<JsonObject>"}, {"file": "include/json_struct/json_struct.h", "symbol": "TypeHandler<JsonObjectOrArray>"}, {"file": "include/json_struct/json_struct.h", "symbol": "TypeHandler<JsonArrayRef>"}, {"file": "include/json_struct/json_struct.h", "symbol": "Serializer"}]}
{"id": "C93", "title": "What was loaded can be saved and loaded again", "statement": "Start with a variable whose value survives saving (a new one, say) and parse into it any number of times without error, from any texts in any buffers and with any options. Whatever it holds then can be serialized, and parsing the result into a new variable gives the same value, whatever the style and the options: no successful load, not of duplicated, reordered, unknown or missing members, nor of nulls, repeated keys or numbers out of range, leaves a value that cannot be saved.", "quantifier": "all types made of the library's types and structs without raw tokens, all histories of successful loads from any state of a parse context, all styles, indentations and options for saving and loading again", "why_tests_cant": "The values a program saves are those that some sequence of inputs left behind; inputs, their order, buffers and the types are unbounded, and one combination of null, absence or repetition that leaves an unsavable value loses data only after the next restart.", "anchors": [{"file": "include/json_struct/json_struct.h", "symbol": "ParseContext::parseTo"}, {"file": "include/json_struct/json_struct.h", "symbol": "serializeStruct"}, {"file": "include/json_struct/json_struct.h", "symbol": "NullableChecked"}, {"file": "include/json_struct/json_struct.h", "symbol": "OptionalChecked"}, {"file": "include/json_struct/json_struct.h", "symbol": "ArrayVariableContent"}, {"file": "include/json_struct/json_struct.h", "symbol": "TypeHandlerMap"}]}
{"id": "C94", "title": "Checked wrappers behave like std::optional in every program", "statement": "Take a program that declares, constructs, copies, moves, assigns, changes and parses into any number of OptionalChecked<T> variables, in any order, and put std::optional<T> in their place. If data is changed in place only where a value is present, opt() of every variable is at the end what the std::optional holds, and the variable is written as that value if there is one and not at all otherwise. The same holds of NullableChecked<T>, where a parsed null empties a variable and an empty one is written as null, if what is read into an empty variable does not depend on the value it had before.", "quantifier": "all value types and handlers, all programs (any number of variables and statements), all states of the parse contexts that are read from", "why_tests_cant": "The flag and the data are kept apart and every constructor, assignment and parse must update both; whether they agree is a question about all sequences of statements.", "anchors": [{"file": "include/json_struct/json_struct.h", "symbol": "NullableChecked"}, {"file": "include/json_struct/json_struct.h", "symbol": "OptionalChecked"}, {"file": "include/json_struct/json_struct.h", "symbol": "OptionalChecked::opt"}, {"file": "include/json_struct/json_struct.h", "symbol": "TypeHandler<NullableChecked<T>>"}, {"file": "include/json_struct/json_struct.h", "symbol": "TypeHandler<OptionalChecked<T>>"}]}
{"id": "C95", "title": "Declarations may evolve: what one version of a program writes, the next one reads", "statement": "What serializeStruct writes for a value of one version of a type parses without error into a fresh variable of another version, if between them members were added, removed, reordered, moved to or from super classes or renamed with the old name kept as an alias, or types were changed to other integer types (a signed one not to an unsigned one), from enum, integer or Boolean to string, from an integer (of 64 bits with sign, or less) to float or double, from enum to an enum with more enumerators or in another order, from a value to an optional, a nullable, a pointer or OneOrMany of it, between optionals, pointers and containers of different kinds, from a struct to a map or back, and the elements of arrays, tuples, sets (if different elements stay different) and other containers, at any depth. Enumerators of the same name correspond. Members in both versions have their values (integers that do not fit become the nearest limit, or the nearest float or double), new members keep what they held, and removed ones are skipped.", "quantifier": "all pairs of types related by any nesting of these changes, all values of the old type, all styles and indentations of the writer, all options of the tokenizer, all fresh variables of the new type", "why_tests_cant": "Tests try one old and one new declaration; whether data survives a change depends on every combination of nested types, names, aliases and order.", "anchors": [{"file": "include/json_struct/json_struct.h", "symbol": "ParseContext::parseTo"}, {"file": "include/json_struct/json_struct.h", "symbol": "serializeStruct"}, {"file": "include/json_struct/json_struct.h", "symbol": "JS_MEMBER_ALIASES"}, {"file": "include/json_struct/json_struct.h", "symbol": "TypeHandler<OneOrMany<T>>"}, {"file": "include/json_struct/json_struct.h", "symbol": "TypeHandler<std::shared_ptr<T>>"}, {"file": "include/json_struct/json_struct.h", "symbol": "TypeHandler<OptionalChecked<T>>"}]}
{"id": "C96", "title": "A struct can be edited by way of a JS::Map", "statement": "Write a struct with serializeStruct, parse the text into a JS::Map, call setValue any number of times with the name of a declared member and a value of its type, serialize the map and parse the result into a new variable of the struct: no step reports an error and the variable holds the original struct with exactly those members assigned to. castToType on the map gives the values of the edited struct's members.", "quantifier": "every struct declaration (super classes, aliases, nested types), every value of it, every sequence of setValue calls on declared members, every style of output and option of the parser", "why_tests_cant": "Struct declarations, values and histories of calls are unbounded, and setValue moves tokens and metadata about, so that an error shows only in certain orders of calls and members.", "anchors": ["include/json_struct/json_struct.h: Map::setValue, Map::castToType, serializeStruct, ParseContext::parseTo", "include/json_struct/json_struct.h: TypeHandler<Map>"]}
