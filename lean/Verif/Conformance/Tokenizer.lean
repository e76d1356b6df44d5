import Verif.Model.Tokenizer

/-
The project's own tests of the tokenizer, in the model: `tests/json-tokenizer-test.cpp`, `json-tokenizer-fail-test.cpp`,
`json-tokenizer-partial-test.cpp` and `json-tokenizer-comments-test.cpp`. They test the model, and prove nothing about all
inputs. The texts are taken from the test files; `sizeof` passes the NUL byte
behind them on. Where a test stops before the end of the text, the tokens and the error that the model finds behind are
in the example, too.
-/

namespace JsonStruct.Conformance.Tokenizer

/-- A member `name: value`. -/
def m (n : Bytes) (t : Ty) (v : Bytes) : Tok := ⟨n, .string, v, t⟩
/-- A member whose name has no quotes. -/
def a (n : Bytes) (t : Ty) (v : Bytes) : Tok := ⟨n, .ascii, v, t⟩
/-- An element of an array. -/
def e (t : Ty) (v : Bytes) : Tok := ⟨[], .ascii, v, t⟩
def os : Tok := e .objectStart b!"{"
def oe : Tok := e .objectEnd b!"}"
def as : Tok := e .arrayStart b!"["
def ae : Tok := e .arrayEnd b!"]"

-- json-tokenizer-test.cpp: check_json_with_string_and_ascii
example : tokenizeBufs { ascii := true, newLines := true, simd := .scalar } [(b!"{\n   \"foo\": \"bar\",\n   \"color\": \"red\"\n   weather: \"clear\"\n   weather1 : \"clear1\"\n   ToBeTrue: true,\n   HeresANull : null\n   ThisIsFalse: false,\n\n   EscapedString: \"contains \\\"\",\n  \"\\\"EscapedName\\\"\": true,\n  \"EscapedProp\": \"\\\"Hello\\\"\",\n   ThisIsANumber: 3.14\n   ThisIsAnObject: {\n     ThisIsASubType: \"red\"\n   },\n   AnotherProp: \"prop\"\n   ThisIsAnotherObject: {\n     ThisIsAnotherASubType: \"blue\"\n   },\n   ThisIsAnArray: [\n     12.4,\n     3,\n     43.2\n   ]\n   ThisIsAnObjectArray: [\n     { Test1: \"Test2\", Test3: \"Test4\" },\n     { Test5: true, Test7: false }\n   ]\n}\n" ++ [0x00])] =
    ([os, m b!"foo" .string b!"bar", m b!"color" .string b!"red", a b!"weather" .string b!"clear", a b!"weather1" .string b!"clear1", a b!"ToBeTrue" .bool b!"true", a b!"HeresANull" .null b!"null", a b!"ThisIsFalse" .bool b!"false", a b!"EscapedString" .string b!"contains \\\"", m b!"\\\"EscapedName\\\"" .bool b!"true", m b!"EscapedProp" .string b!"\\\"Hello\\\"", a b!"ThisIsANumber" .number b!"3.14", a b!"ThisIsAnObject" .objectStart b!"{", a b!"ThisIsASubType" .string b!"red", oe, a b!"AnotherProp" .string b!"prop", a b!"ThisIsAnotherObject" .objectStart b!"{", a b!"ThisIsAnotherASubType" .string b!"blue", oe, a b!"ThisIsAnArray" .arrayStart b!"[", e .number b!"12.4", e .number b!"3", e .number b!"43.2", ae, a b!"ThisIsAnObjectArray" .arrayStart b!"[", os, a b!"Test1" .string b!"Test2", a b!"Test3" .string b!"Test4", oe, os, a b!"Test5" .bool b!"true", a b!"Test7" .bool b!"false", oe, ae, oe],
     .needMoreData) := by decide +kernel

-- the same with AVX2
example : tokenizeBufs { ascii := true, newLines := true, simd := .avx2 } [(b!"{\n   \"foo\": \"bar\",\n   \"color\": \"red\"\n   weather: \"clear\"\n   weather1 : \"clear1\"\n   ToBeTrue: true,\n   HeresANull : null\n   ThisIsFalse: false,\n\n   EscapedString: \"contains \\\"\",\n  \"\\\"EscapedName\\\"\": true,\n  \"EscapedProp\": \"\\\"Hello\\\"\",\n   ThisIsANumber: 3.14\n   ThisIsAnObject: {\n     ThisIsASubType: \"red\"\n   },\n   AnotherProp: \"prop\"\n   ThisIsAnotherObject: {\n     ThisIsAnotherASubType: \"blue\"\n   },\n   ThisIsAnArray: [\n     12.4,\n     3,\n     43.2\n   ]\n   ThisIsAnObjectArray: [\n     { Test1: \"Test2\", Test3: \"Test4\" },\n     { Test5: true, Test7: false }\n   ]\n}\n" ++ [0x00])] =
    ([os, m b!"foo" .string b!"bar", m b!"color" .string b!"red", a b!"weather" .string b!"clear", a b!"weather1" .string b!"clear1", a b!"ToBeTrue" .bool b!"true", a b!"HeresANull" .null b!"null", a b!"ThisIsFalse" .bool b!"false", a b!"EscapedString" .string b!"contains \\\"", m b!"\\\"EscapedName\\\"" .bool b!"true", m b!"EscapedProp" .string b!"\\\"Hello\\\"", a b!"ThisIsANumber" .number b!"3.14", a b!"ThisIsAnObject" .objectStart b!"{", a b!"ThisIsASubType" .string b!"red", oe, a b!"AnotherProp" .string b!"prop", a b!"ThisIsAnotherObject" .objectStart b!"{", a b!"ThisIsAnotherASubType" .string b!"blue", oe, a b!"ThisIsAnArray" .arrayStart b!"[", e .number b!"12.4", e .number b!"3", e .number b!"43.2", ae, a b!"ThisIsAnObjectArray" .arrayStart b!"[", os, a b!"Test1" .string b!"Test2", a b!"Test3" .string b!"Test4", oe, os, a b!"Test5" .bool b!"true", a b!"Test7" .bool b!"false", oe, ae, oe],
     .needMoreData) := by decide +kernel

-- json-tokenizer-test.cpp: check_json_with_array_and_ascii
example : tokenizeBufs { ascii := true, newLines := true, simd := .scalar } [(b!"\n{\n  an_array : [\n    text_element_one\n    text_two\n    text_three,\n  ]\n}\n" ++ [0x00])] =
    ([os, a b!"an_array" .arrayStart b!"[", e .ascii b!"text_element_one", e .ascii b!"text_two", e .ascii b!"text_three", ae, oe],
     .needMoreData) := by decide +kernel

-- json-tokenizer-fail-test.cpp: json_with_ascii_property
example : tokenizeBufs { simd := .scalar } [b!"{   \"foo\": \"bar\",   color : \"red\"}"] =
    ([os, m b!"foo" .string b!"bar"],
     .illegalPropertyName) := by decide +kernel

-- json-tokenizer-fail-test.cpp: json_with_ascii_data
example : tokenizeBufs { simd := .scalar } [b!"{   \"foo\": \"bar\",   \"color\": red}"] =
    ([os, m b!"foo" .string b!"bar"],
     .illegalDataValue) := by decide +kernel

-- json-tokenizer-fail-test.cpp: json_with_new_line_seperator
example : tokenizeBufs { simd := .scalar } [b!"{   \"foo\": \"bar\"\n   \"color\": \"red\"}"] =
    ([os, m b!"foo" .string b!"bar"],
     .invalidToken) := by decide +kernel

-- json-tokenizer-fail-test.cpp: json_with_comma_before_obj_end
example : tokenizeBufs { simd := .scalar } [(b!"{   \"foo\": \"bar\",   \"color\": \"red\",}" ++ [0x00])] =
    ([os, m b!"foo" .string b!"bar", m b!"color" .string b!"red"],
     .expectedDataToken) := by decide +kernel

-- json-tokenizer-fail-test.cpp: json_with_illegal_chars
example : tokenizeBufs { simd := .scalar } [(b!"{   \"foo\": \"bar\", ,  \"color\": \"red\",}" ++ [0x00])] =
    ([os, m b!"foo" .string b!"bar"],
     .encounteredIllegalChar) := by decide +kernel

-- json-tokenizer-fail-test.cpp: json_with_illegal_comma_in_array
example : tokenizeBufs { simd := .scalar } [b!"{  \"foo\": [,4,5,6]}"] =
    ([os, m b!"foo" .arrayStart b!"["],
     .encounteredIllegalChar) := by decide +kernel

-- json-tokenizer-fail-test.cpp: json_broken_stream
example : tokenizeBufs { simd := .scalar } [b!"\"r::load\",\"line\":640,\"level\":0,\"type\":\"Io\",\"io\":{\"id\":928,\"action\":0,\"state\":0,\"uri\":\"http://datamons\""] =
    ([],
     .illegalPropertyType) := by decide +kernel

-- json-tokenizer-partial-test.cpp: check_json_partial_1
example : tokenizeBufs { ascii := true, newLines := true, simd := .scalar } [(b!"{" ++ [0x00]),
      (b!"   \"foo\": \"bar\",   \"color\": \"red\"\n}" ++ [0x00])] =
    ([os, m b!"foo" .string b!"bar", m b!"color" .string b!"red", oe],
     .needMoreData) := by decide +kernel

-- json-tokenizer-partial-test.cpp: check_json_partial_2
example : tokenizeBufs { ascii := true, newLines := true, simd := .scalar } [(b!"{  \"fo" ++ [0x00]),
      (b!"o\": \"bar\",   \"color\": \"red\"\n}" ++ [0x00])] =
    ([os, m b!"foo" .string b!"bar", m b!"color" .string b!"red", oe],
     .needMoreData) := by decide +kernel

-- json-tokenizer-partial-test.cpp: check_json_partial_3
example : tokenizeBufs { ascii := true, newLines := true, simd := .scalar } [(b!"{  \"foo\"" ++ [0x00]),
      (b!": \"bar\",   \"color\": \"red\"\n}" ++ [0x00])] =
    ([os, m b!"foo" .string b!"bar", m b!"color" .string b!"red", oe],
     .needMoreData) := by decide +kernel

-- json-tokenizer-partial-test.cpp: check_json_partial_4
example : tokenizeBufs { ascii := true, newLines := true, simd := .scalar } [(b!"{  \"foo\": \"bar\"" ++ [0x00]),
      (b!",   \"color\": \"red\"\n}" ++ [0x00])] =
    ([os, m b!"foo" .string b!"bar", m b!"color" .string b!"red", oe],
     .needMoreData) := by decide +kernel

-- json-tokenizer-partial-test.cpp: check_json_partial_5
example : tokenizeBufs { ascii := true, newLines := true, simd := .scalar } [(b!"{  \"foo\": \"bar\",   col" ++ [0x00]),
      (b!"or : \"red\"\n}" ++ [0x00])] =
    ([os, m b!"foo" .string b!"bar", a b!"color" .string b!"red", oe],
     .needMoreData) := by decide +kernel

-- json-tokenizer-partial-test.cpp: check_json_partial_6
example : tokenizeBufs { ascii := true, newLines := true, simd := .scalar } [(b!"{  \"foo\": \"bar\",   color : tr" ++ [0x00]),
      (b!"ue}" ++ [0x00])] =
    ([os, m b!"foo" .string b!"bar", a b!"color" .bool b!"true", oe],
     .needMoreData) := by decide +kernel

-- json-tokenizer-partial-test.cpp: check_json_partial_7
example : tokenizeBufs { ascii := true, newLines := true, simd := .scalar } [(b!"{  \"foo\": \"bar\",   color : true" ++ [0x00]),
      (b!"}" ++ [0x00])] =
    ([os, m b!"foo" .string b!"bar", a b!"color" .bool b!"true", oe],
     .needMoreData) := by decide +kernel

-- json-tokenizer-partial-test.cpp: check_json_partial_8
example : tokenizeBufs { ascii := true, newLines := true, simd := .scalar } [(b!"{  \"foo\": \"bar\",  \"array\": [    \"one\",    \"two\"," ++ [0x00]),
      (b!"    \"three\"  ]}" ++ [0x00])] =
    ([os, m b!"foo" .string b!"bar", m b!"array" .arrayStart b!"[", e .string b!"one", e .string b!"two", e .string b!"three", ae, oe],
     .needMoreData) := by decide +kernel

-- json-tokenizer-comments-test.cpp: basic_comment_parsing
example : tokenizeBufs { comments := true, simd := .scalar } [(b!"{\n    // This is a comment\n    \"key\": \"value\"\n  }" ++ [0x00])] =
    ([os, m b!"key" .string b!"value", oe],
     .needMoreData) := by decide +kernel

-- json-tokenizer-comments-test.cpp: comment_at_beginning
example : tokenizeBufs { comments := true, simd := .scalar } [(b!"// Start comment\n{\n  \"key\": \"value\"\n}" ++ [0x00])] =
    ([os, m b!"key" .string b!"value", oe],
     .needMoreData) := by decide +kernel

-- json-tokenizer-comments-test.cpp: inline_comment
example : tokenizeBufs { comments := true, simd := .scalar } [(b!"{\n  \"key\": \"value\", // Inline comment\n  \"number\": 42\n}" ++ [0x00])] =
    ([os, m b!"key" .string b!"value", m b!"number" .number b!"42", oe],
     .needMoreData) := by decide +kernel

-- json-tokenizer-comments-test.cpp: multiple_consecutive_comments
example : tokenizeBufs { comments := true, simd := .scalar } [(b!"// First comment\n// Second comment\n// Third comment\n{\n  \"key\": \"value\"\n}" ++ [0x00])] =
    ([os, m b!"key" .string b!"value", oe],
     .needMoreData) := by decide +kernel

-- json-tokenizer-comments-test.cpp: comments_in_array
example : tokenizeBufs { comments := true, simd := .scalar } [(b!"{\n  \"items\": [\n    // First item comment\n    \"item1\",\n    // Second item comment\n    \"item2\"\n    // End of array comment\n  ]\n}" ++ [0x00])] =
    ([os, m b!"items" .arrayStart b!"[", e .string b!"item1", e .string b!"item2", ae, oe],
     .needMoreData) := by decide +kernel

-- json-tokenizer-comments-test.cpp: comments_disabled_by_default
example : tokenizeBufs { simd := .scalar } [(b!"{\n  \"key\": \"value\"\n}" ++ [0x00])] =
    ([os, m b!"key" .string b!"value", oe],
     .needMoreData) := by decide +kernel

-- json-tokenizer-comments-test.cpp: comments_between_object_properties
example : tokenizeBufs { comments := true, simd := .scalar } [(b!"{\n  \"first\": \"value1\",\n  // Comment between properties\n  \"second\": \"value2\",\n  // Another comment\n  \"third\": 123\n}" ++ [0x00])] =
    ([os, m b!"first" .string b!"value1", m b!"second" .string b!"value2", m b!"third" .number b!"123", oe],
     .needMoreData) := by decide +kernel

-- json-tokenizer-comments-test.cpp: comment_after_colon
example : tokenizeBufs { comments := true, simd := .scalar } [(b!"{\n  \"key\": // Comment after colon\n    \"value\"\n}" ++ [0x00])] =
    ([os, m b!"key" .string b!"value", oe],
     .needMoreData) := by decide +kernel

-- json-tokenizer-comments-test.cpp: empty_comment
example : tokenizeBufs { comments := true, simd := .scalar } [(b!"{\n  //\n  \"key\": \"value\"\n}" ++ [0x00])] =
    ([os, m b!"key" .string b!"value", oe],
     .needMoreData) := by decide +kernel

-- json-tokenizer-comments-test.cpp: comment_with_special_characters
example : tokenizeBufs { comments := true, simd := .scalar } [(b!"{\n  // Comment with special chars: !@#$%^&*(){}[]\n  \"key\": \"value\"\n}" ++ [0x00])] =
    ([os, m b!"key" .string b!"value", oe],
     .needMoreData) := by decide +kernel

-- json-tokenizer-comments-test.cpp: comment_without_newline_at_eof
example : tokenizeBufs { comments := true, simd := .scalar } [b!"{\n  \"key\": \"value\" // EOF comment"] =
    ([os, m b!"key" .string b!"value"],
     .needMoreData) := by decide +kernel

end JsonStruct.Conformance.Tokenizer
