import Verif.Lemmas.Replace

/-
C77: reading a value replaces what was in the variable. As in `Props/Struct.lean`, no string is given an array or an object.
-/

namespace JsonStruct

/-- **C77**. Every text of every JSON value, read without an error into a variable of one of the types of
`Spec/Replace.lean`, with no member of a struct left unassigned, because that would be an error or it would be
reported: whatever was in the variable before, the result is the same, with the same members reported missing. -/
theorem C77_reading_replaces_partial (t : CType T) {o : Opts} (hn : o.newLines = false) (p : POpts) (ht : t.Replaced)
    {v : JVal} (hv : v.isContainer = true) {x : Bytes} (hx : Doc (lenient o) v x) {old old' : T} (hs : t.Sized old) (hs' : t.Sized old') {r : Res T}
    (hr : t.dec p old v.root = some r) (he : r.err = .noError)
    (hu : p.allowUnassigned = false ∨ (p.track = true ∧ r.unassigned = [])) :
    Parses t.handler o p old x r ∧ Parses t.handler o p old' x r :=
  ⟨parse_doc t.sem hn p hv hx hr, parse_doc t.sem hn p hv hx (t.replaces ht old old' _ r hs hs' hr he hu).1⟩

/-- A struct of a string, a list, a pointer to a number and an array of two numbers. -/
def exAll : CStruct (Bytes × List Int × Option Int × List Int) :=
  .mk (.cons [b!"s"] (.string .scalar) (·.1) (fun x t => (x, t.2))
      (.cons [b!"l"] (.vector (.int i32)) (·.2.1) (fun x t => (t.1, x, t.2.2))
      (.cons [b!"p"] (.sharedPtr (.int i32)) (·.2.2.1) (fun x t => (t.1, t.2.1, x, t.2.2.2))
      (.cons [b!"a"] (.array 2 (.int i32)) (·.2.2.2) (fun x t => (t.1, t.2.1, t.2.2.1, x)) .nil)))) .nil

/-- `{"a":[1,2],"l":[3],"p":null,"s":"x"}` gives the same, read into a new variable and into one that is full. -/
example : (CType.struct ([], [], none, [0, 0]) exAll).Replaced ∧
    (CType.struct ([], [], none, [0, 0]) exAll).Sized ([], [], none, [0, 0]) ∧
    (CType.struct ([], [], none, [0, 0]) exAll).Sized (b!"old", [7, 8, 9], some 4, [5, 6]) ∧
    (CType.struct ([], [], none, [0, 0]) exAll).dec {} (b!"old", [7, 8, 9], some 4, [5, 6])
      (JVal.obj [(b!"a", .arr [.num b!"1", .num b!"2"]), (b!"l", .arr [.num b!"3"]), (b!"p", .null), (b!"s", .str b!"x")]).root =
      some ⟨.noError, (b!"x", [3], none, [1, 2]), [], []⟩ := by
  refine ⟨?_, ?_, ?_, by decide +kernel⟩
  · simp only [CType.Replaced, CStruct.Replaced, CMembers.Replaced, CSupers.Replaced, exAll, CStruct.Sized, CMembers.Sized, CSupers.Sized, CType.Sized]
    refine ⟨⟨?_, ?_, ?_⟩, ?_, ?_⟩
    · simp [CStruct.entries, CMembers.entries, CSupers.entries, Access.Apart, Entry.access]
    · simp [CStruct.entries, CMembers.entries, CSupers.entries]
    · rintro ⟨a1, a2, a3, a4⟩ ⟨b1, b2, b3, b4⟩
      simp +contextual [CStruct.entries, CMembers.entries, CSupers.entries]
    · simp
    · simp [CType.isOptional]
  · simp [CType.Sized, CStruct.Sized, CMembers.Sized, CSupers.Sized, exAll]
  · simp [CType.Sized, CStruct.Sized, CMembers.Sized, CSupers.Sized, exAll]

/-- **C77** is false for maps: the keys that were there remain. -/
theorem C77_false_map :
    let t : CType (List (Bytes × Int)) := .map (fun l e => l ++ [e]) (.int i32)
    Parses t.handler {} {} [] b!"{\"b\":2}" ⟨.noError, [(b!"b", 2)], [], []⟩ ∧
    Parses t.handler {} {} [(b!"a", 1)] b!"{\"b\":2}" ⟨.noError, [(b!"a", 1), (b!"b", 2)], [], []⟩ :=
  ⟨parse_toks (v := .obj [(b!"b", .num b!"2")]) (CType.sem _) _ (by example_text) (by decide +kernel),
   parse_toks (v := .obj [(b!"b", .num b!"2")]) (CType.sem _) _ (by example_text) (by decide +kernel)⟩

/-- **C77** is false for `Nullable`: `null` leaves the value as it is. -/
theorem C77_false_nullable :
    let t : CType (List Int) := .array 1 (.nullable (.int i32))
    Parses t.handler {} {} [0] b!"[null]" ⟨.noError, [0], [], []⟩ ∧
    Parses t.handler {} {} [5] b!"[null]" ⟨.noError, [5], [], []⟩ :=
  ⟨parse_toks (v := .arr [.null]) (CType.sem _) _ (by example_text) (by decide +kernel),
   parse_toks (v := .arr [.null]) (CType.sem _) _ (by example_text) (by decide +kernel)⟩

/-- **C77** is false for `OneOrMany`: a single value is appended to those that were there, an array replaces them. -/
theorem C77_false_one_or_many :
    let t : CType (List (List Int)) := .array 1 (.oneOrMany (.int i32))
    Parses t.handler {} {} [[]] b!"[3]" ⟨.noError, [[3]], [], []⟩ ∧
    Parses t.handler {} {} [[1, 2]] b!"[3]" ⟨.noError, [[1, 2, 3]], [], []⟩ ∧
    Parses t.handler {} {} [[1, 2]] b!"[[3]]" ⟨.noError, [[3]], [], []⟩ :=
  ⟨parse_toks (v := .arr [.num b!"3"]) (CType.sem _) _ (by example_text) (by decide +kernel),
   parse_toks (v := .arr [.num b!"3"]) (CType.sem _) _ (by example_text) (by decide +kernel),
   parse_toks (v := .arr [.arr [.num b!"3"]]) (CType.sem _) _ (by example_text) (by decide +kernel)⟩

/-- **C77** is false for a struct of which not all members are in the text. -/
theorem C77_false_unassigned :
    Parses (CType.struct (0, 0, 0) exS).handler {} {} (0, 0, 0) b!"{\"a\":1,\"c\":2}" ⟨.noError, (1, 0, 2), [], [b!"b"]⟩ ∧
    Parses (CType.struct (0, 0, 0) exS).handler {} {} (7, 7, 7) b!"{\"a\":1,\"c\":2}" ⟨.noError, (1, 7, 2), [], [b!"b"]⟩ :=
  ⟨parse_toks (v := .obj [(b!"a", .num b!"1"), (b!"c", .num b!"2")]) (CType.sem _) _ (by example_text) (by decide +kernel),
   parse_toks (v := .obj [(b!"a", .num b!"1"), (b!"c", .num b!"2")]) (CType.sem _) _ (by example_text) (by decide +kernel)⟩

/-- **C77** is false where there is an error: a number that is refused leaves what was in the variable. -/
theorem C77_false_error :
    let t : CType (List Bool) := .array 1 .bool
    Parses t.handler {} {} [false] b!"[1]" ⟨.failedToParseBoolean, [false], [], []⟩ ∧
    Parses t.handler {} {} [true] b!"[1]" ⟨.failedToParseBoolean, [true], [], []⟩ :=
  ⟨parse_toks (v := .arr [.num b!"1"]) (CType.sem _) _ (by example_text) (by decide +kernel),
   parse_toks (v := .arr [.num b!"1"]) (CType.sem _) _ (by example_text) (by decide +kernel)⟩

end JsonStruct
