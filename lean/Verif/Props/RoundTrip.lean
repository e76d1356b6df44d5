import Verif.Lemmas.Lines
import Verif.Props.Struct

/-
C01: what is written for a C++ value parses back to it. The types are all of `Model/Types.lean`, nested in any way; `CType.enc` (Spec/Encode.lean) is the JSON value meant.
-/

namespace JsonStruct

/-- Writing a value: `serializeStruct` returns a text of the JSON value meant, which is also one if line breaks are
separators. -/
theorem serialized_lines (t : CType T) (ht : t.Lawful) (v : T) (hv : t.Valid v) {j : JVal} (hj : t.enc v = some j)
    (pretty : Bool) (shift depth : Nat) (hd : depth + j.depth ≤ 255) :
    ∃ text, serializeStruct t.handler v (userOpts pretty shift depth) = some text ∧ Doc rfcBytes j text ∧
      Lines.LDoc rfcBytes false j text := by
  have hg := t.good ht v hv j hj
  obtain ⟨k, h1, _, _⟩ := t.writes v hv {} (Ser.onString (userOpts pretty shift depth) (startString []).length) (.inl rfl) rfl
  refine ⟨_, by simp only [serializeStruct, serializeWith, h1, Option.map_some]; rfl, ?_⟩
  have hw := written_text j hg pretty shift depth hd []
  have hw' := lwritten_text false j hg pretty shift depth hd []
  rw [hj]
  simp only [encToks]
  rw [writeAll_names (a := .string) (b := .ascii) rfl (.inl rfl) (.inr rfl)]
  exact ⟨hw, hw'⟩

theorem serialized (t : CType T) (ht : t.Lawful) (v : T) (hv : t.Valid v) {j : JVal} (hj : t.enc v = some j)
    (pretty : Bool) (shift depth : Nat) (hd : depth + j.depth ≤ 255) :
    ∃ text, serializeStruct t.handler v (userOpts pretty shift depth) = some text ∧ Doc rfcBytes j text := by
  obtain ⟨text, h1, h2, -⟩ := serialized_lines t ht v hv hj pretty shift depth hd
  exact ⟨text, h1, h2⟩

/-- **C01**, for values whose text is an array or an object at most 255 levels deep: whatever the style, the indentation
and the options of the parser (new lines as delimiters included), what `serializeStruct` returns for a value parses without error into any fresh variable
and leaves the value in it; no member is reported as missing. The texts are JSON but for control characters, which may
stand in strings unescaped (C51).

`Lawful` and `Valid` say which declarations and values: members with distinct non empty names, which are different
parts of the struct and together all of it; enumerators that exist; keys of maps that need no escapes; no value inside
an array, pointer or optional that itself is written as nothing or as `null`; finite floating point numbers other than the
doubles 2^-140 and -2^-140 (C33); time points within the bounds of C62. Missing: scalars at the root, deeper
values, and the others; it is false for all of them, see below, C33, C38, C47 and C62. -/
theorem C01_round_trip_partial (t : CType T) (ht : t.Lawful) (v : T) (hv : t.Valid v) {j : JVal} (hj : t.enc v = some j)
    (hc : j.isContainer = true) (hd : j.depth ≤ 255) (pretty : Bool) (shift : Nat)
    (o : Opts) (p : POpts) (hp : p.allowUnassigned = true) (old : T) (ho : t.Fresh old) :
    ∃ text un, serializeStruct t.handler v (userOpts pretty shift 0) = some text ∧ Doc rfcBytes j text ∧
      Parses t.handler o p old text ⟨.noError, v, [], un⟩ := by
  obtain ⟨text, h1, h2, h3⟩ := serialized_lines t ht v hv hj pretty shift 0 (by omega)
  obtain ⟨un, hu⟩ := (t.roundTrips ht).some hj hv ho hp ([], .ascii)
  exact ⟨text, un, h1, h2, parse_toks t.sem p (delivers_written o hc h2 h3) hu⟩

/-- The same for the variable a user declares: a value-initialised one. -/
theorem C01_round_trip_new_variable_partial (t : CType T) (ht : t.Lawful) (v : T) (hv : t.Valid v) {j : JVal} (hj : t.enc v = some j)
    (hc : j.isContainer = true) (hd : j.depth ≤ 255) (pretty : Bool) (shift : Nat) (o : Opts) :
    ∃ text un, serializeStruct t.handler v (userOpts pretty shift 0) = some text ∧
      Parses t.handler o {} t.init text ⟨.noError, v, [], un⟩ := by
  obtain ⟨text, un, h1, _, h2⟩ := C01_round_trip_partial t ht v hv hj hc hd pretty shift o {} rfl t.init (t.fresh_init ht)
  exact ⟨text, un, h1, h2⟩

/-- `struct Base { bool flag; }; struct Derived : Base { std::string name; std::vector<std::tuple<int, std::string>> xs;
std::unique_ptr<Point> p; }`. -/
def exBase : CStruct Bool := .mk (.cons [b!"flag"] .bool id (fun x _ => x) .nil) .nil

def exPoint : CType (Int × Int) :=
  .struct (0, 0) (.mk (.cons [b!"x"] (.int i32) (·.1) (fun x t => (x, t.2))
    (.cons [b!"y"] (.nullable (.int i32)) (·.2) (fun x t => (t.1, x)) .nil)) .nil)

abbrev ExDerived := Bool × Bytes × List (Int × Bytes × Unit) × Option (Int × Int)

def exDerived : CType ExDerived :=
  .struct (false, [], [], none)
    (.mk (.cons [b!"name"] (.string .scalar) (·.2.1) (fun x t => (t.1, x, t.2.2))
      (.cons [b!"xs", b!"list"] (.vector (.tuple (.cons (.int i32) (.cons (.string .scalar) .nil)))) (·.2.2.1) (fun x t => (t.1, t.2.1, x, t.2.2.2))
      (.cons [b!"p"] (.uniquePtr exPoint) (·.2.2.2) (fun x t => (t.1, t.2.1, t.2.2.1, x)) .nil)))
      (.cons b!"Base" (·.1) (fun x t => (x, t.2)) exBase .nil))

def exValue : ExDerived := (true, b!"a\"\n", [(1, b!"u", ()), (-2, [], ())], some (3, 4))

/-- Names of the examples can stand between quotes. -/
macro "quotable" : tactic =>
  `(tactic| (repeat (first | exact Quotable.nil | refine Quotable.plain (by decide) (by decide) ?_)))

theorem exPoint_lawful : exPoint.Lawful := by
  refine ⟨⟨?_, ?_, ?_, ?_, ?_⟩, ?_, ?_⟩
  · intro e he
    simp only [CStruct.entries, CMembers.entries, CSupers.entries, List.append_nil, List.mem_cons, List.not_mem_nil, or_false] at he
    rcases he with rfl | rfl
    · exact ⟨b!"x", rfl, by decide, by quotable⟩
    · exact ⟨b!"y", rfl, by decide, by quotable⟩
  · simp only [CStruct.entries, CMembers.entries, CSupers.entries]; decide +kernel
  · simp [CStruct.entries, CMembers.entries, CSupers.entries, Access.Apart, Entry.access]
  · intro e he x t
    simp only [CStruct.entries, CMembers.entries, CSupers.entries, List.append_nil, List.mem_cons, List.not_mem_nil, or_false] at he
    rcases he with rfl | rfl <;> rfl
  · intro a b h
    simp [CStruct.entries, CMembers.entries, CSupers.entries] at h
    exact Prod.ext h.1 h.2
  · simp [CStruct.Fresh, CMembers.Fresh, CSupers.Fresh, CType.Fresh]
  · simp [CStruct.Lawful, CMembers.Lawful, CSupers.Lawful, CType.Lawful]

theorem exDerived_lawful : exDerived.Lawful := by
  refine ⟨⟨?_, ?_, ?_, ?_, ?_⟩, ?_, ?_⟩
  · intro e he
    simp only [CStruct.entries, CMembers.entries, CSupers.entries, exBase, List.append_nil, List.mem_append, List.map_cons, List.map_nil,
      List.mem_cons, List.not_mem_nil, or_false] at he
    rcases he with (rfl | rfl | rfl) | rfl
    · exact ⟨b!"name", rfl, by decide, by quotable⟩
    · exact ⟨b!"xs", rfl, by decide, by quotable⟩
    · exact ⟨b!"p", rfl, by decide, by quotable⟩
    · exact ⟨b!"flag", rfl, by decide, by quotable⟩
  · simp only [CStruct.entries, CMembers.entries, CSupers.entries, exBase]; decide +kernel
  · simp [CStruct.entries, CMembers.entries, CSupers.entries, exBase, Access.Apart, Entry.access, Entry.up]
  · intro e he x t
    simp only [CStruct.entries, CMembers.entries, CSupers.entries, exBase, List.append_nil, List.mem_append, List.map_cons, List.map_nil,
      List.mem_cons, List.not_mem_nil, or_false] at he
    rcases he with (rfl | rfl | rfl) | rfl <;> rfl
  · intro a b h
    simp [CStruct.entries, CMembers.entries, CSupers.entries, exBase, Entry.up] at h
    exact Prod.ext h.2.2.2 (Prod.ext h.1 (Prod.ext h.2.1 h.2.2.1))
  · simp [CStruct.Fresh, CMembers.Fresh, CSupers.Fresh, CType.Fresh, exBase]
  · simp [CStruct.Lawful, CMembers.Lawful, CSupers.Lawful, CType.Lawful, CTypes.Lawful, exBase, exPoint_lawful]

theorem exDerived_valid : exDerived.Valid exValue := by
  have h1 : ∀ x : Int, -5 ≤ x → x ≤ 5 → i32.Supported ∧ i32.InRange x := fun x h1 h2 =>
    ⟨by simp [IntTy.Supported, i32], by simp [IntTy.InRange, IntTy.min, IntTy.max, i32]; omega⟩
  simp only [exDerived, CType.Valid, CStruct.Valid, CMembers.Valid, CSupers.Valid, CTypes.Valid, exBase, exPoint, exValue, true_and, and_true]
  refine ⟨?_, ?_⟩
  · intro x hx
    simp only [List.mem_cons, List.not_mem_nil, or_false] at hx
    rcases hx with rfl | rfl
    · exact ⟨⟨⟨h1 1 (by decide) (by decide), by decide +kernel⟩, rfl⟩, rfl⟩
    · exact ⟨⟨⟨h1 (-2) (by decide) (by decide), by decide +kernel⟩, rfl⟩, rfl⟩
  · rintro x ⟨⟩
    refine ⟨⟨h1 3 (by decide) (by decide), h1 4 (by decide) (by decide), ?_⟩, _, rfl, by intro h; cases h⟩
    intro h
    simp [CType.enc] at h

/-- The hypotheses are met, and this is the text. -/
example : exDerived.Lawful ∧ exDerived.Valid exValue ∧ exDerived.Fresh exDerived.init ∧
    (∃ j, exDerived.enc exValue = some j ∧ j.isContainer = true ∧ j.depth ≤ 255) ∧
    serializeStruct exDerived.handler exValue (userOpts false 0 0) =
      some b!"{\"name\":\"a\\\"\\n\",\"xs\":[[1,\"u\"],[-2,\"\"]],\"p\":{\"x\":3,\"y\":4},\"flag\":true}" :=
  ⟨exDerived_lawful, exDerived_valid, exDerived.fresh_init exDerived_lawful,
    ⟨_, rfl, rfl, by simp [JVal.depth, membersDepth, elemsDepth, exDerived, CStruct.enc, CMembers.enc, CSupers.enc, CType.enc]; decide +kernel⟩, by decide +kernel⟩

/-- **C01** is false for a scalar at the root: it is written, but what is written is not accepted. -/
theorem C01_false_root_scalar :
    serializeStruct CType.bool.handler true (userOpts false 0 0) = some b!"true" ∧
    Parses CType.bool.handler {} {} false b!"true" ⟨.needMoreData, false, [], []⟩ :=
  ⟨by decide +kernel, 0, (Ctx.onText {} {} b!"true").next, fun n _ => by
    have : (Ctx.onText {} {} b!"true").next.error = .needMoreData := by decide +kernel
    simp [parseTo, this], by decide +kernel, by decide +kernel, by decide +kernel⟩

/-- Floating point numbers and time points: 0.1, the largest float, and 2023-11-14 22:13:20.000001 UTC. -/
example :
    let t : CType (Nat × Nat × Int × Unit) := .tuple (.cons .double (.cons .float (.cons (.time hiresClock) .nil)))
    let v : Nat × Nat × Int × Unit := (0x3FB999999999999A, 0x7F7FFFFF, 1700000000000001000, ())
    t.Lawful ∧ t.Valid v ∧ (∃ j, t.enc v = some j ∧ j.isContainer = true ∧ j.depth ≤ 255) ∧
    serializeStruct t.handler v (userOpts false 0 0) = some b!"[0.1,3.4028235e38,1700000000000001]" := by
  refine ⟨by simp [CType.Lawful, CTypes.Lawful], ?_, ⟨_, rfl, rfl, ?_⟩, by decide +kernel⟩
  · have h1 : (CType.double.enc 0x3FB999999999999A).isSome = true := by decide +kernel
    have h2 : (CType.float.enc 0x7F7FFFFF).isSome = true := by decide +kernel
    have h3 : ((CType.time hiresClock).enc 1700000000000001000).isSome = true := by decide +kernel
    refine ⟨⟨?_, h1⟩, ⟨?_, h2⟩, ⟨?_, h3⟩, trivial⟩
    · simp only [CType.Valid]; decide +kernel
    · simp only [CType.Valid]; decide +kernel
    · exact ⟨by decide, by decide, .inr (.inl ⟨rfl, rfl, by decide⟩)⟩
  · decide +kernel

/-- **C01** is false for NaN and the infinities: they are written as `null`, and `null` is no number. -/
theorem C01_false_nan :
    let t : CType (List Nat) := .vector .double
    serializeStruct t.handler [0x7FF8000000000000] (userOpts false 0 0) = some b!"[null]" ∧
    Parses t.handler {} {} [] b!"[null]" ⟨.failedToParseDouble, [0], [], []⟩ :=
  ⟨by decide +kernel, parse_toks (v := .arr [.null]) (CType.sem _) _ (by example_text) (by decide +kernel)⟩

/-- **C01** is false for a pointer to an empty pointer: `std::vector<std::shared_ptr<std::shared_ptr<int>>>` with one
such element is read back with an empty pointer instead. -/
theorem C01_false_pointer_to_null :
    let t : CType (List (Option (Option Int))) := .vector (.sharedPtr (.sharedPtr (.int i32)))
    serializeStruct t.handler [some none] (userOpts false 0 0) = some b!"[null]" ∧
    Parses t.handler {} {} [] b!"[null]" ⟨.noError, [none], [], []⟩ :=
  ⟨by decide +kernel, parse_toks (v := .arr [.null]) (CType.sem _) _ (by example_text) (by decide +kernel)⟩

/-- **C01** is false for an empty optional in an array: nothing is written for it, so the array is shorter. -/
theorem C01_false_optional_elements :
    let t : CType (List (Option Int)) := .vector (.stdOptional (.int i32))
    serializeStruct t.handler [none, some 1] (userOpts false 0 0) = some b!"[1]" ∧
    Parses t.handler {} {} [] b!"[1]" ⟨.noError, [some 1], [], []⟩ :=
  ⟨by decide +kernel, parse_toks (v := .arr [.num b!"1"]) (CType.sem _) _ (by example_text) (by decide +kernel)⟩

end JsonStruct
