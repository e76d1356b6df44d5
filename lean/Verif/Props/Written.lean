import Verif.Lemmas.Writable
import Verif.Props.Document
import Verif.Props.RoundTrip

/-
C75: what is serialized is JSON, whether or not it can be read back as the same value.
-/

namespace JsonStruct

theorem serialized_any {b : Bool} (t : CType T) (v : T) (hv : t.Writable b v) (pretty : Bool) (shift : Nat) :
    ∃ text, serializeStruct t.handler v (userOpts pretty shift 0) = some text ∧
      (t.enc v = none → text = []) ∧ ∀ j, t.enc v = some j → j.depth ≤ 255 → Doc (textsOf b) j text := by
  obtain ⟨hw, hg⟩ := t.written v hv
  obtain ⟨k, h1, _, _⟩ := hw {} (Ser.onString (userOpts pretty shift 0) (startString []).length) (.inl rfl) rfl
  refine ⟨_, by simp only [serializeStruct, serializeWith, h1, Option.map_some]; rfl, fun hn => ?_, fun j hj hd => ?_⟩
  · have := C48_flush_is_exact (userOpts pretty shift 0) [] [] 1
    simp only [hn, encToks]
    exact this
  · have hw := written_text_in (wide_textsOf b) j (hg j hj) pretty shift 0 (by omega) []
    rw [hj]
    simp only [encToks]
    rw [writeAll_names (a := .string) (b := .ascii) rfl (.inl rfl) (.inr rfl)]
    exact hw

/-- **C75**. For every value of every type, in any style and with any indentation, `serializeStruct` returns, and what it
returns is an RFC 8259 text: the one of the JSON value meant by `CType.enc`; or it is empty, if nothing is written for the
value. Not needed is that the value is represented exactly: NaN, infinities, empty pointers within pointers, and empty
optionals within arrays are fine. `Writable` says what is: names and keys of maps are not empty and need no escapes;
strings have no control characters but the five that have short escapes; enumerations have a declared value. Missing: other
names, keys and strings, and values more than 255 deep; for all of them it is false, see below, C51 and C47; and captured
tokens (C49). -/
theorem C75_written_is_json_partial (t : CType T) (v : T) (hv : t.Writable true v) (pretty : Bool) (shift : Nat) :
    ∃ text, serializeStruct t.handler v (userOpts pretty shift 0) = some text ∧
      (t.enc v = none → text = []) ∧ ∀ j, t.enc v = some j → j.depth ≤ 255 → Doc rfc j text :=
  serialized_any (b := true) t v hv pretty shift

/-- **C75**, with any strings: then control characters may stand in the strings of the text. -/
theorem C75_written_structure_partial (t : CType T) (v : T) (hv : t.Writable false v) (pretty : Bool) (shift : Nat) :
    ∃ text, serializeStruct t.handler v (userOpts pretty shift 0) = some text ∧
      (t.enc v = none → text = []) ∧ ∀ j, t.enc v = some j → j.depth ≤ 255 → Doc rfcBytes j text :=
  serialized_any (b := false) t v hv pretty shift

/-- `struct S { std::vector<double> d; std::vector<std::optional<int>> o; std::shared_ptr<std::shared_ptr<int>> p; std::string s; }`. -/
def exLossy : CType (List Nat × List (Option Int) × Option (Option Int) × Bytes) :=
  .struct ([], [], none, []) (.mk (.cons [b!"d"] (.vector .double) (·.1) (fun x t => (x, t.2))
    (.cons [b!"o"] (.vector (.stdOptional (.int i32))) (·.2.1) (fun x t => (t.1, x, t.2.2))
    (.cons [b!"p"] (.sharedPtr (.sharedPtr (.int i32))) (·.2.2.1) (fun x t => (t.1, t.2.1, x, t.2.2.2))
    (.cons [b!"s"] (.string .scalar) (·.2.2.2) (fun x t => (t.1, t.2.1, t.2.2.1, x)) .nil)))) .nil)

/-- NaN, minus infinity and 2^-140, an empty optional, a pointer to an empty pointer. -/
def exLossyValue : List Nat × List (Option Int) × Option (Option Int) × Bytes :=
  ([0x7FF8000000000000, 0xFFF0000000000000, 0x3730000000000000], [none, some 1], some none, b!"a\t\"é")

theorem goodName_of {n : Bytes} (h : n ≠ []) (hs : ∀ c ∈ n, 0x20 ≤ c ∧ c ≠ 0x22 ∧ c ≠ 0x5C) : GoodName true n := by
  refine ⟨h, ?_⟩
  show JsonString n
  clear h
  induction n with
  | nil => exact .nil
  | cons c n ih =>
    obtain ⟨h1, h2, h3⟩ := hs c (by simp)
    exact .plain h1 h2 h3 (ih fun x hx => hs x (by simp [hx]))

example : exLossy.Writable true exLossyValue ∧
    (∃ j, exLossy.enc exLossyValue = some j ∧ j.depth ≤ 255) ∧
    serializeStruct exLossy.handler exLossyValue (userOpts false 0 0) =
      some b!"{\"d\":[null,null,7.174648137343063e-43],\"o\":[1],\"p\":null,\"s\":\"a\\t\\\"é\"}" := by
  refine ⟨?_, ⟨_, rfl, by simp [JVal.depth, membersDepth, elemsDepth, exLossy, CStruct.enc, CMembers.enc, CSupers.enc, CType.enc]; decide +kernel⟩, by decide +kernel⟩
  simp only [exLossy, exLossyValue, CType.Writable, CStruct.Writable, CMembers.Writable, CSupers.Writable, List.headD]
  refine ⟨⟨goodName_of (by decide) (by decide), by decide, goodName_of (by decide) (by decide), ?_,
    goodName_of (by decide) (by decide), by simp, goodName_of (by decide) (by decide), fun _ => by unfold NoControls; decide, trivial⟩, trivial⟩
  intro x hx y hy
  subst hy
  obtain rfl : y = 1 := by simpa using hx
  decide

/-- A text that begins with a bracket is no JSON text if its tokens are not those of a whole document. -/
theorem no_document {t : Bytes} (hb : t.head? = some 0x5B ∨ t.head? = some 0x7B) (h : (tokenize {} t).2 ≠ .needMoreData) : ¬ ∃ j, Doc rfc j t := by
  rintro ⟨j, hd⟩
  have hc : j.isContainer = true := by
    obtain ⟨w, b, w', hw, ht, hw', rfl⟩ := hd
    have hw0 : w = [] := by
      cases w with
      | nil => rfl
      | cons c w =>
        have := hw c (by simp)
        simp only [List.cons_append, List.head?_cons, Option.some.injEq] at hb
        rcases hb with rfl | rfl <;> exact absurd this (by decide)
    subst hw0
    simp only [List.nil_append] at hb
    cases ht with
    | null | tru | fls => simp at hb
    | str => simp at hb
    | num hn =>
      exfalso
      obtain ⟨m, i, f, e, rfl, hm, hi, -⟩ := hn
      rcases hm with rfl | rfl
      · rcases hi with rfl | ⟨hi, -⟩
        · simp at hb
        · obtain ⟨h1, h2⟩ := hi
          cases i with
          | nil => exact h1 rfl
          | cons c i =>
            have := h2 c (by simp)
            simp only [List.nil_append, List.cons_append, List.head?_cons, Option.some.injEq] at hb
            rcases hb with rfl | rfl <;> exact absurd this (by decide)
      · simp at hb
    | _ => rfl
  exact h (by rw [C02_document_tokenized {} rfl j t hc hd])

/-- **C75** is false for keys of maps: they are written without escapes, and an empty key not at all. -/
theorem C75_false_keys :
    let t : CType (List (Bytes × Int)) := .map (fun l e => l ++ [e]) (.int i32)
    (∃ text, serializeStruct t.handler [(b!"a\"b", 1)] (userOpts false 0 0) = some text ∧ ¬ ∃ j, Doc rfc j text) ∧
    ∃ text, serializeStruct t.handler [([], 1)] (userOpts false 0 0) = some text ∧ ¬ ∃ j, Doc rfc j text :=
  ⟨⟨b!"{\"a\"b\":1}", by decide +kernel, no_document (.inr rfl) (by decide +kernel)⟩,
    b!"{1}", by decide +kernel, no_document (.inr rfl) (by decide +kernel)⟩

end JsonStruct
