import Verif.Lemmas.EscapeMemory
import Verif.Props.Escape

/-
C82: decoding the escapes of a string reads only memory it may read.
-/

namespace JsonStruct

/-- **C82**, reads within the string: whatever the bytes are, nothing outside of the string is read. -/
theorem C82_inside (s : Bytes) : escapesInMem s ≠ .error .outside := by
  rcases escapesInAt_eq s.length [] s with h | ⟨h, _⟩ <;>
  · simp only [List.nil_append, List.length_nil] at h
    simp [escapesInMem, h]

/-- **C82**, for text in which every `\u` has four hexadecimal digits behind it: everything that is read was written, and the result
is the one of the decoder of C11 to C13. -/
theorem C82_initialised_partial (s : Bytes) (h : WellEscaped s) : escapesInMem s = .ok (escapesIn s) := by
  rcases escapesInAt_eq s.length [] s with g | ⟨_, g⟩
  · exact g
  · exact absurd h g

/-- Whatever the bytes are: the result, if all that is read was written, is the one of the decoder of C11 to C13. -/
theorem C82_same (s r : Bytes) (h : escapesInMem s = .ok r) : r = escapesIn s := by
  rcases escapesInAt_eq s.length [] s with g | ⟨g, _⟩ <;>
  · simp only [List.nil_append, List.length_nil] at g
    rw [escapesInMem, g] at h
    cases h
    try rfl

/-- The body of every string literal of RFC 8259 is such a text. -/
theorem C82_literals (raw s : Bytes) (h : Denotes raw s) : escapesInMem raw = .ok s := by
  have hw : WellEscaped raw := by
    induction h with
    | nil => exact .nil
    | plain _ hc _ ih => exact .plain hc ih
    | esc he _ ih =>
      refine .esc ?_ ih
      rintro rfl
      revert he
      simp [simpleEscapes]
    | uni he _ ih =>
      cases he with
      | one h => exact .uni h ih
      | pair _ h1 h2 =>
        have := WellEscaped.uni h1 (.uni h2 ih)
        simpa using this
  rw [C82_initialised_partial raw hw, C13_literal_denotes raw s h]

example : Denotes b!"a\\n\\ud83D\\uDe00!" b!"a\n😀!" ∧ escapesInMem b!"a\\n\\ud83D\\uDe00!" = .ok b!"a\n😀!" := by
  refine ⟨.plain (by decide) (by decide) (.esc (e := 110) (by decide) ?_), by decide +kernel⟩
  have : UEscape '😀' (b!"\\u" ++ b!"d83D" ++ b!"\\u" ++ b!"De00") := .pair (by decide)
    ⟨_, _, _, _, 13, 8, 3, 13, rfl, .inl (by decide), .inl (by decide), .inl (by decide), .inr (by decide), by decide⟩
    ⟨_, _, _, _, 13, 14, 0, 0, rfl, .inr (by decide), .inl (by decide), .inl (by decide), .inl (by decide), by decide⟩
  exact .uni this (.plain (c := 33) (by decide) (by decide) .nil)

/-- **C82** is false in general: behind the first half of a surrogate pair the digits of the second are combined even if some of
them were never written. -/
theorem C82_false_pair : escapesInMem b!"\\uD83D\\u12x4" = .error .unset := by decide +kernel

end JsonStruct
