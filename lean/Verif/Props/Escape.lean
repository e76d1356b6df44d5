import Verif.Lemmas.Escape

/- Escaping and unescaping of strings. -/

namespace JsonStruct

/-- C11. Unescaping the escaped form of any byte string gives the string back, on every
build. -/
theorem C11_escape_round_trip (m : Simd) (s : Bytes) : escapesIn (escapesOut m s) = s := by
  rw [escapesOut_eq]
  induction s with
  | nil => rfl
  | cons c s ih => rw [List.flatMap_cons, escapesIn_escapeByte, ih]

example : escapesOut .sse2 b!"tab\there \"quoted\" back\\slash\nline" =
    b!"tab\\there \\\"quoted\\\" back\\\\slash\\nline" := by decide +kernel

/-- C10 (escape scan). The vectorised builds escape a string as the portable one does. -/
theorem C10_escape_builds_agree (m : Simd) (s : Bytes) : escapesOut m s = escapesOut .scalar s := by
  rw [escapesOut_eq, escapesOut_eq]

/-- C12. Whatever the string, its escaped form has no bare quote and no unfinished escape, and
whatever follows, the tokenizer's search for the end of the literal, started behind the opening
quote, stops one past the closing quote the serializer wrote. -/
theorem C12_no_break_out (m m' : Simd) (s rest : Bytes) :
    Quotable (escapesOut m s) ∧
    findStringEnd m' false (escapesOut m s ++ 0x22 :: rest) = (some ((escapesOut m s).length + 1), false) := by
  have h : Quotable (escapesOut m s) := by rw [escapesOut_eq]; exact quotable_flatMap s
  refine ⟨h, ?_⟩
  rw [findStringEnd_eq]
  exact Prod.ext (strEnd_body (strBody_of_quotable h)) (strEnd_body_flag (strBody_of_quotable h))

example : findStringEnd .avx2 false (escapesOut .avx2 b!"\",\"admin\":true,\"x\":\"" ++ b!"\",\"y\":1}") =
    (some 27, false) := by decide +kernel

/-- C13. `\u` notation (either case of the digits; one group or a surrogate pair) decodes to
the UTF-8 encoding of the character, whatever stands around it: `p` is any text that does not
itself end inside an escape, `r` is any text. -/
theorem C13_unicode_escape (c : Char) (p e r : Bytes) (hp : Complete p) (he : UEscape c e) :
    escapesIn (p ++ e ++ r) = escapesIn p ++ String.utf8EncodeChar c ++ escapesIn r := by
  obtain ⟨⟨s, rfl⟩, h2, h3⟩ := escapesIn_uescape he r
  rw [List.append_assoc, List.append_assoc, ← h3]
  exact escapesIn_append_esc hp _ h2

example : Complete b!"a\\n\\u12" := .plain (by decide) (.esc (.esc (.plain (by decide) (.plain (by decide) .nil))))
example : UEscape 'é' b!"\\u00E9" :=
  .one (ds := b!"00E9") ⟨_, _, _, _, 0, 0, 14, 9, rfl, .inl rfl, .inl rfl, .inr rfl, .inl rfl, rfl⟩
example : UEscape '😀' b!"\\ud83D\\uDe00" :=
  .pair (hi := b!"d83D") (lo := b!"De00") (by decide)
    ⟨_, _, _, _, 13, 8, 3, 13, rfl, .inl rfl, .inl rfl, .inl rfl, .inr rfl, by decide⟩
    ⟨_, _, _, _, 13, 14, 0, 0, rfl, .inr rfl, .inl rfl, .inl rfl, .inl rfl, by decide⟩
example : escapesIn b!"\\ud83D\\uDe00!" = b!"😀!" := by decide +kernel

/-- C13 (whole literals). A string literal parses to the string it denotes by RFC 8259. -/
theorem C13_literal_denotes (raw s : Bytes) (h : Denotes raw s) : escapesIn raw = s := by
  induction h with
  | nil => rfl
  | plain _ hc _ ih => rw [escapesIn_plain hc, ih]
  | @esc e c raw s he _ ih =>
    have key : ∀ q ∈ simpleEscapes, q.1 ≠ 117 ∧ pushBackEscape q.1 = [q.2] := by decide +kernel
    obtain ⟨h1, h2⟩ := key _ he
    have := escapesIn_esc (s := raw) h1
    rw [h2, ih] at this
    exact this
  | uni he _ ih => rw [(escapesIn_uescape he _).2.2, ih]

example : Denotes b!"\\n\\u00e9\\/x" b!"\né/x" :=
  .esc (by decide) (.uni (c := 'é') (e := b!"\\u00e9")
    (.one (ds := b!"00e9") ⟨_, _, _, _, 0, 0, 14, 9, rfl, .inl rfl, .inl rfl, .inl rfl, .inl rfl, rfl⟩)
    (.esc (by decide) (.plain (by decide) (by decide) .nil)))

/-- C51 is false: control characters other than `\b \t \n \f \r` are written as they are,
which RFC 8259 does not allow in a string. -/
theorem C51_false_for_control_characters : ¬ JsonString (escapesOut .scalar [0x01]) := by
  rw [show escapesOut .scalar [0x01] = [0x01] by decide +kernel]
  intro h
  cases h with
  | plain h _ _ _ => exact absurd h (by decide)

/-- C51. The text written for a string is a valid RFC 8259 string exactly when the string has
no control characters besides those five. -/
theorem C51_valid_string_partial (m : Simd) (s : Bytes) :
    JsonString (escapesOut m s) ↔ ∀ c ∈ s, c < 0x20 → c ∈ ([8, 9, 10, 12, 13] : Bytes) := by
  rw [escapesOut_eq]
  have key : ∀ c : Byte, (escapeByte c = [c] ∧ c ≠ QUOTE ∧ c ≠ BSL ∧ ((0x20 ≤ c ∧ ¬ c < 0x20) ∨
        (¬ 0x20 ≤ c ∧ c < 0x20 ∧ c ∉ ([8, 9, 10, 12, 13] : Bytes)))) ∨
      (∃ d ∈ b!"\"\\bfnrt", d ≠ 117 ∧ escapeByte c = [BSL, d]) ∧ (c < 0x20 → c ∈ ([8, 9, 10, 12, 13] : Bytes)) := by
    intro c
    exact forall_byte (p := fun c => (escapeByte c = [c] ∧ c ≠ QUOTE ∧ c ≠ BSL ∧ ((0x20 ≤ c ∧ ¬ c < 0x20) ∨
        (¬ 0x20 ≤ c ∧ c < 0x20 ∧ c ∉ ([8, 9, 10, 12, 13] : Bytes)))) ∨
      (∃ d ∈ b!"\"\\bfnrt", d ≠ 117 ∧ escapeByte c = [BSL, d]) ∧ (c < 0x20 → c ∈ ([8, 9, 10, 12, 13] : Bytes)))
      (by decide +kernel) c
  induction s with
  | nil => simp; exact .nil
  | cons c s ih =>
    rw [List.flatMap_cons, List.forall_mem_cons]
    refine Iff.trans ?_ (and_congr Iff.rfl ih)
    generalize s.flatMap escapeByte = w
    rcases key c with ⟨h1, h2, h3, h4⟩ | ⟨⟨d, hd, hd', h1⟩, h4⟩
    · rw [h1]
      constructor
      · intro h
        cases h with
        | plain ha _ _ h => exact ⟨fun hc => by rcases h4 with h4 | h4
                                                · exact absurd hc h4.2
                                                · exact absurd ha h4.1, h⟩
        | esc => exact absurd rfl h3
        | uni => exact absurd rfl h3
      · rintro ⟨ha, h⟩
        refine .plain ?_ h2 h3 h
        rcases h4 with h4 | h4
        · exact h4.1
        · exact absurd (ha h4.2.1) h4.2.2
    · rw [h1]
      constructor
      · intro h
        refine ⟨h4, ?_⟩
        cases h with
        | plain _ _ hb _ => exact absurd rfl hb
        | esc _ h => exact h
        | uni => exact absurd rfl hd'
      · rintro ⟨_, h⟩
        refine .esc ?_ h
        have : ∀ d ∈ b!"\"\\bfnrt", d ∈ b!"\"\\/bfnrt" := by decide +kernel
        exact this d hd

end JsonStruct
