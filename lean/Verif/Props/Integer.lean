import Verif.Lemmas.Register

/- Writing and reading integers. -/

namespace JsonStruct

/-- C16. The text written for an integer is its decimal notation: a minus sign exactly for
the negative values, then the digits of the magnitude without leading zeros (the integer part
of an RFC 8259 number). -/
theorem C16_canonical_decimal (T : IntTy) (hT : T.Supported) (v : Int) (hv : T.InRange v) :
    ∃ ds, intFrom T v = some ((if v < 0 then b!"-" else []) ++ ds) ∧ JsonInt ds ∧ decVal ds = v.natAbs := by
  obtain ⟨c1, c2, c3⟩ := countChars_spec hT v hv
  refine ⟨_, intFrom_eq hT v hv, ?_, ?_⟩
  · by_cases h0 : 10 ^ (countChars T v - 1) ≤ v.natAbs
    · right
      refine ⟨⟨?_, fixedDigits_digits _ _⟩, fixedDigits_head h0 c2 c1⟩
      intro he; have := fixedDigits_length (countChars T v) v.natAbs; rw [he] at this; simp at this; omega
    · left
      have hc : countChars T v = 1 := by omega
      rw [hc] at h0 ⊢
      have hz : v.natAbs = 0 := by simp at h0; omega
      rw [hz]; rfl
  · rw [fixedDigits_val, Nat.mod_eq_of_lt c2]

example : intFrom ⟨8, true⟩ (-128) = some b!"-128" := by decide +kernel
example : intFrom ⟨64, false⟩ 18446744073709551615 = some b!"18446744073709551615" := by decide +kernel
example : intFrom ⟨128, true⟩ (-170141183460469231731687303715884105728) =
    some b!"-170141183460469231731687303715884105728" := by decide +kernel

/-- C16. It is a valid JSON number. -/
theorem C16_valid_number (T : IntTy) (hT : T.Supported) (v : Int) (hv : T.InRange v) :
    ∃ txt, intFrom T v = some txt ∧ JsonNumber txt := by
  obtain ⟨ds, h1, h2, _⟩ := C16_canonical_decimal T hT v hv
  refine ⟨_, h1, (if v < 0 then b!"-" else []), ds, [], [], by simp, ?_, h2, .inl rfl, .inl rfl⟩
  split <;> simp

/-- C14. The text written for any value of any integer type parses back to that value. -/
theorem C14_integer_round_trip (T : IntTy) (hT : T.Supported) (v : Int) (hv : T.InRange v) :
    ∃ txt, intFrom T v = some txt ∧ intTo T txt = (.noError, v) := by
  have ok := tyOk hT
  obtain ⟨ds, h1, h2, h3⟩ := C16_canonical_decimal T hT v hv
  refine ⟨_, h1, ?_⟩
  let n : NumText := { neg := decide (v < 0), int := ds }
  have hds : AllDigits ds := by
    rcases h2 with rfl | ⟨⟨_, h⟩, _⟩
    · intro c hc; simp at hc; subst hc; decide
    · exact h
  have hne : ds ≠ [] := by rcases h2 with rfl | ⟨⟨h, _⟩, _⟩ <;> simp_all
  have hm : n.mantissa = v.natAbs := by simp [NumText.mantissa, n, h3]
  have hs : n.scale = 0 := by simp [NumText.scale, n]
  have hsc : scaled n.mantissa n.scale = v.natAbs := by simp [scaled, hm, hs]
  have hlt : v.natAbs < T.modulus := by
    have key : ∀ T : IntTy, T.Supported → T.signed = true → T.max + 1 < T.modulus := by
      intro T h
      rcases supported_cases h with rfl | rfl | rfl | rfl | rfl | rfl | rfl | rfl | rfl | rfl <;> decide +kernel
    have h1 := hv.1
    have h2 := hv.2
    cases hsg : T.signed
    · have := ok.min_zero hsg; have := ok.max_mod; omega
    · have := ok.min_eq hsg; have := key T hT hsg; omega
  have := intTo_value hT [] (by simp) n ⟨hds, by simp [n], by simp [n]⟩ (by simp [NumText.text, n, hne])
    (by
      intro hneg
      simp [n] at hneg
      cases hsg : T.signed
      · have := ok.min_zero hsg; have := hv.1; omega
      · rfl)
    (by rw [hm]; exact hlt) (.inl rfl) (by rw [hs]; simp) (.inr (by rw [hsc]; exact hlt))
  have htext : n.text = (if v < 0 then b!"-" else []) ++ ds := by simp [NumText.text, n, fracText, expText]
  rw [List.nil_append, htext] at this
  rw [this]
  congr 1
  have htr : n.trunc = v := by
    unfold NumText.trunc
    rw [hsc]
    by_cases hneg : v < 0 <;> simp [n, hneg] <;> omega
  rw [htr]
  unfold IntTy.clamp
  have := hv.1; have := hv.2
  rw [if_neg (by omega), if_neg (by omega)]

example : IntTy.Supported ⟨128, true⟩ ∧ IntTy.InRange ⟨128, true⟩ (-170141183460469231731687303715884105728) := by decide

/-- C15. A number literal, with or without fraction and exponent and possibly behind white
space, parses to its value cut off toward zero, and if the target type cannot hold that, to the
nearest value it can hold. Missing from the full claim, and false without (see below): a minus sign
for an unsigned type; digits that do not fit the 64 (or, for 128 bit types, 128) bits of the
intermediate mantissa; fractions of more than 255 digits; zero with a positive exponent. -/
theorem C15_value_partial (T : IntTy) (hT : T.Supported) (sp : Bytes) (hsp : ∀ c ∈ sp, isWs c = true)
    (n : NumText) (hn : n.Loose) (hne : n.text ≠ [])
    (hneg : n.neg = true → T.signed = true)
    (hfit : n.mantissa < 2 ^ (if T.bits ≤ 64 then 64 else 128))
    (hlen : n.frac = none ∨ (n.int ++ n.frac.getD []).length ≤ 255)
    (hzero : n.mantissa = 0 → n.scale ≤ 0)
    (hscale : scaled n.mantissa n.scale < 2 ^ (if T.bits ≤ 64 then 64 else 128) ∨ T.bits ≤ 32 ∨ (T.bits = 64 ∧ T.signed = true)) :
    intTo T (sp ++ n.text) = (.noError, T.clamp n.trunc) := by
  have hmod : T.modulus = 2 ^ (if T.bits ≤ 64 then 64 else 128) := by unfold IntTy.modulus; split <;> rfl
  refine intTo_value hT sp ?_ n hn hne hneg (by rw [hmod]; exact hfit) ?_ hzero ?_
  · intro c hc
    have := hsp c hc
    exact forall_byte (p := fun c => isWs c = true → isSpace c = true) (by decide +kernel) c this
  · rcases hlen with h | h
    · exact .inl h
    · exact .inr (by omega)
  · rcases hscale with h | h
    · exact .inr (by rw [hmod]; exact h)
    · left
      rcases supported_cases hT with rfl | rfl | rfl | rfl | rfl | rfl | rfl | rfl | rfl | rfl <;>
        first | decide +kernel | (simp at h)

/-- The integer literals: sign and digits. -/
theorem C15_integer_literal_partial (T : IntTy) (hT : T.Supported) (neg : Bool) (ds : Bytes) (hds : Digits ds)
    (hneg : neg = true → T.signed = true) (hfit : decVal ds < 2 ^ (if T.bits ≤ 64 then 64 else 128)) :
    intTo T ((if neg then b!"-" else []) ++ ds) =
      (.noError, T.clamp (if neg then -(decVal ds : Int) else decVal ds)) := by
  have := C15_value_partial T hT [] (by simp) { neg := neg, int := ds } ⟨hds.2, by simp, by simp⟩
    (by simp [NumText.text, hds.1]) hneg (by simpa [NumText.mantissa] using hfit) (.inl rfl)
    (by simp [NumText.scale]) (.inl (by simpa [NumText.mantissa, NumText.scale, scaled] using hfit))
  simpa [NumText.text, NumText.trunc, NumText.mantissa, NumText.scale, scaled, fracText, expText] using this

example : intTo ⟨8, true⟩ b!"-1234" = (.noError, -128) := by decide +kernel
example : intTo ⟨8, true⟩ b!"-12.99" = (.noError, -12) := by decide +kernel
example : intTo ⟨16, false⟩ b!"12.5e2" = (.noError, 1250) := by decide +kernel
/-- The hypotheses hold of `-12.5e1` read into a signed byte. -/
example : let n : NumText := { neg := true, int := b!"12", frac := some b!"5", exp := some (0x65, [], b!"1") }
    n.text = b!"-12.5e1" ∧ n.mantissa = 125 ∧ n.scale = 0 ∧ n.trunc = -125 := by decide

/-- C15. What is read in every other case too: for all supported types and all texts that are accepted (the following theorem),
the number is computed in a register of 64 bits, of 128 bits for types of 128 bits. So all digits count modulo `2^64`, the digits
are counted modulo 256, and if an exponent appends digits the limit of the type is given without computing if there are then more
of them than in the maximum of the type. -/
theorem C15_exact (T : IntTy) (hT : T.Supported) (sp : Bytes)
    (hsp : ∀ c ∈ sp, c ∈ ([0x20, 0x09, 0x0A, 0x0B, 0x0C, 0x0D] : Bytes)) (n : NumText) (hn : n.Loose) (hne : n.text ≠ []) :
    intTo T (sp ++ n.text) = (.noError, n.inRegister T (if T.bits ≤ 64 then 64 else 128)) :=
  intTo_exact hT sp (fun c hc =>
    forall_byte (p := fun c => c ∈ ([0x20, 0x09, 0x0A, 0x0B, 0x0C, 0x0D] : Bytes) → isSpace c = true) (by decide +kernel) c (hsp c hc))
    n hn hne

/-- The hypotheses hold of `-18446744073709551621`, which a signed integer reads as -5. -/
example : let n : NumText := { neg := true, int := b!"18446744073709551621" }
    n.Loose ∧ n.text ≠ [] ∧ n.inRegister ⟨32, true⟩ 64 = -5 := by
  refine ⟨⟨?_, by simp, by simp⟩, by decide, by decide +kernel⟩
  unfold AllDigits
  decide
/-- `0e10` and `99e9` are read as the maximum of a 32 bit type, `0e9` as 0. -/
example : NumText.inRegister { int := b!"0", exp := some (0x65, [], b!"10") } ⟨32, true⟩ 64 = 2147483647 ∧
    NumText.inRegister { int := b!"99", exp := some (0x65, [], b!"9") } ⟨32, true⟩ 64 = 2147483647 ∧
    NumText.inRegister { int := b!"0", exp := some (0x65, [], b!"9") } ⟨32, true⟩ 64 = 0 := by decide +kernel

/-- C15 is false: digits beyond the mantissa wrap around instead of saturating. -/
theorem C15_false_wraps : intTo ⟨32, true⟩ b!"18446744073709551617" = (.noError, 1) := by decide +kernel

/-- C15 is false: also with the exponent. -/
theorem C15_false_exponent_wraps : intTo ⟨64, false⟩ b!"9999999999999999999e1" = (.noError, 7766279631452241910) := by
  decide +kernel

/-- C15 is false: the sign is ignored for unsigned types. -/
theorem C15_false_unsigned_minus : intTo ⟨32, false⟩ b!"-5" = (.noError, 5) := by decide +kernel

/-- C15 is false: zero with an exponent can become the greatest value. -/
theorem C15_false_zero_exponent : intTo ⟨32, true⟩ b!"0e10" = (.noError, 2147483647) := by decide +kernel

/-- C15 is false: twenty zeros behind the point make one become zero. -/
theorem C15_false_long_fraction : intTo ⟨32, true⟩ b!"1.00000000000000000000" = (.noError, 0) := by decide +kernel

/-- C15 is false: a fraction of 256 digits is not cut off (the digit counter has eight bits). -/
theorem C15_false_fraction_256 : intTo ⟨32, true⟩ (b!"0." ++ List.replicate 255 0x30 ++ b!"5") = (.noError, 5) := by
  decide +kernel

/-- C15 is false: a lone minus sign is accepted as zero. -/
theorem C15_false_accepts_minus : intTo ⟨32, true⟩ b!"-" = (.noError, 0) := by decide +kernel

/-- C15. Exactly these texts are accepted: white space (`isspace` of the C locale), then an
optional minus sign, digits, optionally a point and digits, optionally an exponent with at
least one digit; not everything may be missing. Everything else is rejected with
FailedToParseInt. Missing from the full claim: digits are not required (see above). -/
theorem C15_accepted_partial (T : IntTy) (text : Bytes) :
    ((intTo T text).1 = .noError ∨ (intTo T text).1 = .failedToParseInt) ∧
    ((intTo T text).1 = .noError ↔ ∃ (sp : Bytes) (n : NumText), text = sp ++ n.text ∧
      (∀ c ∈ sp, c ∈ ([0x20, 0x09, 0x0A, 0x0B, 0x0C, 0x0D] : Bytes)) ∧ n.Loose ∧ n.text ≠ []) := by
  have hsp : ∀ c : Byte, c ∈ ([0x20, 0x09, 0x0A, 0x0B, 0x0C, 0x0D] : Bytes) ↔ isSpace c = true := by
    intro c
    exact forall_byte (p := fun c => c ∈ ([0x20, 0x09, 0x0A, 0x0B, 0x0C, 0x0D] : Bytes) ↔ isSpace c = true) (by decide +kernel) c
  refine ⟨?_, ?_⟩
  · unfold intTo; simp only; split <;> simp
  · constructor
    · intro h
      unfold intTo at h
      rcases hp : parseNumber T.modulus true text with ⟨err, p⟩
      rw [hp] at h
      simp only at h
      split at h
      · simp at h
      · rename_i hc
        have h1 : err = .ok := by by_cases h : err = .ok <;> simp_all
        have h2 : p.rest = [] := by by_cases h : p.rest = [] <;> simp_all
        subst h1
        obtain ⟨sp, n, e1, e2, e3, e4⟩ := parseNumber_accepts _ _ _ hp h2
        exact ⟨sp, n, e1, fun c hc => (hsp c).2 (e2 c hc), e3, e4⟩
    · rintro ⟨sp, n, rfl, h2, h3, h4⟩
      obtain ⟨e, _, hp⟩ := parseNumber_num T.modulus (modulus_pos T) sp (fun c hc => (hsp c).1 (h2 c hc)) n h3 h4
      unfold intTo
      rw [hp]
      simp

example : (intTo ⟨32, true⟩ b!"12a").1 = .failedToParseInt ∧ (intTo ⟨32, true⟩ b!"1.2.3").1 = .failedToParseInt ∧
    (intTo ⟨32, true⟩ b!"1e").1 = .failedToParseInt ∧ (intTo ⟨32, true⟩ b!"").1 = .failedToParseInt := by decide +kernel

end JsonStruct
