import Verif.Lemmas.FloatBack32
import Verif.Lemmas.FloatSafe
import Verif.Props.Float

/-
C33, C59, C61: numbers of type `float`.
-/

namespace JsonStruct

/-! ## C33: writing and reading -/

/-- C33 for floats: every finite float is written as a JSON number, and reading that number gives the same bits. -/
theorem C33_float_round_trip (f : Nat) (hf : f < 2 ^ 32) (hfin : Finite 23 8 f) :
    ∃ text, floatFrom f32 f = some text ∧ JsonNumber text ∧ floatTo text = some (.noError, f) := by
  unfold Finite magnitude at hfin
  norm_num at hf hfin
  have hexp : f / 2 ^ 23 % 2 ^ 8 ≠ 255 := by norm_num; omega
  have hfrom : floatFrom f32 f = floatToBuffer f32 f := by
    unfold floatFrom isNan isInf getParts
    rw [if_neg]
    simp only [show f32.mant = 23 from rfl, show f32.expw = 8 from rfl]
    simp only [Bool.or_eq_true, Bool.and_eq_true, beq_iff_eq]
    rintro (⟨h, _⟩ | ⟨h, _⟩)
    · exact hexp (by simpa using h)
    · exact hexp (by simpa using h)
  by_cases hz : f % 2 ^ 31 = 0
  · norm_num at hz
    have : f = 0 ∨ f = 0x80000000 := by omega
    rcases this with h | h <;> subst h
    · exact ⟨b!"0.0", by decide +kernel, ⟨[], b!"0", b!".0", [], rfl, by simp, .inl rfl, .inr ⟨b!"0", rfl, by unfold Digits; decide +kernel⟩, .inl rfl⟩, by decide +kernel⟩
    · exact ⟨b!"-0.0", by decide +kernel, ⟨b!"-", b!"0", b!".0", [], rfl, by simp, .inl rfl, .inr ⟨b!"0", rfl, by unfold Digits; decide +kernel⟩, .inl rfl⟩, by decide +kernel⟩
  · by_cases hm : f % 2 ^ 31 = f32.inf - 1
    · have hinf : f32.inf = 2139095040 := by decide
      rw [hinf] at hm
      norm_num at hm
      have : f = 0x7F7FFFFF ∨ f = 0xFF7FFFFF := by omega
      rcases this with h | h <;> subst h
      · exact ⟨b!"3.4028235e38", by decide +kernel, ⟨[], b!"3", b!".4028235", b!"e38", rfl, by simp, .inr (by unfold Digits; decide +kernel),
          .inr ⟨b!"4028235", rfl, by unfold Digits; decide +kernel⟩, .inr ⟨0x65, [], b!"38", rfl, by decide, by simp, by unfold Digits; decide +kernel⟩⟩, by decide +kernel⟩
      · exact ⟨b!"-3.4028235e38", by decide +kernel, ⟨b!"-", b!"3", b!".4028235", b!"e38", rfl, by simp, .inr (by unfold Digits; decide +kernel),
          .inr ⟨b!"4028235", rfl, by unfold Digits; decide +kernel⟩, .inr ⟨0x65, [], b!"38", rfl, by decide, by simp, by unfold Digits; decide +kernel⟩⟩, by decide +kernel⟩
    · obtain ⟨n, h1, h2, h4⟩ := float_trip (by norm_num; omega) hexp hz hm
      exact ⟨n.text, by rw [hfrom]; exact h1, h2, h4⟩

-- 0.1, the smallest denormal, and the largest negative float
example : ∀ f ∈ [0x3DCCCCCD, 1, 0xFF7FFFFF], f < 2 ^ 32 ∧ Finite 23 8 f := by decide +kernel

/-! ## C59: reading a number does nothing undefined -/

/-- C59 does not hold for floats either: they are read as doubles first. -/
theorem C59_false_float : floatTo b!"0.0000000000000000001" = none := by decide +kernel

/-- C59 for floats and every text of less than 2^30 bytes, well formed or not, that starts with a digit other than 0: white
space, perhaps a minus, the digit, and anything behind. Missing are texts that start with 0, for which it does not hold in
general; but see `C61_nearest_partial`. -/
theorem C59_float_defined_partial (space sign rest : Bytes) (d : Byte) (hspace : ∀ c ∈ space, c = 0x20 ∨ 9 ≤ c ∧ c ≤ 13)
    (hsign : sign = [] ∨ sign = b!"-") (hd : 0x31 ≤ d ∧ d ≤ 0x39) (hlen : (space ++ sign ++ d :: rest).length < 2 ^ 30) :
    ∃ err f, floatTo (space ++ sign ++ d :: rest) = some (err, f) := by
  have h1 : isDigit d = true ∧ d ≠ 0x30 :=
    forall_byte (p := fun d => 0x31 ≤ d ∧ d ≤ 0x39 → isDigit d = true ∧ d ≠ 0x30) (by decide +kernel) d hd
  have h2 : ∀ c ∈ space, isSpace c = true := fun c hc =>
    forall_byte (p := fun c => c = 0x20 ∨ 9 ≤ c ∧ c ≤ 13 → isSpace c = true) (by decide +kernel) c (hspace c hc)
  have := floatTo_safe (rest := rest) h2 hsign h1.1 h1.2 hlen
  cases h : floatTo (space ++ sign ++ d :: rest) with
  | none => exact absurd h this
  | some x => exact ⟨x.1, x.2, rfl⟩

/-- C59 for floats and JSON numbers of less than 2^30 bytes, exactly: reading one is undefined in the same cases as for doubles. -/
theorem C59_float_exact_partial (n : NumText) (hn : n.Loose) (hint : JsonInt n.int) (hlen : n.text.length < 2 ^ 30) :
    floatTo n.text = none ↔ n.Undefined := by
  rw [float_none (text_plus hn hint) hlen, double_none hn hint]

-- numbers of both kinds, and numbers close to them that can be read
example : floatTo b!"0.0000000000000000000" = none ∧ (floatTo b!"0.000000000000000000").isSome ∧ (floatTo b!"0.61e-324").isSome = false ∧
    (floatTo b!"0.62e-324").isSome := by decide +kernel

-- a number with an exponent that does not fit an int, and a text that is no number
example : ∃ err f, floatTo b!"1.5e99999999999" = some (err, f) :=
  C59_float_defined_partial b!"" b!"" b!".5e99999999999" 0x31 (by decide +kernel) (.inl rfl) (by decide) (by decide +kernel)
example : ∃ err f, floatTo b!" -1.2.3e" = some (err, f) :=
  C59_float_defined_partial b!" " b!"-" b!".2.3e" 0x31 (by decide +kernel) (.inr rfl) (by decide) (by decide +kernel)

/-! ## C61: the value of a number that is read into a float -/

/-- C61 does not hold next to the overflow threshold: there the comparison with the number as it is written is left out, and
3.402823567797336616e38 is read as infinity, although it is nearer to the largest float. -/
theorem C61_false_overflow :
    floatTo b!"3.402823567797336616e38" = some (.noError, 0x7F800000) ∧
    ∃ n : NumText, n.text = b!"3.402823567797336616e38" ∧
      |absValue 23 8 0x7F7FFFFF - n.absValue| < |absValue 23 8 0x7F800000 - n.absValue| := by
  refine ⟨by decide +kernel, ⟨false, b!"3", some b!"402823567797336616", some (0x65, b!"", b!"38")⟩, by decide +kernel, ?_⟩
  have h1 : (⟨false, b!"3", some b!"402823567797336616", some (0x65, b!"", b!"38")⟩ : NumText).mantissa = 3402823567797336616 := by decide +kernel
  have h2 : (⟨false, b!"3", some b!"402823567797336616", some (0x65, b!"", b!"38")⟩ : NumText).scale = 20 := by decide +kernel
  unfold NumText.absValue
  rw [h1, h2]
  norm_num [absValue, magnitude, abs_of_pos, abs_of_neg]

/-- C61 does not hold next to the underflow threshold, for the same reason: 7.006492321624085355e-46 is read as 0, although it is
nearer to the smallest float. -/
theorem C61_false_underflow :
    floatTo b!"7.006492321624085355e-46" = some (.noError, 0) ∧
    ∃ n : NumText, n.text = b!"7.006492321624085355e-46" ∧ |absValue 23 8 1 - n.absValue| < |absValue 23 8 0 - n.absValue| := by
  refine ⟨by decide +kernel, ⟨false, b!"7", some b!"006492321624085355", some (0x65, b!"-", b!"46")⟩, by decide +kernel, ?_⟩
  have h1 : (⟨false, b!"7", some b!"006492321624085355", some (0x65, b!"-", b!"46")⟩ : NumText).mantissa = 7006492321624085355 := by decide +kernel
  have h2 : (⟨false, b!"7", some b!"006492321624085355", some (0x65, b!"-", b!"46")⟩ : NumText).scale = -64 := by decide +kernel
  unfold NumText.absValue
  rw [h1, h2]
  norm_num [absValue, magnitude, abs_of_pos, abs_of_neg]

/-- C61 does not hold for integers of more than 20 digits and for leading zeros with a large exponent, as in C60: 10^22 is read
as 10^19 (rounded to a float), and 0 times a power of ten as infinity. -/
theorem C61_false_digits :
    floatTo b!"10000000000000000000000" = some (.noError, roundTo f32.toFloatFmt (10 ^ 19) 1) ∧
    floatTo b!"0e400" = some (.noError, 0x7F800000) := by
  decide +kernel

/-- C61 for numbers with any number of digits behind the point, at most 19 in front of it: the float that is read is the nearest
one to the number, of two that are equally near the even one. Missing are numbers within 2^-200 of half the smallest float,
and within 2^78 of the overflow threshold, for which it does not hold; numbers with more than 19 digits in front of the
point; numbers that start with 0 and have an exponent above 308 or cannot be read without undefined operations; and numbers of
more than 19 digits that start with 0.00. -/
theorem C61_nearest_partial (n : NumText) (hn : n.Loose) (hint : JsonInt n.int) (h19 : n.int.length ≤ 19)
    (h0 : n.int ≠ b!"0" ∨ n.expo ≤ 308 ∧ ¬ n.Undefined ∧ ((n.frac.getD []).length ≤ 18 ∨ ∃ c ∈ (n.frac.getD []).take 2, c ≠ 0x30))
    (hlen : (n.frac.getD []).length < 2 ^ 30)
    (hlow : 2 ^ (-200 : Int) < |n.absValue - 2 ^ (-150 : Int)|) (hhigh : 2 ^ 78 < |n.absValue - (2 ^ 128 - 2 ^ 103)|) :
    ∃ b, floatTo n.text = some (.noError, if n.neg then 2 ^ 31 + b else b) ∧ RoundsTo 23 8 b n.absValue := by
  refine float_any hn hint h19 ?_ ?_ hlen hlow hhigh
  · rcases h0 with h | ⟨_, _, h | ⟨c, hc, hc0⟩⟩
    · right
      rcases hint with h' | ⟨⟨h', _⟩, h''⟩
      · exact absurd h' h
      · cases hi : n.int with
        | nil => exact absurd hi h'
        | cons c s => exact ⟨c, by simp, by rw [hi] at h''; simpa using h''⟩
    · by_cases hi : n.int = b!"0"
      · left
        rw [hi]
        simp only [List.length_append, List.length_cons, List.length_nil]
        omega
      · right
        rcases hint with h' | ⟨⟨h', _⟩, h''⟩
        · exact absurd h' hi
        · cases hi : n.int with
          | nil => exact absurd hi h'
          | cons c s => exact ⟨c, by simp, by rw [hi] at h''; simpa using h''⟩
    · right
      rcases hint with h' | ⟨⟨h', _⟩, h''⟩
      · exact ⟨c, by rw [h']; exact List.mem_cons_of_mem _ hc, hc0⟩
      · cases hi : n.int with
        | nil => exact absurd hi h'
        | cons c s => exact ⟨c, by simp, by rw [hi] at h''; simpa using h''⟩
  · rcases hint with h' | ⟨⟨h', _⟩, h''⟩
    · obtain ⟨g1, g2, _⟩ := h0.resolve_left (fun h => h h')
      refine .inr ⟨?_, fun hn' => g2 ((double_none hn (.inl h')).1 hn')⟩
      rw [h', ← expo_eq]
      simp
      omega
    · left
      cases hi : n.int with
      | nil => exact absurd hi h'
      | cons c s => exact ⟨c, s ++ n.frac.getD [], rfl, by rw [hi] at h''; simpa using h''⟩

-- 2^24 + 1 + 10^-30, just above the middle of two floats
example : ∃ n : NumText, n.text = b!"16777217.000000000000000000000000000001" ∧ n.Loose ∧ JsonInt n.int ∧ n.int.length ≤ 19 ∧
    n.int ≠ b!"0" ∧ (n.frac.getD []).length < 2 ^ 30 ∧
    2 ^ (-200 : Int) < |n.absValue - 2 ^ (-150 : Int)| ∧ 2 ^ 78 < |n.absValue - (2 ^ 128 - 2 ^ 103)| := by
  refine ⟨⟨false, b!"16777217", some b!"000000000000000000000000000001", none⟩, by decide +kernel, by unfold NumText.Loose AllDigits Digits; decide +kernel,
    .inr (by unfold Digits; decide +kernel), by decide +kernel, by decide +kernel, by decide +kernel, ?_⟩
  have h1 : (⟨false, b!"16777217", some b!"000000000000000000000000000001", none⟩ : NumText).mantissa = 16777217000000000000000000000000000001 := by decide +kernel
  have h2 : (⟨false, b!"16777217", some b!"000000000000000000000000000001", none⟩ : NumText).scale = -30 := by decide +kernel
  unfold NumText.absValue
  rw [h1, h2]
  constructor <;> norm_num [abs_of_pos, abs_of_neg]
example : floatTo b!"16777217.000000000000000000000000000001" = some (.noError, 0x4B800001) ∧
    floatTo b!"16777217" = some (.noError, 0x4B800000) := by decide +kernel

end JsonStruct
