import Verif.Lemmas.FloatPow
import Verif.Lemmas.FloatTrip
import Verif.Lemmas.FloatExact
import Verif.Lemmas.FloatInt
import Verif.Spec.Float

/-
C33, C34, C59: floating point numbers.
-/

namespace JsonStruct

/-! ## C34: the tables -/

/-- C34: every entry of the two tables of powers of five is right. -/
theorem C34_powers (i : Nat) (w : Nat × Nat) :
    (doubleLessThan[i]? = some w → IsPowerOfFive 124 i (wide w)) ∧ (floatLessThan[i]? = some w → IsPowerOfFive 61 i (wide w)) := by
  have h : ∀ i < 400, (∀ w ∈ doubleLessThan[i]?, 5 ^ i ≤ 2 ^ (Nat.log2 (5 ^ i * 2 - 1)) ∧ 2 ^ (Nat.log2 (5 ^ i * 2 - 1)) < 2 * 5 ^ i ∧
        wide w = 5 ^ i * 2 ^ 124 / 2 ^ (Nat.log2 (5 ^ i * 2 - 1))) ∧
      (∀ w ∈ floatLessThan[i]?, 5 ^ i ≤ 2 ^ (Nat.log2 (5 ^ i * 2 - 1)) ∧ 2 ^ (Nat.log2 (5 ^ i * 2 - 1)) < 2 * 5 ^ i ∧
        wide w = 5 ^ i * 2 ^ 61 / 2 ^ (Nat.log2 (5 ^ i * 2 - 1))) := by decide +kernel
  have hl : doubleLessThan.length ≤ 400 ∧ floatLessThan.length ≤ 400 := by decide +kernel
  constructor <;> intro hw
  · have := (List.getElem?_eq_some_iff.1 hw).1
    exact ⟨_, (h i (by omega)).1 w hw⟩
  · have := (List.getElem?_eq_some_iff.1 hw).1
    exact ⟨_, (h i (by omega)).2 w hw⟩

/-- C34: every entry of the two tables of reciprocals is right. -/
theorem C34_inverses (i : Nat) (w : Nat × Nat) :
    (doubleGreaterEq[i]? = some w → IsInverseOfFive 124 i (wide w)) ∧ (floatGreaterEq[i]? = some w → IsInverseOfFive 59 i (wide w)) := by
  have h : ∀ i < 400, (∀ w ∈ doubleGreaterEq[i]?, 2 ^ (Nat.log2 (5 ^ i)) ≤ 5 ^ i ∧ 5 ^ i < 2 * 2 ^ (Nat.log2 (5 ^ i)) ∧
        wide w = 2 ^ (124 + Nat.log2 (5 ^ i)) / 5 ^ i) ∧
      (∀ w ∈ floatGreaterEq[i]?, 2 ^ (Nat.log2 (5 ^ i)) ≤ 5 ^ i ∧ 5 ^ i < 2 * 2 ^ (Nat.log2 (5 ^ i)) ∧
        wide w = 2 ^ (59 + Nat.log2 (5 ^ i)) / 5 ^ i) := by decide +kernel
  have hl : doubleGreaterEq.length ≤ 400 ∧ floatGreaterEq.length ≤ 400 := by decide +kernel
  constructor <;> intro hw
  · have := (List.getElem?_eq_some_iff.1 hw).1
    exact ⟨_, (h i (by omega)).1 w hw⟩
  · have := (List.getElem?_eq_some_iff.1 hw).1
    exact ⟨_, (h i (by omega)).2 w hw⟩

/-- C34: how many entries there are. -/
theorem C34_lengths :
    doubleLessThan.length = 326 ∧ doubleGreaterEq.length = 291 ∧ floatLessThan.length = 48 ∧ floatGreaterEq.length = 30 := by
  decide +kernel

-- entries that are not exact
example : ∃ w, doubleLessThan[325]? = some w ∧ IsPowerOfFive 124 325 (wide w) :=
  ⟨_, rfl, (C34_powers 325 _).1 rfl⟩
example : ∃ w, doubleGreaterEq[290]? = some w ∧ IsInverseOfFive 124 290 (wide w) :=
  ⟨_, rfl, (C34_inverses 290 _).1 rfl⟩

/-! ## C33: writing and reading -/

/-- C33 does not hold for the double 2^-140 (bits 0x3730000000000000): it is written as `7.174648137343063e-43`, and that is
read as the double before it. -/
theorem C33_false_power_of_two :
    Finite 52 11 0x3730000000000000 ∧ floatFrom f64 0x3730000000000000 = some b!"7.174648137343063e-43" ∧
    doubleTo b!"7.174648137343063e-43" = some (.noError, 0x372fffffffffffff) := by
  decide +kernel

/-- C33 for doubles: every finite double but 2^-140 and -2^-140 is written as a JSON number, and reading that number gives the
same bits. For those two it does not hold; for floats see `C33_float_round_trip`. -/
theorem C33_double_round_trip_partial (f : Nat) (hf : f < 2 ^ 64) (hfin : Finite 52 11 f) (hne : magnitude 52 11 f ≠ 0x3730000000000000) :
    ∃ text, floatFrom f64 f = some text ∧ JsonNumber text ∧ doubleTo text = some (.noError, f) := by
  unfold Finite magnitude at hfin
  unfold magnitude at hne
  norm_num at hf hfin hne
  have hexp : f / 2 ^ 52 % 2 ^ 11 ≠ 2047 := by norm_num; omega
  have hfrom : floatFrom f64 f = floatToBuffer f64 f := by
    unfold floatFrom isNan isInf getParts
    rw [if_neg]
    simp only [show f64.mant = 52 from rfl, show f64.expw = 11 from rfl]
    simp only [Bool.or_eq_true, Bool.and_eq_true, beq_iff_eq]
    rintro (⟨h, _⟩ | ⟨h, _⟩)
    · exact hexp (by simpa using h)
    · exact hexp (by simpa using h)
  by_cases hz : f % 2 ^ 63 = 0
  · norm_num at hz
    have : f = 0 ∨ f = 0x8000000000000000 := by omega
    rcases this with h | h <;> subst h
    · exact ⟨b!"0.0", by decide +kernel, ⟨[], b!"0", b!".0", [], rfl, by simp, .inl rfl, .inr ⟨b!"0", rfl, by unfold Digits; decide +kernel⟩, .inl rfl⟩, by decide +kernel⟩
    · exact ⟨b!"-0.0", by decide +kernel, ⟨b!"-", b!"0", b!".0", [], rfl, by simp, .inl rfl, .inr ⟨b!"0", rfl, by unfold Digits; decide +kernel⟩, .inl rfl⟩, by decide +kernel⟩
  · obtain ⟨n, h1, h2, _, h4⟩ := double_trip (by omega) hexp hz (by norm_num; omega)
    exact ⟨n.text, by rw [hfrom]; exact h1, h2, h4⟩

/-- C33: NaN and the infinities are written as `null`. -/
theorem C33_nonfinite_null (f : Nat) :
    (¬ Finite 52 11 f → floatFrom f64 f = some b!"null") ∧ (¬ Finite 23 8 f → floatFrom f32 f = some b!"null") := by
  have key : ∀ T : FloatTy, ¬ Finite T.mant T.expw f → floatFrom T f = some b!"null" := by
    intro T h
    unfold Finite magnitude at h
    rw [Decidable.not_not, Nat.add_comm, pow_add, Nat.mul_comm, Nat.mod_mul_right_div_self] at h
    unfold floatFrom isNan isInf getParts
    rw [if_pos]
    simp only [h, beq_self_eq_true, Bool.true_and, Bool.or_eq_true, decide_eq_true_eq, beq_iff_eq]
    omega
  exact ⟨key f64, key f32⟩

-- 0.1, the smallest denormal, and the largest double
example : ∀ f ∈ [0x3FB999999999999A, 1, 0xFFEFFFFFFFFFFFFF], f < 2 ^ 64 ∧ Finite 52 11 f ∧ magnitude 52 11 f ≠ 0x3730000000000000 := by
  decide +kernel
example : ¬ Finite 52 11 0x7FF0000000000000 ∧ ¬ Finite 23 8 0x7FC00000 := by decide +kernel

/-! ## C59: reading a number does nothing undefined -/

/-- C59 does not hold: after 19 zeros, the division in front of the twentieth digit is one by zero. -/
theorem C59_false_zeros : doubleTo b!"0.0000000000000000001" = none := by decide +kernel

/-- C59 does not hold: leading zeros count as digits, so that a number far below the smallest double is not taken to be 0;
its bits are shifted by more than 63 places. -/
theorem C59_false_shift : doubleTo b!"0.00001e-320" = none := by decide +kernel

/-- C59 for every text, well formed or not, that starts with a digit other than 0: white space, perhaps a minus, the digit, and
anything behind. Missing are texts that start with 0, for which it does not hold in general; but see
`C60_nearest_partial` and `C60_nearest_long_partial`. -/
theorem C59_defined_partial (space sign rest : Bytes) (d : Byte) (hspace : ∀ c ∈ space, c = 0x20 ∨ 9 ≤ c ∧ c ≤ 13)
    (hsign : sign = [] ∨ sign = b!"-") (hd : 0x31 ≤ d ∧ d ≤ 0x39) : ∃ err f, doubleTo (space ++ sign ++ d :: rest) = some (err, f) := by
  have h1 : isDigit d = true ∧ d ≠ 0x30 :=
    forall_byte (p := fun d => 0x31 ≤ d ∧ d ≤ 0x39 → isDigit d = true ∧ d ≠ 0x30) (by decide +kernel) d hd
  have h2 : ∀ c ∈ space, isSpace c = true := fun c hc =>
    forall_byte (p := fun c => c = 0x20 ∨ 9 ≤ c ∧ c ≤ 13 → isSpace c = true) (by decide +kernel) c (hspace c hc)
  have := doubleTo_safe (rest := rest) h2 hsign h1.1 h1.2
  cases h : doubleTo (space ++ sign ++ d :: rest) with
  | none => exact absurd h this
  | some x => exact ⟨x.1, x.2, rfl⟩

/-- C59 for JSON numbers, exactly: reading one as a double is undefined if and only if it starts with 0, and either 18 more zeros
and another digit follow behind the point, or it is less than 2^-1077 while its exponent is -324 or more. So it does not hold, but
these are all cases. -/
theorem C59_exact_partial (n : NumText) (hn : n.Loose) (hint : JsonInt n.int) : doubleTo n.text = none ↔ n.Undefined :=
  double_none hn hint

-- numbers of both kinds, and numbers close to them that can be read
example : doubleTo b!"0.0000000000000000000" = none ∧ (doubleTo b!"0.000000000000000000").isSome ∧ (doubleTo b!"0.0000000000000000010").isSome ∧
    (doubleTo b!"0.0000000000000000001").isSome = false ∧ (doubleTo b!"0.0000000000000000009e7").isSome = false ∧
    (doubleTo b!"0.61e-324").isSome = false ∧ (doubleTo b!"0.62e-324").isSome ∧ (doubleTo b!"0.61e-325").isSome ∧
    (doubleTo b!"0.0061e-322").isSome = false := by decide +kernel

-- a text that is no number
example : ∃ err f, doubleTo b!" -1.2.3e" = some (err, f) :=
  C59_defined_partial b!" " b!"-" b!".2.3e" 0x31 (by decide +kernel) (.inr rfl) (by decide)

/-! ## C60: the value of a number that is read -/

/-- C60 does not hold for integers of more than 20 digits: the digits behind the twentieth are dropped without being counted.
10^22 written as an integer is read as 10^19. -/
theorem C60_false_long_integer :
    doubleTo b!"10000000000000000000000" = some (.noError, roundTo f64.toFloatFmt (10 ^ 19) 1) ∧
    absValue 52 11 (roundTo f64.toFloatFmt (10 ^ 19) 1) = 10 ^ 19 := by
  constructor
  · decide +kernel
  · have : roundTo f64.toFloatFmt (10 ^ 19) 1 = 0x43E158E460913D00 := by decide +kernel
    rw [this]
    norm_num [absValue, magnitude]

/-- C60 does not hold for an exponent with zeros in front of the mantissa, since they are taken for digits that count:
0 times a large power of ten, and 10^306 written with leading zeros, are read as infinity. -/
theorem C60_false_leading_zeros :
    doubleTo b!"0e400" = some (.noError, 0x7FF0000000000000) ∧ doubleTo b!"0.0001e310" = some (.noError, 0x7FF0000000000000) := by
  decide +kernel

/-- C60 does not hold for any number that starts with 0 and has an exponent above 308, however small: it is read as infinity,
unless reading it is undefined. -/
theorem C60_false_large_exponent (n : NumText) (hn : n.Loose) (hint : n.int = b!"0") (he : 308 < n.expo) (hdef : ¬ n.Undefined) :
    doubleTo n.text = some (.noError, if n.neg then 0xFFF0000000000000 else 0x7FF0000000000000) := by
  have h : (n.frac.getD []).length ≤ 18 ∨ ∃ c ∈ (n.frac.getD []).take 18, c ≠ 0x30 := by
    by_contra hc
    obtain ⟨h1, h2⟩ := not_or.1 hc
    refine hdef ⟨hint, .inl ⟨by omega, fun c hc => ?_⟩⟩
    by_contra hne
    exact h2 ⟨c, hc, hne⟩
  rw [double_inf_zero hn hint he h]
  congr 2
  cases n.neg <;> decide

-- 10^-1 and 0
example : ∃ n : NumText, n.text = b!"-0.0000001e309" ∧ n.Loose ∧ n.int = b!"0" ∧ 308 < n.expo ∧ ¬ n.Undefined := by
  have hl : (⟨true, b!"0", some b!"0000001", some (0x65, b!"", b!"309")⟩ : NumText).Loose := by
    unfold NumText.Loose AllDigits Digits; decide +kernel
  refine ⟨⟨true, b!"0", some b!"0000001", some (0x65, b!"", b!"309")⟩, by decide +kernel, hl, rfl, by decide +kernel, fun h => ?_⟩
  have h1 := (C59_exact_partial _ hl (.inl rfl)).2 h
  exact absurd h1 (by decide +kernel)

/-- C60 does not hold for more than 19 digits: the number 2^53 + 1 + 10^-8 is read as 2^53, although 2^53 + 2 is nearer. -/
theorem C60_false_long_fraction :
    doubleTo b!"9007199254740993.00000001" = some (.noError, 0x4340000000000000) ∧ absValue 52 11 0x4340000000000000 = 2 ^ 53 ∧
    absValue 52 11 0x4340000000000001 = 2 ^ 53 + 2 ∧
    (⟨false, b!"9007199254740993", some b!"00000001", none⟩ : NumText).absValue = 2 ^ 53 + 1 + 10 ^ (-8 : Int) := by
  refine ⟨by decide +kernel, by norm_num [absValue, magnitude], by norm_num [absValue, magnitude], ?_⟩
  have h1 : (⟨false, b!"9007199254740993", some b!"00000001", none⟩ : NumText).mantissa = 900719925474099300000001 := by decide +kernel
  have h2 : (⟨false, b!"9007199254740993", some b!"00000001", none⟩ : NumText).scale = -8 := by decide +kernel
  unfold NumText.absValue
  rw [h1, h2]
  norm_num

/-- C60 for numbers of up to 19 digits: the double that is read is the nearest one to the number, up to a 2^-109th part of the
number. Infinity takes the place of 2^1024, and numbers from there on are read as infinity. Missing are numbers that start
with 0 and have an exponent above 308, for which it does not hold (`C60_false_large_exponent`), and those whose reading is
undefined. -/
theorem C60_nearest_partial (n : NumText) (hn : n.Loose) (hint : JsonInt n.int) (h19 : (n.int ++ n.frac.getD []).length ≤ 19)
    (h0 : n.int ≠ b!"0" ∨ n.expo ≤ 308 ∧ ¬ n.Undefined) :
    ∃ b, doubleTo n.text = some (.noError, if n.neg then 2 ^ 63 + b else b) ∧ b ≤ 0x7FF0000000000000 ∧
      (2 ^ 1024 ≤ n.absValue → b = 0x7FF0000000000000) ∧
      ∀ x ≤ 0x7FF0000000000000, |absValue 52 11 b - n.absValue| ≤ |absValue 52 11 x - n.absValue| + n.absValue / 2 ^ 109 := by
  obtain ⟨b, h1, h2, h4, h3⟩ := double_any hn (text_ne hint) (by rw [List.length_append] at h19; omega) (.inl h19) (by
    rcases h0 with h | h
    · left
      rcases hint with h' | ⟨⟨h', _⟩, h''⟩
      · exact absurd h' h
      · cases hi : n.int with
        | nil => exact absurd hi h'
        | cons c s => exact ⟨c, s ++ n.frac.getD [], rfl, by rw [hi] at h''; simpa using h''⟩
    · rcases hint with h' | ⟨⟨h', _⟩, h''⟩
      · refine .inr ⟨?_, fun hn' => h.2 ((double_none hn (.inl h')).1 hn')⟩
        rw [h', ← expo_eq]
        simp
        omega
      · left
        cases hi : n.int with
        | nil => exact absurd hi h'
        | cons c s => exact ⟨c, s ++ n.frac.getD [], rfl, by rw [hi] at h''; simpa using h''⟩)
  refine ⟨b, h1, h2, h4, ?_⟩
  intro x hx
  have := h3 x (by unfold magnitude; norm_num; omega)
  rw [dropped, if_pos h19] at this
  linarith

/-- C60 for integers below 2^53, written with up to 19 digits, in whatever way: they are read exactly. -/
theorem C60_integers_partial (n : NumText) (hn : n.Loose) (hint : JsonInt n.int) (h19 : (n.int ++ n.frac.getD []).length ≤ 19)
    (h0 : n.int ≠ b!"0" ∨ n.expo ≤ 308 ∧ ¬ n.Undefined) (v : Nat) (hv : v < 2 ^ 53) (hval : n.absValue = v) :
    ∃ b, doubleTo n.text = some (.noError, if n.neg then 2 ^ 63 + b else b) ∧ b ≤ 0x7FF0000000000000 ∧ absValue 52 11 b = v := by
  obtain ⟨b, h1, h2, -, h3⟩ := C60_nearest_partial n hn hint h19 h0
  rw [hval] at h3
  exact ⟨b, h1, h2, near_exact hv h2 h3⟩

/-- The hypotheses are met by `-12.5e1`, which is -125. -/
example : let n : NumText := ⟨true, b!"12", some b!"5", some (0x65, [], b!"1")⟩
    n.text = b!"-12.5e1" ∧ n.Loose ∧ JsonInt n.int ∧ (n.int ++ n.frac.getD []).length ≤ 19 ∧ n.int ≠ b!"0" ∧ n.absValue = (125 : Nat) ∧
    doubleTo n.text = some (.noError, 2 ^ 63 + 0x405F400000000000) := by
  intro n
  have hd : ∀ c ∈ b!"12", isDigit c = true := by decide
  have hd' : ∀ c ∈ b!"5" ++ b!"1", isDigit c = true := by decide
  refine ⟨by decide, ⟨hd, ?_, ?_⟩, .inr ⟨⟨by decide, hd⟩, by decide⟩, by decide, by decide, ?_,
    by decide +kernel⟩
  · rintro f hf c hc
    simp only [n, Option.mem_def, Option.some.injEq] at hf
    subst hf
    exact hd' c (List.mem_append_left _ hc)
  · rintro x hx
    simp only [n, Option.mem_def, Option.some.injEq] at hx
    subst hx
    exact ⟨.inl rfl, .inl rfl, by simp, fun c hc => hd' c (List.mem_append_right _ hc)⟩
  · have h1 : n.mantissa = 125 := by decide +kernel
    have h2 : n.scale = 0 := by decide +kernel
    rw [NumText.absValue, h1, h2]
    norm_num

/-- C60 for numbers with any number of digits behind the point: of the doubles none is nearer to the number by more than three
units of the 19th digit, and numbers from 2^1024 on are read as infinity. Missing are numbers that have more than 19 digits
in front of the point, or start with 0 and have an exponent above 308 or cannot be read without undefined operations. -/
theorem C60_nearest_long_partial (n : NumText) (hn : n.Loose) (hint : JsonInt n.int) (h19 : n.int.length ≤ 19)
    (h0 : n.int ≠ b!"0" ∨ n.expo ≤ 308 ∧ ¬ n.Undefined) :
    ∃ b, doubleTo n.text = some (.noError, if n.neg then 2 ^ 63 + b else b) ∧ b ≤ 0x7FF0000000000000 ∧
      (2 ^ 1024 ≤ n.absValue → b = 0x7FF0000000000000) ∧
      ∀ x ≤ 0x7FF0000000000000, |absValue 52 11 b - n.absValue| ≤
        |absValue 52 11 x - n.absValue| + 3 * 10 ^ (n.scale + (n.int ++ n.frac.getD []).length - 19) := by
  have hdig := allDigits_num hn
  have hl : Leads (n.int ++ n.frac.getD []) ∨ expoOf n + n.int.length ≤ 309 ∧ doubleTo n.text ≠ none := by
    rcases hint with h' | ⟨⟨h', _⟩, h''⟩
    · obtain ⟨g1, g2⟩ := h0.resolve_left (fun h => h h')
      refine .inr ⟨?_, fun hn' => g2 ((double_none hn (.inl h')).1 hn')⟩
      rw [h', ← expo_eq]
      simp
      omega
    · left
      cases hi : n.int with
      | nil => exact absurd hi h'
      | cons c s => exact ⟨c, s ++ n.frac.getD [], rfl, by rw [hi] at h''; simpa using h''⟩
  have hz : (n.int ++ n.frac.getD []).length ≤ 19 ∨ decVal ((n.int ++ n.frac.getD []).take 19) ≠ 0 := by
    by_cases hlong : (n.int ++ n.frac.getD []).length ≤ 19
    · exact .inl hlong
    · right
      refine decVal_ne_zero (fun c hc => hdig c (List.mem_of_mem_take hc)) ?_
      rcases hint with h' | ⟨⟨h', _⟩, h''⟩
      · obtain ⟨g1, g2⟩ := h0.resolve_left (fun h => h h')
        by_contra hc
        refine g2 ⟨h', .inl ⟨?_, fun c hc' => ?_⟩⟩
        · rw [h'] at hlong
          simp at hlong
          omega
        · by_contra hne
          exact hc ⟨c, by rw [h']; exact List.mem_cons_of_mem _ hc', hne⟩
      · cases hi : n.int with
        | nil => exact absurd hi h'
        | cons c s => exact ⟨c, by simp, by rw [hi] at h''; simpa using h''⟩
  obtain ⟨b, h1, h2, h4, h3⟩ := double_any hn (text_ne hint) h19 hz hl
  refine ⟨b, h1, h2, h4, ?_⟩
  intro x hx
  have h4 := h3 x (by unfold magnitude; norm_num; omega)
  have h5 : dropped n ≤ 10 ^ (n.scale + (n.int ++ n.frac.getD []).length - 19) := by
    unfold dropped
    split
    · positivity
    · exact le_refl _
  have h6 : n.absValue / 2 ^ 109 ≤ 10 ^ (n.scale + (n.int ++ n.frac.getD []).length - 19) := by
    rw [div_le_iff₀ (by positivity)]
    unfold NumText.absValue
    have g1 : (n.mantissa : ℚ) ≤ ((10 ^ (n.int ++ n.frac.getD []).length : Nat) : ℚ) := by exact_mod_cast (decVal_lt _ hdig).le
    refine le_trans (mul_le_mul_of_nonneg_right g1 (by positivity)) ?_
    have g2 : (10 : ℚ) ^ (n.scale + (n.int ++ n.frac.getD []).length - 19) =
        10 ^ (n.int ++ n.frac.getD []).length * 10 ^ n.scale * (1 / 10 ^ 19) := by
      rw [zpow_sub₀ (by norm_num), zpow_add₀ (by norm_num), zpow_natCast]
      norm_num
      ring
    rw [g2]
    push_cast
    have g3 : (0 : ℚ) ≤ 10 ^ (n.int ++ n.frac.getD []).length * 10 ^ n.scale := by positivity
    have g4 : (1 : ℚ) ≤ 1 / 10 ^ 19 * 2 ^ 109 := by norm_num
    nlinarith
  linarith

-- a number with an exponent, one out of range, and one with 30 digits
example : ∃ n : NumText, n.text = b!"-1.5e-7" ∧ n.Loose ∧ JsonInt n.int ∧ (n.int ++ n.frac.getD []).length ≤ 19 ∧ n.int ≠ b!"0" :=
  ⟨⟨true, b!"1", some b!"5", some (0x65, b!"-", b!"7")⟩, by decide +kernel, by unfold NumText.Loose AllDigits Digits; decide +kernel,
    .inr (by unfold Digits; decide +kernel), by decide +kernel, by decide +kernel⟩
example : ∃ n : NumText, n.text = b!"7e999999999" ∧ n.Loose ∧ JsonInt n.int ∧ (n.int ++ n.frac.getD []).length ≤ 19 ∧ n.int ≠ b!"0" :=
  ⟨⟨false, b!"7", none, some (0x65, b!"", b!"999999999")⟩, by decide +kernel, by unfold NumText.Loose AllDigits Digits; decide +kernel,
    .inr (by unfold Digits; decide +kernel), by decide +kernel, by decide +kernel⟩
example : ∃ n : NumText, n.text = b!"0.30000000000000000000000000004e-300" ∧ n.Loose ∧ JsonInt n.int ∧ n.int.length ≤ 19 ∧
    n.expo ≤ 308 ∧ ¬ n.Undefined := by
  have hl : (⟨false, b!"0", some b!"30000000000000000000000000004", some (0x65, b!"-", b!"300")⟩ : NumText).Loose := by
    unfold NumText.Loose AllDigits Digits; decide +kernel
  refine ⟨⟨false, b!"0", some b!"30000000000000000000000000004", some (0x65, b!"-", b!"300")⟩, by decide +kernel, hl,
    .inl rfl, by decide +kernel, by decide +kernel, fun h => ?_⟩
  have h1 := (C59_exact_partial _ hl (.inl rfl)).2 h
  exact absurd h1 (by decide +kernel)

end JsonStruct
