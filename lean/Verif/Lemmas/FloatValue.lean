import Verif.Lemmas.FloatTrip

/-
Which double a number is read as.
-/

namespace JsonStruct

theorem absValue_bits {F : FloatFmt} {b m : Nat} {e : Int} (hb : (b : Int) = (e - F.emin) * 2 ^ F.mant + m) (he : F.emin ≤ e)
    (hm : m ≤ 2 ^ (F.mant + 1)) (hn : F.emin < e → 2 ^ F.mant ≤ m) (hlt : b < 2 ^ (F.mant + F.expw)) :
    absValue F.mant F.expw b = m * 2 ^ e := by
  obtain ⟨k, hk⟩ := Int.eq_ofNat_of_zero_le (show 0 ≤ e - F.emin by omega)
  have he' : e = k + F.emin := by omega
  have hb' : b = k * 2 ^ F.mant + m := by rw [hk] at hb; exact_mod_cast hb
  have hmag : magnitude F.mant F.expw b = b := Nat.mod_eq_of_lt hlt
  have hp : 0 < 2 ^ F.mant := by positivity
  have hemin : F.emin = 2 - 2 ^ (F.expw - 1) - F.mant := rfl
  unfold absValue
  simp only [hmag]
  rw [pow_succ] at hm
  rcases Nat.lt_trichotomy m (2 * 2 ^ F.mant) with h | h | h
  · by_cases hsmall : m < 2 ^ F.mant
    · have hk0 : k = 0 := by
        by_contra hc
        have := hn (by omega)
        omega
      subst hk0
      have e1 : b / 2 ^ F.mant = 0 := by rw [hb']; simp [Nat.div_eq_of_lt hsmall]
      have e2 : b % 2 ^ F.mant = m := by rw [hb']; simp [Nat.mod_eq_of_lt hsmall]
      rw [if_pos e1, e2, he', hemin]
      simp
    · have e1 : b / 2 ^ F.mant = k + 1 := by
        rw [hb', show k * 2 ^ F.mant + m = (m - 2 ^ F.mant) + (k + 1) * 2 ^ F.mant by rw [Nat.add_mul]; omega, Nat.add_mul_div_right _ _ hp,
          Nat.div_eq_of_lt (by omega)]
        omega
      have e2 : b % 2 ^ F.mant = m - 2 ^ F.mant := by
        rw [hb', show k * 2 ^ F.mant + m = (m - 2 ^ F.mant) + (k + 1) * 2 ^ F.mant by rw [Nat.add_mul]; omega, Nat.add_mul_mod_self_right,
          Nat.mod_eq_of_lt (by omega)]
      rw [e1, e2, if_neg (by omega), Nat.cast_sub (by omega), he', hemin]
      push_cast
      congr 1
      · ring
      · congr 1; ring
  · have e1 : b / 2 ^ F.mant = k + 2 := by
      rw [hb', h, ← Nat.add_mul, Nat.mul_div_cancel _ hp]
    have e2 : b % 2 ^ F.mant = 0 := by
      rw [hb', h, ← Nat.add_mul, Nat.mul_mod_left]
    rw [e1, e2, if_neg (by omega), he', hemin, h]
    push_cast
    rw [show ((k : Int) + 2 + 1 - 2 ^ (F.expw - 1) - F.mant) = (k + (2 - 2 ^ (F.expw - 1) - F.mant)) + 1 by ring, zpow_add_one₀ (by norm_num)]
    ring
  · omega

/-- Every number in the form of mantissa and exponent. -/
theorem absValue_form (F : FloatFmt) (x : Nat) :
    ∃ (m : Nat) (e : Int), absValue F.mant F.expw x = m * 2 ^ e ∧ F.emin ≤ e ∧ m < 2 ^ (F.mant + 1) := by
  have hemin : F.emin = 2 - 2 ^ (F.expw - 1) - F.mant := rfl
  unfold absValue
  simp only
  generalize magnitude F.mant F.expw x = b
  have hlt := Nat.mod_lt b (show 0 < 2 ^ F.mant by positivity)
  rw [pow_succ]
  split
  · exact ⟨b % 2 ^ F.mant, F.emin, by rw [hemin], le_refl _, by omega⟩
  · rename_i hne
    have hpos : 1 ≤ b / 2 ^ F.mant := Nat.one_le_iff_ne_zero.2 hne
    refine ⟨2 ^ F.mant + b % 2 ^ F.mant, _, by push_cast; rfl, ?_, by omega⟩
    have hq : (1 : Int) ≤ ((b / 2 ^ F.mant : Nat) : Int) := by exact_mod_cast hpos
    push_cast at hq ⊢
    rw [hemin]
    linarith

/-- Rounding gives the nearest number. -/
theorem rounds_nearest {F : FloatFmt} {b m : Nat} {e : Int} {W : ℚ} (hr : Rounds F b W m e) (hlt : b < 2 ^ (F.mant + F.expw)) (x : Nat) :
    |absValue F.mant F.expw b - W| ≤ |absValue F.mant F.expw x - W| := by
  have pe : (0 : ℚ) < 2 ^ e := by positivity
  have hm : m ≤ 2 ^ (F.mant + 1) := by
    have h1 := lt_of_mul_lt_mul_right (lt_of_le_of_lt hr.low hr.top) pe.le
    have : (m : ℚ) < 2 ^ (F.mant + 1) + 1 := by linarith
    have : m < 2 ^ (F.mant + 1) + 1 := by exact_mod_cast this
    omega
  have hn : F.emin < e → 2 ^ F.mant ≤ m := by
    intro h
    have h1 := le_of_mul_le_mul_right (le_trans (hr.norm h) hr.high) pe
    have : (2 : ℚ) ^ F.mant < m + 1 := by linarith
    have : 2 ^ F.mant < m + 1 := by exact_mod_cast this
    omega
  rw [absValue_bits hr.bits hr.ge hm hn hlt]
  have hl := hr.low
  have hh := hr.high
  -- multiples of the last place
  have key : ∀ k : Int, |(m : ℚ) * 2 ^ e - W| ≤ |(k : ℚ) * 2 ^ e - W| := by
    intro k
    have hhalf : |(m : ℚ) * 2 ^ e - W| ≤ 1 / 2 * 2 ^ e := by rw [abs_le]; constructor <;> linarith
    rcases lt_trichotomy k m with h | h | h
    · have h1 : (k : ℚ) + 1 ≤ m := by exact_mod_cast h
      have h2 := mul_le_mul_of_nonneg_right h1 pe.le
      refine le_trans hhalf (le_trans ?_ (neg_le_abs _))
      linarith
    · subst h; simp
    · have h1 : (m : ℚ) + 1 ≤ k := by exact_mod_cast h
      have h2 := mul_le_mul_of_nonneg_right h1 pe.le
      refine le_trans hhalf (le_trans ?_ (le_abs_self _))
      linarith
  obtain ⟨mx, ex, hx, hxe, hxm⟩ := absValue_form F x
  rw [hx]
  by_cases hc : e ≤ ex
  · obtain ⟨d, hd⟩ := Int.eq_ofNat_of_zero_le (show 0 ≤ ex - e by omega)
    have : (mx : ℚ) * 2 ^ ex = ((mx * 2 ^ d : Nat) : Int) * 2 ^ e := by
      rw [show ex = d + e by omega, zpow_add₀ (by norm_num), zpow_natCast]; push_cast; ring
    rw [this]
    exact key _
  · have hxq : (mx : ℚ) < 2 ^ (F.mant + 1) := by exact_mod_cast hxm
    have hz : (2 : ℚ) ^ ex * 2 ≤ 2 ^ e := by
      rw [← zpow_add_one₀ (by norm_num)]; exact zpow_le_zpow_right₀ (by norm_num) (by omega)
    have h1 : (mx : ℚ) * 2 ^ ex ≤ 2 ^ F.mant * 2 ^ e := by
      have h2 : (mx : ℚ) * 2 ^ ex ≤ 2 ^ (F.mant + 1) * 2 ^ ex := mul_le_mul_of_nonneg_right hxq.le (by positivity)
      have h3 := mul_le_mul_of_nonneg_left hz (show (0 : ℚ) ≤ 2 ^ F.mant by positivity)
      rw [pow_succ] at h2
      linarith
    have h4 := hr.norm (by omega)
    have h5 := key ((2 ^ F.mant : Nat) : Int)
    push_cast at h5
    refine le_trans h5 ?_
    rw [abs_of_nonpos (by linarith), abs_of_nonpos (by linarith)]
    linarith

/-- No number is above infinity, if that counts as the next power of two. -/
theorem absValue_le {x : Nat} (hx : magnitude 52 11 x ≤ 2047 * 2 ^ 52) : absValue 52 11 x ≤ 2 ^ 1024 := by
  unfold absValue
  simp only
  generalize magnitude 52 11 x = y at hx
  have hm : y % 2 ^ 52 < 2 ^ 52 := Nat.mod_lt _ (by positivity)
  have hq : y / 2 ^ 52 ≤ 2047 := by omega
  have hmq : (2 : ℚ) ^ 52 + (y % 2 ^ 52 : Nat) ≤ 2 ^ 53 := by
    have : 2 ^ 52 + y % 2 ^ 52 ≤ 2 ^ 53 := by omega
    exact_mod_cast this
  have e1024 : (2 : ℚ) ^ 1024 = 2 ^ (1024 : Int) := (zpow_natCast (2 : ℚ) 1024).symm
  split
  · rw [e1024, show (1024 : Int) = 53 + 971 by norm_num, zpow_add₀ (by norm_num)]
    have h1 : ((y % 2 ^ 52 : Nat) : ℚ) ≤ 2 ^ (53 : Int) := by
      have : (2 : ℚ) ^ (53 : Int) = 2 ^ 53 := by norm_cast
      rw [this]
      have : (0 : ℚ) < 2 ^ 52 := by positivity
      linarith
    exact mul_le_mul h1 (zpow_le_zpow_right₀ (by norm_num) (by norm_num)) (by positivity) (by positivity)
  · by_cases h : y / 2 ^ 52 = 2047
    · have hz : y % 2 ^ 52 = 0 := by omega
      rw [h, hz, e1024, show (1024 : Int) = 52 + 972 by norm_num, zpow_add₀ (by norm_num)]
      push_cast
      rw [add_zero]
      refine mul_le_mul (le_of_eq (by norm_cast)) (zpow_le_zpow_right₀ (by norm_num) (by norm_num)) (by positivity) (by positivity)
    · rw [e1024, show (1024 : Int) = 53 + 971 by norm_num, zpow_add₀ (by norm_num)]
      refine mul_le_mul ?_ (zpow_le_zpow_right₀ (by norm_num) ?_) (by positivity) (by positivity)
      · have : (2 : ℚ) ^ (53 : Int) = 2 ^ 53 := by norm_cast
        rw [this]; exact hmq
      · have : ((y / 2 ^ 52 : Nat) : Int) ≤ 2046 := by omega
        norm_num at this ⊢
        linarith

theorem absValue_inf : absValue 52 11 (2047 * 2 ^ 52) = 2 ^ 1024 := by
  have h1 : magnitude 52 11 (2047 * 2 ^ 52) = 2047 * 2 ^ 52 := by norm_num [magnitude]
  have h2 : 2047 * 2 ^ 52 / 2 ^ 52 = 2047 := by norm_num
  have h3 : 2047 * 2 ^ 52 % 2 ^ 52 = 0 := by norm_num
  unfold absValue
  simp only [h1, h2, h3]
  rw [if_neg (by norm_num), show (((2047 : Nat) : Int) + 1 - 2 ^ (11 - 1) - ((52 : Nat) : Int)) = (972 : Nat) by norm_num, zpow_natCast,
    Nat.cast_zero, add_zero, ← pow_add]

theorem absValue_zero : absValue 52 11 0 = 0 := by
  unfold absValue magnitude
  simp

theorem absValue_small (x : Nat) : absValue 52 11 x = 0 ∨ (2 : ℚ) ^ (-1074 : Int) ≤ absValue 52 11 x := by
  obtain ⟨m, e, h1, h2, _⟩ := absValue_form f64.toFloatFmt x
  rw [f64_emin] at h2
  rw [show absValue 52 11 x = m * 2 ^ e from h1]
  rcases Nat.eq_zero_or_pos m with h | h
  · left; rw [h]; simp
  · right
    have hq : (1 : ℚ) ≤ m := by exact_mod_cast h
    have := mul_le_mul hq (zpow_le_zpow_right₀ (show (1 : ℚ) ≤ 2 by norm_num) h2) (by positivity) (by positivity)
    rwa [one_mul] at this

theorem absValue_nonneg (x : Nat) : 0 ≤ absValue 52 11 x := by
  rcases absValue_small x with h | h
  · exact h.ge
  · exact le_trans (by positivity) h

/-- The sign. -/
theorem withSign_add {neg : Bool} {b : Nat} (hb : b < 2 ^ 63) : withSign neg b = if neg then 2 ^ 63 + b else b := by
  unfold withSign
  split
  · have h1 := or_mul_pow (x := b) (y := 1) (k := 63) hb
    rw [Nat.one_mul] at h1
    rw [h1]; omega
  · rfl

/-- The largest finite double. -/
theorem absValue_finite {x : Nat} (hx : x < 2047 * 2 ^ 52) : absValue 52 11 x ≤ 2 ^ 1024 - 2 ^ 970 := by
  have hmag : magnitude 52 11 x = x := by norm_num [magnitude] at hx ⊢; omega
  have hm : x % 2 ^ 52 < 2 ^ 52 := Nat.mod_lt _ (by positivity)
  have hq : x / 2 ^ 52 ≤ 2046 := by omega
  have e1 : (2 ^ 53 - 1) * 2 ^ (971 : Int) ≤ (2 : ℚ) ^ 1024 - 2 ^ 970 := by
    rw [show (971 : Int) = ((1 + 970 : Nat) : Int) from rfl, zpow_natCast, sub_mul, ← pow_add, one_mul, show (53 + (1 + 970) : Nat) = 1024 from rfl,
      pow_add, pow_one]
    have : (0 : ℚ) < 2 ^ 970 := by positivity
    generalize (2 : ℚ) ^ 970 = t at *
    generalize (2 : ℚ) ^ 1024 = I at *
    linarith
  refine le_trans ?_ e1
  have hmq : (2 : ℚ) ^ 52 + (x % 2 ^ 52 : Nat) ≤ 2 ^ 53 - 1 := by
    have : (2 : ℚ) ^ 52 + (x % 2 ^ 52 : Nat) + 1 ≤ 2 ^ 53 := by
      have : 2 ^ 52 + x % 2 ^ 52 + 1 ≤ 2 ^ 53 := by omega
      exact_mod_cast this
    linarith
  unfold absValue
  simp only [hmag]
  split
  · refine mul_le_mul (by linarith) (zpow_le_zpow_right₀ (by norm_num) (by norm_num)) (by positivity) (by norm_num)
  · refine mul_le_mul hmq (zpow_le_zpow_right₀ (by norm_num) (by push_cast; omega)) (by positivity) (by norm_num)

/-- A number that is not too small. -/
theorem above_1077 {p : Parsed} (h : -324 ≤ p.exp) : p.significand = 0 ∨ 2 ^ (-1077 : Int) ≤ p.value := by
  rcases Nat.eq_zero_or_pos p.significand with h0 | h0
  · exact .inl h0
  · right
    refine le_trans pow_1077 ?_
    have e2 : (1 : ℚ) / 10 ^ 324 = 10 ^ (-324 : Int) := by
      rw [show (-324 : Int) = -((324 : Nat) : Int) from rfl, zpow_neg, zpow_natCast, one_div]
    rw [e2]
    have h2 : (1 : ℚ) ≤ p.significand := by exact_mod_cast h0
    refine le_trans ?_ (mul_le_mul_of_nonneg_right h2 (by positivity))
    rw [one_mul]
    exact zpow_le_zpow_right₀ (by norm_num) h

/-- When the conversion of a number is undefined. -/
theorem convert_none {p : Parsed} (h64 : p.significand < 2 ^ 64) (hc : p.count ≤ 20) :
    convertToDouble p = none ↔
      p.significand ≠ 0 ∧ -324 ≤ p.exp + p.count - 1 ∧ p.exp + p.count - 1 ≤ 308 ∧ p.value < 2 ^ (-1077 : Int) := by
  unfold convertToDouble
  simp only
  split
  · simp; omega
  · split
    · simp; omega
    · split
      · rename_i h; simp [h]
      · rename_i h1 h2 h3
        split
        · rename_i h4
          obtain ⟨_, h4⟩ := h4
          have hcc : countChars ⟨64, false⟩ (2 ^ 53) = 16 := by decide +kernel
          rw [hcc] at h4
          simp only [reduceCtorEq, false_iff]
          rintro ⟨_, _, _, h5⟩
          have hab : p.exp.natAbs < 16 := by
            unfold iabs at h4
            simp only [if_true] at h4
            split at h4
            · omega
            · split at h4
              · rename_i g1 g2
                simp [IntTy.min] at g2
                omega
              · omega
          rcases above_1077 (p := p) (by omega) with h | h
          · exact h3 h
          · exact absurd h5 (not_lt.2 h)
        · rw [longWay_none h3 h64 (by omega)]
          constructor
          · intro h; exact ⟨h3, by omega, by omega, h⟩
          · intro h; exact h.2.2.2

/-- The double that is nearest, up to a tiny error. -/
theorem convert_nearest {p : Parsed} (h64 : p.significand < 2 ^ 64) (hc : p.count ≤ 20) (hlt : p.significand < 10 ^ p.count)
    (h : 10 ^ (p.count - 1) ≤ p.significand ∨ p.exp + p.count - 1 ≤ 308 ∧ convertToDouble p ≠ none) :
    ∃ b, convertToDouble p = some (if p.negative then 2 ^ 63 + b else b) ∧ b ≤ 2047 * 2 ^ 52 ∧
      (2 ^ 1024 - 2 ^ 968 ≤ p.value → b = 2047 * 2 ^ 52) ∧
      ∀ x, magnitude 52 11 x ≤ 2047 * 2 ^ 52 → |absValue 52 11 b - p.value| ≤ |absValue 52 11 x - p.value| + p.value / 2 ^ 109 := by
  have hinf : makeInf f64 p.negative = if p.negative then 2 ^ 63 + 2047 * 2 ^ 52 else 2047 * 2 ^ 52 := by
    cases p.negative <;> decide
  have hzero : makeZero f64 p.negative = if p.negative then 2 ^ 63 + 0 else 0 := by
    cases p.negative <;> decide
  have hv0 : 0 ≤ p.value := by unfold Parsed.value; positivity
  have hvd : 0 ≤ p.value / 2 ^ 109 := by positivity
  have hsuff : (∃ b, convertToDouble p = some (if p.negative then 2 ^ 63 + b else b) ∧ b ≤ 2047 * 2 ^ 52 ∧
      (b ≠ 2047 * 2 ^ 52 → p.value ≤ 10 ^ (309 : Int)) ∧
      ∀ x, magnitude 52 11 x ≤ 2047 * 2 ^ 52 → |absValue 52 11 b - p.value| ≤ |absValue 52 11 x - p.value| + p.value / 2 ^ 109) →
    ∃ b, convertToDouble p = some (if p.negative then 2 ^ 63 + b else b) ∧ b ≤ 2047 * 2 ^ 52 ∧
      (2 ^ 1024 - 2 ^ 968 ≤ p.value → b = 2047 * 2 ^ 52) ∧
      ∀ x, magnitude 52 11 x ≤ 2047 * 2 ^ 52 → |absValue 52 11 b - p.value| ≤ |absValue 52 11 x - p.value| + p.value / 2 ^ 109 := by
    rintro ⟨b, b1, b2, b3, b4⟩
    refine ⟨b, b1, b2, fun hV => ?_, b4⟩
    by_contra hne
    have h1 := b4 (2047 * 2 ^ 52) (by norm_num [magnitude])
    have h2 := b3 hne
    have h3 : absValue 52 11 b ≤ 2 ^ 1024 - 2 ^ 970 := absValue_finite (by norm_num at b2 hne ⊢; omega)
    have h4 : (10 : ℚ) ^ (309 : Int) / 2 ^ 109 ≤ 2 ^ 968 := by
      rw [div_le_iff₀ (by positivity), ← pow_add, show (309 : Int) = ((309 : Nat) : Int) from rfl, zpow_natCast]
      have : 10 ^ 309 ≤ 2 ^ 1077 := by decide +kernel
      exact_mod_cast this
    have h5 : p.value / 2 ^ 109 ≤ 2 ^ 968 := le_trans (div_le_div_of_nonneg_right h2 (by positivity)) h4
    have h6 : (2 : ℚ) ^ 970 = 4 * 2 ^ 968 := by rw [show (970 : Nat) = 2 + 968 from rfl, pow_add]; norm_num
    have h7 : (0 : ℚ) < 2 ^ 968 := by positivity
    rw [absValue_inf] at h1
    rw [h6] at h3
    clear h2 h4 h6 b4 b3
    generalize (2 : ℚ) ^ 968 = t at *
    generalize (2 : ℚ) ^ 1024 = I at *
    generalize p.value / 2 ^ 109 = z at *
    generalize p.value = V at *
    rw [abs_of_nonpos (by linarith)] at h1
    rcases le_total I V with h | h
    · rw [abs_of_nonpos (by linarith)] at h1
      linarith
    · rw [abs_of_nonneg (by linarith)] at h1
      linarith
  refine hsuff ?_
  clear hsuff
  have hle : p.exp + p.count - 1 ≤ 308 → p.value ≤ 10 ^ (309 : Int) := by
    intro h'
    have h2 : (p.significand : ℚ) ≤ ((10 ^ p.count : Nat) : ℚ) := by exact_mod_cast hlt.le
    refine le_trans (mul_le_mul_of_nonneg_right h2 (by positivity)) ?_
    push_cast
    rw [← zpow_natCast, ← zpow_add₀ (by norm_num)]
    exact zpow_le_zpow_right₀ (by norm_num) (by omega)
  by_cases hs0 : p.significand = 0 ∧ p.exp + p.count - 1 ≤ 308
  · refine ⟨0, ?_, by norm_num, fun _ => hle (by omega), ?_⟩
    · unfold convertToDouble
      simp only
      rw [if_neg (by omega), if_pos hs0.1, ← hzero]
      simp
    · intro x _
      have : p.value = 0 := by unfold Parsed.value; rw [hs0.1]; simp
      rw [absValue_zero, this]
      simp
  have hs : p.significand ≠ 0 := by
    intro hs
    rcases h with h | h
    · rw [hs] at h; exact absurd h (by simp)
    · exact hs0 ⟨hs, h.1⟩
  by_cases hhi : 308 < p.exp + p.count - 1
  · have hlow : 10 ^ (p.count - 1) ≤ p.significand := by
      rcases h with h | h
      · exact h
      · omega
    refine ⟨2047 * 2 ^ 52, ?_, le_refl _, fun h => absurd rfl h, ?_⟩
    · unfold convertToDouble
      simp only
      rw [if_pos hhi, hinf]
    · intro x hx
      have hV : (2 : ℚ) ^ 1024 ≤ p.value := by
        have h1 : (2 : ℚ) ^ 1024 ≤ 10 ^ 309 := by
          have : 2 ^ 1024 ≤ 10 ^ 309 := by decide +kernel
          have := (Nat.cast_le (α := ℚ)).2 this
          rwa [Nat.cast_pow, Nat.cast_pow] at this
        refine le_trans h1 ?_
        have h2 : ((10 ^ (p.count - 1) : Nat) : ℚ) ≤ p.significand := by exact_mod_cast hlow
        have hcpos : 1 ≤ p.count := by
          by_contra hcc
          have : p.count = 0 := by omega
          rw [this] at hlt
          simp at hlt
          exact hs hlt
        have h3 : (10 : ℚ) ^ (309 : Int) ≤ ((10 ^ (p.count - 1) : Nat) : ℚ) * 10 ^ p.exp := by
          push_cast
          rw [← zpow_natCast, ← zpow_add₀ (by norm_num)]
          exact zpow_le_zpow_right₀ (by norm_num) (by push_cast [Nat.cast_sub hcpos]; omega)
        have h4 : (10 : ℚ) ^ (309 : Int) = 10 ^ 309 := by norm_cast
        rw [← h4]
        exact le_trans h3 (mul_le_mul_of_nonneg_right h2 (by positivity))
      have := absValue_le hx
      rw [absValue_inf]
      generalize (2 : ℚ) ^ 1024 = I at *
      rw [abs_of_nonpos (by linarith), abs_of_nonpos (by linarith)]
      linarith
  by_cases hlo : p.exp + p.count - 1 < -324
  · refine ⟨0, ?_, by norm_num, fun _ => hle (by omega), ?_⟩
    · unfold convertToDouble
      simp only
      rw [if_neg hhi, if_pos hlo, hzero]
    · intro x _
      have hV : 2 * p.value < 2 ^ (-1074 : Int) := by
        have h1 : p.value ≤ 10 ^ (-324 : Int) := by
          have h2 : (p.significand : ℚ) ≤ ((10 ^ p.count : Nat) : ℚ) := by exact_mod_cast hlt.le
          refine le_trans (mul_le_mul_of_nonneg_right h2 (by positivity)) ?_
          push_cast
          rw [← zpow_natCast, ← zpow_add₀ (by norm_num)]
          exact zpow_le_zpow_right₀ (by norm_num) (by omega)
        have := double_pow2
        linarith
      rw [absValue_zero]
      rcases absValue_small x with hx | hx
      · rw [hx]; linarith
      · rw [abs_of_nonpos (by linarith), abs_of_nonneg (by linarith)]
        linarith
  have hmin : 2 ^ (-1077 : Int) ≤ p.value := by
    rcases h with h | h
    · refine le_trans pow_1077 ?_
      have e2 : (1 : ℚ) / 10 ^ 324 = 10 ^ (-324 : Int) := by
        rw [show (-324 : Int) = -((324 : Nat) : Int) from rfl, zpow_neg, zpow_natCast, one_div]
      rw [e2]
      have h2 : ((10 ^ (p.count - 1) : Nat) : ℚ) ≤ p.significand := by exact_mod_cast h
      have hcpos : 1 ≤ p.count := by
        by_contra hcc
        have : p.count = 0 := by omega
        rw [this] at hlt
        simp at hlt
        exact hs hlt
      refine le_trans ?_ (mul_le_mul_of_nonneg_right h2 (by positivity))
      push_cast
      rw [← zpow_natCast, ← zpow_add₀ (by norm_num)]
      exact zpow_le_zpow_right₀ (by norm_num) (by push_cast [Nat.cast_sub hcpos]; omega)
    · by_contra hlow
      exact h.2 ((convert_none h64 hc).2 ⟨hs, by omega, by omega, not_le.1 hlow⟩)
  obtain ⟨W, w1, w2, _, _, w3⟩ := convert_rounds hs h64 (by omega) hmin (by omega) (by omega)
  have near : ∀ A B : ℚ, |A - W| ≤ |B - W| → |A - p.value| ≤ |B - p.value| + p.value / 2 ^ 109 := by
    intro A B hAB
    have hd : p.value - W ≤ p.value * eps := by linarith
    have h1 : |A - p.value| ≤ |A - W| + (p.value - W) := by
      have := abs_add_le (A - W) (W - p.value)
      rw [abs_of_nonpos (show W - p.value ≤ 0 by linarith)] at this
      have e : A - W + (W - p.value) = A - p.value := by ring
      rw [e] at this
      linarith
    have h2 : |B - W| ≤ |B - p.value| + (p.value - W) := by
      have := abs_add_le (B - p.value) (p.value - W)
      rw [abs_of_nonneg (show 0 ≤ p.value - W by linarith)] at this
      have e : B - p.value + (p.value - W) = B - W := by ring
      rw [e] at this
      exact this
    have h3 : p.value * eps * 2 = p.value / 2 ^ 109 := by unfold eps; ring
    linarith
  rcases w3 with ⟨b, m, e, c1, c2, c3⟩ | ⟨c1, c2⟩
  · have hb63 : b < 2 ^ 63 := by omega
    refine ⟨b, by rw [c1, withSign_add hb63], c2, fun _ => hle (by omega), ?_⟩
    intro x _
    exact near _ _ (rounds_nearest c3 (show b < 2 ^ (52 + 11) by omega) x)
  · refine ⟨2047 * 2 ^ 52, by rw [c2, hinf], le_refl _, fun h => absurd rfl h, ?_⟩
    intro x hx
    refine near _ _ ?_
    have := absValue_le hx
    rw [absValue_inf]
    generalize (2 : ℚ) ^ 1024 = I at *
    rw [abs_of_nonpos (by linarith), abs_of_nonpos (by linarith)]
    linarith

end JsonStruct
