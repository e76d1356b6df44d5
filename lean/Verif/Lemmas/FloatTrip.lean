import Verif.Lemmas.FloatBack
import Verif.Lemmas.FloatText

/-
Writing a double and reading it back.
-/

namespace JsonStruct

theorem written_json {r : Base10} {n : NumText} (h : NumWritten r n) : JsonNumber n.text := by
  refine ⟨if n.neg then b!"-" else [], n.int, fracText n.frac, expText n.exp, rfl, ?_, h.int, ?_, ?_⟩
  · split
    · exact .inr rfl
    · exact .inl rfl
  · cases hf : n.frac with
    | none => exact .inl rfl
    | some f => exact .inr ⟨f, rfl, h.frac f (by rw [hf]; rfl), h.loose.2.1 f (by rw [hf]; rfl)⟩
  · cases he : n.exp with
    | none => exact .inl rfl
    | some x =>
      obtain ⟨e, sign, d⟩ := x
      obtain ⟨h1, h2, h3⟩ := h.loose.2.2 _ (by rw [he]; rfl)
      exact .inr ⟨e, sign, d, rfl, h1, h2, h3⟩

theorem jsonInt_ne {s : Bytes} (h : JsonInt s) : s ≠ [] := by
  rcases h with rfl | ⟨h, _⟩
  · simp
  · exact h.1

theorem text_ne {n : NumText} (h : JsonInt n.int) : n.text ≠ [] := by
  intro hc
  unfold NumText.text at hc
  simp only [List.append_eq_nil_iff] at hc
  exact jsonInt_ne h hc.1.1.2

/-- The number of digits and the decimal exponent of a number between powers of ten. -/
theorem decoded_range {sig count : Nat} {exp a b : Int} {V : ℚ} (hd : HasDigits sig count) (h0 : 0 < sig) (hV : V = sig * (10 : ℚ) ^ exp)
    (hlow : (10 : ℚ) ^ a < V) (hhigh : V < 10 ^ b) : a < exp + count ∧ exp + count - 1 < b := by
  obtain ⟨d1, d2, d3⟩ := hd
  have hlo : 10 ^ (count - 1) ≤ sig := by
    rcases d3 with d3 | d3
    · rw [d3]; exact h0
    · exact d3
  have p0 : (0 : ℚ) < 10 ^ exp := by positivity
  constructor
  · have h1 : V < 10 ^ (exp + count) := by
      rw [hV, zpow_add₀ (by norm_num), zpow_natCast, mul_comm]
      exact mul_lt_mul_of_pos_left (by exact_mod_cast d2) p0
    exact (zpow_lt_zpow_iff_right₀ (by norm_num : (1 : ℚ) < 10)).1 (lt_trans hlow h1)
  · have h1 : (10 : ℚ) ^ (exp + count - 1) ≤ V := by
      rw [hV, show exp + (count : Int) - 1 = exp + ((count - 1 : Nat) : Int) by omega, zpow_add₀ (by norm_num), zpow_natCast, mul_comm]
      exact mul_le_mul_of_nonneg_right (by exact_mod_cast hlo) p0.le
    exact (zpow_lt_zpow_iff_right₀ (by norm_num : (1 : ℚ) < 10)).1 (lt_of_le_of_lt h1 hhigh)

theorem decoded_count {T : FloatTy} {digits f : Nat} {r : Base10} (h : Decoded T digits f r) (hdg : 1 ≤ digits ∧ digits ≤ 17) :
    HasDigits r.significand r.count ∧ r.count ≤ digits := by
  have hlt : r.significand < 10 ^ 17 := Nat.lt_of_lt_of_le h.lt (Nat.pow_le_pow_right (by omega) hdg.2)
  have h1 := countChars_spec (T := ⟨64, false⟩) (by decide) r.significand (by
    have h1 : IntTy.min ⟨64, false⟩ = 0 := by decide
    have h2 : IntTy.max ⟨64, false⟩ = 18446744073709551615 := by decide
    norm_num at hlt
    refine ⟨by rw [h1]; omega, by rw [h2]; omega⟩)
  rw [Int.natAbs_natCast] at h1
  have h2 := hasDigits_le h1 h.lt hdg.1
  have h3 := h.count
  rw [Nat.mod_eq_of_lt (by omega)] at h3
  rw [h3]
  exact ⟨h1, h2⟩

theorem double_pow1 : (2 : ℚ) ^ (53 : Int) * 2 ^ (971 : Int) < 10 ^ (309 : Int) := by
  have h3 : 2 ^ 1024 < 10 ^ 309 := by decide +kernel
  rw [← zpow_add₀ (by norm_num), show (53 : Int) + 971 = ((1024 : Nat) : Int) from rfl, zpow_natCast,
    show (309 : Int) = ((309 : Nat) : Int) from rfl, zpow_natCast]
  have := (Nat.cast_lt (α := ℚ)).2 h3
  rwa [Nat.cast_pow, Nat.cast_pow] at this

theorem double_pow2 : (10 : ℚ) ^ (-324 : Int) < 1 / 2 * 2 ^ (-1074 : Int) := by
  have h3 : 2 * 2 ^ 1074 < 10 ^ 324 := by decide +kernel
  have h4 : (2 : ℚ) * 2 ^ 1074 < 10 ^ 324 := by
    have := (Nat.cast_lt (α := ℚ)).2 h3
    rwa [Nat.cast_mul, Nat.cast_pow, Nat.cast_pow] at this
  have e1 : (2 : ℚ) ^ (-1074 : Int) = (2 ^ 1074)⁻¹ := by
    rw [show (-1074 : Int) = -((1074 : Nat) : Int) from rfl, zpow_neg, zpow_natCast]
  have e2 : (10 : ℚ) ^ (-324 : Int) = (10 ^ 324)⁻¹ := by
    rw [show (-324 : Int) = -((324 : Nat) : Int) from rfl, zpow_neg, zpow_natCast]
  rw [e1, e2]
  clear e1 e2
  have hA : (0 : ℚ) < 2 ^ 1074 := by positivity
  have hT : (0 : ℚ) < 10 ^ 324 := by positivity
  generalize (2 : ℚ) ^ 1074 = A at *
  generalize (10 : ℚ) ^ 324 = T at *
  rw [inv_eq_one_div, inv_eq_one_div, div_mul_div_comm, div_lt_div_iff₀ hT (by positivity)]
  linarith

theorem double_range {f : Nat} {V : ℚ} (hfin : f / 2 ^ 52 % 2 ^ 11 ≠ 2047) (hnz : f % 2 ^ 63 ≠ 0)
    (hn : Near f64.toFloatFmt (mantOf f64 f) (expOf f64 f) V) : (10 : ℚ) ^ (-324 : Int) < V ∧ V < 10 ^ (309 : Int) := by
  have hm : mantOf f64 f + 1 ≤ 2 ^ 53 := by
    have := Nat.mod_lt f (show 0 < 2 ^ 52 by positivity)
    unfold mantOf
    simp only [show f64.mant = 52 from rfl]
    norm_num at this ⊢
    split <;> omega
  have hge : -1074 ≤ expOf f64 f := by
    unfold expOf
    simp only [show f64.mant = 52 from rfl, show f64.expw = 11 from rfl, show (f64.bias : Int) = 1023 by decide]
    split <;> omega
  have hle : expOf f64 f ≤ 971 := by
    unfold expOf
    simp only [show f64.mant = 52 from rfl, show f64.expw = 11 from rfl, show (f64.bias : Int) = 1023 by decide]
    split <;> omega
  have hpos : 1 ≤ mantOf f64 f := by
    unfold mantOf
    simp only [show f64.mant = 52 from rfl, show f64.expw = 11 from rfl]
    split
    · have : 0 < 2 ^ 52 := by positivity
      omega
    · rename_i hz
      norm_num at hz hnz ⊢
      omega
  have hposq : (1 : ℚ) ≤ mantOf f64 f := by exact_mod_cast hpos
  have hmq : (mantOf f64 f : ℚ) + 1 ≤ 2 ^ (53 : Int) := by exact_mod_cast hm
  constructor
  · refine lt_of_lt_of_le double_pow2 ?_
    have h2 : (1 / 2 : ℚ) * 2 ^ (-1074 : Int) ≤ ((mantOf f64 f : ℚ) - 1 / 2) * 2 ^ expOf f64 f :=
      mul_le_mul (by linarith) (zpow_le_zpow_right₀ (by norm_num) hge) (by positivity) (by linarith)
    refine le_trans h2 ?_
    rcases hn.low with h | ⟨h, _⟩
    · refine le_trans (mul_le_mul_of_nonneg_right (by linarith) (by positivity)) h
    · exact h.ge
  · refine lt_trans (lt_of_le_of_lt hn.high ?_) double_pow1
    exact mul_lt_mul (by linarith) (zpow_le_zpow_right₀ (by norm_num) hle) (by positivity) (by positivity)

theorem withSign_eq {f : Nat} (hf : f < 2 ^ 64) : withSign (f / 2 ^ 63 != 0) (f % 2 ^ 63) = f := by
  unfold withSign
  split
  · rename_i h
    have h1 := or_mul_pow (x := f % 2 ^ 63) (y := 1) (k := 63) (Nat.mod_lt _ (by positivity))
    rw [Nat.one_mul] at h1
    rw [h1]
    simp only [bne_iff_ne] at h
    norm_num at h hf ⊢
    omega
  · rename_i h
    simp only [bne_iff_ne, Decidable.not_not] at h
    norm_num at h hf ⊢
    omega

/-- Writing a double and reading it back, in general. -/
theorem double_trip {f : Nat} (hf : f < 2 ^ 64) (hfin : f / 2 ^ 52 % 2 ^ 11 ≠ 2047) (hnz : f % 2 ^ 63 ≠ 0)
    (hne : f % 2 ^ 63 ≠ 883 * 2 ^ 52) :
    ∃ n : NumText, floatToBuffer f64 f = some n.text ∧ JsonNumber n.text ∧ (n.int ++ n.frac.getD []).length ≤ 18 ∧
      doubleTo n.text = some (.noError, f) := by
  obtain ⟨r, hr, hdec⟩ := decode_double hfin hnz hne
  obtain ⟨hd, h17⟩ := decoded_count hdec (by omega)
  obtain ⟨v1, v2⟩ := double_range hfin hnz hdec.near
  obtain ⟨e1, e2⟩ := decoded_range hd hdec.pos rfl v1 v2
  have hd1 := hd.1
  obtain ⟨n, hn, hw⟩ := convertToBuffer_written (size := 32) (expanded := 19) (K := 3) hdec.inf hdec.nan hd hdec.pos (by omega)
    (by norm_num; omega) h17 (by omega) (by omega) (by omega)
  have hlen : (n.int ++ n.frac.getD []).length ≤ 18 := by have := hw.len; omega
  refine ⟨n, ?_, written_json hw, hlen, ?_⟩
  · unfold floatToBuffer
    rw [hr]
    exact hn
  · have hp := parseNumber_double hw.loose (text_ne hw.int) (by omega) (fun x hx => by have := hw.exp x hx; omega)
    unfold doubleTo
    rw [hp]
    simp only
    rw [if_neg (by simp), if_neg (by simp)]
    have hval : Parsed.value { negative := n.neg, count := (n.int ++ n.frac.getD []).length, significand := n.mantissa, exp := n.scale, rest := [] } =
        r.significand * (10 : ℚ) ^ r.exp := hw.value
    have hm0 : n.mantissa ≠ 0 := by
      intro hc
      have := hw.value
      have hp := hdec.pos
      have h2 : (0 : ℚ) < r.significand * (10 : ℚ) ^ r.exp := by positivity
      rw [hc, Nat.cast_zero, zero_mul] at this
      linarith
    have hm64 : n.mantissa < 2 ^ 64 := by
      have : n.mantissa < 10 ^ (n.int ++ n.frac.getD []).length := by
        refine decVal_lt _ ?_
        intro c hc
        rcases List.mem_append.1 hc with hc | hc
        · exact hw.loose.1 c hc
        · cases hf : n.frac with
          | none => rw [hf] at hc; simp at hc
          | some f => rw [hf] at hc; exact hw.loose.2.1 f (by rw [hf]; rfl) c hc
      refine Nat.lt_of_lt_of_le this (Nat.le_trans (Nat.pow_le_pow_right (by omega) hlen) (by norm_num))
    have hb := convert_back (p := { negative := n.neg, count := (n.int ++ n.frac.getD []).length, significand := n.mantissa, exp := n.scale, rest := [] })
      hfin hnz (by rw [hval]; exact hdec.near) hm0 hm64
      (by show n.scale.natAbs ≤ 400; have := hw.scale; omega)
      (by show -324 ≤ n.scale + (n.int ++ n.frac.getD []).length - 1; have := hw.range; omega)
      (by show n.scale + (n.int ++ n.frac.getD []).length - 1 ≤ 308; have := hw.range; omega)
    rw [hb]
    simp only [ne_eq, not_true_eq_false, if_false]
    rw [hw.neg, hdec.neg, show f64.size - 1 = 63 from rfl, withSign_eq hf]

end JsonStruct
