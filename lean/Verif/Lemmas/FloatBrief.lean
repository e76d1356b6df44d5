import Verif.Lemmas.FloatTrip
import Verif.Lemmas.FloatBack32
import Verif.Spec.Float

/-
The neighbours of a floating point number, and the text that is written for it.
-/

namespace JsonStruct

section
variable {T : FloatTy}

theorem field_magnitude (f : Nat) : f % 2 ^ (T.mant + T.expw) / 2 ^ T.mant = f / 2 ^ T.mant % 2 ^ T.expw := by
  rw [Nat.pow_add, Nat.mod_mul_right_div_self]

theorem mant_magnitude (f : Nat) : f % 2 ^ (T.mant + T.expw) % 2 ^ T.mant = f % 2 ^ T.mant :=
  Nat.mod_mod_of_dvd _ (Nat.pow_dvd_pow 2 (by omega))

theorem absValue_here (hb : (T.bias : Int) = 2 ^ (T.expw - 1) - 1) (f : Nat) :
    absValue T.mant T.expw f = mantOf T f * 2 ^ expOf T f := by
  unfold absValue magnitude mantOf expOf
  rw [field_magnitude, mant_magnitude]
  by_cases h : f / 2 ^ T.mant % 2 ^ T.expw = 0
  · simp only [h, if_true, ne_eq, not_true_eq_false, if_false]
    rw [hb]; congr 2; ring
  · simp only [h, if_false, ne_eq, not_false_eq_true, if_true]
    rw [hb]; push_cast
    rw [add_comm ((2 : ℚ) ^ T.mant)]
    congr 2; ring

/-- The next number. -/
theorem absValue_next (hb : (T.bias : Int) = 2 ^ (T.expw - 1) - 1) {g : Nat} (hf : g / 2 ^ T.mant + 1 < 2 ^ T.expw) :
    absValue T.mant T.expw (g + 1) = (mantOf T g + 1) * 2 ^ expOf T g := by
  rw [absValue_here hb]
  have hp : 0 < 2 ^ T.mant := by positivity
  have hlt := Nat.mod_lt g hp
  have hdm := Nat.div_add_mod g (2 ^ T.mant)
  rcases Nat.lt_or_ge (g % 2 ^ T.mant + 1) (2 ^ T.mant) with h | h
  · have e1 : (g + 1) / 2 ^ T.mant = g / 2 ^ T.mant := by
      rw [Nat.div_eq_iff hp]
      constructor <;> rw [Nat.mul_comm] <;> omega
    have e2 : (g + 1) % 2 ^ T.mant = g % 2 ^ T.mant + 1 := by
      have := Nat.div_add_mod (g + 1) (2 ^ T.mant)
      rw [e1] at this; omega
    unfold mantOf expOf
    rw [e1, e2]
    split <;> push_cast <;> ring
  · have hm : g % 2 ^ T.mant = 2 ^ T.mant - 1 := by omega
    have e1 : (g + 1) / 2 ^ T.mant = g / 2 ^ T.mant + 1 := by
      rw [Nat.div_eq_iff hp]
      constructor <;> rw [Nat.mul_comm, Nat.mul_add] <;> omega
    have e2 : (g + 1) % 2 ^ T.mant = 0 := by
      have := Nat.div_add_mod (g + 1) (2 ^ T.mant)
      rw [e1, Nat.mul_add] at this; omega
    have hc : ((2 ^ T.mant - 1 : Nat) : ℚ) = 2 ^ T.mant - 1 := by rw [Nat.cast_sub hp]; push_cast; rfl
    unfold mantOf expOf
    rw [e1, e2, hm, Nat.mod_eq_of_lt hf, Nat.mod_eq_of_lt (show g / 2 ^ T.mant < 2 ^ T.expw by omega)]
    generalize g / 2 ^ T.mant = k
    by_cases h0 : k = 0
    · rw [h0]
      simp only [Nat.zero_add, ne_eq, Nat.one_ne_zero, not_false_eq_true, if_true, not_true_eq_false, if_false, hc]
      push_cast; ring
    · rw [if_pos (Nat.succ_ne_zero k), if_pos (Nat.succ_ne_zero k), if_pos h0, if_pos h0]
      push_cast [hc]
      rw [show ((k : Int) + 1 - (T.bias : Int) - T.mant) = (k : Int) - (T.bias : Int) - T.mant + 1 by ring, zpow_add_one₀ (by norm_num)]
      ring

/-- The number before. -/
theorem absValue_prev (hb : (T.bias : Int) = 2 ^ (T.expw - 1) - 1) {g : Nat} (h0 : 0 < g) (hf : g / 2 ^ T.mant + 1 < 2 ^ T.expw) :
    absValue T.mant T.expw (g - 1) = (mantOf T g - belowOf T g) * 2 ^ expOf T g := by
  obtain ⟨x, rfl⟩ : ∃ x, g = x + 1 := ⟨g - 1, by omega⟩
  rw [Nat.add_sub_cancel]
  have hp : 0 < 2 ^ T.mant := by positivity
  have hle : x / 2 ^ T.mant ≤ (x + 1) / 2 ^ T.mant := Nat.div_le_div_right (by omega)
  have hn := absValue_next hb (g := x) (by omega)
  rw [absValue_here hb] at hn ⊢
  suffices hs : (2 : ℚ) ^ expOf T x = belowOf T (x + 1) * 2 ^ expOf T (x + 1) by linarith
  have hlt := Nat.mod_lt (x + 1) hp
  have hdm := Nat.div_add_mod (x + 1) (2 ^ T.mant)
  unfold belowOf expOf
  rw [Nat.mod_eq_of_lt (show (x + 1) / 2 ^ T.mant < 2 ^ T.expw by omega), Nat.mod_eq_of_lt (show x / 2 ^ T.mant < 2 ^ T.expw by omega)]
  by_cases hz : (x + 1) % 2 ^ T.mant = 0
  · have hq : 0 < (x + 1) / 2 ^ T.mant := by
      rcases Nat.eq_zero_or_pos ((x + 1) / 2 ^ T.mant) with h | h
      · rw [h, hz] at hdm; omega
      · exact h
    obtain ⟨k, hk⟩ : ∃ k, (x + 1) / 2 ^ T.mant = k + 1 := ⟨(x + 1) / 2 ^ T.mant - 1, by omega⟩
    have e1 : x / 2 ^ T.mant = k := by
      rw [hk, hz, Nat.mul_add] at hdm
      rw [Nat.div_eq_iff hp]
      constructor <;> rw [Nat.mul_comm] <;> omega
    rw [hk, e1, hz]
    by_cases hk0 : k = 0
    · subst hk0
      simp
    · rw [if_pos hk0, if_pos ⟨rfl, by omega⟩, if_pos (by omega)]
      push_cast
      rw [show ((k : Int) + 1 - (T.bias : Int) - T.mant) = (k : Int) - (T.bias : Int) - T.mant + 1 by ring, zpow_add_one₀ (by norm_num)]
      ring
  · have e1 : x / 2 ^ T.mant = (x + 1) / 2 ^ T.mant := by
      rw [Nat.div_eq_iff hp]
      constructor <;> rw [Nat.mul_comm] <;> omega
    have e2 : ¬ ((x + 1) % 2 ^ T.mant = 0 ∧ 1 < (x + 1) / 2 ^ T.mant) := fun h => hz h.1
    rw [e1, if_neg e2, one_mul]

theorem parts_magnitude (f : Nat) : mantOf T (magnitude T.mant T.expw f) = mantOf T f ∧ expOf T (magnitude T.mant T.expw f) = expOf T f ∧
    belowOf T (magnitude T.mant T.expw f) = belowOf T f := by
  unfold mantOf expOf belowOf magnitude
  rw [field_magnitude, mant_magnitude, Nat.mod_mod]
  exact ⟨rfl, rfl, rfl⟩

end

theorem f64_bias : ((f64.bias : Nat) : Int) = 2 ^ (f64.expw - 1) - 1 := by decide
theorem f32_bias : ((f32.bias : Nat) : Int) = 2 ^ (f32.expw - 1) - 1 := by decide

/-- What is written for a double. -/
theorem double_written {f : Nat} (hfin : f / 2 ^ 52 % 2 ^ 11 ≠ 2047) (hnz : f % 2 ^ 63 ≠ 0) (hne : f % 2 ^ 63 ≠ 883 * 2 ^ 52) :
    ∃ (n : NumText) (r : Base10), floatToBuffer f64 f = some n.text ∧ Decoded f64 17 f r ∧ n.absValue = r.significand * (10 : ℚ) ^ r.exp := by
  obtain ⟨r, hr, hdec⟩ := decode_double hfin hnz hne
  obtain ⟨hd, h17⟩ := decoded_count hdec (by omega)
  obtain ⟨v1, v2⟩ := double_range hfin hnz hdec.near
  obtain ⟨e1, e2⟩ := decoded_range hd hdec.pos rfl v1 v2
  have hd1 := hd.1
  obtain ⟨n, hn, hw⟩ := convertToBuffer_written (size := 32) (expanded := 19) (K := 3) hdec.inf hdec.nan hd hdec.pos (by omega)
    (by norm_num; omega) h17 (by omega) (by omega) (by omega)
  exact ⟨n, r, by unfold floatToBuffer; rw [hr]; exact hn, hdec, hw.value⟩

/-- What is written for a float. -/
theorem float_written {f : Nat} (hfin : f / 2 ^ 23 % 2 ^ 8 ≠ 255) (hnz : f % 2 ^ 31 ≠ 0) :
    ∃ (n : NumText) (r : Base10), floatToBuffer f32 f = some n.text ∧ Decoded f32 9 f r ∧ n.absValue = r.significand * (10 : ℚ) ^ r.exp := by
  obtain ⟨r, hr, hdec⟩ := decode_float hfin hnz
  obtain ⟨hd, h9⟩ := decoded_count hdec (by omega)
  obtain ⟨_, k2, k3, _⟩ := near_rounds32 hfin hnz hdec.near
  have hlt := (float_parts hfin).1
  have mono := fun {a b : Nat} (h : a ≤ b) (hb : b ≤ f32.inf) => absValue_mono f32.toFloatFmt h hb
  have g0 : absValue 23 8 0 ≤ absValue 23 8 (f % 2 ^ 31 - 1) := mono (by omega) (by omega)
  have g1 : absValue 23 8 1 ≤ absValue 23 8 (f % 2 ^ 31) := mono (by omega) (by omega)
  have g2 : absValue 23 8 (f % 2 ^ 31) ≤ absValue 23 8 f32.inf := mono (by omega) (by omega)
  have g3 : absValue 23 8 (f % 2 ^ 31 + 1) ≤ absValue 23 8 f32.inf := mono (by omega) (by omega)
  rw [float_zero] at g0
  rw [float_one] at g1
  rw [float_inf] at g2 g3
  generalize absValue 23 8 (f % 2 ^ 31 - 1) = x at *
  generalize absValue 23 8 (f % 2 ^ 31) = y at *
  generalize absValue 23 8 (f % 2 ^ 31 + 1) = z at *
  have v1 : (10 : ℚ) ^ (-46 : Int) < r.significand * (10 : ℚ) ^ r.exp := by
    refine lt_of_lt_of_le (b := (2 : ℚ) ^ (-149 : Int) / 2) (by norm_num) ?_
    generalize (2 : ℚ) ^ (-149 : Int) = w at g1 ⊢
    linarith
  have v2 : r.significand * (10 : ℚ) ^ r.exp < 10 ^ (39 : Int) := by
    refine lt_of_le_of_lt (b := 2 ^ 128) (by linarith) (by norm_num)
  obtain ⟨e1, e2⟩ := decoded_range hd hdec.pos rfl v1 v2
  have hd1 := hd.1
  obtain ⟨n, hn, hw⟩ := convertToBuffer_written (size := 16) (expanded := 10) (K := 2) hdec.inf hdec.nan hd hdec.pos (by omega)
    (by norm_num; omega) (by omega) (by omega) (by omega) (by omega)
  exact ⟨n, r, by unfold floatToBuffer; rw [hr]; exact hn, hdec, hw.value⟩

end JsonStruct
