import Verif.Lemmas.FloatExact
import Verif.Lemmas.FloatUnits

/-
Integers below 2^53 are doubles, and nothing else is near to them.
-/

namespace JsonStruct

/-- The value of a normal double, by its two fields. -/
theorem absValue_fields {f m : Nat} (h0 : f ≠ 0) (hf : f < 2048) (hm : m < 2 ^ 52) :
    absValue 52 11 (f * 2 ^ 52 + m) = (2 ^ 52 + m) * 2 ^ ((f : Int) - 1075) := by
  have h1 : magnitude 52 11 (f * 2 ^ 52 + m) = f * 2 ^ 52 + m := by
    unfold magnitude; norm_num at hm ⊢; omega
  have h2 : (f * 2 ^ 52 + m) / 2 ^ 52 = f := by norm_num at hm ⊢; omega
  have h3 : (f * 2 ^ 52 + m) % 2 ^ 52 = m := by norm_num at hm ⊢; omega
  simp only [absValue, h1, h2, h3, if_neg h0]
  congr 2
  norm_num
  ring

theorem field_bound {k w : Nat} (hk : k < 53) (hw : w < 2 ^ 53) : (k + 1023) * 2 ^ 52 + (w - 2 ^ 52) ≤ 0x7FF0000000000000 := by
  have h1 : w - 2 ^ 52 ≤ 2 ^ 52 := Nat.sub_le_of_le_add (hw.le.trans (by norm_num))
  have h2 : (k + 1023) * 2 ^ 52 ≤ 1075 * 2 ^ 52 := Nat.mul_le_mul_right _ (by omega)
  exact (Nat.add_le_add h2 h1).trans (by norm_num)

theorem field_low {k f m : Nat} (hge : (k + 1022) * 2 ^ 52 ≤ f * 2 ^ 52 + m) (hm : m < 2 ^ 52) : k + 1022 ≤ f := by
  by_contra hc
  have h1 : (f + 1) * 2 ^ 52 ≤ (k + 1022) * 2 ^ 52 := Nat.mul_le_mul_right _ (by omega)
  rw [Nat.succ_mul] at h1
  exact absurd (Nat.le_of_add_le_add_left (h1.trans hge)) (not_le.2 hm)

theorem field_high {f m : Nat} (hb : f * 2 ^ 52 + m ≤ 0x7FF0000000000000) : f < 2048 := by
  norm_num at hb; omega

/-- An integer below 2^53 is a double, and no other double is that near to it. -/
theorem near_exact {v b : Nat} (hv : v < 2 ^ 53) (hb : b ≤ 0x7FF0000000000000)
    (h : ∀ y ≤ 0x7FF0000000000000, |absValue 52 11 b - (v : ℚ)| ≤ |absValue 52 11 y - (v : ℚ)| + (v : ℚ) / 2 ^ 109) :
    absValue 52 11 b = v := by
  rcases Nat.eq_zero_or_pos v with rfl | hpos
  · have := h 0 (by norm_num)
    have hz : absValue 52 11 0 = 0 := by norm_num [absValue, magnitude]
    rw [hz] at this
    simp only [Nat.cast_zero, sub_zero, abs_zero, zero_div, add_zero] at this
    rw [Nat.cast_zero]
    exact abs_eq_zero.mp (le_antisymm this (abs_nonneg _))
  obtain ⟨k, hk1, hk2⟩ : ∃ k, 2 ^ k ≤ v ∧ v < 2 ^ (k + 1) := ⟨Nat.log2 v, Nat.log2_self_le (by omega), Nat.lt_log2_self⟩
  have hk : k < 53 := (Nat.pow_lt_pow_iff_right (by decide : 1 < 2)).mp (hk1.trans_lt hv)
  have q0 : k + 1023 ≠ 0 := by omega
  have q1 : k + 1023 < 2048 := by omega
  have q2 : k + 1022 ≠ 0 := by omega
  have q3 : k + 1022 < 2048 := by omega
  have q4 : (((k + 1023 : Nat) : Int) - 1075) = -((52 - k : Nat) : Int) := by omega
  have q5 : (k + 1022) * 2 ^ 52 ≤ 0x7FF0000000000000 := by norm_num; omega
  have q7 : k + (52 - k) = 52 := by omega
  have q8 : k + 1 + (52 - k) = 53 := by omega
  have q9 : (((k + 1022 : Nat) : Int) - 1075) = (k : Int) - (53 : Nat) := by push_cast; ring
  have q6 : 53 = 53 - k + k := by omega
  have e52 : 2 ^ 52 = 2 ^ k * 2 ^ (52 - k) := by rw [← pow_add, q7]
  have hm1 : 2 ^ 52 ≤ v * 2 ^ (52 - k) := by rw [e52]; exact Nat.mul_le_mul_right _ hk1
  have hm2 : v * 2 ^ (52 - k) < 2 ^ 53 := by
    have : 2 ^ 53 = 2 ^ (k + 1) * 2 ^ (52 - k) := by rw [← pow_add, q8]
    rw [this]; exact Nat.mul_lt_mul_of_pos_right hk2 (by positivity)
  -- the integer as a double
  have hy : absValue 52 11 ((k + 1023) * 2 ^ 52 + (v * 2 ^ (52 - k) - 2 ^ 52)) = v := by
    rw [absValue_fields q0 q1 (by clear hb h; omega)]
    have : ((v * 2 ^ (52 - k) - 2 ^ 52 : Nat) : ℚ) = v * 2 ^ (52 - k) - 2 ^ 52 := by
      rw [Nat.cast_sub hm1]; push_cast; ring
    rw [this]
    have e : (2 : ℚ) ^ (((k + 1023 : Nat) : Int) - 1075) = (2 ^ (52 - k))⁻¹ := by
      rw [← zpow_natCast, ← zpow_neg, q4]
    rw [e]
    field_simp
    ring
  have hclose := h ((k + 1023) * 2 ^ 52 + (v * 2 ^ (52 - k) - 2 ^ 52)) (field_bound hk hm2)
  rw [hy, sub_self, abs_zero, zero_add] at hclose
  have hvq : (v : ℚ) < 2 ^ (k + 1) := by exact_mod_cast hk2
  have hvq1 : (2 : ℚ) ^ k ≤ v := by exact_mod_cast hk1
  have hp : (0 : ℚ) < 2 ^ k := by positivity
  have hsmall : (v : ℚ) / 2 ^ 109 < 2 ^ k / 2 ^ 60 := by
    rw [pow_succ] at hvq
    rw [div_lt_div_iff₀ (by positivity) (by positivity)]
    clear h
    norm_num
    linarith
  -- it is at least half as large
  have hge : (k + 1022) * 2 ^ 52 ≤ b := by
    by_contra hc
    have h1 : absValue 52 11 b < absValue 52 11 ((k + 1022) * 2 ^ 52) := absValue_lt f64.toFloatFmt (not_le.mp hc) (by
      show (k + 1022) * 2 ^ 52 ≤ f64.toFloatFmt.inf
      have : f64.toFloatFmt.inf = 0x7FF0000000000000 := by decide
      rw [this]; exact q5)
    have h2 := absValue_fields (f := k + 1022) (m := 0) q2 q3 (by norm_num)
    rw [add_zero] at h2
    have e : (2 : ℚ) ^ (((k + 1022 : Nat) : Int) - 1075) = 2 ^ k / 2 ^ 53 := by
      rw [q9, zpow_sub₀ (by norm_num), zpow_natCast, zpow_natCast]
    rw [e] at h2
    have h3 : absValue 52 11 ((k + 1022) * 2 ^ 52) = 2 ^ k / 2 := by rw [h2]; norm_num; ring
    rw [h3] at h1
    have := (abs_le.mp hclose).1
    have h60 : (2 : ℚ) ^ k / 2 ^ 60 ≤ 2 ^ k / 2 := by
      apply div_le_div_of_nonneg_left hp.le (by norm_num) (by norm_num)
    linarith
  -- both are multiples of half a unit
  obtain ⟨f, m, rfl, hm⟩ : ∃ f m, b = f * 2 ^ 52 + m ∧ m < 2 ^ 52 := ⟨b / 2 ^ 52, b % 2 ^ 52, (Nat.div_add_mod' b (2 ^ 52)).symm, Nat.mod_lt _ (by positivity)⟩
  have hf1 : k + 1022 ≤ f := field_low hge hm
  have hf2 : f < 2048 := field_high hb
  have hf0 : f ≠ 0 := Nat.ne_of_gt (Nat.lt_of_lt_of_le (Nat.succ_pos _) hf1)
  rw [absValue_fields hf0 hf2 hm] at hclose ⊢
  have e : (2 : ℚ) ^ ((f : Int) - 1075) = 2 ^ (f - (k + 1022)) * (2 ^ k / 2 ^ 53) := by
    have : (f : Int) - 1075 = ((f - (k + 1022) : Nat) : Int) + ((k : Int) - (53 : Nat)) := by rw [Nat.cast_sub hf1]; push_cast; ring
    rw [this, zpow_add₀ (by norm_num), zpow_sub₀ (by norm_num), zpow_natCast, zpow_natCast, zpow_natCast]
  have ev : (v : ℚ) = (v * 2 ^ (53 - k)) * (2 ^ k / 2 ^ 53) := by
    have : (2 : ℚ) ^ 53 = 2 ^ (53 - k) * 2 ^ k := by rw [← pow_add, ← q6]
    rw [this]; field_simp
  rw [e, ← mul_assoc]
  rw [e, ← mul_assoc, ev] at hclose
  set u : ℚ := 2 ^ k / 2 ^ 53 with hu
  have hup : 0 < u := by positivity
  rw [← sub_mul, abs_mul, abs_of_pos hup, ← ev] at hclose
  have h60 : (2 : ℚ) ^ k / 2 ^ 60 = u / 2 ^ 7 := by rw [hu]; ring
  rw [h60] at hsmall
  have hlt : |(2 ^ 52 + (m : ℚ)) * 2 ^ (f - (k + 1022)) - v * 2 ^ (53 - k)| < 1 := by
    by_contra hc
    have : u ≤ |(2 ^ 52 + (m : ℚ)) * 2 ^ (f - (k + 1022)) - v * 2 ^ (53 - k)| * u := by
      exact le_mul_of_one_le_left hup.le (not_lt.mp hc)
    have h7 : u / 2 ^ 7 ≤ u := by apply div_le_self hup.le; norm_num
    exact lt_irrefl u (((this.trans hclose).trans_lt hsmall).trans_le h7)
  have hz : ((2 ^ 52 + (m : Int)) * 2 ^ (f - (k + 1022)) - v * 2 ^ (53 - k)) = 0 := by
    rw [← Int.abs_lt_one_iff]
    exact_mod_cast hlt
  have hq : (2 ^ 52 + (m : ℚ)) * 2 ^ (f - (k + 1022)) = v * 2 ^ (53 - k) := by
    have := sub_eq_zero.mp hz
    exact_mod_cast this
  rw [hq, ← ev]

end JsonStruct
