import Verif.Lemmas.FloatPow
import Verif.Lemmas.FloatIeee

/-
Reading gives back the number that `decode` started from.
-/

namespace JsonStruct

/-- Rounding a number near to `m 2^e` gives `m 2^e`. -/
theorem near_rounds {F : FloatFmt} {m0 : Nat} {e0 : Int} {V W : ℚ} (hn : Near F m0 e0 V) (hF : 1 ≤ F.mant ∧ F.emin < -2)
    (hm : m0 < 2 ^ (F.mant + 1)) (hm' : F.emin < e0 → 2 ^ F.mant ≤ m0) (he : F.emin ≤ e0)
    (heps : 2 ^ (F.mant + 1) * eps ≤ 1 / 80000) (h1 : V * (1 - eps) ≤ W) (h2 : W ≤ V)
    (htie : V = ((m0 : ℚ) - 1 / 2) * 2 ^ e0 → 2 ≤ e0 → W = V) {b m : Nat} {e : Int} (hr : Rounds F b W m e) :
    (b : Int) = (e0 - F.emin) * 2 ^ F.mant + m0 := by
  have p0 : (0 : ℚ) < 2 ^ e0 := by positivity
  have hmq : (m0 : ℚ) + 1 ≤ 2 ^ (F.mant + 1) := by exact_mod_cast hm
  have hVe : V * eps ≤ 1 / 80000 * 2 ^ e0 := by
    have e0' : 0 ≤ eps := by unfold eps; positivity
    calc V * eps ≤ (2 ^ (F.mant + 1) * 2 ^ e0) * eps := by
          refine mul_le_mul_of_nonneg_right (le_trans hn.high ?_) e0'
          exact mul_le_mul_of_nonneg_right (by linarith) p0.le
      _ = (2 ^ (F.mant + 1) * eps) * 2 ^ e0 := by ring
      _ ≤ _ := mul_le_mul_of_nonneg_right heps p0.le
  have wlow : ((m0 : ℚ) - 1 / 2) * 2 ^ e0 < W ∨ W = ((m0 : ℚ) - 1 / 2) * 2 ^ e0 ∧ m0 % 2 = 0 := by
    rcases hn.low with h | ⟨h, h3, h4⟩
    · left; linarith
    · right; exact ⟨by rw [htie h h4, h], h3⟩
  have whigh : W ≤ ((m0 : ℚ) + 1 / 2) * 2 ^ e0 := le_trans h2 hn.high
  have whigh' : W = ((m0 : ℚ) + 1 / 2) * 2 ^ e0 → m0 % 2 = 0 ∧ -2 ≤ e0 := by
    intro h
    exact hn.high' (le_antisymm hn.high (by linarith))
  have pe : (0 : ℚ) < 2 ^ e := by positivity
  rcases lt_trichotomy e e0 with hlt | heq | hgt
  · have hm1 := hm' (by have := hr.ge; omega)
    have hm1q : (2 : ℚ) ^ F.mant ≤ m0 := by exact_mod_cast hm1
    have hz1 : (2 : ℚ) ^ e * 2 ≤ 2 ^ e0 := by
      rw [← zpow_add_one₀ (by norm_num)]; exact zpow_le_zpow_right₀ (by norm_num) (by omega)
    have ht := hr.top
    rw [pow_succ] at ht
    have hM : (0 : ℚ) < 2 ^ F.mant := by positivity
    have hup : W < 2 ^ F.mant * 2 ^ e0 := by
      have := mul_le_mul_of_nonneg_left hz1 hM.le
      linarith
    have hm2 : m0 = 2 ^ F.mant := by
      have h3 : ((m0 : ℚ) - 1 / 2) * 2 ^ e0 < 2 ^ F.mant * 2 ^ e0 := by
        rcases wlow with h | ⟨h, _⟩ <;> linarith
      have h4 := lt_of_mul_lt_mul_right h3 p0.le
      have h5 : (m0 : ℚ) < 2 ^ F.mant + 1 := by linarith
      have h6 : m0 < 2 ^ F.mant + 1 := by exact_mod_cast h5
      omega
    have hl := hn.low' hm2 (by have := hr.ge; omega)
    have hwl : ((m0 : ℚ) - 1 / 4) * 2 ^ e0 < W := by linarith
    have hm2q : (m0 : ℚ) = 2 ^ F.mant := by exact_mod_cast hm2
    have h2m : (2 : ℚ) ≤ 2 ^ F.mant := by
      have : (2 : ℚ) ^ 1 ≤ 2 ^ F.mant := pow_le_pow_right₀ (by norm_num) hF.1
      linarith
    have he1 : e = e0 - 1 := by
      by_contra hc
      have hz2 : (2 : ℚ) ^ e * 4 ≤ 2 ^ e0 := by
        have : (2 : ℚ) ^ e * 4 = 2 ^ (e + 2) := by rw [zpow_add₀ (by norm_num)]; norm_num
        rw [this]; exact zpow_le_zpow_right₀ (by norm_num) (by omega)
      have h7 : W < 2 ^ F.mant / 2 * 2 ^ e0 := by
        have := mul_le_mul_of_nonneg_left hz2 hM.le
        linarith
      have h8 := lt_of_mul_lt_mul_right (lt_trans hwl h7) p0.le
      linarith
    have hz : (2 : ℚ) ^ e0 = 2 * 2 ^ e := by
      rw [he1, zpow_sub₀ (by norm_num)]; norm_num; ring
    have hmm : m = 2 * 2 ^ F.mant := by
      have g1 := hr.low
      have g2 := hr.high
      rw [hz] at hwl
      have g3 : (2 * (m0 : ℚ) - 1 / 2) * 2 ^ e < (m + 1 / 2) * 2 ^ e := by linarith
      have g4 := lt_of_mul_lt_mul_right g3 pe.le
      have g5 : ((m : ℚ) - 1 / 2) * 2 ^ e < 2 ^ F.mant * 2 * 2 ^ e := by linarith
      have g6 := lt_of_mul_lt_mul_right g5 pe.le
      rw [hm2q] at g4
      have g7 : 2 * 2 ^ F.mant < m + 1 := by
        have : (2 : ℚ) * 2 ^ F.mant < m + 1 := by linarith
        exact_mod_cast this
      have g8 : m < 2 * 2 ^ F.mant + 1 := by
        have : (m : ℚ) < 2 * 2 ^ F.mant + 1 := by linarith
        exact_mod_cast this
      omega
    rw [hr.bits, hmm, hm2, he1]
    push_cast
    ring
  · subst heq
    have g1 := hr.low
    have g2 := hr.high
    rw [hr.bits]
    congr 2
    have a1 : m < m0 + 2 := by
      have : ((m : ℚ) - 1 / 2) * 2 ^ e ≤ (m0 + 1 / 2) * 2 ^ e := by linarith
      have := le_of_mul_le_mul_right this pe
      have : (m : ℚ) < m0 + 2 := by linarith
      exact_mod_cast this
    have a2 : m0 < m + 2 := by
      have : ((m0 : ℚ) - 1 / 2) * 2 ^ e ≤ (m + 1 / 2) * 2 ^ e := by rcases wlow with h | ⟨h, _⟩ <;> linarith
      have := le_of_mul_le_mul_right this pe
      have : (m0 : ℚ) < m + 2 := by linarith
      exact_mod_cast this
    rcases (show m = m0 ∨ m = m0 + 1 ∨ m0 = m + 1 by omega) with h | h | h
    · exact h
    · exfalso
      have hmq' : (m : ℚ) = m0 + 1 := by exact_mod_cast h
      have hw : W = ((m0 : ℚ) + 1 / 2) * 2 ^ e := by
        refine le_antisymm whigh ?_
        rw [hmq'] at g1; linarith
      obtain ⟨v1, v2⟩ := whigh' hw
      rcases hr.tieLow (by rw [hw, hmq']; ring) with h3 | h3
      · omega
      · have h4 := hr.norm (by omega)
        have h5 : (2 : ℚ) ^ F.mant * 2 ^ F.emin ≤ 2 ^ F.mant * 2 ^ e :=
          mul_le_mul_of_nonneg_left (zpow_le_zpow_right₀ (by norm_num) he) (by positivity)
        linarith
    · exfalso
      have hmq' : (m0 : ℚ) = m + 1 := by exact_mod_cast h
      rcases wlow with h3 | ⟨h3, h4⟩
      · rw [hmq'] at h3; linarith
      · have := hr.tieHigh (by rw [h3, hmq']; ring)
        omega
  · exfalso
    have h3 := hr.norm (by omega)
    have hz1 : (2 : ℚ) ^ e0 * 2 ≤ 2 ^ e := by
      rw [← zpow_add_one₀ (by norm_num)]; exact zpow_le_zpow_right₀ (by norm_num) (by omega)
    have hM : (0 : ℚ) < 2 ^ F.mant := by positivity
    have h4 := mul_le_mul_of_nonneg_left hz1 hM.le
    have h5 : 2 ^ (F.mant + 1) * (2 : ℚ) ^ e0 ≤ (m0 + 1 / 2) * 2 ^ e0 := by rw [pow_succ]; linarith
    have h6 := le_of_mul_le_mul_right h5 p0
    linarith

/-- What `convertToNumber<double>` does in general: it rounds a number just below the exact one. -/
theorem convert_rounds {p : Parsed} (h0 : p.significand ≠ 0) (h64 : p.significand < 2 ^ 64) (hexp : p.exp.natAbs ≤ 400)
    (hmin : 2 ^ (-1077 : Int) ≤ p.value) (he1 : -324 ≤ p.exp + p.count - 1) (he2 : p.exp + p.count - 1 ≤ 308) :
    ∃ W : ℚ, p.value * (1 - eps) ≤ W ∧ W ≤ p.value ∧
      (p.exp ≤ 0 → 10 ^ p.exp.natAbs ∣ p.significand → W = p.value) ∧
      (∀ u k, 0 < p.exp → 0 < u → u < 2 ^ 100 → p.significand * 10 ^ p.exp.natAbs ∣ u * 2 ^ k → W = p.value) ∧
      ((∃ b m e, convertToDouble p = some (withSign p.negative b) ∧ b ≤ 2047 * 2 ^ 52 ∧ Rounds f64.toFloatFmt b W m e) ∨
        2 ^ 1024 ≤ W ∧ convertToDouble p = some (makeInf f64 p.negative)) := by
  unfold convertToDouble
  simp only
  rw [if_neg (by omega), if_neg (by omega), if_neg h0]
  split
  · rename_i hs
    obtain ⟨hs1, hs2⟩ := hs
    have hv0 : 0 ≤ p.value := by unfold Parsed.value; positivity
    have heps : 0 ≤ eps := by unfold eps; positivity
    have hcc : countChars ⟨64, false⟩ (2 ^ 53) = 16 := by decide +kernel
    rw [hcc] at hs2
    have hab : p.exp.natAbs < 16 := by
      unfold iabs at hs2
      simp only [if_true] at hs2
      split at hs2
      · omega
      · split at hs2
        · rename_i h1 h2
          rw [h2] at hexp
          exact absurd hexp (by decide)
        · omega
    refine ⟨p.value, ?_, le_refl _, fun _ _ => rfl, fun _ _ _ _ _ _ => rfl, .inl ?_⟩
    · have : 0 ≤ p.value * eps := mul_nonneg hv0 heps
      linarith
    · obtain ⟨n, d, hn, hd, hval, hsc⟩ : ∃ n d : Nat, 0 < n ∧ 0 < d ∧ (n : ℚ) / d = p.value ∧
          shortCut p = withSign p.negative (roundTo f64.toFloatFmt n d) := by
        unfold shortCut
        by_cases hneg : p.exp < 0
        · refine ⟨p.significand, 10 ^ p.exp.natAbs, by omega, by positivity, ?_, by rw [if_pos hneg]⟩
          unfold Parsed.value
          rw [show p.exp = -(p.exp.natAbs : Int) by omega, zpow_neg, zpow_natCast, Int.natAbs_neg, Int.natAbs_natCast]
          push_cast
          rw [div_eq_mul_inv]
        · refine ⟨p.significand * 10 ^ p.exp.natAbs, 1, by positivity, by omega, ?_, by rw [if_neg hneg]⟩
          unfold Parsed.value
          obtain ⟨k, hk⟩ := Int.eq_ofNat_of_zero_le (show 0 ≤ p.exp by omega)
          rw [hk, zpow_natCast, Int.natAbs_natCast]
          push_cast
          simp
      obtain ⟨b, m, e, hr, hrt⟩ := roundTo_rounds f64.toFloatFmt hn hd
      rw [hval] at hr
      have hVt : p.value < 2 ^ 110 := by
        have h1 : (p.significand : ℚ) < 2 ^ 53 := by exact_mod_cast hs1
        have h2 : (10 : ℚ) ^ p.exp ≤ 10 ^ (16 : Int) := zpow_le_zpow_right₀ (by norm_num) (by omega)
        unfold Parsed.value
        calc (p.significand : ℚ) * 10 ^ p.exp ≤ 2 ^ 53 * 10 ^ (16 : Int) := mul_le_mul h1.le h2 (by positivity) (by positivity)
          _ < 2 ^ 110 := by norm_num
      have he : e < 58 + 1 := by
        by_contra hc
        have h1 := hr.norm (by rw [f64_emin]; omega)
        have h2 : (2 : ℚ) ^ (59 : Int) ≤ 2 ^ e := zpow_le_zpow_right₀ (by norm_num) (by omega)
        have h3 : (2 : ℚ) ^ f64.mant * 2 ^ (59 : Int) ≤ 2 ^ f64.mant * 2 ^ e := mul_le_mul_of_nonneg_left h2 (by positivity)
        have h4 : (2 : ℚ) ^ f64.mant * 2 ^ (59 : Int) = 2 ^ 111 := by
          show (2 : ℚ) ^ 52 * 2 ^ (59 : Int) = 2 ^ 111
          norm_num
        have h5 : (2 : ℚ) ^ 111 = 2 * 2 ^ 110 := by norm_num
        linarith
      have hm : m < 2 ^ 53 + 1 := by
        have h1 := lt_of_mul_lt_mul_right (lt_of_le_of_lt hr.low hr.top) (by positivity)
        have h2 : (m : ℚ) - 1 / 2 < 2 ^ 53 := h1
        have : (m : ℚ) < 2 ^ 53 + 1 := by linarith
        exact_mod_cast this
      have hb : b < 1200 * 2 ^ 52 := by
        have := hr.bits
        rw [f64_emin, show f64.mant = 52 from rfl] at this
        norm_num at this hm ⊢
        omega
      have hinf : f64.inf = 2047 * 2 ^ 52 := by decide
      refine ⟨b, m, e, ?_, Nat.le_of_lt (Nat.lt_trans hb (by norm_num)), hr⟩
      rw [hsc, hrt, hinf, if_neg (by norm_num at hb ⊢; omega)]
  · exact longWay_rounds h0 h64 hexp hmin

theorem back_bits {f : Nat} :
    (expOf f64 f - f64.emin) * 2 ^ f64.mant + mantOf f64 f = ((f % 2 ^ 63 : Nat) : Int) := by
  rw [f64_emin]
  unfold expOf mantOf
  simp only [show f64.mant = 52 from rfl, show f64.expw = 11 from rfl, show (f64.bias : Int) = 1023 by decide]
  norm_num
  split <;> omega

/-- Reading a number near to a double gives the double. -/
theorem convert_back {p : Parsed} {f : Nat} (hfin : f / 2 ^ 52 % 2 ^ 11 ≠ 2047) (hnz : f % 2 ^ 63 ≠ 0)
    (hn : Near f64.toFloatFmt (mantOf f64 f) (expOf f64 f) p.value) (h0 : p.significand ≠ 0) (h64 : p.significand < 2 ^ 64)
    (hexp : p.exp.natAbs ≤ 400) (he1 : -324 ≤ p.exp + p.count - 1) (he2 : p.exp + p.count - 1 ≤ 308) :
    convertToDouble p = some (withSign p.negative (f % 2 ^ 63)) := by
  have hlt : f / 2 ^ 52 % 2 ^ 11 < 2047 := by have := Nat.mod_lt (f / 2 ^ 52) (show 0 < 2 ^ 11 by positivity); omega
  have hm : mantOf f64 f < 2 ^ (f64.mant + 1) := by
    have := Nat.mod_lt f (show 0 < 2 ^ 52 by positivity)
    unfold mantOf
    simp only [show f64.mant = 52 from rfl]
    norm_num at this ⊢
    split <;> omega
  have hm' : f64.emin < expOf f64 f → 2 ^ f64.mant ≤ mantOf f64 f := by
    rw [f64_emin]
    unfold mantOf expOf
    simp only [show f64.mant = 52 from rfl, show f64.expw = 11 from rfl, show (f64.bias : Int) = 1023 by decide]
    intro h
    split
    · omega
    · rename_i hz
      rw [if_neg hz] at h
      omega
  have hge : f64.emin ≤ expOf f64 f := by
    rw [f64_emin]
    unfold expOf
    simp only [show f64.mant = 52 from rfl, show f64.expw = 11 from rfl, show (f64.bias : Int) = 1023 by decide]
    split <;> omega
  have hle : expOf f64 f ≤ 971 := by
    unfold expOf
    simp only [show f64.mant = 52 from rfl, show f64.expw = 11 from rfl, show (f64.bias : Int) = 1023 by decide]
    split <;> omega
  have hpos : 1 ≤ mantOf f64 f := by
    unfold mantOf
    simp only [show f64.mant = 52 from rfl, show f64.expw = 11 from rfl]
    split
    · have : 0 < 2 ^ 52 := by positivity
      omega
    · rename_i hz
      norm_num at hz hnz ⊢
      omega
  have hposq : (1 : ℚ) ≤ mantOf f64 f := by exact_mod_cast hpos
  have hmin : 1 / 10 ^ 324 ≤ p.value := by
    have h1 : (1 / 2 : ℚ) * 2 ^ (-1074 : Int) ≤ p.value := by
      have h2 : (1 / 2 : ℚ) * 2 ^ (-1074 : Int) ≤ ((mantOf f64 f : ℚ) - 1 / 2) * 2 ^ expOf f64 f := by
        refine mul_le_mul (by linarith) (zpow_le_zpow_right₀ (by norm_num) ?_) (by positivity) (by linarith)
        rw [← f64_emin]; exact hge
      refine le_trans h2 ?_
      rcases hn.low with h | ⟨h, _⟩
      · refine le_trans (mul_le_mul_of_nonneg_right (by linarith) (by positivity)) h
      · exact h.ge
    refine le_trans ?_ h1
    have h3 : 2 * 2 ^ 1074 ≤ 10 ^ 324 := by decide +kernel
    have h4 : (2 : ℚ) * 2 ^ 1074 ≤ 10 ^ 324 := by
      have := (Nat.cast_le (α := ℚ)).2 h3
      rwa [Nat.cast_mul, Nat.cast_pow, Nat.cast_pow] at this
    rw [show (-1074 : Int) = -((1074 : Nat) : Int) from rfl, zpow_neg, zpow_natCast]
    have hA : (0 : ℚ) < 2 ^ 1074 := by positivity
    have hT : (0 : ℚ) < 10 ^ 324 := by positivity
    generalize (2 : ℚ) ^ 1074 = A at *
    generalize (10 : ℚ) ^ 324 = T at *
    rw [inv_eq_one_div, div_mul_div_comm, div_le_div_iff₀ hT (by positivity)]
    linarith
  obtain ⟨W, w1, w2, w3, w4, w5⟩ := convert_rounds h0 h64 hexp (le_trans pow_1077 hmin) he1 he2
  rcases w5 with ⟨b, m, e, hb, hb63, hr⟩ | ⟨hinf, _⟩
  · have htie : p.value = ((mantOf f64 f : ℚ) - 1 / 2) * 2 ^ expOf f64 f → 2 ≤ expOf f64 f → W = p.value := by
      intro hv h2
      obtain ⟨k, hk⟩ := Int.eq_ofNat_of_zero_le (show 0 ≤ expOf f64 f - 1 by omega)
      have hu : ((2 * mantOf f64 f - 1 : Nat) : ℚ) = 2 * (mantOf f64 f : ℚ) - 1 := by
        rw [Nat.cast_sub (by omega)]; push_cast; ring
      have hv' : p.value = ((2 * mantOf f64 f - 1 : Nat) : ℚ) * 2 ^ k := by
        rw [hv, hu, show expOf f64 f = k + 1 by omega, zpow_add_one₀ (by norm_num), zpow_natCast]; ring
      unfold Parsed.value at hv'
      by_cases hp : 0 < p.exp
      · refine w4 (2 * mantOf f64 f - 1) k hp (by omega) ?_ ?_
        · have : (2 : Nat) ^ (f64.mant + 1) = 2 ^ 53 := rfl
          rw [this] at hm
          norm_num at hm ⊢
          omega
        · obtain ⟨n, hn⟩ := Int.eq_ofNat_of_zero_le hp.le
          rw [hn, zpow_natCast] at hv'
          rw [hn, Int.natAbs_natCast]
          have : p.significand * 10 ^ n = (2 * mantOf f64 f - 1) * 2 ^ k := by exact_mod_cast hv'
          rw [this]
      · refine w3 (by omega) ?_
        obtain ⟨n, hn⟩ := Int.eq_ofNat_of_zero_le (show 0 ≤ -p.exp by omega)
        rw [show p.exp = -(n : Int) by omega, zpow_neg, zpow_natCast, ← div_eq_mul_inv, div_eq_iff (by positivity)] at hv'
        rw [show p.exp.natAbs = n by omega]
        have : p.significand = (2 * mantOf f64 f - 1) * 2 ^ k * 10 ^ n := by exact_mod_cast hv'
        rw [this]
        exact Nat.dvd_mul_left _ _
    have hbits := near_rounds hn ⟨by decide, by rw [f64_emin]; omega⟩ hm hm' hge
      (by show (2 : ℚ) ^ 53 * eps ≤ 1 / 80000; unfold eps; norm_num) w1 w2 htie hr
    rw [back_bits] at hbits
    rw [hb]
    congr 2
    exact_mod_cast hbits
  · exfalso
    have h1 : p.value < 2 ^ (53 : Int) * 2 ^ (971 : Int) := by
      refine lt_of_le_of_lt hn.high ?_
      have h2 : (mantOf f64 f : ℚ) + 1 ≤ 2 ^ (53 : Int) := by
        have : mantOf f64 f + 1 ≤ 2 ^ 53 := hm
        exact_mod_cast this
      refine mul_lt_mul (by linarith) (zpow_le_zpow_right₀ (by norm_num) hle) (by positivity) (by positivity)
    rw [← zpow_add₀ (by norm_num), show (53 : Int) + 971 = ((1024 : Nat) : Int) from rfl, zpow_natCast] at h1
    linarith

end JsonStruct
