import Verif.Lemmas.FloatNearest
import Verif.Lemmas.FloatExact
import Verif.Lemmas.FloatPow

/-
Writing a float and reading it back.
-/

namespace JsonStruct

/-- A float in terms of its mantissa and exponent. -/
theorem float_parts {f : Nat} (hfin : f / 2 ^ 23 % 2 ^ 8 ≠ 255) :
    f % 2 ^ 31 < f32.inf ∧ absValue 23 8 (f % 2 ^ 31) = mantOf f32 f * 2 ^ expOf f32 f ∧ gap32 (f % 2 ^ 31) = 2 ^ expOf f32 f ∧
    mantOf f32 f % 2 = f % 2 ^ 31 % 2 ∧
    (0 < f % 2 ^ 31 → gap32 (f % 2 ^ 31 - 1) = 2 ^ expOf f32 f ∨ gap32 (f % 2 ^ 31 - 1) = 2 ^ expOf f32 f / 2 ∧ mantOf f32 f = 2 ^ f32.mant ∧ f32.emin < expOf f32 f) := by
  have hinf : f32.inf = 255 * 2 ^ 23 := by decide
  have hlt : f % 2 ^ 31 < f32.inf := by rw [hinf]; norm_num at hfin ⊢; omega
  have e1 : f / 2 ^ 23 % 2 ^ 8 = f % 2 ^ 31 / 2 ^ 23 := by norm_num; omega
  have e2 : f % 2 ^ 23 = f % 2 ^ 31 % 2 ^ 23 := by norm_num
  have hm : mantOf f32 f = if f % 2 ^ 31 / 2 ^ 23 ≠ 0 then f % 2 ^ 31 % 2 ^ 23 + 2 ^ 23 else f % 2 ^ 31 % 2 ^ 23 := by
    unfold mantOf
    rw [show f32.mant = 23 from rfl, show f32.expw = 8 from rfl, e1, e2]
  have he : expOf f32 f = (f % 2 ^ 31 / 2 ^ 23 - 1 : Nat) + (-149 : Int) := by
    unfold expOf
    simp only [show f32.mant = 23 from rfl, show f32.expw = 8 from rfl, show (f32.bias : Int) = 127 by decide]
    rw [e1]
    split <;> omega
  generalize f % 2 ^ 31 = g at *
  have hgap : ∀ x : Nat, gap32 x = 2 ^ (((x / 2 ^ 23 - 1 : Nat) : Int) + (-149 : Int)) := by
    intro x
    unfold gap32 FloatFmt.step
    rw [show f32.mant = 23 from rfl, zpow_add₀ (by norm_num), zpow_natCast, show (-149 : Int) = -((149 : Nat) : Int) from rfl, zpow_neg, zpow_natCast,
      div_eq_mul_inv]
    push_cast
    rfl
  refine ⟨hlt, ?_, ?_, ?_, ?_⟩
  · rw [value32 hlt.le, he, zpow_add₀ (by norm_num), zpow_natCast, show (-149 : Int) = -((149 : Nat) : Int) from rfl, zpow_neg, zpow_natCast, hm]
    unfold FloatFmt.units
    rw [show f32.mant = 23 from rfl]
    by_cases h : g / 2 ^ 23 = 0
    · rw [if_pos h, if_neg (not_not_intro h), h, div_eq_mul_inv]
      norm_num
    · rw [if_neg h, if_pos h, div_eq_mul_inv]
      push_cast
      ring
  · rw [hgap, he]
  · rw [hm]
    split <;> omega
  · intro hpos
    rw [hgap, he, hm]
    by_cases h : g % 2 ^ 23 = 0 ∧ 2 ≤ g / 2 ^ 23
    · right
      have h1 : (g - 1) / 2 ^ 23 - 1 + 1 = g / 2 ^ 23 - 1 := by omega
      refine ⟨?_, ?_, ?_⟩
      · rw [← h1]
        push_cast
        rw [add_right_comm, zpow_add_one₀ (by norm_num)]
        ring
      · rw [if_pos (by omega), h.1]; rfl
      · rw [f32_emin]; omega
    · left
      congr 2
      norm_num at h ⊢
      omega

/-- A number near a float is rounded to it. -/
theorem near_rounds32 {f : Nat} {V : ℚ} (hfin : f / 2 ^ 23 % 2 ^ 8 ≠ 255) (hnz : f % 2 ^ 31 ≠ 0)
    (hn : Near f32.toFloatFmt (mantOf f32 f) (expOf f32 f) V) :
    RoundsTo 23 8 (f % 2 ^ 31) V ∧ absValue 23 8 (f % 2 ^ 31 - 1) + absValue 23 8 (f % 2 ^ 31) ≤ 2 * V ∧
    2 * V ≤ absValue 23 8 (f % 2 ^ 31) + absValue 23 8 (f % 2 ^ 31 + 1) ∧ (f % 2 ^ 31 = 1 → (1 / 2 + 1 / 40000) * 2 ^ (-149 : Int) ≤ V) := by
  obtain ⟨h1, h2, h3, h4, h5⟩ := float_parts hfin
  have h5 := h5 (by omega)
  have hp : (0 : ℚ) < 2 ^ expOf f32 f := by positivity
  have s1 := value32_succ h1
  obtain ⟨q, hq⟩ : ∃ q, f % 2 ^ 31 = q + 1 := ⟨f % 2 ^ 31 - 1, by omega⟩
  have n1 := hn.low
  have n2 := hn.low'
  have n3 := hn.high
  have n4 := hn.high'
  have hone : f % 2 ^ 31 = 1 → mantOf f32 f = 1 ∧ expOf f32 f = -149 := by
    intro h
    have e1 : f / 2 ^ 23 % 2 ^ 8 = 0 := by norm_num at h ⊢; omega
    have e2 : f % 2 ^ 23 = 1 := by norm_num at h ⊢; omega
    unfold mantOf expOf
    simp only [show f32.mant = 23 from rfl, show f32.expw = 8 from rfl, show (f32.bias : Int) = 127 by decide]
    rw [if_neg (not_not_intro e1), if_neg (not_not_intro e1), e2]
    exact ⟨rfl, by norm_num⟩
  have hone' : f % 2 ^ 31 = 1 → (1 / 2 + 1 / 40000) * 2 ^ (-149 : Int) ≤ V := by
    intro h
    obtain ⟨g1, g2⟩ := hone h
    rw [g1, g2] at n1
    rcases n1 with n1 | ⟨_, n1, _⟩
    · norm_num at n1 ⊢; linarith
    · omega
  clear hone
  generalize mantOf f32 f = m at *
  generalize (2 : ℚ) ^ expOf f32 f = p at *
  generalize f % 2 ^ 31 = g at *
  subst hq
  rw [Nat.add_sub_cancel] at *
  have s0 := value32_succ (g := q) (by omega)
  have low : absValue 23 8 q + absValue 23 8 (q + 1) ≤ 2 * V ∧ (absValue 23 8 q + absValue 23 8 (q + 1) = 2 * V → (q + 1) % 2 = 0) := by
    rcases h5 with h5 | ⟨h5, h6, h7⟩
    · rcases n1 with n1 | ⟨n1, n5, _⟩
      · have : absValue 23 8 q + absValue 23 8 (q + 1) < 2 * V := by nlinarith
        exact ⟨this.le, fun h => absurd h this.ne⟩
      · exact ⟨by nlinarith, fun _ => by omega⟩
    · have n2 := n2 h6 h7
      have : absValue 23 8 q + absValue 23 8 (q + 1) < 2 * V := by nlinarith
      exact ⟨this.le, fun h => absurd h this.ne⟩
  have high : 2 * V ≤ absValue 23 8 (q + 1) + absValue 23 8 (q + 1 + 1) ∧ (2 * V = absValue 23 8 (q + 1) + absValue 23 8 (q + 1 + 1) → (q + 1) % 2 = 0) := by
    refine ⟨by nlinarith, fun h => ?_⟩
    have := n4 (by nlinarith)
    omega
  refine ⟨?_, low.1, high.1, hone'⟩
  refine roundsTo_of (F := f32.toFloatFmt) h1.le (fun _ => ?_) (fun _ => high)
  rw [Nat.add_sub_cancel]
  exact low

theorem float_two : absValue 23 8 2 = 2 * 2 ^ (-149 : Int) := by norm_num [absValue, magnitude]
theorem float_max2 : absValue 23 8 (f32.inf - 2) = 2 ^ 128 - 2 * 2 ^ 104 := by
  rw [show f32.inf - 2 = 2139095038 from by decide]; norm_num [absValue, magnitude]

/-- Writing a float and reading it back, in general. -/
theorem float_trip {f : Nat} (hf : f < 2 ^ 32) (hfin : f / 2 ^ 23 % 2 ^ 8 ≠ 255) (hnz : f % 2 ^ 31 ≠ 0) (hmax : f % 2 ^ 31 ≠ f32.inf - 1) :
    ∃ n : NumText, floatToBuffer f32 f = some n.text ∧ JsonNumber n.text ∧ floatTo n.text = some (.noError, f) := by
  obtain ⟨r, hr, hdec⟩ := decode_float hfin hnz
  obtain ⟨hd, h9⟩ := decoded_count hdec (by omega)
  obtain ⟨k1, k2, k3, k4⟩ := near_rounds32 hfin hnz hdec.near
  have hlt := (float_parts hfin).1
  have mono := fun {a b : Nat} (h : a ≤ b) (hb : b ≤ f32.inf) => absValue_mono f32.toFloatFmt h hb
  have hV1 : 2 ^ (-150 : Int) + 2 ^ (-170 : Int) ≤ (r.significand : ℚ) * (10 : ℚ) ^ r.exp := by
    by_cases h1 : f % 2 ^ 31 = 1
    · have := k4 h1
      norm_num at this ⊢
      linarith
    · have g1 : absValue 23 8 1 ≤ absValue 23 8 (f % 2 ^ 31 - 1) := mono (by omega) (by omega)
      have g2 : absValue 23 8 2 ≤ absValue 23 8 (f % 2 ^ 31) := mono (by omega) (by omega)
      rw [float_one] at g1
      rw [float_two] at g2
      generalize absValue 23 8 (f % 2 ^ 31 - 1) = x at *
      generalize absValue 23 8 (f % 2 ^ 31) = y at *
      norm_num at g1 g2 ⊢
      linarith
  have hV2 : (r.significand : ℚ) * (10 : ℚ) ^ r.exp ≤ 2 ^ 128 - 2 ^ 104 := by
    have g1 : absValue 23 8 (f % 2 ^ 31) ≤ absValue 23 8 (f32.inf - 2) := mono (by omega) (by omega)
    have g2 : absValue 23 8 (f % 2 ^ 31 + 1) ≤ absValue 23 8 (f32.inf - 1) := mono (by omega) (by omega)
    rw [float_max2] at g1
    rw [float_max] at g2
    generalize absValue 23 8 (f % 2 ^ 31 + 1) = x at *
    generalize absValue 23 8 (f % 2 ^ 31) = y at *
    norm_num at g1 g2 ⊢
    linarith
  obtain ⟨e1, e2⟩ := decoded_range (a := -46) (b := 39) hd hdec.pos rfl (by refine lt_of_lt_of_le ?_ hV1; norm_num) (by refine lt_of_le_of_lt hV2 ?_; norm_num)
  have hd1 := hd.1
  obtain ⟨n, hn, hw⟩ := convertToBuffer_written (size := 16) (expanded := 10) (K := 2) hdec.inf hdec.nan hd hdec.pos (by omega)
    (by norm_num; omega) (by omega) (by omega) (by omega) (by omega)
  have hlen : (n.int ++ n.frac.getD []).length ≤ 18 := by have := hw.len; omega
  have hlen' : (n.int ++ n.frac.getD []).length = n.int.length + (n.frac.getD []).length := List.length_append
  have hval : n.absValue = r.significand * (10 : ℚ) ^ r.exp := hw.value
  refine ⟨n, ?_, written_json hw, ?_⟩
  · unfold floatToBuffer
    rw [hr]
    exact hn
  · have hexp : expoOf n + n.int.length ≤ 309 ∧ doubleTo n.text ≠ none := by
      have h1 := scale_eq n
      have h2 := hw.scale
      refine ⟨by omega, double_defined hw.loose hw.int (by omega) ?_⟩
      rw [hval]
      refine le_trans ?_ hV1
      refine le_trans (zpow_le_zpow_right₀ (by norm_num) (show (-1077 : Int) ≤ -150 by norm_num)) ?_
      norm_num
    obtain ⟨b, b1, b2⟩ := float_any hw.loose hw.int (by omega) (.inl (by omega)) (.inr hexp) (by omega)
      (by
        rw [hval, abs_of_nonneg (by norm_num at hV1 ⊢; linarith)]
        norm_num at hV1 ⊢; linarith)
      (by
        rw [hval, abs_of_nonpos (by norm_num at hV2 ⊢; linarith)]
        norm_num at hV2 ⊢; linarith)
    rw [hval] at b2
    have hb : b = f % 2 ^ 31 := roundsTo_unique (F := f32.toFloatFmt) b2 k1
    rw [b1, hb, hw.neg, hdec.neg, show f32.size - 1 = 31 from rfl]
    congr 2
    by_cases hs : f / 2 ^ 31 = 0
    · rw [hs]
      simp only [bne_self_eq_false, Bool.false_eq_true, if_false]
      norm_num at hs ⊢
      omega
    · rw [if_pos (by simpa using hs)]
      norm_num at hs hf ⊢
      omega

end JsonStruct
