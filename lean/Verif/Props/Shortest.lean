import Verif.Lemmas.FloatBrief
import Verif.Props.Float32
import Verif.Spec.Shortest

/-
C69: how many digits floating point numbers are written with.
-/

namespace JsonStruct

theorem wellWithin_bounds {T : FloatTy} (hb : (T.bias : Int) = 2 ^ (T.expw - 1) - 1) {f : Nat} (hfin : Finite T.mant T.expw f)
    (hnz : magnitude T.mant T.expw f ≠ 0) {d : ℚ} (h : WellWithin T.mant T.expw f d) :
    ((mantOf T f : ℚ) - 47 / 100 * belowOf T f) * 2 ^ expOf T f ≤ d ∧ d ≤ ((mantOf T f : ℚ) + 47 / 100) * 2 ^ expOf T f := by
  unfold WellWithin at h
  simp only at h
  unfold Finite at hfin
  have hlt : magnitude T.mant T.expw f / 2 ^ T.mant < 2 ^ T.expw := by
    unfold magnitude; rw [field_magnitude]; exact Nat.mod_lt _ (by positivity)
  obtain ⟨p1, p2, p3⟩ := parts_magnitude (T := T) f
  have hlt' : magnitude T.mant T.expw f / 2 ^ T.mant + 1 < 2 ^ T.expw := by
    generalize magnitude T.mant T.expw f / 2 ^ T.mant = y at *
    omega
  rw [absValue_prev hb (by omega) hlt', absValue_next hb hlt', absValue_here hb, p1, p2, p3] at h
  exact ⟨by linarith [h.1], by linarith [h.2]⟩

theorem finite_from {T : FloatTy} {f : Nat} (h : Finite T.mant T.expw f) : floatFrom T f = floatToBuffer T f := by
  unfold Finite magnitude at h
  rw [field_magnitude] at h
  unfold floatFrom isNan isInf getParts
  rw [if_neg]
  simp only [Bool.or_eq_true, Bool.and_eq_true, beq_iff_eq]
  rintro (⟨h', _⟩ | ⟨h', _⟩) <;> exact h h'

/-- C69 does not hold: 808.488 is read as a double, and that double is written with ten digits more; so is 0.544 as a float. The
lower end of the range is rounded to the nearest integer, and if that is upwards, numbers between are passed over. -/
theorem C69_false_shortest :
    doubleTo b!"808.488" = some (.noError, 0x408943E76C8B4396) ∧ floatFrom f64 0x408943E76C8B4396 = some b!"808.4880000000001" ∧
    floatTo b!"0.544" = some (.noError, 0x3F0B4396) ∧ floatFrom f32 0x3F0B4396 = some b!"5.4400003e-1" := by
  decide +kernel

/-- C69 does not hold: of the numbers with 17 digits it is not the nearest that is written. The double here is the integer
26844367937923816, but the last digit that is written is a 7. -/
theorem C69_false_nearest :
    doubleTo b!"26844367937923816" = some (.noError, 4852584291035134650) ∧ absValue 52 11 4852584291035134650 = 26844367937923816 ∧
    floatFrom f64 4852584291035134650 = some b!"2.6844367937923817e16" := by
  refine ⟨by decide +kernel, ?_, by decide +kernel⟩
  norm_num [absValue, magnitude]

theorem zero_noShorter {mant expw f : Nat} : NoShorter mant expw f 0 := fun _ _ _ => ⟨0, by simp⟩

theorem bounds140 {f : Nat} (hp : f % 2 ^ 63 = 883 * 2 ^ 52) (hfin : Finite 52 11 f) {d : ℚ} (h : WellWithin 52 11 f d) :
    (((2 ^ 52 : Nat) : ℚ) - 47 / 200) * 2 ^ (-192 : Int) ≤ d ∧ d ≤ (((2 ^ 52 : Nat) : ℚ) + 47 / 100) * 2 ^ (-192 : Int) := by
  have hmag : magnitude 52 11 f ≠ 0 := by unfold magnitude; norm_num at hp ⊢; omega
  obtain ⟨b1, b2⟩ := wellWithin_bounds (T := f64) f64_bias hfin hmag h
  have e1 : f % 2 ^ 52 = 0 := by norm_num at hp ⊢; omega
  have e2 : f / 2 ^ 52 % 2 ^ 11 = 883 := by norm_num at hp ⊢; omega
  have hm : mantOf f64 f = 2 ^ 52 := by
    unfold mantOf; rw [show f64.mant = 52 from rfl, show f64.expw = 11 from rfl, e1, e2]; norm_num
  have he : expOf f64 f = -192 := by
    unfold expOf; rw [show f64.mant = 52 from rfl, show f64.expw = 11 from rfl, e2]; decide
  have hb : belowOf f64 f = 1 / 2 := by
    unfold belowOf; rw [show f64.mant = 52 from rfl, show f64.expw = 11 from rfl, e1, e2]; norm_num
  rw [hm, he, hb] at b1
  rw [hm, he] at b2
  rw [show (47 / 200 : ℚ) = 47 / 100 * (1 / 2) by norm_num]
  exact ⟨b1, b2⟩

/-- C69 for doubles, up to the ends of the range: every finite double is written with at most 17 significant digits, and no
decimal number well within the range of those that round to it ends at a higher place. Missing are the outermost 3 hundredths
on either side, where it does not hold, and that the number is the nearest one, which does not hold either. -/
theorem C69_double_partial (f : Nat) (hf : f < 2 ^ 64) (hfin : Finite 52 11 f) :
    ∃ n : NumText, floatFrom f64 f = some n.text ∧ (∃ (s : Nat) (x : Int), s < 10 ^ 17 ∧ n.absValue = s * 10 ^ x) ∧
      NoShorter 52 11 f n.absValue := by
  have hfin' := hfin
  unfold Finite magnitude at hfin'
  norm_num at hf hfin'
  have hexp : f / 2 ^ 52 % 2 ^ 11 ≠ 2047 := by norm_num; omega
  by_cases hz : f % 2 ^ 63 = 0
  · norm_num at hz
    have hzero : ∀ b : Bool, (⟨b, b!"0", some b!"0", none⟩ : NumText).absValue = 0 := by
      intro b
      have : (⟨b, b!"0", some b!"0", none⟩ : NumText).mantissa = 0 := by cases b <;> decide +kernel
      unfold NumText.absValue
      rw [this]; simp
    have : f = 0 ∨ f = 0x8000000000000000 := by omega
    rcases this with h | h <;> subst h
    · exact ⟨⟨false, b!"0", some b!"0", none⟩, by decide +kernel, ⟨0, 0, by norm_num, by rw [hzero]; simp⟩, by rw [hzero]; exact zero_noShorter⟩
    · exact ⟨⟨true, b!"0", some b!"0", none⟩, by decide +kernel, ⟨0, 0, by norm_num, by rw [hzero]; simp⟩, by rw [hzero]; exact zero_noShorter⟩
  · have hmag : magnitude 52 11 f ≠ 0 := by unfold magnitude; norm_num at hz ⊢; exact hz
    by_cases hp : f % 2 ^ 63 = 883 * 2 ^ 52
    · have hval : ∀ b : Bool, (⟨b, b!"7", some b!"174648137343063", some (0x65, b!"-", b!"43")⟩ : NumText).absValue =
          (7174648137343063 : Nat) * 10 ^ (-58 : Int) := by
        intro b
        have h1 : (⟨b, b!"7", some b!"174648137343063", some (0x65, b!"-", b!"43")⟩ : NumText).mantissa = 7174648137343063 := by
          cases b <;> decide +kernel
        have h2 : (⟨b, b!"7", some b!"174648137343063", some (0x65, b!"-", b!"43")⟩ : NumText).scale = -58 := by
          cases b <;> decide +kernel
        unfold NumText.absValue
        rw [h1, h2]
      have hns : NoShorter 52 11 f ((7174648137343063 : Nat) * 10 ^ (-58 : Int)) := by
        intro k E h
        obtain ⟨b1, b2⟩ := bounds140 hp hfin h
        rcases lt_or_ge (-58) E with hE | hE
        · exact absurd (noneNear_spec (m := 2 ^ 52) (e := -192) (E := -57) (by norm_num) (by decide +kernel) k E (by omega)
            b1 b2) id
        · obtain ⟨d, hd⟩ := Int.eq_ofNat_of_zero_le (show 0 ≤ -58 - E by omega)
          refine ⟨7174648137343063 * 10 ^ d, ?_⟩
          rw [show (-58 : Int) = (d : Int) + E by omega, zpow_add₀ (by norm_num), zpow_natCast]
          push_cast; ring
      norm_num at hp
      have : f = 0x3730000000000000 ∨ f = 0xB730000000000000 := by omega
      rcases this with h | h <;> subst h
      · exact ⟨⟨false, b!"7", some b!"174648137343063", some (0x65, b!"-", b!"43")⟩, by decide +kernel, ⟨_, _, by norm_num, hval _⟩, by rw [hval]; exact hns⟩
      · exact ⟨⟨true, b!"7", some b!"174648137343063", some (0x65, b!"-", b!"43")⟩, by decide +kernel, ⟨_, _, by norm_num, hval _⟩, by rw [hval]; exact hns⟩
    · obtain ⟨n, r, h1, h2, h3⟩ := double_written hexp hz hp
      refine ⟨n, by rw [finite_from (T := f64) hfin]; exact h1, ⟨_, _, h2.lt, h3⟩, fun k E h => ?_⟩
      obtain ⟨b1, b2⟩ := wellWithin_bounds (T := f64) f64_bias hfin hmag h
      rw [h3]
      exact h2.short k E b1 b2

/-- C69 for floats, up to the ends of the range, as for doubles; they are written with at most 9 significant digits. -/
theorem C69_float_partial (f : Nat) (hf : f < 2 ^ 32) (hfin : Finite 23 8 f) :
    ∃ n : NumText, floatFrom f32 f = some n.text ∧ (∃ (s : Nat) (x : Int), s < 10 ^ 9 ∧ n.absValue = s * 10 ^ x) ∧
      NoShorter 23 8 f n.absValue := by
  have hfin' := hfin
  unfold Finite magnitude at hfin'
  norm_num at hf hfin'
  have hexp : f / 2 ^ 23 % 2 ^ 8 ≠ 255 := by norm_num; omega
  by_cases hz : f % 2 ^ 31 = 0
  · norm_num at hz
    have hzero : ∀ b : Bool, (⟨b, b!"0", some b!"0", none⟩ : NumText).absValue = 0 := by
      intro b
      have : (⟨b, b!"0", some b!"0", none⟩ : NumText).mantissa = 0 := by cases b <;> decide +kernel
      unfold NumText.absValue
      rw [this]; simp
    have : f = 0 ∨ f = 0x80000000 := by omega
    rcases this with h | h <;> subst h
    · exact ⟨⟨false, b!"0", some b!"0", none⟩, by decide +kernel, ⟨0, 0, by norm_num, by rw [hzero]; simp⟩, by rw [hzero]; exact zero_noShorter⟩
    · exact ⟨⟨true, b!"0", some b!"0", none⟩, by decide +kernel, ⟨0, 0, by norm_num, by rw [hzero]; simp⟩, by rw [hzero]; exact zero_noShorter⟩
  · have hmag : magnitude 23 8 f ≠ 0 := by unfold magnitude; norm_num at hz ⊢; exact hz
    obtain ⟨n, r, h1, h2, h3⟩ := float_written hexp hz
    refine ⟨n, by rw [finite_from (T := f32) hfin]; exact h1, ⟨_, _, h2.lt, h3⟩, fun k E h => ?_⟩
    obtain ⟨b1, b2⟩ := wellWithin_bounds (T := f32) f32_bias hfin hmag h
    rw [h3]
    exact h2.short k E b1 b2

theorem kept {T : FloatTy} {digits f : Nat} {r : Base10} (hd : Decoded T digits f r) (N : Nat) (hN : 4 * N ≤ 2 ^ T.mant - 1)
    (hnorm : 2 ^ T.mant ≤ mantOf T f) {k : Nat} {E : Int} (hk : k < N)
    (b1 : ((mantOf T f : ℚ) - 47 / 100 * belowOf T f) * 2 ^ expOf T f ≤ k * 10 ^ E) (b2 : k * (10 : ℚ) ^ E ≤ ((mantOf T f : ℚ) + 47 / 100) * 2 ^ expOf T f) :
    r.significand * (10 : ℚ) ^ r.exp = k * 10 ^ E := by
  obtain ⟨z, hz⟩ := hd.short k E b1 b2
  have hlow := hd.near.low
  have hhigh := hd.near.high
  rw [hz] at hlow hhigh ⊢
  have hp : (0 : ℚ) < 2 ^ expOf T f := by positivity
  have hP : (0 : ℚ) < 10 ^ E := by positivity
  have hbel : belowOf T f ≤ 1 := by unfold belowOf; split <;> norm_num
  generalize belowOf T f = bl at *
  generalize (2 : ℚ) ^ expOf T f = p at *
  generalize (10 : ℚ) ^ E = P at *
  have hN1 : (4 : ℚ) * N ≤ 2 ^ T.mant - 1 := by
    have h1 : 1 ≤ 2 ^ T.mant := Nat.one_le_two_pow
    have : ((4 * N : Nat) : ℚ) ≤ ((2 ^ T.mant - 1 : Nat) : ℚ) := by exact_mod_cast hN
    rw [Nat.cast_sub h1] at this
    push_cast at this; exact this
  have hmq : (2 : ℚ) ^ T.mant ≤ mantOf T f := by exact_mod_cast hnorm
  have hkN : (k : ℚ) ≤ N := by exact_mod_cast hk.le
  have hN0 : (0 : ℚ) < N := by
    have : 0 < N := by omega
    exact_mod_cast this
  generalize (mantOf T f : ℚ) = m at *
  -- the distance of the numbers is at most a quarter of the last place
  have q1 : (m - 47 / 100) * p ≤ (m - 47 / 100 * bl) * p := mul_le_mul_of_nonneg_right (by linarith) hp.le
  have q2 : 4 * N * p ≤ (m - 47 / 100) * p := mul_le_mul_of_nonneg_right (by linarith) hp.le
  have q3 : (k : ℚ) * P ≤ N * P := mul_le_mul_of_nonneg_right hkN hP.le
  have q4 : 4 * p ≤ P := le_of_mul_le_mul_left (a := (N : ℚ)) (by linarith) hN0
  have q5 : (m - 1 / 2) * p ≤ z * P := by
    rcases hlow with h | h
    · exact le_trans (mul_le_mul_of_nonneg_right (by linarith) hp.le) h
    · exact h.1.ge
  have q6 : (z : ℚ) < k + 1 := lt_of_mul_lt_mul_right (a := P) (by linarith) hP.le
  have q7 : (k : ℚ) < z + 1 := lt_of_mul_lt_mul_right (a := P) (by linarith) hP.le
  have q6 : z < k + 1 := by exact_mod_cast q6
  have q7 : k < z + 1 := by exact_mod_cast q7
  rw [show z = k by omega]

/-- C69: a decimal number `k 10^E` of up to 15 digits, well within the range of those that round to a normal double, is what is
written for that double. (All numbers of up to 15 digits lie within the range of the double they are read as, but if they are
near to an end of the range, it does not hold: see `C69_false_shortest`.) -/
theorem C69_double_kept_partial (f : Nat) (hfin : Finite 52 11 f) (hnorm : 2 ^ 52 ≤ magnitude 52 11 f) (k : Nat) (E : Int) (hk : k < 10 ^ 15)
    (h : WellWithin 52 11 f (k * 10 ^ E)) : ∃ n : NumText, floatFrom f64 f = some n.text ∧ n.absValue = k * 10 ^ E := by
  have hfin' := hfin
  have hnorm' := hnorm
  unfold Finite magnitude at hfin'
  unfold magnitude at hnorm'
  norm_num at hfin' hnorm'
  have hexp : f / 2 ^ 52 % 2 ^ 11 ≠ 2047 := by norm_num; omega
  by_cases hp : f % 2 ^ 63 = 883 * 2 ^ 52
  · exfalso
    obtain ⟨b1, b2⟩ := bounds140 hp hfin h
    rcases lt_or_ge (-58) E with hE | hE
    · exact noneNear_spec (m := 2 ^ 52) (e := -192) (E := -57) (by norm_num) (by decide +kernel) k E (by omega) b1 b2
    · have h1 : (10 : ℚ) ^ E ≤ 10 ^ (-58 : Int) := zpow_le_zpow_right₀ (by norm_num) hE
      have h2 : (k : ℚ) ≤ 10 ^ 15 := by exact_mod_cast hk.le
      have h3 : (k : ℚ) * 10 ^ E ≤ 10 ^ 15 * 10 ^ (-58 : Int) := mul_le_mul h2 h1 (by positivity) (by positivity)
      have h4 := le_trans b1 h3
      norm_num at h4
  · have hmag : magnitude 52 11 f ≠ 0 := by omega
    obtain ⟨n, r, h1, h2, h3⟩ := double_written hexp (by norm_num; omega) hp
    refine ⟨n, by rw [finite_from (T := f64) hfin]; exact h1, ?_⟩
    obtain ⟨b1, b2⟩ := wellWithin_bounds (T := f64) f64_bias hfin hmag h
    rw [h3]
    refine kept h2 (10 ^ 15) (by decide) ?_ hk b1 b2
    unfold mantOf
    rw [if_pos (by show f / 2 ^ 52 % 2 ^ 11 ≠ 0; norm_num; omega)]
    omega

/-- C69 for floats in the same way, with up to 6 digits. -/
theorem C69_float_kept_partial (f : Nat) (hfin : Finite 23 8 f) (hnorm : 2 ^ 23 ≤ magnitude 23 8 f) (k : Nat) (E : Int) (hk : k < 10 ^ 6)
    (h : WellWithin 23 8 f (k * 10 ^ E)) : ∃ n : NumText, floatFrom f32 f = some n.text ∧ n.absValue = k * 10 ^ E := by
  have hfin' := hfin
  have hnorm' := hnorm
  unfold Finite magnitude at hfin'
  unfold magnitude at hnorm'
  norm_num at hfin' hnorm'
  have hexp : f / 2 ^ 23 % 2 ^ 8 ≠ 255 := by norm_num; omega
  have hmag : magnitude 23 8 f ≠ 0 := by omega
  obtain ⟨n, r, h1, h2, h3⟩ := float_written hexp (by norm_num; omega)
  refine ⟨n, by rw [finite_from (T := f32) hfin]; exact h1, ?_⟩
  obtain ⟨b1, b2⟩ := wellWithin_bounds (T := f32) f32_bias hfin hmag h
  rw [h3]
  refine kept h2 (10 ^ 6) (by decide) ?_ hk b1 b2
  unfold mantOf
  rw [if_pos (by show f / 2 ^ 23 % 2 ^ 8 ≠ 0; norm_num; omega)]
  omega

-- 0.1 as a double, and as a float: written with one digit
example : Finite 52 11 0x3FB999999999999A ∧ 2 ^ 52 ≤ magnitude 52 11 0x3FB999999999999A ∧
    WellWithin 52 11 0x3FB999999999999A ((1 : Nat) * 10 ^ (-1 : Int)) ∧ floatFrom f64 0x3FB999999999999A = some b!"0.1" := by
  refine ⟨by decide, by decide, ?_, by decide +kernel⟩
  norm_num [WellWithin, absValue, magnitude]
example : Finite 23 8 0x3DCCCCCD ∧ 2 ^ 23 ≤ magnitude 23 8 0x3DCCCCCD ∧
    WellWithin 23 8 0x3DCCCCCD ((1 : Nat) * 10 ^ (-1 : Int)) ∧ floatFrom f32 0x3DCCCCCD = some b!"0.1" := by
  refine ⟨by decide, by decide, ?_, by decide +kernel⟩
  norm_num [WellWithin, absValue, magnitude]
-- the smallest float: 10^-45 is well within its range, so that is what is written
example : Finite 23 8 1 ∧ WellWithin 23 8 1 ((1 : Nat) * 10 ^ (-45 : Int)) ∧ floatFrom f32 1 = some b!"1e-45" := by
  refine ⟨by decide, ?_, by decide +kernel⟩
  norm_num [WellWithin, absValue, magnitude]

end JsonStruct
