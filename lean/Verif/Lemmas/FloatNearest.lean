import Verif.Lemmas.FloatScan

/-
The float that is read is the nearest one.
-/

namespace JsonStruct

theorem min64 : absValue 52 11 (2 ^ 52) = 2 ^ (-1022 : Int) := by
  have h1 : magnitude 52 11 (2 ^ 52) = 2 ^ 52 := by norm_num [magnitude]
  have h2 : 2 ^ 52 / 2 ^ 52 = 1 := by norm_num
  have h3 : 2 ^ 52 % 2 ^ 52 = 0 := by norm_num
  unfold absValue
  simp only [h1, h2, h3]
  rw [if_neg (by norm_num), Nat.cast_zero, add_zero, ← zpow_natCast, ← zpow_add₀ (by norm_num)]
  congr 1

theorem inf64_eq : f64.inf = 2047 * 2 ^ 52 := by decide

/-- A double that is nearly the nearest is within four units of the number. -/
theorem float_close {b : Nat} {V : ℚ} (hb : b ≤ f64.inf) (hnear : ∀ x ≤ f64.inf, |absValue 52 11 b - V| ≤ |absValue 52 11 x - V| + V / 2 ^ 52)
    (hmin : 2 ^ (-1022 : Int) ≤ V) (hmax : V < 2 ^ 1023) :
    b < f64.inf ∧ |absValue 52 11 b - V| ≤ V / 2 ^ 51 ∧ |absValue 52 11 b - V| ≤ 4 * ((f64.step b : ℚ) / (2 ^ 1074 : Nat)) := by
  have hV0 : 0 < V := lt_of_lt_of_le (by positivity) hmin
  -- the nearest double
  obtain ⟨x, hx, hxV⟩ : ∃ x ≤ f64.inf, |absValue 52 11 x - V| ≤ V * (3 / 4) / 2 ^ 52 := by
    have hfrac : ((V.num.toNat : Nat) : ℚ) / V.den = V := by
      rw [show ((V.num.toNat : Nat) : ℚ) = (V.num : ℚ) by
        have : ((V.num.toNat : Nat) : Int) = V.num := Int.toNat_of_nonneg (Rat.num_nonneg.2 hV0.le)
        rw [← this]; rfl]
      exact Rat.num_div_den V
    obtain ⟨m1, m2, m3⟩ := roundTo_mid f64.toFloatFmt (n := V.num.toNat) (d := V.den) V.den_pos rfl
    rw [hfrac] at m2 m3
    generalize roundTo f64.toFloatFmt V.num.toNat V.den = x at *
    refine ⟨x, m1, ?_⟩
    have hm2 : 0 < x → absValue 52 11 (x - 1) + absValue 52 11 x ≤ 2 * V := m2
    have hm3 : x < f64.inf → 2 * V ≤ absValue 52 11 x + absValue 52 11 (x + 1) := m3
    have hxinf : x < f64.inf := by
      by_contra hc
      have hx : x = f64.inf := by have h1 : x ≤ f64.inf := m1; omega
      have h1 := hm2 (by rw [hx]; decide)
      have h2 := absValue_nonneg (x - 1)
      rw [hx, inf64_eq, absValue_inf] at h1
      rw [hx, inf64_eq] at h2
      have h3 : (2 : ℚ) ^ 1024 = 2 * 2 ^ 1023 := by rw [pow_succ]; ring
      rw [h3] at h1
      generalize (2 : ℚ) ^ 1023 = I at *
      linarith
    have hxmin : 2 ^ 52 ≤ x := by
      by_contra hc
      have h1 := hm3 hxinf
      have h2 := absValue_lt f64.toFloatFmt (a := x) (b := 2 ^ 52) (by omega) (by decide)
      have h3 := absValue_mono f64.toFloatFmt (a := x + 1) (b := 2 ^ 52) (by omega) (by decide)
      have h4 : absValue f64.mant f64.expw (2 ^ 52) = 2 ^ (-1022 : Int) := min64
      rw [h4] at h2 h3
      have h2 : absValue 52 11 x < 2 ^ (-1022 : Int) := h2
      have h3 : absValue 52 11 (x + 1) ≤ 2 ^ (-1022 : Int) := h3
      generalize (2 : ℚ) ^ (-1022 : Int) = I at *
      linarith
    have h1 := hm2 (by omega)
    have h2 := hm3 hxinf
    obtain ⟨y, rfl⟩ : ∃ y, x = y + 1 := ⟨x - 1, by omega⟩
    rw [Nat.add_sub_cancel] at h1
    have e1 : absValue 52 11 (y + 1 + 1) = absValue 52 11 (y + 1) + (f64.step (y + 1) : ℚ) / (2 ^ 1074 : Nat) := by
      rw [value64 (by omega : y + 1 + 1 ≤ f64.inf), value64 m1, units_succ _ (y + 1)]; push_cast; ring
    have e2 : absValue 52 11 (y + 1) = absValue 52 11 y + (f64.step y : ℚ) / (2 ^ 1074 : Nat) := by
      rw [value64 m1, value64 (by omega : y ≤ f64.inf), units_succ _ y]; push_cast; ring
    have e3 : (f64.step y : ℚ) / (2 ^ 1074 : Nat) ≤ (f64.step (y + 1) : ℚ) / (2 ^ 1074 : Nat) := by
      have : (f64.step y : ℚ) ≤ f64.step (y + 1) := by exact_mod_cast step_mono f64.toFloatFmt (by omega)
      exact div_le_div_of_nonneg_right this (by positivity)
    have e4 : 2 ^ 52 * ((f64.step (y + 1) : ℚ) / (2 ^ 1074 : Nat)) ≤ absValue 52 11 (y + 1) := by
      rw [value64 m1, ← mul_div_assoc]
      have := units_ge f64.toFloatFmt (y + 1) hxmin
      have : (2 : ℚ) ^ 52 * f64.step (y + 1) ≤ f64.units (y + 1) := by exact_mod_cast this
      exact div_le_div_of_nonneg_right this (by positivity)
    clear hm2 hm3 m2 m3 hfrac hnear hmin hmax
    generalize (f64.step (y + 1) : ℚ) / (2 ^ 1074 : Nat) = u at *
    generalize (f64.step y : ℚ) / (2 ^ 1074 : Nat) = u' at *
    rw [abs_le]
    norm_num at e4 ⊢
    constructor <;> linarith
  have h1 := hnear x hx
  have h2 : |absValue 52 11 b - V| ≤ V * (7 / 4) / 2 ^ 52 := by
    have : V * (7 / 4) / 2 ^ 52 = V * (3 / 4) / 2 ^ 52 + V / 2 ^ 52 := by ring
    linarith
  have h3 : |absValue 52 11 b - V| ≤ V / 2 ^ 51 := by
    have : V * (7 / 4) / 2 ^ 52 ≤ V / 2 ^ 51 := by norm_num; linarith
    linarith
  obtain ⟨h4, h5⟩ := abs_le.1 h2
  have hbinf : b < f64.inf := by
    by_contra hc
    have hb' : b = f64.inf := by omega
    rw [hb', inf64_eq, absValue_inf] at h5
    have h6 : (2 : ℚ) ^ 1024 = 2 * 2 ^ 1023 := by rw [pow_succ]; ring
    rw [h6] at h5
    clear h6 hmin hnear h1 h2 h3 h4 hxV
    generalize (2 : ℚ) ^ 1023 = I at *
    norm_num at h5
    linarith
  refine ⟨hbinf, h3, le_trans h2 ?_⟩
  have h6 := units_lt f64.toFloatFmt b
  have h7 : absValue 52 11 b ≤ 2 ^ 53 * ((f64.step b : ℚ) / (2 ^ 1074 : Nat)) := by
    rw [value64 hb, ← mul_div_assoc]
    have : (f64.units b : ℚ) ≤ 2 ^ 53 * f64.step b := by exact_mod_cast h6.le
    exact div_le_div_of_nonneg_right this (by positivity)
  clear h1 hxV h2 h3 hmin hmax hnear
  generalize (f64.step b : ℚ) / (2 ^ 1074 : Nat) = u at *
  norm_num at h4 h5 h7 ⊢
  linarith

theorem float_one : absValue 23 8 1 = 2 ^ (-149 : Int) := by norm_num [absValue, magnitude]
theorem float_zero : absValue 23 8 0 = 0 := by norm_num [absValue, magnitude]
theorem float_inf : absValue 23 8 f32.inf = 2 ^ 128 := by
  rw [show f32.inf = 2139095040 from by decide]; norm_num [absValue, magnitude]
theorem float_max : absValue 23 8 (f32.inf - 1) = 2 ^ 128 - 2 ^ 104 := by
  rw [show f32.inf - 1 = 2139095039 from by decide]; norm_num [absValue, magnitude]

theorem rounds_zero {V : ℚ} (h : V < 2 ^ (-150 : Int)) : RoundsTo 23 8 0 V := by
  refine roundsTo_of (F := f32.toFloatFmt) (by decide) (fun h => absurd h (by omega)) (fun _ => ?_)
  have : 2 * V < absValue f32.mant f32.expw 0 + absValue f32.mant f32.expw (0 + 1) := by
    rw [show absValue f32.mant f32.expw 0 = 0 from float_zero, show absValue f32.mant f32.expw (0 + 1) = 2 ^ (-149 : Int) from float_one]
    norm_num at h ⊢
    linarith
  exact ⟨this.le, fun h => absurd h this.ne⟩

theorem rounds_inf {V : ℚ} (h : 2 ^ 128 - 2 ^ 103 < V) : RoundsTo 23 8 f32.inf V := by
  refine roundsTo_of (F := f32.toFloatFmt) (le_refl _) (fun _ => ?_) (fun h => absurd h (lt_irrefl _))
  have : absValue f32.mant f32.expw (f32.inf - 1) + absValue f32.mant f32.expw f32.inf < 2 * V := by
    rw [show absValue f32.mant f32.expw (f32.inf - 1) = 2 ^ 128 - 2 ^ 104 from float_max,
      show absValue f32.mant f32.expw f32.inf = 2 ^ 128 from float_inf]
    norm_num at h ⊢
    linarith
  exact ⟨this.le, fun h => absurd h this.ne⟩

theorem correctlyRound_zero {text : Bytes} {d : Nat} : correctlyRound text d 0 = some 0 := by
  unfold correctlyRound
  rw [if_pos (.inr rfl)]

theorem correctlyRound_inf {text : Bytes} {d : Nat} : correctlyRound text d f32.inf = some f32.inf := by
  unfold correctlyRound
  rw [if_neg (by decide), if_pos (by decide)]

theorem narrow_facts {d : Nat} (hd : d ≤ f64.inf) :
    narrow d ≤ f32.inf ∧ (0 < narrow d → 2 ^ (-150 : Int) ≤ absValue 52 11 d) ∧ (narrow d < f32.inf → absValue 52 11 d ≤ 2 ^ 128 - 2 ^ 103) ∧
    (narrow d = 0 → absValue 52 11 d ≤ 2 ^ (-150 : Int)) ∧ (narrow d = f32.inf → 2 ^ 128 - 2 ^ 103 ≤ absValue 52 11 d) := by
  obtain ⟨h1, h2, h3⟩ := roundTo_mid f32.toFloatFmt (n := f64.units d) (d := 2 ^ 1074) (by positivity) rfl
  rw [← value64 hd] at h2 h3
  rw [show roundTo f32.toFloatFmt (f64.units d) (2 ^ 1074) = narrow d from rfl] at h1 h2 h3
  have h1 : narrow d ≤ f32.inf := h1
  have h2 : 0 < narrow d → absValue 23 8 (narrow d - 1) + absValue 23 8 (narrow d) ≤ 2 * absValue 52 11 d := h2
  have h3 : narrow d < f32.inf → 2 * absValue 52 11 d ≤ absValue 23 8 (narrow d) + absValue 23 8 (narrow d + 1) := h3
  have mono := fun {a b : Nat} (h : a ≤ b) (hb : b ≤ f32.inf) => absValue_mono f32.toFloatFmt h hb
  refine ⟨h1, fun h => ?_, fun h => ?_, fun h => ?_, fun h => ?_⟩
  · have g1 := h2 h
    have g2 : absValue 23 8 1 ≤ absValue 23 8 (narrow d) := mono h h1
    have g3 : absValue 23 8 0 ≤ absValue 23 8 (narrow d - 1) := mono (by omega) (by omega)
    rw [float_one] at g2
    rw [float_zero] at g3
    norm_num at g2 ⊢
    linarith
  · have g1 := h3 h
    have g2 : absValue 23 8 (narrow d) ≤ absValue 23 8 (f32.inf - 1) := mono (by omega) (by omega)
    have g3 : absValue 23 8 (narrow d + 1) ≤ absValue 23 8 f32.inf := mono (by omega) (by omega)
    rw [float_max] at g2
    rw [float_inf] at g3
    norm_num at g2 g3 ⊢
    linarith
  · have g1 := h3 (by rw [h]; decide)
    rw [h, Nat.zero_add, float_zero, float_one] at g1
    norm_num at g1 ⊢
    linarith
  · have g1 := h2 (by rw [h]; decide)
    rw [h, float_max, float_inf] at g1
    norm_num at g1 ⊢
    linarith

/-- The float is the nearest one, unless the number is next to the limits. -/
theorem float_nearest {text : Bytes} {b : Nat} {V : ℚ} (hb : b ≤ f64.inf) (hV0 : 0 ≤ V)
    (hnear : ∀ x ≤ f64.inf, |absValue 52 11 b - V| ≤ |absValue 52 11 x - V| + V / 2 ^ 52)
    (hinf : 2 ^ 1024 ≤ V → b = f64.inf)
    (hlo : 2 ^ (-200 : Int) < |V - 2 ^ (-150 : Int)|) (hhi : 2 ^ 78 < |V - (2 ^ 128 - 2 ^ 103)|)
    (hscan : 2 ^ (-151 : Int) ≤ V → V ≤ 2 ^ 129 → ∃ (w : Big) (e : Int), scanNumber text = some (w, e) ∧ w.Ok ∧ w ≠ [] ∧ V = w.val * 10 ^ e) :
    ∃ r, correctlyRound text b (narrow b) = some r ∧ RoundsTo 23 8 r V := by
  obtain ⟨n1, n2, n3, n4, n5⟩ := narrow_facts hb
  by_cases hsmall : V < 2 ^ (-1022 : Int)
  · have h1 := hnear 0 (by omega)
    rw [absValue_zero, zero_sub, abs_neg, abs_of_nonneg hV0] at h1
    have h2 := (abs_le.1 h1).2
    have h3 : (2 : ℚ) ^ (-1022 : Int) ≤ 2 ^ (-160 : Int) := zpow_le_zpow_right₀ (by norm_num) (by norm_num)
    have h4 : V < 2 ^ (-160 : Int) := lt_of_lt_of_le hsmall h3
    have h5 : narrow b = 0 := by
      by_contra hc
      have := n2 (by omega)
      clear hsmall h3
      norm_num at h2 this h4
      linarith
    rw [h5]
    exact ⟨0, correctlyRound_zero, rounds_zero (lt_trans h4 (by norm_num))⟩
  by_cases hbig : 2 ^ 1023 ≤ V
  · have h1 : (2 : ℚ) ^ 1022 ≤ absValue 52 11 b := by
      have e1 : (2 : ℚ) ^ 1024 = 4 * 2 ^ 1022 := by rw [show 1024 = 2 + 1022 from rfl, pow_add]; norm_num
      have e2 : (2 : ℚ) ^ 1023 = 2 * 2 ^ 1022 := by rw [show 1023 = 1 + 1022 from rfl, pow_add]; norm_num
      have e0 : (0 : ℚ) < 2 ^ 1022 := by positivity
      by_cases h : 2 ^ 1024 ≤ V
      · rw [hinf h, inf64_eq, absValue_inf, e1]
        clear hbig h hinf hsmall e1 e2 hlo hhi hscan n2 n3 n4 n5 hnear
        generalize (2 : ℚ) ^ 1022 = I at *
        linarith
      · have h2 := hnear (2046 * 2 ^ 52) (by decide)
        have h3 : absValue 52 11 (2046 * 2 ^ 52) = 2 ^ 1023 := by
          have g1 : magnitude 52 11 (2046 * 2 ^ 52) = 2046 * 2 ^ 52 := by norm_num [magnitude]
          have g2 : 2046 * 2 ^ 52 / 2 ^ 52 = 2046 := by norm_num
          have g3 : 2046 * 2 ^ 52 % 2 ^ 52 = 0 := by norm_num
          unfold absValue
          simp only [g1, g2, g3]
          rw [if_neg (by norm_num), show (((2046 : Nat) : Int) + 1 - 2 ^ (11 - 1) - ((52 : Nat) : Int)) = (971 : Nat) by norm_num, zpow_natCast,
            Nat.cast_zero, add_zero, ← pow_add]
        rw [h3] at h2
        clear hinf hnear h3 hsmall
        rw [e2] at h2 hbig
        rw [e1] at h
        clear e1 e2
        generalize (2 : ℚ) ^ 1022 = I at *
        rw [abs_of_nonpos (show 2 * I - V ≤ 0 by linarith)] at h2
        have := (abs_le.1 h2).1
        norm_num at this
        linarith
    have h2 : (2 : ℚ) ^ 129 ≤ 2 ^ 1022 := pow_le_pow_right₀ (by norm_num) (by norm_num)
    have h3 : narrow b = f32.inf := by
      by_contra hc
      have := n3 (by omega)
      have h4 := le_trans h2 (le_trans h1 this)
      norm_num at h4
    rw [h3]
    refine ⟨_, correctlyRound_inf, rounds_inf ?_⟩
    have h4 : (2 : ℚ) ^ 129 ≤ 2 ^ 1023 := pow_le_pow_right₀ (by norm_num) (by norm_num)
    have h5 := le_trans h4 hbig
    clear h1 h2 h4 hbig hsmall hinf hnear
    norm_num at h5 ⊢
    linarith
  obtain ⟨c1, c2, c3⟩ := float_close hb hnear (not_lt.1 hsmall) (not_le.1 hbig)
  obtain ⟨d1, d2⟩ := abs_le.1 c2
  clear hsmall hbig hnear hinf
  by_cases h0 : narrow b = 0
  · have h1 := n4 h0
    rw [h0]
    refine ⟨0, correctlyRound_zero, rounds_zero ?_⟩
    by_contra hc
    rw [not_lt] at hc
    rw [abs_of_nonneg (by linarith)] at hlo
    norm_num at hlo d1 h1
    linarith
  by_cases h1 : narrow b = f32.inf
  · have h2 := n5 h1
    rw [h1]
    refine ⟨_, correctlyRound_inf, rounds_inf ?_⟩
    by_contra hc
    rw [not_lt] at hc
    rw [abs_of_nonpos (by linarith)] at hhi
    norm_num at hhi d2 h2 hc
    linarith
  have k1 := n2 (by omega)
  have k2 := n3 (by omega)
  obtain ⟨w, e, s1, s2, s3, s4⟩ := hscan (by norm_num at k1 d2 ⊢; linarith) (by norm_num at k2 d1 ⊢; linarith)
  refine correctlyRound_nearest c1 c3 (by omega) (by omega) s1 s2 s3 s4 ?_
  intro hmax
  rw [show narrow b = f32.inf - 1 by omega, float_max, float_inf]
  by_contra hc
  rw [not_lt] at hc
  have hc' : 0 ≤ V - (2 ^ 128 - 2 ^ 103) := by norm_num at hc ⊢; linarith
  rw [abs_of_nonneg hc'] at hhi
  norm_num at hhi d1 k2 hc
  linarith

/-! ### The text -/

theorem decVal_ge {s : Bytes} {k : Nat} (hd : AllDigits s) (h : ∃ c ∈ s.take k, c ≠ 0x30) : 10 ^ (s.length - k) ≤ decVal s := by
  have h1 := decVal_ne_zero (fun c hc => hd c (List.mem_of_mem_take hc)) h
  conv_rhs => rw [← List.take_append_drop k s]
  rw [decVal_append, List.length_drop]
  have := Nat.mul_le_mul_right (10 ^ (s.length - k)) (Nat.pos_of_ne_zero h1)
  omega

theorem floatTo_of_doubleTo {text : Bytes} {D r : Nat} (h : doubleTo text = some (.noError, D))
    (hr : correctlyRound text (D % 2 ^ 63) (narrow (D % 2 ^ 63)) = some r) : floatTo text = some (.noError, withSign32 D r) := by
  unfold doubleTo at h
  unfold floatTo
  simp only at h ⊢
  split at h
  · cases h
  · rename_i h1
    rw [if_neg h1]
    split at h
    · cases h
    · rename_i h2
      rw [if_neg h2]
      split at h
      · cases h
      · rename_i v hv
        simp only [Option.some.injEq, Prod.mk.injEq] at h
        obtain ⟨h3, rfl⟩ := h
        rw [hv]
        simp only [hr]
        split at h3
        · cases h3
        · rename_i h4
          rw [if_neg h4]

/-- Which float a number is read as. -/
theorem float_any {n : NumText} (hn : n.Loose) (hint : JsonInt n.int) (h19 : n.int.length ≤ 19)
    (hz : (n.int ++ n.frac.getD []).length ≤ 19 ∨ ∃ c ∈ (n.int ++ n.frac.getD []).take 3, c ≠ 0x30)
    (hl : Leads (n.int ++ n.frac.getD []) ∨ expoOf n + n.int.length ≤ 309 ∧ doubleTo n.text ≠ none) (hfrac : (n.frac.getD []).length < 2 ^ 30)
    (hlo : 2 ^ (-200 : Int) < |n.absValue - 2 ^ (-150 : Int)|) (hhi : 2 ^ 78 < |n.absValue - (2 ^ 128 - 2 ^ 103)|) :
    ∃ r, floatTo n.text = some (.noError, if n.neg then 2 ^ 31 + r else r) ∧ RoundsTo 23 8 r n.absValue := by
  have hdig := allDigits_num hn
  have hV0 : 0 ≤ n.absValue := by unfold NumText.absValue; positivity
  have hlen : (n.int ++ n.frac.getD []).length = n.int.length + (n.frac.getD []).length := List.length_append
  obtain ⟨b, h1, h2, h3, h4⟩ := double_any hn (text_ne hint) h19 (hz.imp id fun ⟨c, hc, hc0⟩ =>
    decVal_ne_zero (fun c hc => hdig c (List.mem_of_mem_take hc))
      ⟨c, (List.take_subset_take_left (i := 3) (j := 19) (l := n.int ++ n.frac.getD []) (by omega)) hc, hc0⟩) hl
  have hdrop : n.absValue / 2 ^ 109 + 2 * dropped n ≤ n.absValue / 2 ^ 52 := by
    have : dropped n ≤ n.absValue / 10 ^ 16 := by
      unfold dropped
      split
      · positivity
      · rename_i hlong
        have hge := decVal_ge hdig (hz.resolve_left hlong)
        rw [le_div_iff₀ (by positivity)]
        have g2 : ((10 ^ ((n.int ++ n.frac.getD []).length - 3) : Nat) : ℚ) ≤ n.mantissa := by exact_mod_cast hge
        refine le_trans (le_of_eq ?_) (mul_le_mul_of_nonneg_right g2 (show (0 : ℚ) ≤ 10 ^ n.scale by positivity))
        push_cast
        rw [← zpow_natCast, ← zpow_natCast, ← zpow_add₀ (by norm_num), ← zpow_add₀ (by norm_num)]
        congr 1
        rw [Nat.cast_sub (by omega)]
        push_cast
        ring
    norm_num at this ⊢
    linarith
  have hb : b ≤ f64.inf := h2
  obtain ⟨r, r1, r2⟩ := float_nearest (text := n.text) hb hV0 (fun x hx => by
      have := h4 x (by
        have hx : x ≤ 2047 * 2 ^ 52 := hx
        unfold magnitude; norm_num at hx ⊢; omega)
      linarith) h3 hlo hhi (fun hlow hhigh => by
    have he1 : -100 < expoOf n := by
      by_contra hc
      have g1 : (n.mantissa : ℚ) ≤ ((10 ^ (n.int ++ n.frac.getD []).length : Nat) : ℚ) := by exact_mod_cast (decVal_lt _ hdig).le
      have g2 : n.absValue ≤ 10 ^ (-81 : Int) := by
        refine le_trans (mul_le_mul_of_nonneg_right g1 (by positivity)) ?_
        push_cast
        rw [← zpow_natCast, ← zpow_add₀ (by norm_num)]
        refine zpow_le_zpow_right₀ (by norm_num) ?_
        rw [scale_eq, hlen]
        push_cast
        omega
      have := le_trans hlow g2
      norm_num at this
    have he2 : expoOf n < 310 := by
      rcases hl with hl | hl
      · by_contra hc
        have hpos : 1 ≤ (n.int ++ n.frac.getD []).length := by
          obtain ⟨c, t, g, _⟩ := hl
          rw [g]; simp
        have g1 : ((10 ^ ((n.int ++ n.frac.getD []).length - 1) : Nat) : ℚ) ≤ n.mantissa := by exact_mod_cast leads_ge hdig hl
        have g2 : (10 : ℚ) ^ (200 : Int) ≤ n.absValue := by
          refine le_trans ?_ (mul_le_mul_of_nonneg_right g1 (show (0 : ℚ) ≤ 10 ^ n.scale by positivity))
          rw [Nat.cast_pow, ← zpow_natCast, Nat.cast_ofNat, ← zpow_add₀ (by norm_num)]
          refine zpow_le_zpow_right₀ (by norm_num) ?_
          rw [Nat.cast_sub hpos, scale_eq, hlen]
          push_cast
          omega
        have := le_trans g2 hhigh
        norm_num at this
      · omega
    obtain ⟨w, w1, w2, w3, w4⟩ := scanNumber_text hn hint hfrac (by omega) (by omega)
    exact ⟨w, n.scale, w1, w2, w3, by unfold NumText.absValue; rw [w4]⟩)
  have hb63 : b < 2 ^ 63 := by norm_num at h2 ⊢; omega
  refine ⟨r, ?_, r2⟩
  have hm : (if n.neg then 2 ^ 63 + b else b) % 2 ^ 63 = b := by
    split
    · rw [Nat.add_mod_left, Nat.mod_eq_of_lt hb63]
    · exact Nat.mod_eq_of_lt hb63
  rw [floatTo_of_doubleTo h1 (by rw [hm]; exact r1)]
  unfold withSign32
  cases n.neg
  · simp only [Bool.false_eq_true, if_false]
    rw [if_neg (by rw [Nat.div_eq_of_lt hb63]; simp)]
  · simp only [if_true]
    rw [if_pos (by rw [Nat.add_div_left _ (by norm_num)]; omega)]

end JsonStruct
