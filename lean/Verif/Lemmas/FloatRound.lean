import Verif.Lemmas.FloatRead
import Mathlib.Tactic.SplitIfs

/-
Reading: the last rounding.
-/

namespace JsonStruct

/-- `b` are the bits, without the sign, of `W` rounded to a multiple `m` of `2^e`. -/
structure Rounds (F : FloatFmt) (b : Nat) (W : ℚ) (m : Nat) (e : Int) : Prop where
  bits : (b : Int) = (e - F.emin) * 2 ^ F.mant + m
  ge : F.emin ≤ e
  low : ((m : ℚ) - 1 / 2) * 2 ^ e ≤ W
  high : W ≤ ((m : ℚ) + 1 / 2) * 2 ^ e
  norm : F.emin < e → 2 ^ F.mant * 2 ^ e ≤ W
  top : W < 2 ^ (F.mant + 1) * 2 ^ e
  tieLow : W = ((m : ℚ) - 1 / 2) * 2 ^ e → m % 2 = 0 ∨ W < 2 ^ F.mant * 2 ^ F.emin
  tieHigh : W = ((m : ℚ) + 1 / 2) * 2 ^ e → m % 2 = 0

theorem f64_emin : f64.emin = -1074 := by decide

theorem copyNormal_rounds {a : Pair} (ha : Words a) (h1 : 2 ^ 124 ≤ wide a) (h2 : wide a < 2 ^ 125) {e : Int} (neg : Bool)
    (he1 : 0 < e + 1023) (he2 : e + 1023 < 2047) :
    ∃ b m, copyNormal a (e + 1023).toNat neg = withSign neg b ∧ b ≤ 2047 * 2 ^ 52 ∧
      Rounds f64.toFloatFmt b (valOf a (e - 124)) m (e - 52) := by
  obtain ⟨a1, a2⟩ := ha
  obtain ⟨lo, hi⟩ := a
  unfold wide at h1 h2
  simp only at a1 a2 h1 h2
  obtain ⟨n, hn⟩ := Int.eq_ofNat_of_zero_le he1.le
  have hn' : (e + 1023).toNat = n := by omega
  rw [hn']
  -- the significand, rounded
  have key : ∃ m, ((let q := hi % 2 ^ 60
      let off := q % 2 ^ 8
      let bigger := decide (2 ^ 7 < off) || (off == 2 ^ 7 && lo != 0)
      let tieOdd := q % 2 ^ 7 == 0 && q / 2 ^ 8 % 2 == 1 && lo == 0
      let q := if bigger || tieOdd then q + 2 ^ 7 else q
      q / 2 ^ 8) + 2 ^ 52 = m) ∧ 2 * m * 2 ^ 71 ≤ lo + 2 ^ 64 * hi + 2 ^ 71 ∧ lo + 2 ^ 64 * hi ≤ 2 * m * 2 ^ 71 + 2 ^ 71 ∧
      (2 * m * 2 ^ 71 = lo + 2 ^ 64 * hi + 2 ^ 71 → m % 2 = 0) ∧ (lo + 2 ^ 64 * hi = 2 * m * 2 ^ 71 + 2 ^ 71 → m % 2 = 0) ∧
      m ≤ 2 ^ 53 ∧ 2 ^ 52 ≤ m := by
    refine ⟨_, rfl, ?_⟩
    simp only [Bool.or_eq_true, Bool.and_eq_true, decide_eq_true_eq, beq_iff_eq, bne_iff_ne]
    norm_num at a1 a2 h1 h2 ⊢
    have hq : hi % 1152921504606846976 = hi - 1152921504606846976 := by omega
    rw [hq]
    obtain ⟨Q, off, hQ, hoff⟩ : ∃ Q off, hi - 1152921504606846976 = 256 * Q + off ∧ off < 256 :=
      ⟨(hi - 1152921504606846976) / 256, (hi - 1152921504606846976) % 256, by omega, by omega⟩
    rw [hQ]
    have e1 : hi % 256 = off := by omega
    have e2 : (256 * Q + off) / 256 = Q := by omega
    have e3 : hi % 128 = off % 128 := by omega
    rw [e1, e2, e3]
    split_ifs with hc
    · omega
    · omega
  obtain ⟨m, hm, k1, k2, k3, k4, k5, k6⟩ := key
  simp only at hm
  refine ⟨(m - 2 ^ 52) + n * 2 ^ 52, m, ?_, ?_, ?_⟩
  · unfold copyNormal
    simp only
    congr 1
    rw [← hm, Nat.add_sub_cancel, Nat.mod_eq_of_lt]
    have := hm ▸ k5
    norm_num at this ⊢
    omega
  · have : n ≤ 2046 := by omega
    norm_num at k5 ⊢
    omega
  · have hv : valOf (lo, hi) (e - 124) = ((lo + 2 ^ 64 * hi : Nat) : ℚ) / 2 ^ 72 * 2 ^ (e - 52) := by
      unfold valOf wide
      rw [show e - 124 = (e - 52) - (72 : Nat) by push_cast; ring, zpow_sub₀ (by norm_num), zpow_natCast]
      ring
    rw [hv]
    generalize lo + 2 ^ 64 * hi = x at *
    have he0 : (0 : ℚ) < 2 ^ (e - 52) := by positivity
    have q1 : 2 * (m : ℚ) * 2 ^ 71 ≤ x + 2 ^ 71 := by exact_mod_cast k1
    have q2 : (x : ℚ) ≤ 2 * m * 2 ^ 71 + 2 ^ 71 := by exact_mod_cast k2
    have q3 : (2 : ℚ) ^ 124 ≤ x := by exact_mod_cast h1
    have q4 : (x : ℚ) < 2 ^ 125 := by exact_mod_cast h2
    refine ⟨?_, ?_, ?_, ?_, ?_, ?_, ?_, ?_⟩
    · rw [f64_emin]
      show ((m - 2 ^ 52 + n * 2 ^ 52 : Nat) : Int) = _ * 2 ^ 52 + _
      norm_num at k6 ⊢
      omega
    · rw [f64_emin]; omega
    · exact mul_le_mul_of_nonneg_right (by linarith) he0.le
    · exact mul_le_mul_of_nonneg_right (by linarith) he0.le
    · intro _
      refine mul_le_mul_of_nonneg_right ?_ he0.le
      show (2 : ℚ) ^ 52 ≤ _
      linarith
    · refine mul_lt_mul_of_pos_right ?_ he0
      show _ < (2 : ℚ) ^ 53
      linarith
    · intro h
      left
      have h := mul_right_cancel₀ he0.ne' h
      apply k3
      have : 2 * (m : ℚ) * 2 ^ 71 = x + 2 ^ 71 := by linarith
      exact_mod_cast this
    · intro h
      have h := mul_right_cancel₀ he0.ne' h
      apply k4
      have : (x : ℚ) = 2 * m * 2 ^ 71 + 2 ^ 71 := by linarith
      exact_mod_cast this

theorem copyDenormal_rounds {a : Pair} (ha : Words a) (h1 : 2 ^ 124 ≤ wide a) (h2 : wide a < 2 ^ 125) {e : Int} (neg : Bool)
    (he1 : e + 1023 ≤ 0) (he2 : -54 ≤ e + 1023) :
    ∃ b, copyDenormal a (e + 1023) neg = some (withSign neg b) ∧ b ≤ 2047 * 2 ^ 52 ∧
      Rounds f64.toFloatFmt b (valOf a (e - 124)) b (-1074) := by
  obtain ⟨a1, a2⟩ := ha
  obtain ⟨lo, hi⟩ := a
  unfold wide at h1 h2
  simp only at a1 a2 h1 h2
  obtain ⟨k, hk⟩ : ∃ k : Nat, (-(e + 1023) + 9).toNat = k + 1 := ⟨(-(e + 1023) + 8).toNat, by omega⟩
  have hk63 : k + 1 ≤ 63 := by omega
  have hk9 : 8 ≤ k := by omega
  have hhi : hi < 2 ^ 61 := by norm_num at h2 ⊢; omega
  have hp : (2 : Nat) ^ k ≤ 2 ^ 62 := Nat.pow_le_pow_right (by omega) (by omega)
  have hsum : hi + 2 ^ k < 2 ^ 64 := by
    have : (2 : Nat) ^ 64 = 4 * 2 ^ 62 := by norm_num
    have : (2 : Nat) ^ 62 = 2 * 2 ^ 61 := by norm_num
    omega
  refine ⟨(hi + 2 ^ k) / 2 ^ (k + 1), ?_, ?_, ?_⟩
  · unfold copyDenormal
    simp only
    rw [hk, if_neg (by omega), Nat.add_sub_cancel, Nat.mod_eq_of_lt hsum]
  · refine Nat.le_of_lt ?_
    rw [Nat.div_lt_iff_lt_mul (by positivity)]
    refine Nat.lt_of_lt_of_le hsum ?_
    have : (2 : Nat) ^ 9 ≤ 2 ^ (k + 1) := Nat.pow_le_pow_right (by omega) (by omega)
    norm_num at this ⊢
    omega
  · generalize hm : (hi + 2 ^ k) / 2 ^ (k + 1) = m
    have hv : valOf (lo, hi) (e - 124) = ((lo : ℚ) + 2 ^ 64 * hi) / (2 ^ k * 2 * 2 ^ 64) * 2 ^ (-1074 : Int) := by
      unfold valOf wide
      rw [show e - 124 = (-1074 : Int) - ((k + 1 + 64 : Nat) : Int) by push_cast; omega, zpow_sub₀ (by norm_num), zpow_natCast, pow_add,
        pow_succ]
      push_cast
      ring
    rw [hv]
    have g1 : m * 2 ^ (k + 1) ≤ hi + 2 ^ k := by rw [← hm]; exact Nat.div_mul_le_self _ _
    have g2 : hi + 2 ^ k < (m + 1) * 2 ^ (k + 1) := by
      rw [← hm, Nat.add_mul]; have := Nat.lt_div_mul_add (a := hi + 2 ^ k) (b := 2 ^ (k + 1)) (by positivity); omega
    have q1 : (m : ℚ) * 2 ^ (k + 1) ≤ hi + 2 ^ k := by exact_mod_cast g1
    have q2 : ((hi : ℚ) + 1) + 2 ^ k ≤ (m + 1) * 2 ^ (k + 1) := by exact_mod_cast (show hi + 1 + 2 ^ k ≤ _ by omega)
    have q3 : (hi : ℚ) + 1 ≤ 2 ^ 61 := by exact_mod_cast hhi
    have q4 : (lo : ℚ) < 2 ^ 64 := by exact_mod_cast a1
    have q5 : (2 : ℚ) ^ 8 ≤ 2 ^ k := by exact_mod_cast Nat.pow_le_pow_right (by omega : 0 < 2) hk9
    have q6 : (0 : ℚ) ≤ lo := by positivity
    rw [pow_succ] at q1 q2
    clear hv
    generalize (2 : ℚ) ^ k = K at *
    have hK : 0 < K := by linarith
    have he0 : (0 : ℚ) < 2 ^ (-1074 : Int) := by positivity
    have hlow : (m : ℚ) - 1 / 2 ≤ (lo + 2 ^ 64 * hi) / (K * 2 * 2 ^ 64) := by
      rw [le_div_iff₀ (by positivity)]
      linarith
    have hhigh : (lo + 2 ^ 64 * hi) / (K * 2 * 2 ^ 64) < (m : ℚ) + 1 / 2 := by
      rw [div_lt_iff₀ (by positivity)]
      linarith
    have htop : (lo + 2 ^ 64 * hi) / (K * 2 * 2 ^ 64) < (2 : ℚ) ^ 52 := by
      rw [div_lt_iff₀ (by positivity)]
      linarith
    refine ⟨?_, ?_, ?_, ?_, ?_, ?_, ?_, ?_⟩
    · rw [f64_emin]; simp
    · rw [f64_emin]
    · exact mul_le_mul_of_nonneg_right hlow he0.le
    · exact mul_le_mul_of_nonneg_right hhigh.le he0.le
    · rw [f64_emin]; intro h; exact absurd h (by omega)
    · refine mul_lt_mul_of_pos_right ?_ he0
      show _ < (2 : ℚ) ^ 53
      refine lt_trans htop (by norm_num)
    · intro _
      right
      rw [f64_emin]
      exact mul_lt_mul_of_pos_right htop he0
    · intro h
      have h := mul_right_cancel₀ he0.ne' h
      exact absurd h hhigh.ne

/-- The value of what `parseNumber` returns, without the sign. -/
def Parsed.value (p : Parsed) : ℚ := p.significand * (10 : ℚ) ^ p.exp

/-- The relative error of `longWay` before rounding. -/
def eps : ℚ := 1 / 2 ^ 110

/-- What the general case of `convertToNumber` does: it rounds a number just below the exact one. -/
theorem longWay_cases {p : Parsed} (h0 : p.significand ≠ 0) (h64 : p.significand < 2 ^ 64) (hexp : p.exp.natAbs ≤ 400) :
    ∃ W : ℚ, p.value * (1 - eps) ≤ W ∧ W ≤ p.value ∧
      (p.exp ≤ 0 → 10 ^ p.exp.natAbs ∣ p.significand → W = p.value) ∧
      (∀ u k, 0 < p.exp → 0 < u → u < 2 ^ 100 → p.significand * 10 ^ p.exp.natAbs ∣ u * 2 ^ k → W = p.value) ∧
      (2 ^ (-1077 : Int) ≤ W ∧ (∃ b m e, longWay p = some (withSign p.negative b) ∧ b ≤ 2047 * 2 ^ 52 ∧ Rounds f64.toFloatFmt b W m e) ∨
        2 ^ 1024 ≤ W ∧ longWay p = some (makeInf f64 p.negative) ∨
        W < 2 ^ (-1077 : Int) ∧ longWay p = none) := by
  have hw : Words (p.significand, 0) := ⟨h64, by simp⟩
  have hwide : wide (p.significand, 0) = p.significand := by simp [wide]
  have hd : (400 : ℚ) * delta ≤ eps := by unfold delta eps; norm_num
  have hd0 : (0 : ℚ) ≤ delta := by unfold delta; positivity
  have hv124 : valOf (p.significand, 0) 124 / 2 ^ 124 = p.significand := by
    unfold valOf; rw [hwide, show (124 : Int) = ((124 : Nat) : Int) from rfl, zpow_natCast]; field_simp
  -- the loops
  obtain ⟨r, hr, r1, r2, r3, r4, r5, r6, r7⟩ : ∃ r : Pair × Int,
      (if 0 < p.exp then timesLoop p.exp.toNat (p.significand, 0) 124 else overLoop (-p.exp).toNat (p.significand, 0) 124) = r ∧
      Words r.1 ∧ wide r.1 ≠ 0 ∧ wide r.1 < 2 ^ 125 ∧ valOf r.1 r.2 / 2 ^ 124 ≤ p.value ∧
      p.value * (1 - eps) ≤ valOf r.1 r.2 / 2 ^ 124 ∧
      (p.exp ≤ 0 → 10 ^ p.exp.natAbs ∣ p.significand → valOf r.1 r.2 / 2 ^ 124 = p.value) ∧
      (∀ u k, 0 < p.exp → 0 < u → u < 2 ^ 100 → p.significand * 10 ^ p.exp.natAbs ∣ u * 2 ^ k → valOf r.1 r.2 / 2 ^ 124 = p.value) := by
    refine ⟨_, rfl, ?_⟩
    by_cases hpos : 0 < p.exp
    · rw [if_pos hpos]
      obtain ⟨n, hn⟩ := Int.eq_ofNat_of_zero_le hpos.le
      have hn1 : p.exp.toNat = n := by omega
      have hn2 : p.exp.natAbs = n := by omega
      rw [hn1]
      obtain ⟨t1, t2, t3, t4, t5, t6⟩ := timesLoop_wide n (a := (p.significand, 0)) 124 hw (by rw [hwide]; exact h0)
        (by rw [hwide]; exact Nat.lt_trans h64 (by norm_num))
      have hval : p.value * 2 ^ 124 = valOf (p.significand, 0) 124 * 10 ^ n := by
        unfold Parsed.value
        rw [hn, ← hv124, zpow_natCast]; field_simp
      have hn4 : (n : ℚ) ≤ 400 := by exact_mod_cast (show n ≤ 400 by omega)
      have hnd : (n : ℚ) * delta ≤ eps := le_trans (mul_le_mul_of_nonneg_right hn4 hd0) hd
      have heps : eps ≤ 1 := by unfold eps; norm_num
      have hval0 : 0 ≤ p.value := by unfold Parsed.value; positivity
      refine ⟨t1, t2, Nat.lt_trans t3 (by norm_num), ?_, ?_, ?_, ?_⟩
      · rw [div_le_iff₀ (by positivity), hval]; exact t4
      · rw [le_div_iff₀ (by positivity)]
        refine le_trans ?_ (t5 (by linarith))
        rw [← hval]
        have := mul_le_mul_of_nonneg_left (show 1 - eps ≤ 1 - n * delta by linarith) (show 0 ≤ p.value * 2 ^ 124 by positivity)
        linarith
      · intro h; omega
      · intro u k _ hu hu2 hdvd
        rw [t6 u k hu hu2 (by rw [hwide, ← hn2]; exact hdvd), ← hval]
        field_simp
    · rw [if_neg hpos]
      obtain ⟨n, hn⟩ := Int.eq_ofNat_of_zero_le (show 0 ≤ -p.exp by omega)
      have hn1 : (-p.exp).toNat = n := by omega
      have hn2 : p.exp.natAbs = n := by omega
      rw [hn1]
      obtain ⟨t1, t2, t3, t4, t5, t6⟩ := overLoop_wide n (a := (p.significand, 0)) 124 hw (by rw [hwide]; exact h0)
        (by rw [hwide]; exact Nat.lt_trans h64 (by norm_num))
      have hval : p.value * 2 ^ 124 * 10 ^ n = valOf (p.significand, 0) 124 := by
        unfold Parsed.value
        rw [show p.exp = -(n : Int) by omega, zpow_neg, zpow_natCast]
        have := hv124
        field_simp at this ⊢
        linarith
      have hn4 : (n : ℚ) ≤ 400 := by exact_mod_cast (show n ≤ 400 by omega)
      have hnd : (n : ℚ) * delta ≤ eps := le_trans (mul_le_mul_of_nonneg_right hn4 hd0) hd
      have heps : eps ≤ 1 := by unfold eps; norm_num
      have hval0 : 0 ≤ p.value := by unfold Parsed.value; positivity
      have h10 : (0 : ℚ) < 10 ^ n := by positivity
      rw [← hval] at t4 t5 t6
      refine ⟨t1, t2, t3, ?_, ?_, ?_, ?_⟩
      · rw [div_le_iff₀ (by positivity)]; exact le_of_mul_le_mul_right t4 h10
      · rw [le_div_iff₀ (by positivity)]
        refine le_of_mul_le_mul_right ?_ h10
        refine le_trans ?_ (t5 (by linarith))
        have := mul_le_mul_of_nonneg_left (show 1 - eps ≤ 1 - n * delta by linarith) (show 0 ≤ p.value * 2 ^ 124 * 10 ^ n by positivity)
        linarith
      · intro _ hdvd
        have := mul_right_cancel₀ h10.ne' (t6 (by rw [hwide, ← hn2]; exact hdvd))
        rw [this]; field_simp
      · intro u k h; omega
  -- the last shift
  obtain ⟨s1, s2, s3, s4⟩ := shiftMsb_wide r1 r2 r3
  have hW : valOf (shiftMsb r.1).1 (r.2 - (shiftMsb r.1).2 - 124) = valOf r.1 r.2 / 2 ^ 124 := by
    unfold valOf
    rw [s2, zpow_sub₀ (by norm_num), zpow_sub₀ (by norm_num), zpow_natCast, show (124 : Int) = ((124 : Nat) : Int) from rfl, zpow_natCast]
    push_cast
    field_simp
  refine ⟨valOf r.1 r.2 / 2 ^ 124, r5, r4, r6, r7, ?_⟩
  have hlw : longWay p = (let t := shiftMsb r.1
      let e := r.2 - t.2 + f64.bias
      if e ≤ 0 then copyDenormal t.1 e p.negative
      else if e < 2 ^ f64.expw - 1 then some (copyNormal t.1 e.toNat p.negative)
      else some (makeInf f64 p.negative)) := by
    rw [← hr]; rfl
  rw [hlw, ← hW]
  simp only [show (f64.bias : Int) = 1023 by decide, show f64.expw = 11 from rfl]
  generalize (shiftMsb r.1).1 = a at *
  generalize r.2 - (shiftMsb r.1).2 = e at *
  have hhi : valOf a (e - 124) < 2 ^ (e + 1) := by
    unfold valOf
    have : (wide a : ℚ) < 2 ^ 125 := by exact_mod_cast s4
    rw [show e + 1 = (125 : Nat) + (e - 124) by push_cast; ring, zpow_add₀ (by norm_num), zpow_natCast]
    exact mul_lt_mul_of_pos_right this (by positivity)
  have hlo : 2 ^ e ≤ valOf a (e - 124) := by
    unfold valOf
    have : (2 : ℚ) ^ 124 ≤ wide a := by exact_mod_cast s3
    conv_lhs => rw [show e = (124 : Nat) + (e - 124) by push_cast; ring, zpow_add₀ (by norm_num), zpow_natCast]
    exact mul_le_mul_of_nonneg_right this (by positivity)
  split_ifs with c1 c2
  · by_cases h54 : -54 ≤ e + 1023
    · left
      obtain ⟨b, b1, b2, b3⟩ := copyDenormal_rounds s1 s3 s4 p.negative c1 h54
      exact ⟨le_trans (zpow_le_zpow_right₀ (by norm_num) (by omega)) hlo, b, b, _, b1, b2, b3⟩
    · refine .inr (.inr ⟨lt_of_lt_of_le hhi (zpow_le_zpow_right₀ (by norm_num) (by omega)), ?_⟩)
      unfold copyDenormal
      simp only
      rw [if_pos (by omega)]
  · left
    obtain ⟨b, m, b1, b2, b3⟩ := copyNormal_rounds (e := e) s1 s3 s4 p.negative (by omega) (by omega)
    exact ⟨le_trans (zpow_le_zpow_right₀ (by norm_num) (by omega)) hlo, b, m, _, by rw [b1], b2, b3⟩
  · refine .inr (.inl ⟨le_trans ?_ hlo, rfl⟩)
    have : (2 : ℚ) ^ (1024 : Nat) ≤ 2 ^ e := by
      rw [← zpow_natCast]; exact zpow_le_zpow_right₀ (by norm_num) (by omega)
    exact this

/-- No number with 64 bits of digits is just above 2^-1077. -/
theorem tiny_apart {s : Nat} {e : Int} (h64 : s < 2 ^ 64) (h : (2 : ℚ) ^ (-1077 : Int) ≤ s * 10 ^ e) :
    (2 : ℚ) ^ (-1077 : Int) ≤ s * 10 ^ e * (1 - eps) := by
  have heps : (1 : ℚ) - eps = (2 ^ 110 - 1) / 2 ^ 110 := by unfold eps; norm_num
  have hs1 : 1 ≤ s := by
    rcases Nat.eq_zero_or_pos s with rfl | h
    · have : (0 : ℚ) < 2 ^ (-1077 : Int) := by positivity
      rw [Nat.cast_zero, zero_mul] at h
      exact absurd h (not_le.2 this)
    · exact h
  have hs : (1 : ℚ) ≤ s := by exact_mod_cast hs1
  have hinv : (2 : ℚ) ^ (-1077 : Int) = 1 / 2 ^ 1077 := by
    rw [show (-1077 : Int) = -((1077 : Nat) : Int) from rfl, zpow_neg, zpow_natCast, one_div]
  by_cases he : -324 ≤ e
  · have h1 : (10 : ℚ) ^ (-324 : Int) ≤ s * 10 ^ e := by
      refine le_trans (zpow_le_zpow_right₀ (by norm_num) he) ?_
      exact le_mul_of_one_le_left (by positivity) hs
    have h2 : (2 : ℚ) ^ (-1077 : Int) ≤ 10 ^ (-324 : Int) * (1 - eps) := by
      have h3 : 10 ^ 324 * 2 ^ 110 ≤ 2 ^ 1077 * (2 ^ 110 - 1) := by decide +kernel
      have h4 : (10 : ℚ) ^ 324 * 2 ^ 110 ≤ 2 ^ 1077 * (2 ^ 110 - 1) := by
        have := (Nat.cast_le (α := ℚ)).2 h3
        rwa [Nat.cast_mul, Nat.cast_mul, Nat.cast_sub (Nat.one_le_two_pow), Nat.cast_pow, Nat.cast_pow, Nat.cast_pow] at this
      rw [hinv, heps, show (-324 : Int) = -((324 : Nat) : Int) from rfl, zpow_neg, zpow_natCast]
      have hA : (0 : ℚ) < 2 ^ 1077 := by positivity
      have hB : (0 : ℚ) < 2 ^ 110 := by positivity
      have hT : (0 : ℚ) < 10 ^ 324 := by positivity
      generalize (2 : ℚ) ^ 1077 = A at *
      generalize (2 : ℚ) ^ 110 = B at *
      generalize (10 : ℚ) ^ 324 = T at *
      rw [inv_eq_one_div, div_mul_div_comm, one_mul, div_le_div_iff₀ hA (by positivity)]
      linarith
    refine le_trans h2 (mul_le_mul_of_nonneg_right h1 ?_)
    rw [heps]; norm_num
  · obtain ⟨k, rfl⟩ : ∃ k : Nat, e = -(k : Int) := ⟨(-e).toNat, by omega⟩
    rw [show (10 : ℚ) ^ (-(k : Int)) = (10 ^ k)⁻¹ by rw [zpow_neg, zpow_natCast]] at h ⊢
    have hnat : 10 ^ k ≤ s * 2 ^ 1077 := by
      rw [hinv, ← div_eq_mul_inv, div_le_div_iff₀ (by positivity) (by positivity), one_mul] at h
      have := h
      rw [← Nat.cast_ofNat (n := 10), ← Nat.cast_ofNat (n := 2), ← Nat.cast_pow, ← Nat.cast_pow, ← Nat.cast_mul, Nat.cast_le] at this
      exact this
    have hk : k ≤ 343 := by
      by_contra hc
      have h1 : 10 ^ 344 ≤ 10 ^ k := Nat.pow_le_pow_right (by norm_num) (by omega)
      have h2 : s * 2 ^ 1077 < 2 ^ 64 * 2 ^ 1077 := Nat.mul_lt_mul_of_pos_right h64 (by positivity)
      have h3 : 2 ^ 64 * 2 ^ 1077 ≤ 10 ^ 344 := by decide +kernel
      exact absurd (lt_of_le_of_lt (h1.trans hnat) (h2.trans_le h3)) (lt_irrefl _)
    have hall : ∀ k ∈ List.range' 325 19, 10 ^ k * 2 ^ 110 ≤ ((10 ^ k + (2 ^ 1077 - 1)) / 2 ^ 1077) * 2 ^ 1077 * (2 ^ 110 - 1) := by decide +kernel
    have hk1 := hall k (by rw [List.mem_range'_1]; omega)
    have hceil : (10 ^ k + (2 ^ 1077 - 1)) / 2 ^ 1077 ≤ s := by
      have : 10 ^ k + (2 ^ 1077 - 1) < (s + 1) * 2 ^ 1077 := by
        have h1 : 0 < 2 ^ 1077 := by positivity
        rw [Nat.add_mul]
        generalize 2 ^ 1077 = A at *
        omega
      have := (Nat.div_lt_iff_lt_mul (by positivity)).2 this
      omega
    have hk2 : 10 ^ k * 2 ^ 110 ≤ s * 2 ^ 1077 * (2 ^ 110 - 1) :=
      hk1.trans (Nat.mul_le_mul_right _ (Nat.mul_le_mul_right _ hceil))
    have hk3 : (10 : ℚ) ^ k * 2 ^ 110 ≤ s * 2 ^ 1077 * (2 ^ 110 - 1) := by
      have := (Nat.cast_le (α := ℚ)).2 hk2
      rwa [Nat.cast_mul, Nat.cast_mul, Nat.cast_mul, Nat.cast_sub (Nat.one_le_two_pow), Nat.cast_pow, Nat.cast_pow, Nat.cast_pow] at this
    clear hk1 hk2 hall hceil hnat h
    rw [hinv, heps]
    have hA : (0 : ℚ) < 2 ^ 1077 := by positivity
    have hB : (0 : ℚ) < 2 ^ 110 := by positivity
    have hT : (0 : ℚ) < 10 ^ k := by positivity
    generalize (2 : ℚ) ^ 1077 = A at *
    generalize (2 : ℚ) ^ 110 = B at *
    generalize (10 : ℚ) ^ k = T at *
    rw [← div_eq_mul_inv, div_mul_div_comm, div_le_div_iff₀ hA (by positivity)]
    linarith

/-- When the general case of `convertToNumber` is undefined. -/
theorem longWay_none {p : Parsed} (h0 : p.significand ≠ 0) (h64 : p.significand < 2 ^ 64) (hexp : p.exp.natAbs ≤ 400) :
    longWay p = none ↔ p.value < 2 ^ (-1077 : Int) := by
  obtain ⟨W, w1, w2, _, _, w3⟩ := longWay_cases h0 h64 hexp
  constructor
  · intro hn
    by_contra hc
    have h1 := tiny_apart (e := p.exp) h64 (not_lt.1 hc)
    have h2 : (2 : ℚ) ^ (-1077 : Int) ≤ W := le_trans h1 w1
    rcases w3 with ⟨_, b, m, e, h, _⟩ | ⟨_, h⟩ | ⟨h, _⟩
    · rw [hn] at h; cases h
    · rw [hn] at h; cases h
    · linarith
  · intro hv
    have h2 : W < 2 ^ (-1077 : Int) := lt_of_le_of_lt w2 hv
    rcases w3 with ⟨h, _⟩ | ⟨h, _⟩ | ⟨_, h⟩
    · exact absurd h (not_le.2 h2)
    · exfalso
      have : (2 : ℚ) ^ (-1077 : Int) ≤ 2 ^ (1024 : Nat) := by
        rw [← zpow_natCast]; exact zpow_le_zpow_right₀ (by norm_num) (by norm_num)
      exact absurd (le_trans this h) (not_le.2 h2)
    · exact h

theorem longWay_rounds {p : Parsed} (h0 : p.significand ≠ 0) (h64 : p.significand < 2 ^ 64) (hexp : p.exp.natAbs ≤ 400)
    (hmin : 2 ^ (-1077 : Int) ≤ p.value) :
    ∃ W : ℚ, p.value * (1 - eps) ≤ W ∧ W ≤ p.value ∧
      (p.exp ≤ 0 → 10 ^ p.exp.natAbs ∣ p.significand → W = p.value) ∧
      (∀ u k, 0 < p.exp → 0 < u → u < 2 ^ 100 → p.significand * 10 ^ p.exp.natAbs ∣ u * 2 ^ k → W = p.value) ∧
      ((∃ b m e, longWay p = some (withSign p.negative b) ∧ b ≤ 2047 * 2 ^ 52 ∧ Rounds f64.toFloatFmt b W m e) ∨
        2 ^ 1024 ≤ W ∧ longWay p = some (makeInf f64 p.negative)) := by
  obtain ⟨W, w1, w2, w3, w4, w5⟩ := longWay_cases h0 h64 hexp
  refine ⟨W, w1, w2, w3, w4, ?_⟩
  rcases w5 with ⟨_, h⟩ | h | ⟨_, h⟩
  · exact .inl h
  · exact .inr h
  · exact absurd ((longWay_none h0 h64 hexp).1 h) (not_lt.2 hmin)

/-- 2^-1077 is less than 10^-324. -/
theorem pow_1077 : (2 : ℚ) ^ (-1077 : Int) ≤ 1 / 10 ^ 324 := by
  rw [show (-1077 : Int) = -((1077 : Nat) : Int) from rfl, zpow_neg, zpow_natCast, ← one_div]
  refine one_div_le_one_div_of_le (by positivity) ?_
  have : 10 ^ 324 ≤ 2 ^ 1077 := by decide +kernel
  have := (Nat.cast_le (α := ℚ)).2 this
  rwa [Nat.cast_pow, Nat.cast_pow] at this

end JsonStruct
