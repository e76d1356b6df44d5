import Verif.Lemmas.FloatDecode
import Mathlib.Algebra.Order.Field.Power

/-
`decode` as a whole: the number it returns is so near to the argument that reading it gives the argument back.
-/

namespace JsonStruct

/-- The decimal number `V` is near to `m 2^e`: between the midpoints to the two neighbours, and not near the lower one. -/
structure Near (F : FloatFmt) (m : Nat) (e : Int) (V : ℚ) : Prop where
  low : ((m : ℚ) - 1 / 2 + 1 / 40000) * 2 ^ e ≤ V ∨ V = ((m : ℚ) - 1 / 2) * 2 ^ e ∧ m % 2 = 0 ∧ 2 ≤ e
  low' : m = 2 ^ F.mant → F.emin < e → ((m : ℚ) - 1 / 4 + 1 / 40000) * 2 ^ e ≤ V
  high : V ≤ ((m : ℚ) + 1 / 2) * 2 ^ e
  high' : V = ((m : ℚ) + 1 / 2) * 2 ^ e → m % 2 = 0 ∧ -2 ≤ e

/-- The scale times the power of ten is the power of two. -/
theorem scale_pow {exp : Int} (h : qOf exp ≤ (-exp).toNat ∨ 0 ≤ exp) :
    scaleOf exp * (10 : ℚ) ^ ((if exp < 0 then exp else 0) + (qOf exp : Int)) = 2 ^ exp := by
  unfold scaleOf scaleNum scaleDen
  by_cases he : 0 ≤ exp
  · rw [if_pos he, if_pos he, if_neg (by omega), zero_add, zpow_natCast]
    obtain ⟨n, rfl⟩ := Int.eq_ofNat_of_zero_le he
    simp only [Int.toNat_natCast, zpow_natCast]
    push_cast
    rw [div_mul_cancel₀]
    positivity
  · rw [if_neg he, if_neg he, if_pos (by omega)]
    have hq : qOf exp ≤ (-exp).toNat := by omega
    have e1 : exp + (qOf exp : Int) = -(((-exp).toNat - qOf exp : Nat) : Int) := by omega
    have e2 : exp = -((((-exp).toNat - qOf exp) + qOf exp : Nat) : Int) := by omega
    have e3 : (2 : ℚ) ^ exp = (2 ^ (((-exp).toNat - qOf exp) + qOf exp))⁻¹ := by
      conv_lhs => rw [e2]
      rw [zpow_neg, zpow_natCast]
    rw [e1, e3, zpow_neg, zpow_natCast, pow_add]
    generalize (-exp).toNat - qOf exp = k
    push_cast
    rw [show (10 : ℚ) ^ k = 5 ^ k * 2 ^ k by rw [← mul_pow]; norm_num]
    field_simp

/-- The mantissa with its hidden bit, and the exponent of the last place. -/
def mantOf (T : FloatTy) (f : Nat) : Nat :=
  if f / 2 ^ T.mant % 2 ^ T.expw ≠ 0 then f % 2 ^ T.mant + 2 ^ T.mant else f % 2 ^ T.mant

@[inherit_doc mantOf]
def expOf (T : FloatTy) (f : Nat) : Int :=
  if f / 2 ^ T.mant % 2 ^ T.expw ≠ 0 then (f / 2 ^ T.mant % 2 ^ T.expw : Nat) - (T.bias : Int) - T.mant else 1 - (T.bias : Int) - T.mant

/-- How far the neighbour below is, in units of the last place. -/
def belowOf (T : FloatTy) (f : Nat) : ℚ := if f % 2 ^ T.mant = 0 ∧ 1 < f / 2 ^ T.mant % 2 ^ T.expw then 1 / 2 else 1

/-- What is said of the result of `decode`. -/
structure Decoded (T : FloatTy) (digits : Nat) (f : Nat) (r : Base10) : Prop where
  neg : r.negative = (f / 2 ^ (T.size - 1) != 0)
  inf : r.inf = false
  nan : r.nan = false
  count : r.count = countChars ⟨64, false⟩ r.significand % 256
  pos : 0 < r.significand
  lt : r.significand < 10 ^ digits
  near : Near T.toFloatFmt (mantOf T f) (expOf T f) (r.significand * (10 : ℚ) ^ r.exp)
  short : ∀ (n : Nat) (E : Int), ((mantOf T f : ℚ) - 47 / 100 * belowOf T f) * 2 ^ expOf T f ≤ n * 10 ^ E →
    n * (10 : ℚ) ^ E ≤ ((mantOf T f : ℚ) + 47 / 100) * 2 ^ expOf T f → ∃ z : Nat, r.significand * (10 : ℚ) ^ r.exp = z * 10 ^ E

/-- Numbers whose neighbours are equally far. -/
theorem decode_even {T : FloatTy} (hT : TyConst T) (h1 : 1 ≤ T.mant) {f digits : Nat}
    (hfin : f / 2 ^ T.mant % 2 ^ T.expw ≠ 2 ^ T.expw - 1) (hnz : ¬ (f / 2 ^ T.mant % 2 ^ T.expw = 0 ∧ f % 2 ^ T.mant = 0))
    (hne : ¬ (f % 2 ^ T.mant = 0 ∧ 1 < f / 2 ^ T.mant % 2 ^ T.expw))
    (hemin : f / 2 ^ T.mant % 2 ^ T.expw ≤ 1 → expOf T f = T.emin)
    (hs : ∃ b sh, ScaleOk T (expOf T f - 2) b sh)
    (hdig : ∀ s : ℚ, 1 ≤ s → ∀ R i : Nat, (R * 10 ^ i : Nat) ≤ ((2 : ℚ) ^ (T.mant + 3) - 2) * s → 4 * s - 26 / 10 < 10 ^ (i + 1) →
      (s < 10 → 4 * s - 1 < 10 ^ (i + 1)) → R < 10 ^ digits) :
    ∃ r, decode T f = some r ∧ Decoded T digits f r := by
  obtain ⟨b, sh, hs⟩ := hs
  have hm0 : 0 < mantOf T f := by
    unfold mantOf; split
    · positivity
    · omega
  have hfr := Nat.mod_lt f (show 0 < 2 ^ T.mant by positivity)
  have hm : mantOf T f < 2 ^ (T.mant + 1) := by
    have : (2 : Nat) ^ (T.mant + 1) = 2 * 2 ^ T.mant := Nat.pow_succ'
    unfold mantOf; split <;> omega
  have hpar : f % 2 ^ T.mant % 2 = mantOf T f % 2 := by
    obtain ⟨k, hk⟩ : ∃ k, T.mant = k + 1 := ⟨T.mant - 1, by omega⟩
    have e : (2 : Nat) ^ T.mant = 2 ^ k * 2 := by rw [hk, Nat.pow_succ]
    unfold mantOf; split
    · omega
    · rfl
  have hnorm : normalize T (f / 2 ^ T.mant % 2 ^ T.expw) (f % 2 ^ T.mant) = (expOf T f, mantOf T f) := by
    unfold normalize expOf mantOf; split <;> rfl
  have hp2 : (2 : Nat) ^ (T.mant + 4) = 8 * 2 ^ (T.mant + 1) := by
    rw [show T.mant + 4 = 3 + (T.mant + 1) by omega, Nat.pow_add]
  have ma := (hs.mulDown hT (u := mantOf T f * 4 - 2) (by omega)).2.1
  have mb := (hs.mulDown hT (u := mantOf T f * 4) (by omega)).1
  have mc := (hs.mulDown hT (u := mantOf T f * 4 + 2) (by omega)).1
  obtain ⟨i, r, g1, g2, g3, g4, g5, g6, g7⟩ := shortest_between hT hs hm0 hm
  have hsh : (f % 2 ^ T.mant == 0 && decide (1 < f / 2 ^ T.mant % 2 ^ T.expw)) = false := by
    rw [Bool.eq_false_iff]; simpa using hne
  have hnan : isNan T f = false := by
    unfold isNan getParts; simp [hfin]
  have hinf : isInf T f = false := by
    unfold isInf getParts; simp [hfin]
  have hs1 : 1 ≤ scaleOf (expOf T f - 2) := by
    have hD : (0 : ℚ) < scaleDen (expOf T f - 2) := by exact_mod_cast scaleDen_pos _
    unfold scaleOf; rw [le_div_iff₀ hD, one_mul]; exact_mod_cast hs.one
  have hs100 : scaleOf (expOf T f - 2) ≤ 100 := by
    have hD : (0 : ℚ) < scaleDen (expOf T f - 2) := by exact_mod_cast scaleDen_pos _
    unfold scaleOf; rw [div_le_iff₀ hD]; exact_mod_cast hs.hundred
  have hm1 : (1 : ℚ) ≤ mantOf T f := by exact_mod_cast hm0
  have hms : scaleOf (expOf T f - 2) ≤ mantOf T f * scaleOf (expOf T f - 2) := by
    have := mul_le_mul_of_nonneg_right hm1 (scaleOf_pos (expOf T f - 2)).le
    linarith
  refine ⟨⟨f / 2 ^ (T.size - 1) != 0, false, false, countChars ⟨64, false⟩ r % 256,
      (i : Int) + (if expOf T f - 2 < 0 then expOf T f - 2 else 0) + qOf (expOf T f - 2), r⟩, ?_, ⟨rfl, rfl, rfl, rfl, ?_, ?_, ?_, ?_⟩⟩
  · unfold decode
    have hgp : getParts T f = (f / 2 ^ (T.size - 1) != 0, f / 2 ^ T.mant % 2 ^ T.expw, f % 2 ^ T.mant) := rfl
    simp only [hgp, hnan, hinf, hsh, hnorm, hpar, Bool.false_eq_true, if_false, hnz, if_false]
    have hq := scaling_q T (expOf T f - 2) (mantOf T f * 4 - 2) (mantOf T f * 4) (mantOf T f * 4 + 2)
    have hshift := scaling_shift T (expOf T f - 2) (mantOf T f * 4 - 2) (mantOf T f * 4) (mantOf T f * 4 + 2)
    generalize hsc : scaling T (expOf T f - 2) (mantOf T f * 4 - 2) (mantOf T f * 4) (mantOf T f * 4 + 2) = sc at *
    obtain ⟨q, sr, z0, z1, z2⟩ := sc
    simp only at hq hshift g1 ⊢
    rw [hq, hs.entry, hshift]
    simp only [ma, mb, mc, g1]
  · have : (0 : ℚ) < (r * 10 ^ i : Nat) := by
      rcases g2 with g2 | g2
      · linarith
      · rw [g2.1]; linarith
    have : 0 < r * 10 ^ i := by exact_mod_cast this
    exact Nat.pos_of_mul_pos_right this
  · refine hdig _ hs1 r i ?_ g5 ?_
    · refine le_trans g3 (mul_le_mul_of_nonneg_right ?_ (scaleOf_pos _).le)
      have : mantOf T f * 4 + 4 ≤ 2 ^ (T.mant + 3) := by
        have : (2 : Nat) ^ (T.mant + 3) = 4 * 2 ^ (T.mant + 1) := by
          rw [show T.mant + 3 = 2 + (T.mant + 1) by omega, Nat.pow_add]
        omega
      have : ((mantOf T f * 4 + 4 : Nat) : ℚ) ≤ 2 ^ (T.mant + 3) := by exact_mod_cast this
      push_cast at this
      linarith
    · intro h10
      apply g6
      rcases hs.ten with ht | ht
      · exact ht
      · exfalso
        have hD : (0 : ℚ) < scaleDen (expOf T f - 2) := by exact_mod_cast scaleDen_pos _
        have : 10 ≤ scaleOf (expOf T f - 2) := by unfold scaleOf; rw [le_div_iff₀ hD]; exact_mod_cast ht
        linarith
  · have hpow := scale_pow (exp := expOf T f - 2) hs.qle
    have hV : (r : ℚ) * 10 ^ ((i : Int) + (if expOf T f - 2 < 0 then expOf T f - 2 else 0) + qOf (expOf T f - 2)) =
        (r * 10 ^ i : Nat) * 10 ^ ((if expOf T f - 2 < 0 then expOf T f - 2 else 0) + (qOf (expOf T f - 2) : Int)) := by
      rw [add_assoc, zpow_add₀ (by norm_num), zpow_natCast]
      push_cast; ring
    simp only [hV]
    generalize (if expOf T f - 2 < 0 then expOf T f - 2 else 0) + (qOf (expOf T f - 2) : Int) = x at *
    have hP : (0 : ℚ) < 10 ^ x := by positivity
    have h2 : (2 : ℚ) ^ expOf T f = 4 * 2 ^ (expOf T f - 2) := by
      rw [zpow_sub₀ (by norm_num)]; norm_num; ring
    rw [← hpow] at h2
    have h100 : scaleOf (expOf T f - 2) * 10 ^ x ≤ 100 * 10 ^ x := mul_le_mul_of_nonneg_right hs100 hP.le
    generalize ((r * 10 ^ i : Nat) : ℚ) = R at *
    generalize scaleOf (expOf T f - 2) = s at *
    generalize (10 : ℚ) ^ x = p at *
    refine ⟨?_, ?_, ?_, ?_⟩
    · rcases g2 with g2 | g2
      · left
        have := mul_le_mul_of_nonneg_right g2 hP.le
        rw [h2]; linarith
      · right
        refine ⟨by rw [g2.1, h2]; ring, g2.2.1, by have := g2.2.2; omega⟩
    · intro hme hlt
      exfalso
      unfold mantOf at hme
      split at hme
      · have h0 : f % 2 ^ T.mant = 0 := by omega
        have := hemin (by omega)
        omega
      · omega
    · have := mul_le_mul_of_nonneg_right g3 hP.le
      rw [h2]; linarith
    · intro hVe
      rw [h2] at hVe
      have : R * p = ((mantOf T f * 4 + 2) * s) * p := by rw [hVe]; ring
      have := g4 (mul_right_cancel₀ hP.ne' this)
      exact ⟨this.1, by omega⟩
  · have hpow := scale_pow (exp := expOf T f - 2) hs.qle
    intro n E hlo hhi
    have hbel : belowOf T f = 1 := by unfold belowOf; rw [if_neg hne]
    rw [hbel] at hlo
    simp only [add_assoc]
    generalize (if expOf T f - 2 < 0 then expOf T f - 2 else 0) + (qOf (expOf T f - 2) : Int) = x at *
    have hP : (0 : ℚ) < 10 ^ x := by positivity
    have h2 : (2 : ℚ) ^ expOf T f = 4 * 2 ^ (expOf T f - 2) := by
      rw [zpow_sub₀ (by norm_num)]; norm_num; ring
    rw [← hpow] at h2
    rw [h2] at hlo hhi
    rcases le_or_gt E x with hE | hE
    · obtain ⟨d, hd⟩ := Int.eq_ofNat_of_zero_le (show 0 ≤ x - E by omega)
      refine ⟨r * 10 ^ (i + d), ?_⟩
      rw [show (i : Int) + x = ((i + d : Nat) : Int) + E by push_cast; omega, zpow_add₀ (by norm_num), zpow_natCast]
      push_cast; ring
    · obtain ⟨k, hk⟩ := Int.eq_ofNat_of_zero_le (show 0 ≤ E - x by omega)
      have hD : (n : ℚ) * 10 ^ E = ((n * 10 ^ k : Nat) : ℚ) * 10 ^ x := by
        rw [show E = (k : Int) + x by omega, zpow_add₀ (by norm_num), zpow_natCast]; push_cast; ring
      rw [hD] at hlo hhi
      have hki := g7 (n * 10 ^ k) k (Nat.dvd_mul_left _ _) (le_of_mul_le_mul_right (by linarith) hP) (le_of_mul_le_mul_right (by linarith) hP)
      refine ⟨r * 10 ^ (i - k), ?_⟩
      rw [show (i : Int) + x = ((i - k : Nat) : Int) + E by omega, zpow_add₀ (by norm_num), zpow_natCast]
      push_cast; ring

end JsonStruct
