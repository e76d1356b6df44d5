import Verif.Lemmas.FloatNear

/-
Powers of two: the neighbour below is nearer than the one above. There are 2045 of them among the normal doubles; they are
checked one by one. One of them, 2^-140, fails.
-/

namespace JsonStruct

/-- Whether `num 2^e ≤ sig 10^x`. -/
def leScaled (num : Nat) (e : Int) (sig : Nat) (x : Int) : Bool :=
  decide (num * 2 ^ e.toNat * 10 ^ (-x).toNat ≤ sig * 10 ^ x.toNat * 2 ^ (-e).toNat)

/-- Whether `sig 10^x < num 2^e`. -/
def ltScaled (sig : Nat) (x : Int) (num : Nat) (e : Int) : Bool := !leScaled num e sig x

/-- Whether `num 2^e < sig 10^x`. -/
def belowScaled (num : Nat) (e : Int) (sig : Nat) (x : Int) : Bool :=
  decide (num * 2 ^ e.toNat * 10 ^ (-x).toNat < sig * 10 ^ x.toNat * 2 ^ (-e).toNat)

/-- Whether no multiple of `10^E` lies near to `m 2^e`, a power of two. -/
def noneNear (m : Nat) (e E : Int) : Bool :=
  let n := (m * 100 + 47) * 2 ^ e.toNat * 10 ^ (-E).toNat / (100 * 10 ^ E.toNat * 2 ^ (-e).toNat)
  ltScaled (200 * n) E (m * 200 - 47) e && belowScaled (m * 100 + 47) e (100 * (n + 1)) E

/-- The check for the double with exponent field `k` and mantissa 0. -/
def powOk (T : FloatTy) (digits k : Nat) : Bool :=
  match decode T (k * 2 ^ T.mant) with
  | none => false
  | some r =>
    let e := expOf T (k * 2 ^ T.mant)
    let m := 2 ^ T.mant
    !r.inf && !r.nan && r.count == countChars ⟨64, false⟩ r.significand % 256 && decide (0 < r.significand) &&
      decide (r.significand < 10 ^ digits) && leScaled (m * 40000 - 10000 + 1) e (r.significand * 40000) r.exp &&
      ltScaled (r.significand * 2) r.exp (m * 2 + 1) e &&
      (List.range 18).any fun z => r.significand % 10 ^ z == 0 && noneNear m e (r.exp + z + 1)

theorem powOk_double : (List.range 2045).all (fun k => k + 2 == 883 || powOk f64 17 (k + 2)) = true := by decide +kernel

theorem powOk_float : (List.range 253).all (fun k => powOk f32 9 (k + 2)) = true := by decide +kernel

theorem zpow_split (a : ℚ) (ha : a ≠ 0) (e : Int) : a ^ e = a ^ e.toNat / a ^ (-e).toNat := by
  rw [← zpow_natCast, ← zpow_natCast, ← zpow_sub₀ ha]; congr 1; omega

theorem leScaled_iff (num : Nat) (e : Int) (sig : Nat) (x : Int) :
    leScaled num e sig x = true ↔ (num : ℚ) * 2 ^ e ≤ sig * 10 ^ x := by
  unfold leScaled
  rw [decide_eq_true_eq, zpow_split 2 (by norm_num) e, zpow_split 10 (by norm_num) x, mul_div_assoc', mul_div_assoc',
    div_le_div_iff₀ (by positivity) (by positivity)]
  constructor
  · intro h; exact_mod_cast h
  · intro h; exact_mod_cast h

theorem ltScaled_iff (sig : Nat) (x : Int) (num : Nat) (e : Int) :
    ltScaled sig x num e = true ↔ (sig : ℚ) * 10 ^ x < num * 2 ^ e := by
  rw [← not_le, ← leScaled_iff, ltScaled, Bool.not_eq_true', Bool.not_eq_true]

theorem belowScaled_iff (num : Nat) (e : Int) (sig : Nat) (x : Int) :
    belowScaled num e sig x = true ↔ (num : ℚ) * 2 ^ e < sig * 10 ^ x := by
  unfold belowScaled
  rw [decide_eq_true_eq, zpow_split 2 (by norm_num) e, zpow_split 10 (by norm_num) x, mul_div_assoc', mul_div_assoc',
    div_lt_div_iff₀ (by positivity) (by positivity)]
  constructor
  · intro h; exact_mod_cast h
  · intro h; exact_mod_cast h

theorem noneNear_spec {m : Nat} {e E : Int} (hm : 1 ≤ m) (h : noneNear m e E = true) (n : Nat) (F : Int) (hF : E ≤ F)
    (hlo : ((m : ℚ) - 47 / 200) * 2 ^ e ≤ n * 10 ^ F) (hhi : n * (10 : ℚ) ^ F ≤ ((m : ℚ) + 47 / 100) * 2 ^ e) : False := by
  unfold noneNear at h
  simp only [Bool.and_eq_true] at h
  generalize (m * 100 + 47) * 2 ^ e.toNat * 10 ^ (-E).toNat / (100 * 10 ^ E.toNat * 2 ^ (-e).toNat) = k at h
  have h1 := (ltScaled_iff _ _ _ _).mp h.1
  have h2 := (belowScaled_iff _ _ _ _).mp h.2
  obtain ⟨d, hd⟩ := Int.eq_ofNat_of_zero_le (show 0 ≤ F - E by omega)
  have hD : (n : ℚ) * 10 ^ F = ((n * 10 ^ d : Nat) : ℚ) * 10 ^ E := by
    rw [show F = (d : Int) + E by omega, zpow_add₀ (by norm_num), zpow_natCast]; push_cast; ring
  rw [hD] at hlo hhi
  have hP : (0 : ℚ) < 10 ^ E := by positivity
  generalize n * 10 ^ d = D at *
  push_cast [Nat.cast_sub (show 47 ≤ m * 200 by omega)] at h1 h2
  have h3 : (k : ℚ) < D := lt_of_mul_lt_mul_right (a := (10 : ℚ) ^ E) (by linarith) hP.le
  have h4 : (D : ℚ) < k + 1 := lt_of_mul_lt_mul_right (a := (10 : ℚ) ^ E) (by linarith) hP.le
  have h3 : k < D := by exact_mod_cast h3
  have h4 : D < k + 1 := by exact_mod_cast h4
  omega

/-- The sign only shows in the sign. -/
theorem decode_sign (T : FloatTy) (hT : T.size = 1 + T.mant + T.expw) (f : Nat) :
    decode T f = (decode T (f % 2 ^ (T.size - 1))).map (fun r => { r with negative := f / 2 ^ (T.size - 1) != 0 }) := by
  have hsz : T.size - 1 = T.mant + T.expw := by omega
  have e1 : f % 2 ^ (T.size - 1) / 2 ^ T.mant % 2 ^ T.expw = f / 2 ^ T.mant % 2 ^ T.expw := by
    rw [hsz, Nat.pow_add, Nat.mod_mul_right_div_self, Nat.mod_mod]
  have e2 : f % 2 ^ (T.size - 1) % 2 ^ T.mant = f % 2 ^ T.mant :=
    Nat.mod_mod_of_dvd _ (Nat.pow_dvd_pow 2 (by omega))
  have g1 : getParts T f = (f / 2 ^ (T.size - 1) != 0, f / 2 ^ T.mant % 2 ^ T.expw, f % 2 ^ T.mant) := rfl
  have g2 : getParts T (f % 2 ^ (T.size - 1)) =
      (f % 2 ^ (T.size - 1) / 2 ^ (T.size - 1) != 0, f / 2 ^ T.mant % 2 ^ T.expw, f % 2 ^ T.mant) := by
    unfold getParts; rw [e1, e2]
  have n : isNan T (f % 2 ^ (T.size - 1)) = isNan T f := by unfold isNan; rw [g1, g2]
  have i : isInf T (f % 2 ^ (T.size - 1)) = isInf T f := by unfold isInf; rw [g1, g2]
  unfold decode
  rw [g1, g2, n, i]
  simp only
  generalize (f / 2 ^ (T.size - 1) != 0) = s1
  generalize (f % 2 ^ (T.size - 1) / 2 ^ (T.size - 1) != 0) = s2
  generalize f / 2 ^ T.mant % 2 ^ T.expw = ex
  generalize f % 2 ^ T.mant = m
  split
  · rfl
  · split
    · rfl
    · split
      · rfl
      · generalize scaling T _ _ _ _ = sc
        obtain ⟨q, sh, z0, z1, z2⟩ := sc
        simp only
        split
        · rfl
        · split
          · split <;> rfl
          · rfl

theorem powOk_decoded {T : FloatTy} (hT : T.size = 1 + T.mant + T.expw) {digits f : Nat} (h0 : f % 2 ^ T.mant = 0)
    (h : powOk T digits (f / 2 ^ T.mant % 2 ^ T.expw) = true) (hk1 : 1 < f / 2 ^ T.mant % 2 ^ T.expw) (hm : 1 ≤ T.mant) :
    ∃ r, decode T f = some r ∧ Decoded T digits f r := by
  have hk : f / 2 ^ T.mant % 2 ^ T.expw ≠ 0 := by omega
  have hsz : T.size - 1 = T.mant + T.expw := by omega
  have hf : f % 2 ^ (T.size - 1) = f / 2 ^ T.mant % 2 ^ T.expw * 2 ^ T.mant := by
    rw [hsz, Nat.pow_add, Nat.mod_mul, h0, Nat.zero_add, Nat.mul_comm]
  have hk' : f / 2 ^ T.mant % 2 ^ T.expw * 2 ^ T.mant / 2 ^ T.mant % 2 ^ T.expw = f / 2 ^ T.mant % 2 ^ T.expw := by
    rw [Nat.mul_div_cancel _ (by positivity), Nat.mod_mod]
  have he : expOf T (f / 2 ^ T.mant % 2 ^ T.expw * 2 ^ T.mant) = expOf T f := by
    unfold expOf; rw [hk']
  have hmant : mantOf T f = 2 ^ T.mant := by unfold mantOf; rw [if_pos hk, h0, Nat.zero_add]
  rw [decode_sign T hT, hf]
  unfold powOk at h
  cases hd : decode T (f / 2 ^ T.mant % 2 ^ T.expw * 2 ^ T.mant) with
  | none => rw [hd] at h; cases h
  | some r =>
    rw [hd] at h
    simp only [Bool.and_eq_true, Bool.not_eq_true', beq_iff_eq, decide_eq_true_eq, he] at h
    obtain ⟨⟨⟨⟨⟨⟨⟨a1, a2⟩, a3⟩, a4⟩, a5⟩, a6⟩, a7⟩, a8⟩ := h
    refine ⟨_, rfl, ⟨rfl, a1, a2, a3, a4, a5, ?_, ?_⟩⟩
    case refine_2 =>
      obtain ⟨z, _, hz⟩ := List.any_eq_true.mp a8
      simp only [Bool.and_eq_true, beq_iff_eq] at hz
      intro n E hlo hhi
      simp only [hmant] at hlo hhi ⊢
      rcases lt_or_ge (r.exp + z) E with hE | hE
      · exfalso
        refine noneNear_spec Nat.one_le_two_pow hz.2 n E (by omega) (le_trans (mul_le_mul_of_nonneg_right ?_ (by positivity)) hlo) hhi
        have : belowOf T f = 1 / 2 := by unfold belowOf; rw [if_pos ⟨h0, hk1⟩]
        rw [this]; linarith
      · obtain ⟨k, hk2⟩ := Nat.dvd_of_mod_eq_zero hz.1
        obtain ⟨d, hd⟩ := Int.eq_ofNat_of_zero_le (show 0 ≤ r.exp + z - E by omega)
        refine ⟨k * 10 ^ d, ?_⟩
        have e1 : (10 : ℚ) ^ r.exp * 10 ^ z = 10 ^ d * 10 ^ E := by
          rw [← zpow_natCast, ← zpow_natCast, ← zpow_add₀ (by norm_num), ← zpow_add₀ (by norm_num)]; congr 1
          omega
        rw [hk2]
        push_cast
        rw [show (10 : ℚ) ^ z * k * 10 ^ r.exp = k * (10 ^ r.exp * 10 ^ z) by ring, e1]; ring
    simp only [hmant]
    have b6 := (leScaled_iff _ _ _ _).mp a6
    have b7 := (ltScaled_iff _ _ _ _).mp a7
    have h10 : 10000 ≤ 2 ^ T.mant * 40000 := by
      have : 1 ≤ 2 ^ T.mant := Nat.one_le_two_pow
      omega
    push_cast [Nat.cast_sub h10] at b6 b7 ⊢
    have hp : (0 : ℚ) < 2 ^ expOf T f := by positivity
    have hlow : ((2 : ℚ) ^ T.mant - 1 / 4 + 1 / 40000) * 2 ^ expOf T f ≤ r.significand * 10 ^ r.exp := by linarith
    refine ⟨.inl ?_, fun _ _ => by push_cast; exact hlow, by push_cast; linarith, fun hV => ?_⟩
    · push_cast; linarith
    · exfalso
      push_cast at hV
      linarith

/-- `decode` is right for every double but zero and ±2^-140. -/
theorem decode_double {f : Nat} (hfin : f / 2 ^ 52 % 2 ^ 11 ≠ 2047) (hnz : f % 2 ^ 63 ≠ 0) (hne : f % 2 ^ 63 ≠ 883 * 2 ^ 52) :
    ∃ r, decode f64 f = some r ∧ Decoded f64 17 f r := by
  have hnz' : ¬ (f / 2 ^ 52 % 2 ^ 11 = 0 ∧ f % 2 ^ 52 = 0) := by omega
  by_cases hp : f % 2 ^ 52 = 0 ∧ 1 < f / 2 ^ 52 % 2 ^ 11
  · refine powOk_decoded (T := f64) rfl hp.1 ?_ hp.2 (by decide)
    have h := List.all_eq_true.mp powOk_double (f / 2 ^ 52 % 2 ^ 11 - 2) (List.mem_range.mpr (by omega))
    have e : f / 2 ^ 52 % 2 ^ 11 - 2 + 2 = f / 2 ^ 52 % 2 ^ 11 := by omega
    rw [e] at h
    rcases Bool.or_eq_true _ _ ▸ h with h | h
    · exfalso
      have h : f / 2 ^ 52 % 2 ^ 11 = 883 := by simpa using h
      omega
    · exact h
  · refine decode_even (T := f64) f64_const (by decide) hfin hnz' hp ?_ ?_ ?_
    · intro h
      have h : f / 2 ^ 52 % 2 ^ 11 ≤ 1 := h
      show (if f / 2 ^ 52 % 2 ^ 11 ≠ 0 then ((f / 2 ^ 52 % 2 ^ 11 : Nat) : Int) - (1023 : Nat) - (52 : Nat) else 1 - ((1023 : Nat) : Int) - (52 : Nat)) = -1074
      split <;> omega
    · have : expOf f64 f = (if f / 2 ^ 52 % 2 ^ 11 ≠ 0 then ((f / 2 ^ 52 % 2 ^ 11 : Nat) : Int) - (1023 : Nat) - (52 : Nat) else 1 - ((1023 : Nat) : Int) - (52 : Nat)) := rfl
      apply scale_double
      · rw [this]; split <;> omega
      · rw [this]; split <;> omega
    · intro s hs R i h1 h2 h3
      by_contra hR
      have hR' : (10 : ℚ) ^ 17 ≤ R := by exact_mod_cast Nat.le_of_not_lt hR
      have hP : (1 : ℚ) ≤ 10 ^ i := one_le_pow₀ (by norm_num)
      have hRP : (10 : ℚ) ^ 17 * 10 ^ i ≤ R * 10 ^ i := mul_le_mul_of_nonneg_right hR' (by linarith)
      push_cast at h1
      have h1 : (R : ℚ) * 10 ^ i ≤ ((2 : ℚ) ^ 55 - 2) * s := h1
      rw [pow_succ] at h2 h3
      generalize (10 : ℚ) ^ i = P at *
      norm_num at h1 hRP
      rcases lt_or_ge s 10 with h | h
      · have := h3 h
        linarith
      · linarith

/-- `decode` is right for every float but zero. -/
theorem decode_float {f : Nat} (hfin : f / 2 ^ 23 % 2 ^ 8 ≠ 255) (hnz : f % 2 ^ 31 ≠ 0) :
    ∃ r, decode f32 f = some r ∧ Decoded f32 9 f r := by
  have hnz' : ¬ (f / 2 ^ 23 % 2 ^ 8 = 0 ∧ f % 2 ^ 23 = 0) := by omega
  by_cases hp : f % 2 ^ 23 = 0 ∧ 1 < f / 2 ^ 23 % 2 ^ 8
  · refine powOk_decoded (T := f32) rfl hp.1 ?_ hp.2 (by decide)
    have h := List.all_eq_true.mp powOk_float (f / 2 ^ 23 % 2 ^ 8 - 2) (List.mem_range.mpr (by omega))
    have e : f / 2 ^ 23 % 2 ^ 8 - 2 + 2 = f / 2 ^ 23 % 2 ^ 8 := by omega
    rw [e] at h
    exact h
  · refine decode_even (T := f32) f32_const (by decide) hfin hnz' hp ?_ ?_ ?_
    · intro h
      have h : f / 2 ^ 23 % 2 ^ 8 ≤ 1 := h
      show (if f / 2 ^ 23 % 2 ^ 8 ≠ 0 then ((f / 2 ^ 23 % 2 ^ 8 : Nat) : Int) - (127 : Nat) - (23 : Nat) else 1 - ((127 : Nat) : Int) - (23 : Nat)) = -149
      split <;> omega
    · have : expOf f32 f = (if f / 2 ^ 23 % 2 ^ 8 ≠ 0 then ((f / 2 ^ 23 % 2 ^ 8 : Nat) : Int) - (127 : Nat) - (23 : Nat) else 1 - ((127 : Nat) : Int) - (23 : Nat)) := rfl
      apply scale_float
      · rw [this]; split <;> omega
      · rw [this]; split <;> omega
    · intro s hs R i h1 h2 h3
      by_contra hR
      have hR' : (10 : ℚ) ^ 9 ≤ R := by exact_mod_cast Nat.le_of_not_lt hR
      have hP : (1 : ℚ) ≤ 10 ^ i := one_le_pow₀ (by norm_num)
      have hRP : (10 : ℚ) ^ 9 * 10 ^ i ≤ R * 10 ^ i := mul_le_mul_of_nonneg_right hR' (by linarith)
      push_cast at h1
      have h1 : (R : ℚ) * 10 ^ i ≤ ((2 : ℚ) ^ 26 - 2) * s := h1
      rw [pow_succ] at h2 h3
      generalize (10 : ℚ) ^ i = P at *
      norm_num at h1 hRP
      rcases lt_or_ge s 10 with h | h
      · have := h3 h
        linarith
      · linarith

end JsonStruct
