import Verif.Lemmas.FloatRound

/-
The arithmetic of the processor rounds to the nearest number, with ties to even.
-/

namespace JsonStruct

theorem scaleDown_spec {n d : Nat} (hd : 0 < d) (e : Int) :
    0 < (scaleDown n d e).2 ∧ ((scaleDown n d e).1 : ℚ) / (scaleDown n d e).2 = (n : ℚ) / d / 2 ^ e := by
  unfold scaleDown
  split
  · rename_i h
    obtain ⟨k, rfl⟩ := Int.eq_ofNat_of_zero_le h
    refine ⟨by simp; positivity, ?_⟩
    simp only [Int.toNat_natCast, zpow_natCast]
    push_cast
    rw [div_div]
  · rename_i h
    obtain ⟨k, hk⟩ := Int.eq_ofNat_of_zero_le (show 0 ≤ -e by omega)
    have he : e = -(k : Int) := by omega
    subst he
    refine ⟨hd, ?_⟩
    simp only [neg_neg, Int.toNat_natCast, zpow_neg, zpow_natCast]
    push_cast
    field_simp

theorem floorLog2_spec {n d : Nat} (hn : 0 < n) (hd : 0 < d) :
    (2 : ℚ) ^ floorLog2 n d ≤ (n : ℚ) / d ∧ (n : ℚ) / d < 2 ^ (floorLog2 n d + 1) := by
  obtain ⟨n1, n2⟩ := log2_bounds hn.ne'
  obtain ⟨d1, d2⟩ := log2_bounds hd.ne'
  have hd' : (0 : ℚ) < d := by exact_mod_cast hd
  have q1 : (2 : ℚ) ^ (Nat.log2 n : Int) ≤ n := by rw [zpow_natCast]; exact_mod_cast n1
  have q2 : (n : ℚ) < 2 ^ ((Nat.log2 n : Int) + 1) := by
    rw [show ((Nat.log2 n : Int) + 1) = ((Nat.log2 n + 1 : Nat) : Int) by push_cast; rfl, zpow_natCast]; exact_mod_cast n2
  have q3 : (2 : ℚ) ^ (Nat.log2 d : Int) ≤ d := by rw [zpow_natCast]; exact_mod_cast d1
  have q4 : (d : ℚ) < 2 ^ ((Nat.log2 d : Int) + 1) := by
    rw [show ((Nat.log2 d : Int) + 1) = ((Nat.log2 d + 1 : Nat) : Int) by push_cast; rfl, zpow_natCast]; exact_mod_cast d2
  unfold floorLog2
  simp only
  generalize hl : (Nat.log2 n : Int) - Nat.log2 d = l
  obtain ⟨s1, s2⟩ := scaleDown_spec (n := n) hd l
  generalize scaleDown n d l = x at *
  have hx : (0 : ℚ) < x.2 := by exact_mod_cast s1
  have hl0 : (0 : ℚ) < 2 ^ l := by positivity
  have hup : (n : ℚ) / d < 2 ^ (l + 1) := by
    rw [div_lt_iff₀ hd']
    refine lt_of_lt_of_le q2 ?_
    rw [show (Nat.log2 n : Int) + 1 = (l + 1) + Nat.log2 d by omega, zpow_add₀ (by norm_num)]
    exact mul_le_mul_of_nonneg_left q3 (by positivity)
  have hlo : (2 : ℚ) ^ (l - 1) ≤ (n : ℚ) / d := by
    rw [le_div_iff₀ hd']
    refine le_trans ?_ q1
    rw [show (Nat.log2 n : Int) = (l - 1) + (Nat.log2 d + 1) by omega, zpow_add₀ (by norm_num)]
    exact mul_le_mul_of_nonneg_left q4.le (by positivity)
  split
  · rename_i h
    refine ⟨hlo, ?_⟩
    rw [sub_add_cancel]
    have h : (x.1 : ℚ) < x.2 := by exact_mod_cast h
    have : (x.1 : ℚ) / x.2 < 1 := by rw [div_lt_one hx]; exact h
    rw [s2, div_lt_one hl0] at this
    exact this
  · rename_i h
    refine ⟨?_, hup⟩
    have h : (x.2 : ℚ) ≤ x.1 := by exact_mod_cast (Nat.le_of_not_lt h)
    have : 1 ≤ (x.1 : ℚ) / x.2 := by rw [le_div_iff₀ hx]; linarith
    rw [s2, le_div_iff₀ hl0] at this
    linarith

theorem nearest_spec (x : Nat) {y : Nat} (hy : 0 < y) :
    ((nearest x y : ℚ) - 1 / 2 ≤ (x : ℚ) / y ∧ (x : ℚ) / y ≤ nearest x y + 1 / 2) ∧
    ((x : ℚ) / y = (nearest x y : ℚ) - 1 / 2 → nearest x y % 2 = 0) ∧ ((x : ℚ) / y = (nearest x y : ℚ) + 1 / 2 → nearest x y % 2 = 0) := by
  have hy' : (0 : ℚ) < y := by exact_mod_cast hy
  have h1 : (x : ℚ) = y * (x / y : Nat) + (x % y : Nat) := by exact_mod_cast (Nat.div_add_mod x y).symm
  have h2 := Nat.mod_lt x hy
  have h3 : (x : ℚ) / y = (x / y : Nat) + (x % y : Nat) / (y : ℚ) := by
    rw [h1]; field_simp
  rw [h3]
  unfold nearest
  simp only
  generalize x / y = q at *
  generalize x % y = r at *
  have hr0 : (0 : ℚ) ≤ r := by positivity
  have hr1 : (r : ℚ) < y := by exact_mod_cast h2
  have hd1 : (r : ℚ) / y < 1 := by rw [div_lt_one hy']; exact hr1
  have hd0 : 0 ≤ (r : ℚ) / y := by positivity
  have hcmp : (r : ℚ) / y * (2 * y) = 2 * r := by field_simp
  split
  · rename_i hc
    have hge : (y : ℚ) ≤ 2 * r := by
      rcases hc with hc | ⟨hc, _⟩
      · exact_mod_cast hc.le
      · exact_mod_cast hc.ge
    have hh : 1 / 2 ≤ (r : ℚ) / y := by rw [div_le_div_iff₀ (by norm_num) hy']; linarith
    push_cast
    refine ⟨⟨by linarith, by linarith⟩, ?_, ?_⟩
    · intro h
      have : (r : ℚ) / y = 1 / 2 := by linarith
      rw [div_eq_div_iff hy'.ne' (by norm_num)] at this
      have : r * 2 = 1 * y := by exact_mod_cast this
      omega
    · intro h; linarith
  · rename_i hc
    have hle : 2 * r ≤ y := by omega
    have hle' : 2 * (r : ℚ) ≤ y := by exact_mod_cast hle
    have hh : (r : ℚ) / y ≤ 1 / 2 := by rw [div_le_div_iff₀ hy' (by norm_num)]; linarith
    refine ⟨⟨by linarith, by linarith⟩, ?_, ?_⟩
    · intro h; linarith
    · intro h
      have : (r : ℚ) / y = 1 / 2 := by linarith
      rw [div_eq_div_iff hy'.ne' (by norm_num)] at this
      have : r * 2 = 1 * y := by exact_mod_cast this
      omega

/-- Rounding gives the bits of the rounded number, or infinity. -/
theorem roundTo_rounds (F : FloatFmt) {n d : Nat} (hn : 0 < n) (hd : 0 < d) :
    ∃ b m e, Rounds F b ((n : ℚ) / d) m e ∧ roundTo F n d = if F.inf ≤ b then F.inf else b := by
  obtain ⟨l1, l2⟩ := floorLog2_spec hn hd
  unfold roundTo
  rw [if_neg (by omega)]
  simp only
  generalize hl : floorLog2 n d = l at *
  generalize he : max F.emin (l - F.mant) = e
  obtain ⟨s1, s2⟩ := scaleDown_spec (n := n) hd e
  generalize scaleDown n d e = x at *
  obtain ⟨⟨r1, r2⟩, r3, r4⟩ := nearest_spec x.1 s1
  rw [s2] at r1 r2 r3 r4
  have he0 : (0 : ℚ) < 2 ^ e := by positivity
  rw [le_div_iff₀ he0] at r1
  rw [div_le_iff₀ he0] at r2
  rw [div_eq_iff he0.ne'] at r3 r4
  refine ⟨_, nearest x.1 x.2, e, ⟨?_, by omega, r1, r2, ?_, ?_, fun h => .inl (r3 h), r4⟩, rfl⟩
  · push_cast
    rw [show ((e - F.emin).toNat : Int) = e - F.emin by omega]
  · intro h
    have : e = l - F.mant := by omega
    rw [this]
    refine le_trans (le_of_eq ?_) l1
    rw [← zpow_natCast, ← zpow_add₀ (by norm_num)]
    congr 1; ring
  · refine lt_of_lt_of_le l2 ?_
    rw [← zpow_natCast, ← zpow_add₀ (by norm_num)]
    refine zpow_le_zpow_right₀ (by norm_num) ?_
    push_cast
    omega

end JsonStruct
