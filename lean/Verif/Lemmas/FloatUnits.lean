import Verif.Lemmas.FloatValue
import Verif.Lemmas.FloatBig

/-
Floating point numbers as multiples of the smallest one; rounding to the nearest.
-/

namespace JsonStruct

/-- The distance to the next number, as a multiple of the smallest one. -/
def FloatFmt.step (F : FloatFmt) (b : Nat) : Nat := 2 ^ (b / 2 ^ F.mant - 1)

theorem units_succ (F : FloatFmt) (b : Nat) : F.units (b + 1) = F.units b + F.step b := by
  have hp : 0 < 2 ^ F.mant := by positivity
  unfold FloatFmt.units FloatFmt.step
  generalize 2 ^ F.mant = P at *
  obtain ⟨q, r, hb, hr⟩ : ∃ q r, b = P * q + r ∧ r < P := ⟨b / P, b % P, (Nat.div_add_mod b P).symm, Nat.mod_lt _ hp⟩
  have e1 : b / P = q := by rw [hb, Nat.mul_add_div hp, Nat.div_eq_of_lt hr, Nat.add_zero]
  have e2 : b % P = r := by rw [hb, Nat.mul_add_mod, Nat.mod_eq_of_lt hr]
  rw [e1, e2]
  by_cases h : r + 1 < P
  · have e3 : (b + 1) / P = q := by rw [hb, Nat.add_assoc, Nat.mul_add_div hp, Nat.div_eq_of_lt h, Nat.add_zero]
    have e4 : (b + 1) % P = r + 1 := by rw [hb, Nat.add_assoc, Nat.mul_add_mod, Nat.mod_eq_of_lt h]
    rw [e3, e4]
    split
    · rename_i hq; simp [hq]
    · ring
  · have h' : r + 1 = P := by omega
    have e3 : (b + 1) / P = q + 1 := by
      rw [hb, Nat.add_assoc, h', show P * q + P = P * (q + 1) by ring]; exact Nat.mul_div_cancel_left _ hp
    have e4 : (b + 1) % P = 0 := by
      rw [hb, Nat.add_assoc, h', show P * q + P = P * (q + 1) by ring]; exact Nat.mul_mod_right _ _
    rw [e3, e4, if_neg (by omega), Nat.add_sub_cancel, Nat.add_zero]
    split
    · rename_i hq; simp [hq]; omega
    · rename_i hq
      obtain ⟨k, rfl⟩ : ∃ k, q = k + 1 := ⟨q - 1, by omega⟩
      rw [Nat.add_sub_cancel, pow_succ, ← h']
      ring

theorem step_pos (F : FloatFmt) (b : Nat) : 0 < F.step b := by unfold FloatFmt.step; positivity

theorem units_strictMono (F : FloatFmt) : StrictMono F.units :=
  strictMono_nat_of_lt_succ fun b => by rw [units_succ]; have := step_pos F b; omega

theorem units_zero (F : FloatFmt) : F.units 0 = 0 := by simp [FloatFmt.units]

theorem units_lt (F : FloatFmt) (b : Nat) : F.units b < 2 ^ (F.mant + 1) * F.step b := by
  have hp : 0 < 2 ^ F.mant := by positivity
  have := Nat.mod_lt b hp
  unfold FloatFmt.units FloatFmt.step
  rw [pow_succ]
  generalize 2 ^ F.mant = P at *
  split
  · rename_i h; rw [h]; simp; omega
  · refine Nat.mul_lt_mul_of_pos_right (by omega) (by positivity)

theorem units_ge (F : FloatFmt) (b : Nat) (h : 2 ^ F.mant ≤ b) : 2 ^ F.mant * F.step b ≤ F.units b := by
  have hp : 0 < 2 ^ F.mant := by positivity
  have h1 : b / 2 ^ F.mant ≠ 0 := by
    have := (Nat.le_div_iff_mul_le hp).2 (by rwa [Nat.one_mul] : 1 * 2 ^ F.mant ≤ b)
    omega
  unfold FloatFmt.units FloatFmt.step
  rw [if_neg h1]
  exact Nat.mul_le_mul_right _ (Nat.le_add_right _ _)

theorem step_mono (F : FloatFmt) {a b : Nat} (h : a ≤ b) : F.step a ≤ F.step b := by
  unfold FloatFmt.step
  exact Nat.pow_le_pow_right (by norm_num) (Nat.sub_le_sub_right (Nat.div_le_div_right h) 1)

theorem absValue_units (F : FloatFmt) {b : Nat} (h : b < 2 ^ (F.mant + F.expw)) : absValue F.mant F.expw b = F.units b * 2 ^ F.emin := by
  have hmag : magnitude F.mant F.expw b = b := Nat.mod_eq_of_lt h
  have hemin : F.emin = 2 - 2 ^ (F.expw - 1) - F.mant := rfl
  unfold absValue FloatFmt.units
  simp only [hmag]
  split
  · rw [hemin]
  · rename_i hne
    obtain ⟨k, hk⟩ := Nat.exists_eq_succ_of_ne_zero hne
    rw [Nat.succ_eq_add_one] at hk
    rw [hk, Nat.add_sub_cancel]
    push_cast
    rw [mul_assoc, ← zpow_natCast (2 : ℚ) k, ← zpow_add₀ (by norm_num), hemin]
    congr 2
    ring

theorem inf_lt (F : FloatFmt) : F.inf < 2 ^ (F.mant + F.expw) := by
  unfold FloatFmt.inf
  rw [pow_add, Nat.mul_comm]
  have : 0 < 2 ^ F.expw := by positivity
  exact Nat.mul_lt_mul_of_pos_left (by omega) (by positivity)

theorem absValue_lt (F : FloatFmt) {a b : Nat} (h : a < b) (hb : b ≤ F.inf) : absValue F.mant F.expw a < absValue F.mant F.expw b := by
  have := inf_lt F
  rw [absValue_units F (by omega), absValue_units F (by omega)]
  exact mul_lt_mul_of_pos_right (by exact_mod_cast units_strictMono F h) (by positivity)

theorem absValue_mono (F : FloatFmt) {a b : Nat} (h : a ≤ b) (hb : b ≤ F.inf) : absValue F.mant F.expw a ≤ absValue F.mant F.expw b := by
  rcases Nat.eq_or_lt_of_le h with h | h
  · rw [h]
  · exact (absValue_lt F h hb).le

/-- A number between the midpoints to its neighbours is rounded to. -/
theorem roundsTo_of {F : FloatFmt} {b : Nat} {V : ℚ} (hb : b ≤ F.inf)
    (hlo : 0 < b → absValue F.mant F.expw (b - 1) + absValue F.mant F.expw b ≤ 2 * V ∧
      (absValue F.mant F.expw (b - 1) + absValue F.mant F.expw b = 2 * V → b % 2 = 0))
    (hhi : b < F.inf → 2 * V ≤ absValue F.mant F.expw b + absValue F.mant F.expw (b + 1) ∧
      (2 * V = absValue F.mant F.expw b + absValue F.mant F.expw (b + 1) → b % 2 = 0)) :
    RoundsTo F.mant F.expw b V := by
  refine ⟨hb, ?_⟩
  intro x hx hne
  rcases Nat.lt_or_gt_of_ne hne with h | h
  · obtain ⟨h1, h2⟩ := hlo (by omega)
    have h3 := absValue_mono F (show x ≤ b - 1 by omega) (by omega)
    have h4 := absValue_lt F h hb
    generalize absValue F.mant F.expw (b - 1) = p at *
    generalize absValue F.mant F.expw b = q at *
    generalize absValue F.mant F.expw x = y at *
    rw [abs_of_nonpos (show y - V ≤ 0 by linarith)]
    rcases le_total q V with hq | hq
    · left; rw [abs_of_nonpos (by linarith)]; linarith
    · rw [abs_of_nonneg (by linarith)]
      rcases lt_or_eq_of_le (show q - V ≤ -(y - V) by linarith) with h | h
      · exact .inl h
      · exact .inr ⟨h, h2 (by linarith)⟩
  · obtain ⟨h1, h2⟩ := hhi (by unfold FloatFmt.inf at *; omega)
    have h3 := absValue_mono F (show b + 1 ≤ x by omega) hx
    have h4 := absValue_lt F h hx
    generalize absValue F.mant F.expw (b + 1) = p at *
    generalize absValue F.mant F.expw b = q at *
    generalize absValue F.mant F.expw x = y at *
    rw [abs_of_nonneg (show 0 ≤ y - V by linarith)]
    rcases le_total V q with hq | hq
    · left; rw [abs_of_nonneg (by linarith)]; linarith
    · rw [abs_of_nonpos (by linarith)]
      rcases lt_or_eq_of_le (show -(q - V) ≤ y - V by linarith) with h | h
      · exact .inl h
      · exact .inr ⟨h, h2 (by linarith)⟩

/-- There is only one. -/
theorem roundsTo_unique {F : FloatFmt} {a b : Nat} {V : ℚ} (ha : RoundsTo F.mant F.expw a V) (hb : RoundsTo F.mant F.expw b V) : a = b := by
  have key : ∀ a b, RoundsTo F.mant F.expw a V → RoundsTo F.mant F.expw b V → ¬ a < b := by
    intro a b ha hb h
    have h1 := ha.2 b hb.1 (by omega)
    have h2 := hb.2 a ha.1 (by omega)
    have heven : a % 2 = 0 ∧ b % 2 = 0 ∧ |absValue F.mant F.expw a - V| = |absValue F.mant F.expw b - V| := by
      rcases h1 with h1 | h1 <;> rcases h2 with h2 | h2
      · linarith
      · linarith [h2.1]
      · linarith [h1.1]
      · exact ⟨h1.2, h2.2, h1.1⟩
    have hbi : b ≤ F.inf := hb.1
    have h3 := absValue_lt F (show a < a + 1 by omega) (by omega)
    have h4 := absValue_lt F (show a + 1 < b by omega) hbi
    have h5 := ha.2 (a + 1) (by unfold FloatFmt.inf at hbi; omega) (by omega)
    obtain ⟨_, _, h6⟩ := heven
    have h7 : |absValue F.mant F.expw a - V| ≤ |absValue F.mant F.expw (a + 1) - V| := by rcases h5 with h | h <;> linarith [h]
    generalize absValue F.mant F.expw (a + 1) = p at *
    generalize absValue F.mant F.expw b = q at *
    generalize absValue F.mant F.expw a = y at *
    rcases abs_cases (y - V) with ⟨c1, c2⟩ | ⟨c1, c2⟩ <;> rcases abs_cases (q - V) with ⟨d1, d2⟩ | ⟨d1, d2⟩ <;>
      rcases abs_cases (p - V) with ⟨e1, e2⟩ | ⟨e1, e2⟩ <;> linarith
  have h1 := key a b ha hb
  have h2 := key b a hb ha
  omega

/-! ### The rounding of the processor -/

/-- `Rounds` with ties to even everywhere. -/
structure RoundsE (F : FloatFmt) (b : Nat) (W : ℚ) (m : Nat) (e : Int) : Prop extends Rounds F b W m e where
  tie : W = ((m : ℚ) - 1 / 2) * 2 ^ e → m % 2 = 0

theorem RoundsE.le {F : FloatFmt} {b b' m m' : Nat} {W W' : ℚ} {e e' : Int} (h : RoundsE F b W m e) (h' : RoundsE F b' W' m' e')
    (hW : W ≤ W') : b ≤ b' := by
  have pe : (0 : ℚ) < 2 ^ e := by positivity
  have pe' : (0 : ℚ) < 2 ^ e' := by positivity
  have hbits := h.bits
  have hbits' := h'.bits
  have hge := h.ge
  have hge' := h'.ge
  rcases lt_trichotomy e e' with hlt | rfl | hgt
  · have hm : m ≤ 2 ^ (F.mant + 1) := by
      have h1 := lt_of_mul_lt_mul_right (lt_of_le_of_lt h.low h.top) pe.le
      have : (m : ℚ) < 2 ^ (F.mant + 1) + 1 := by linarith
      have : m < 2 ^ (F.mant + 1) + 1 := by exact_mod_cast this
      omega
    have hn : 2 ^ F.mant ≤ m' := by
      have h1 := le_of_mul_le_mul_right (le_trans (h'.norm (by omega)) h'.high) pe'
      have : (2 : ℚ) ^ F.mant < m' + 1 := by linarith
      have : 2 ^ F.mant < m' + 1 := by exact_mod_cast this
      omega
    have hm' : (m : Int) ≤ 2 * 2 ^ F.mant := by rw [pow_succ] at hm; push_cast [← Int.ofNat_le] at hm; linarith
    have hn' : (2 : Int) ^ F.mant ≤ m' := by exact_mod_cast hn
    have : (e + 1 - F.emin) * 2 ^ F.mant ≤ (e' - F.emin) * 2 ^ F.mant := mul_le_mul_of_nonneg_right (by omega) (by positivity)
    have : (b : Int) ≤ b' := by rw [hbits, hbits']; linarith
    omega
  · have h1 := le_of_mul_le_mul_right (le_trans h.low (le_trans hW h'.high)) pe
    have h2 : (m : ℚ) ≤ m' + 1 := by linarith
    have h2 : m ≤ m' + 1 := by exact_mod_cast h2
    have h3 : m ≤ m' := by
      by_contra hc
      have hm : m = m' + 1 := by omega
      have hmq : (m : ℚ) = m' + 1 := by exact_mod_cast hm
      have hl := h.low
      have hh := h'.high
      rw [hmq] at hl
      have e1 : W = ((m : ℚ) - 1 / 2) * 2 ^ e := by rw [hmq]; linarith
      have e2 : W' = ((m' : ℚ) + 1 / 2) * 2 ^ e := by linarith
      have := h.tie e1
      have := h'.tieHigh e2
      omega
    have : (b : Int) ≤ b' := by rw [hbits, hbits']; omega
    omega
  · exfalso
    have h1 := h.norm (by omega)
    have h2 := h'.top
    rw [pow_succ] at h2
    have h3 : (2 : ℚ) ^ e' * 2 ≤ 2 ^ e := by
      rw [← zpow_add_one₀ (by norm_num)]; exact zpow_le_zpow_right₀ (by norm_num) (by omega)
    have h4 := mul_le_mul_of_nonneg_left h3 (show (0 : ℚ) ≤ 2 ^ F.mant by positivity)
    linarith

/-- A number is rounded to itself. -/
theorem roundsE_self (F : FloatFmt) {b : Nat} (hb : b < 2 ^ (F.mant + F.expw)) : ∃ m e, RoundsE F b (absValue F.mant F.expw b) m e := by
  have hp : 0 < 2 ^ F.mant := by positivity
  rw [absValue_units F hb]
  have hbd := Nat.div_add_mod b (2 ^ F.mant)
  have hr := Nat.mod_lt b hp
  have hemin : F.emin = 2 - 2 ^ (F.expw - 1) - F.mant := rfl
  by_cases h : b / 2 ^ F.mant = 0
  · have hb' : b < 2 ^ F.mant := by
      rcases Nat.div_eq_zero_iff.1 h with h | h
      · omega
      · exact h
    have hu : F.units b = b := by unfold FloatFmt.units; rw [if_pos h, Nat.mod_eq_of_lt hb']
    have pe : (0 : ℚ) < 2 ^ F.emin := by positivity
    rw [hu]
    refine ⟨b, F.emin, ⟨⟨by ring, le_refl _, ?_, ?_, by omega, ?_, ?_, ?_⟩, ?_⟩⟩
    · exact mul_le_mul_of_nonneg_right (by linarith) pe.le
    · exact mul_le_mul_of_nonneg_right (by linarith) pe.le
    · refine mul_lt_mul_of_pos_right ?_ pe
      have : b < 2 ^ (F.mant + 1) := by rw [pow_succ]; omega
      exact_mod_cast this
    all_goals
      intro hc
      have := mul_right_cancel₀ pe.ne' hc
      linarith
  · obtain ⟨k, hk⟩ := Nat.exists_eq_succ_of_ne_zero h
    rw [Nat.succ_eq_add_one] at hk
    have hu : (F.units b : ℚ) * 2 ^ F.emin = ((2 ^ F.mant + b % 2 ^ F.mant : Nat) : ℚ) * 2 ^ (F.emin + k) := by
      unfold FloatFmt.units
      rw [if_neg h, hk, Nat.add_sub_cancel, zpow_add₀ (by norm_num), zpow_natCast]
      push_cast
      ring
    have pe : (0 : ℚ) < 2 ^ (F.emin + k) := by positivity
    rw [hu]
    rw [hk] at hbd
    refine ⟨2 ^ F.mant + b % 2 ^ F.mant, F.emin + k, ⟨⟨?_, by omega, ?_, ?_, ?_, ?_, ?_, ?_⟩, ?_⟩⟩
    · have : (b : Int) = 2 ^ F.mant * (k + 1) + (b % 2 ^ F.mant : Nat) := by exact_mod_cast hbd.symm
      rw [this]
      push_cast
      ring
    · exact mul_le_mul_of_nonneg_right (by linarith) pe.le
    · exact mul_le_mul_of_nonneg_right (by linarith) pe.le
    · intro _
      refine mul_le_mul_of_nonneg_right ?_ pe.le
      push_cast
      have : (0 : ℚ) ≤ ((b % 2 ^ F.mant : Nat) : ℚ) := by positivity
      push_cast at this
      linarith
    · refine mul_lt_mul_of_pos_right ?_ pe
      have : 2 ^ F.mant + b % 2 ^ F.mant < 2 ^ (F.mant + 1) := by rw [pow_succ]; omega
      exact_mod_cast this
    all_goals
      intro hc
      have := mul_right_cancel₀ pe.ne' hc
      linarith

/-- `roundTo` rounds to the nearest number, ties to even. -/
theorem roundTo_roundsE (F : FloatFmt) {n d : Nat} (hn : 0 < n) (hd : 0 < d) :
    ∃ b m e, RoundsE F b ((n : ℚ) / d) m e ∧ roundTo F n d = if F.inf ≤ b then F.inf else b := by
  obtain ⟨l1, l2⟩ := floorLog2_spec hn hd
  unfold roundTo
  rw [if_neg (by omega)]
  simp only
  generalize hl : floorLog2 n d = l at *
  generalize he : max F.emin (l - F.mant) = e
  obtain ⟨s1, s2⟩ := scaleDown_spec (n := n) hd e
  generalize scaleDown n d e = x at *
  obtain ⟨⟨r1, r2⟩, r3, r4⟩ := nearest_spec x.1 s1
  rw [s2] at r1 r2 r3 r4
  have he0 : (0 : ℚ) < 2 ^ e := by positivity
  rw [le_div_iff₀ he0] at r1
  rw [div_le_iff₀ he0] at r2
  rw [div_eq_iff he0.ne'] at r3 r4
  refine ⟨_, nearest x.1 x.2, e, ⟨⟨?_, by omega, r1, r2, ?_, ?_, fun h => .inl (r3 h), r4⟩, r3⟩, rfl⟩
  · push_cast
    rw [show ((e - F.emin).toNat : Int) = e - F.emin by omega]
  · intro h
    have : e = l - F.mant := by omega
    rw [this]
    refine le_trans (le_of_eq ?_) l1
    rw [← zpow_natCast, ← zpow_add₀ (by norm_num)]
    congr 1; ring
  · refine lt_of_lt_of_le l2 ?_
    rw [← zpow_natCast, ← zpow_add₀ (by norm_num)]
    refine zpow_le_zpow_right₀ (by norm_num) ?_
    push_cast
    omega

theorem roundTo_mono (F : FloatFmt) {n n' d d' : Nat} (hd : 0 < d) (hd' : 0 < d') (h : (n : ℚ) / d ≤ (n' : ℚ) / d') :
    roundTo F n d ≤ roundTo F n' d' := by
  rcases Nat.eq_zero_or_pos n with hn | hn
  · rw [hn]; simp [roundTo]
  · have hn' : 0 < n' := by
      rcases Nat.eq_zero_or_pos n' with h0 | h0
      · rw [h0] at h
        have : (0 : ℚ) < (n : ℚ) / d := by positivity
        simp at h
        linarith
      · exact h0
    obtain ⟨b, m, e, h1, h2⟩ := roundTo_roundsE F hn hd
    obtain ⟨b', m', e', h1', h2'⟩ := roundTo_roundsE F hn' hd'
    have := h1.le h1' h
    rw [h2, h2']
    split <;> split <;> omega

theorem roundTo_exact (F : FloatFmt) {b n d : Nat} (hb : b ≤ F.inf) (hd : 0 < d) (h : (n : ℚ) / d = absValue F.mant F.expw b) :
    roundTo F n d = b := by
  have hinf := inf_lt F
  rcases Nat.eq_zero_or_pos n with hn | hn
  · subst hn
    rcases Nat.eq_zero_or_pos b with h0 | h0
    · subst h0; simp [roundTo]
    · exfalso
      have := absValue_lt F h0 hb
      rw [← h, absValue_units F (by positivity), units_zero] at this
      simp at this
  · obtain ⟨b', m, e, h1, h2⟩ := roundTo_roundsE F hn hd
    obtain ⟨m', e', h3⟩ := roundsE_self F (show b < 2 ^ (F.mant + F.expw) by omega)
    rw [h] at h1
    have g1 := h1.le h3 (le_refl _)
    have g2 := h3.le h1 (le_refl _)
    rw [h2]
    split <;> omega

/-- The result of rounding lies between the midpoints. -/
theorem roundTo_mid (F : FloatFmt) {b n d : Nat} (hd : 0 < d) (h : roundTo F n d = b) :
    b ≤ F.inf ∧ (0 < b → absValue F.mant F.expw (b - 1) + absValue F.mant F.expw b ≤ 2 * ((n : ℚ) / d)) ∧
    (b < F.inf → 2 * ((n : ℚ) / d) ≤ absValue F.mant F.expw b + absValue F.mant F.expw (b + 1)) := by
  have hinf := inf_lt F
  rcases Nat.eq_zero_or_pos n with hn | hn
  · subst hn
    have : b = 0 := by rw [← h]; simp [roundTo]
    subst this
    refine ⟨Nat.zero_le _, by omega, ?_⟩
    intro h0
    have := absValue_lt F (show 0 < 0 + 1 by omega) (by omega)
    rw [absValue_units F (by positivity), units_zero] at this ⊢
    simp at this ⊢
    exact this.le
  · obtain ⟨b', m, e, h1, h2⟩ := roundTo_roundsE F hn hd
    rw [h2] at h
    have hW : (0 : ℚ) < (n : ℚ) / d := by positivity
    generalize (n : ℚ) / d = W at *
    split at h
    · subst h
      refine ⟨le_refl _, ?_, by omega⟩
      intro h0
      have h4 := absValue_lt F (show F.inf - 1 < F.inf by omega) (le_refl _)
      rcases le_total (absValue F.mant F.expw F.inf) W with hW' | hW'
      · linarith
      · obtain ⟨m', e', h3⟩ := roundsE_self F hinf
        have h5 := h1.le h3 hW'
        have h6 : b' = F.inf := by omega
        subst h6
        have := rounds_nearest h1.toRounds hinf (F.inf - 1)
        generalize absValue F.mant F.expw F.inf = q at *
        generalize absValue F.mant F.expw (F.inf - 1) = p at *
        rcases abs_cases (q - W) with ⟨c1, c2⟩ | ⟨c1, c2⟩ <;> rcases abs_cases (p - W) with ⟨d1, d2⟩ | ⟨d1, d2⟩ <;> linarith
    · subst h
      refine ⟨by omega, ?_, ?_⟩
      · intro h0
        have := rounds_nearest h1.toRounds (by omega) (b' - 1)
        have h4 := absValue_lt F (show b' - 1 < b' by omega) (by omega)
        generalize absValue F.mant F.expw b' = q at *
        generalize absValue F.mant F.expw (b' - 1) = p at *
        rcases abs_cases (q - W) with ⟨c1, c2⟩ | ⟨c1, c2⟩ <;> rcases abs_cases (p - W) with ⟨d1, d2⟩ | ⟨d1, d2⟩ <;> linarith
      · intro h0
        have := rounds_nearest h1.toRounds (by omega) (b' + 1)
        have h4 := absValue_lt F (show b' < b' + 1 by omega) (by omega)
        generalize absValue F.mant F.expw b' = q at *
        generalize absValue F.mant F.expw (b' + 1) = p at *
        rcases abs_cases (q - W) with ⟨c1, c2⟩ | ⟨c1, c2⟩ <;> rcases abs_cases (p - W) with ⟨d1, d2⟩ | ⟨d1, d2⟩ <;> linarith

end JsonStruct
