import Verif.Spec.DiffNumber
import Verif.Lemmas.FloatUnits

/-
Reading and comparing the numbers of compared documents.
-/

namespace JsonStruct

/-! ### Rounding -/

theorem absValue_roundsE {F : FloatFmt} {b m : Nat} {e : Int} {W : ℚ} (hr : RoundsE F b W m e) (hlt : b < 2 ^ (F.mant + F.expw)) :
    absValue F.mant F.expw b = m * 2 ^ e ∧ m ≤ 2 ^ (F.mant + 1) ∧ (F.emin < e → 2 ^ F.mant ≤ m) := by
  have pe : (0 : ℚ) < 2 ^ e := by positivity
  have hm : m ≤ 2 ^ (F.mant + 1) := by
    have h1 := lt_of_mul_lt_mul_right (lt_of_le_of_lt hr.low hr.top) pe.le
    have : (m : ℚ) < 2 ^ (F.mant + 1) + 1 := by linarith
    have : m < 2 ^ (F.mant + 1) + 1 := by exact_mod_cast this
    omega
  have hn : F.emin < e → 2 ^ F.mant ≤ m := by
    intro h
    have h1 := le_of_mul_le_mul_right (le_trans (hr.norm h) hr.high) pe
    have : (2 : ℚ) ^ F.mant < m + 1 := by linarith
    have : 2 ^ F.mant < m + 1 := by exact_mod_cast this
    omega
  exact ⟨absValue_bits hr.bits hr.ge hm hn hlt, hm, hn⟩

theorem bits_even {F : FloatFmt} (hF : 1 ≤ F.mant) {b m : Nat} {e : Int} {W : ℚ} (hr : RoundsE F b W m e) : b % 2 = m % 2 := by
  have hb := hr.bits
  have hge := hr.ge
  obtain ⟨k, hk⟩ := Int.eq_ofNat_of_zero_le (show 0 ≤ e - F.emin by omega)
  rw [hk] at hb
  obtain ⟨p, hp⟩ : ∃ p, F.mant = p + 1 := ⟨F.mant - 1, by omega⟩
  have : b = 2 * (k * 2 ^ p) + m := by
    have h2 : (b : Int) = ((k * 2 ^ F.mant + m : Nat) : Int) := by rw [hb]; push_cast; ring
    have h3 : b = k * 2 ^ F.mant + m := by exact_mod_cast h2
    rw [h3, hp, pow_succ]; ring
  omega

/-- The distance to the next number, if the exponent is `e`. -/
theorem step_eq {F : FloatFmt} {b m : Nat} {e : Int} (hb : (b : Int) = (e - F.emin) * 2 ^ F.mant + m) (hge : F.emin ≤ e)
    (hm : m < 2 ^ (F.mant + 1)) (hn : F.emin < e → 2 ^ F.mant ≤ m) : (F.step b : ℚ) * 2 ^ F.emin = 2 ^ e := by
  have hp : 0 < 2 ^ F.mant := by positivity
  obtain ⟨k, hk⟩ := Int.eq_ofNat_of_zero_le (show 0 ≤ e - F.emin by omega)
  have hb' : b = k * 2 ^ F.mant + m := by
    have h2 : (b : Int) = ((k * 2 ^ F.mant + m : Nat) : Int) := by rw [hb, hk]; push_cast; ring
    exact_mod_cast h2
  have hs : b / 2 ^ F.mant - 1 = k := by
    rw [hb', Nat.add_comm, Nat.add_mul_div_right _ _ hp]
    rw [pow_succ] at hm
    have h1 : m / 2 ^ F.mant < 2 := Nat.div_lt_of_lt_mul (by omega)
    by_cases h : F.emin < e
    · have := (Nat.le_div_iff_mul_le hp).2 (by rw [Nat.one_mul]; exact hn h : 1 * 2 ^ F.mant ≤ m)
      omega
    · omega
  unfold FloatFmt.step
  rw [hs, show e = k + F.emin by omega, zpow_add₀ (by norm_num), zpow_natCast]
  push_cast
  rfl

/-- The machine rounds to the nearest number, and to the even one of two. -/
theorem roundTo_nearest (F : FloatFmt) (hF : 1 ≤ F.mant) {n d : Nat} (hd : 0 < d) : RoundsTo F.mant F.expw (roundTo F n d) ((n : ℚ) / d) := by
  have hinf := inf_lt F
  obtain ⟨m1, m2, m3⟩ := roundTo_mid F hd (rfl : roundTo F n d = _)
  have hie : F.inf % 2 = 0 := by
    unfold FloatFmt.inf
    obtain ⟨p, hp⟩ : ∃ p, F.mant = p + 1 := ⟨F.mant - 1, by omega⟩
    rw [hp, pow_succ, ← Nat.mul_assoc]; exact Nat.mul_mod_left _ _
  rcases Nat.eq_zero_or_pos n with hn | hn
  · subst hn
    have h0 : roundTo F 0 d = 0 := by simp [roundTo]
    rw [h0] at *
    refine roundsTo_of m1 (by omega) fun h => ⟨m3 h, fun _ => rfl⟩
  obtain ⟨b, m, e, h1, h2⟩ := roundTo_roundsE F hn hd
  rw [h2] at m1 m2 m3 ⊢
  generalize (n : ℚ) / d = W at *
  split at m1
  · rename_i hc
    rw [if_pos hc] at m2 m3 ⊢
    exact roundsTo_of m1 (fun h => ⟨m2 h, fun _ => hie⟩) (fun h => absurd h (Nat.lt_irrefl _))
  · rename_i hc
    rw [if_neg hc] at m2 m3 ⊢
    obtain ⟨v1, v2, v3⟩ := absValue_roundsE h1 (by omega)
    have hpar := bits_even hF h1
    have pe : (0 : ℚ) < 2 ^ e := by positivity
    refine roundsTo_of m1 (fun h => ⟨m2 h, fun ht => ?_⟩) (fun h => ⟨m3 h, fun ht => ?_⟩)
    · -- the middle below
      by_cases hb : F.emin < e ∧ m = 2 ^ F.mant
      · exfalso
        have g1 := absValue_lt F (show b - 1 < b by omega) (by omega)
        have g2 := h1.norm hb.1
        rw [hb.2] at v1
        push_cast at v1
        rw [← v1] at g2
        linarith
      · have hm0 : 0 < m := by
          rcases Nat.eq_zero_or_pos m with h0 | h0
          · exfalso
            subst h0
            have hbb := h1.bits
            have hge := h1.ge
            by_cases he : F.emin < e
            · have := v3 he
              have : 0 < 2 ^ F.mant := by positivity
              omega
            · have : e = F.emin := by omega
              subst this
              simp at hbb
              omega
          · exact h0
        have hs : (F.step (b - 1) : ℚ) * 2 ^ F.emin = 2 ^ e := by
          refine step_eq (m := m - 1) ?_ h1.ge (by omega) (fun he => ?_)
          · have := h1.bits
            push_cast [Nat.cast_sub hm0, Nat.cast_sub h]
            linarith
          · have := v3 he
            have : m ≠ 2 ^ F.mant := fun hh => hb ⟨he, hh⟩
            omega
        have hu := units_succ F (b - 1)
        rw [show b - 1 + 1 = b by omega] at hu
        have hv : absValue F.mant F.expw b = absValue F.mant F.expw (b - 1) + 2 ^ e := by
          rw [absValue_units F (by omega), absValue_units F (by omega), hu, ← hs]
          push_cast
          ring
        rw [hpar]
        refine h1.tie ?_
        rw [v1] at hv ht
        linarith
    · have hm2 : m ≠ 2 ^ (F.mant + 1) := by
        intro hm2
        have g1 := absValue_lt F (show b < b + 1 by omega) (by omega)
        have g2 := h1.top
        rw [hm2] at v1
        push_cast at v1
        rw [← v1] at g2
        linarith
      have hs := step_eq h1.bits h1.ge (by omega) v3
      have hu := units_succ F b
      have hv : absValue F.mant F.expw (b + 1) = absValue F.mant F.expw b + 2 ^ e := by
        rw [absValue_units F (by omega), absValue_units F (by omega), hu, ← hs]
        push_cast
        ring
      rw [hpar]
      refine h1.tieHigh ?_
      rw [hv, v1] at ht
      linarith

/-! ### Reading -/

theorem take_digits {d rest : Bytes} (hd : AllDigits d) (hr : ∀ c ∈ rest.head?, isDecDigit c = false) :
    (d ++ rest).takeWhile isDecDigit = d ∧ (d ++ rest).dropWhile isDecDigit = rest := by
  have h1 : rest.takeWhile isDecDigit = [] ∧ rest.dropWhile isDecDigit = rest := by
    cases rest with
    | nil => simp
    | cons c t => have := hr c rfl; simp [this]
  have hd' : ∀ c ∈ d, isDecDigit c = true := hd
  rw [List.takeWhile_append_of_pos hd', List.dropWhile_append_of_pos hd', h1.1, h1.2]
  simp

theorem digitsValue_eq (d : Bytes) : digitsValue d = decVal d := by
  unfold digitsValue decVal
  congr 1
  funext a c
  ring

theorem digit_plain (c : Byte) : isDecDigit c = true → c ≠ 0x20 ∧ ¬ (9 ≤ c ∧ c ≤ 13) ∧ c ≠ 0x2D ∧ c ≠ 0x2B :=
  forall_byte (p := fun c => isDecDigit c = true → c ≠ 0x20 ∧ ¬ (9 ≤ c ∧ c ≤ 13) ∧ c ≠ 0x2D ∧ c ≠ 0x2B) (by decide +kernel) c

theorem exp_head {n : NumText} (hn : n.Loose) : ∀ c ∈ (expText n.exp).head?, c = 0x65 ∨ c = 0x45 := by
  intro c hc
  rcases n with ⟨neg, i, f, e⟩
  cases e with
  | none => simp [expText] at hc
  | some x =>
    obtain ⟨l, sg, d⟩ := x
    simp only [expText, List.head?_cons, Option.mem_some_iff] at hc
    subst hc
    exact (hn.2.2 _ rfl).1

theorem takeExponent_text {n : NumText} (hn : n.Loose) : takeExponent (expText n.exp) - (n.frac.getD []).length = n.scale := by
  rcases n with ⟨neg, i, f, e⟩
  unfold NumText.scale
  simp only
  congr 1
  cases e with
  | none => rfl
  | some x =>
    obtain ⟨l, sg, d⟩ := x
    obtain ⟨h1, h2, h3⟩ := hn.2.2 _ rfl
    simp only at h1 h2 h3
    have hd : AllDigits d := h3.2
    have htd := take_digits (rest := []) hd (by simp)
    rw [List.append_nil] at htd
    have hs : takeSign (sg ++ d) = (decide (sg = b!"-"), d) := by
      rcases h2 with rfl | rfl | rfl
      · cases d with
        | nil => exact absurd rfl h3.1
        | cons c t =>
          obtain ⟨_, _, k1, k2⟩ := digit_plain c (h3.2 c (by simp))
          simp [takeSign, k1, k2]
      · simp [takeSign]
      · simp [takeSign]
    simp only [expText, takeExponent, if_pos h1, hs, htd.1, digitsValue_eq, decide_eq_true_eq]

theorem strtodText_text {n : NumText} (hn : n.Loose) (hi : n.int ≠ []) : strtodText n.text = some (n.neg, n.mantissa, n.scale) := by
  have hsc := takeExponent_text hn
  have heh := exp_head hn
  have hbody : n.text = (if n.neg then b!"-" else []) ++ (n.int ++ (fracText n.frac ++ expText n.exp)) := by
    simp [NumText.text, List.append_assoc]
  have hstart : takeSign (n.text.dropWhile fun c => decide (c = 0x20 ∨ 9 ≤ c ∧ c ≤ 13)) =
      (n.neg, n.int ++ (fracText n.frac ++ expText n.exp)) := by
    rw [hbody]
    rcases n with ⟨neg, i, f, e⟩
    simp only at hi ⊢
    cases i with
    | nil => exact absurd rfl hi
    | cons c t =>
      obtain ⟨k1, k2, k3, k4⟩ := digit_plain c (hn.1 c (by simp))
      cases neg
      · have : ¬ (c = 0x20 ∨ 9 ≤ c ∧ c ≤ 13) := by rintro (h | h) <;> [exact k1 h; exact k2 h]
        simp [this, takeSign, k3, k4]
      · simp [takeSign]
  have hfe : ∀ c ∈ (fracText n.frac ++ expText n.exp).head?, isDecDigit c = false := by
    intro c hc
    rcases n with ⟨neg, i, f, e⟩
    cases f with
    | none =>
      simp only [fracText, List.nil_append] at hc
      rcases heh c hc with rfl | rfl <;> decide
    | some f =>
      simp only [fracText, List.cons_append, List.head?_cons, Option.mem_some_iff] at hc
      subst hc
      decide
  have hint := take_digits hn.1 hfe
  have hfrac : takeFraction (fracText n.frac ++ expText n.exp) = (n.frac.getD [], expText n.exp) := by
    rcases n with ⟨neg, i, f, e⟩
    cases f with
    | none =>
      simp only [fracText, List.nil_append, Option.getD_none] at heh ⊢
      cases h : expText e with
      | nil => rfl
      | cons c t =>
        have hc := heh c (by simp [h])
        have : c ≠ 0x2E := by rcases hc with rfl | rfl <;> decide
        simp [takeFraction, this]
    | some f =>
      have hf := take_digits (d := f) (rest := expText e) (hn.2.1 f rfl) (by
        intro c hc
        rcases heh c hc with rfl | rfl <;> decide)
      simp [fracText, takeFraction, hf.1, hf.2]
  unfold strtodText
  simp only [hstart, hint.1, hint.2, hfrac]
  rw [if_neg (by simp [hi]), hsc, digitsValue_eq]
  rfl

/-- The fraction that is rounded. -/
theorem scaled_fraction (m : Nat) (e : Int) : let x : Nat × Nat := if 0 ≤ e then (m * 10 ^ e.toNat, 1) else (m, 10 ^ (-e).toNat)
    0 < x.2 ∧ (x.1 : ℚ) / x.2 = m * 10 ^ e := by
  simp only
  split
  · rename_i h
    obtain ⟨k, rfl⟩ := Int.eq_ofNat_of_zero_le h
    simp
  · rename_i h
    obtain ⟨k, hk⟩ := Int.eq_ofNat_of_zero_le (show 0 ≤ -e by omega)
    refine ⟨by positivity, ?_⟩
    rw [show e = -(k : Int) by omega]
    simp [div_eq_mul_inv]

theorem absValue_pos (n : NumText) : 0 ≤ n.absValue := by unfold NumText.absValue; positivity

theorem f64_max : absValue 52 11 (f64.inf - 1) = 2 ^ 1024 - 2 ^ 971 := by
  have : absValue f64.mant f64.expw (f64.inf - 1) = 2 ^ 1024 - 2 ^ 971 := by
    rw [absValue_units f64.toFloatFmt (by decide), show f64.units (f64.inf - 1) = (2 ^ 53 - 1) * 2 ^ 2045 by decide +kernel, f64_emin]
    have h1 : (2 : ℚ) ^ 2045 * 2 ^ (-1074 : Int) = 2 ^ 971 := by
      rw [← zpow_natCast, ← zpow_natCast, ← zpow_add₀ (by norm_num)]
      rfl
    have h2 : (2 : ℚ) ^ 1024 = 2 ^ 53 * 2 ^ 971 := by rw [← pow_add]
    rw [h2]
    push_cast
    rw [mul_assoc, h1]
    norm_num
    ring
  exact this

theorem f64_inf_value : absValue 52 11 f64.inf = 2 ^ 1024 := by
  have : absValue f64.mant f64.expw f64.inf = 2 ^ 1024 := by
    rw [absValue_units f64.toFloatFmt (by decide), show f64.units f64.inf = 2 ^ 2098 by decide +kernel, f64_emin]
    push_cast
    rw [← zpow_natCast, ← zpow_natCast, ← zpow_add₀ (by norm_num)]
    rfl
  exact this

/-- `std::stod` of a number in the range of the normal doubles. -/
theorem stod_text (lib : CLib) {n : NumText} (hn : n.Loose) (hi : n.int ≠ []) (hr : InDoubleRange n.value) :
    ∃ b, stod lib n.text = some ⟨n.neg, b⟩ ∧ RoundsTo 52 11 b n.absValue ∧ b < f64.inf := by
  have habs : |n.value| = n.absValue := by
    unfold NumText.value
    split
    · rw [abs_neg, abs_of_nonneg (absValue_pos n)]
    · rw [abs_of_nonneg (absValue_pos n)]
  obtain ⟨x1, x2⟩ := scaled_fraction n.mantissa n.scale
  unfold stod
  rw [strtodText_text hn hi]
  simp only
  generalize (if 0 ≤ n.scale then (n.mantissa * 10 ^ n.scale.toNat, 1) else (n.mantissa, 10 ^ (-n.scale).toNat)) = x at *
  have hx : (x.1 : ℚ) / x.2 = n.absValue := x2
  have hrt := roundTo_nearest f64.toFloatFmt (by decide) (n := x.1) x1
  have hmid := roundTo_mid f64.toFloatFmt x1 (rfl : roundTo f64.toFloatFmt x.1 x.2 = _)
  rw [hx] at hrt hmid
  have h1 : ¬ f64.inf ≤ roundTo f64.toFloatFmt x.1 x.2 := by
    intro h
    have he : roundTo f64.toFloatFmt x.1 x.2 = f64.inf := le_antisymm hmid.1 h
    have h2 := hmid.2.1 (by rw [he]; decide)
    rw [he] at h2
    have h3 := f64_max
    have h4 := f64_inf_value
    rw [show f64.mant = 52 by rfl, show f64.expw = 11 by rfl, h3, h4] at h2
    have p1 : (2 : ℚ) ^ 971 = 2 * 2 ^ 970 := by rw [show (971 : Nat) = 970 + 1 from rfl, pow_succ, mul_comm]
    have p2 : (2 : ℚ) ^ 1024 = 2 ^ 54 * 2 ^ 970 := by rw [← pow_add]
    have p3 : (0 : ℚ) < 2 ^ 970 := by positivity
    rw [p1, p2] at h2
    unfold InDoubleRange at hr
    rw [p2] at hr
    rcases hr with hr | ⟨_, hr⟩
    · rw [hr, abs_zero] at habs
      rw [← habs] at h2
      generalize (2 : ℚ) ^ 970 = P at p3 h2
      norm_num at h2
      linarith
    · rw [habs] at hr
      linarith
  have h2 : ¬ (0 < n.mantissa ∧ x.1 * 2 ^ 1022 < x.2 ∧ lib.underflow n.mantissa n.scale = true) := by
    rintro ⟨g1, g2, _⟩
    have g3 : 0 < n.absValue := by unfold NumText.absValue; positivity
    rcases hr with hr | ⟨hr, _⟩
    · rw [hr, abs_zero] at habs; linarith
    · rw [habs, ← hx, zpow_neg, inv_le_iff_one_le_mul₀ (by positivity), div_mul_eq_mul_div, le_div_iff₀ (by exact_mod_cast x1)] at hr
      have : ((x.1 * 2 ^ 1022 : Nat) : ℚ) < x.2 := Nat.cast_lt.2 g2
      rw [Nat.cast_mul, Nat.cast_pow] at this
      have h9 : (2 : ℚ) ^ (1022 : Int) = ((2 : Nat) : ℚ) ^ 1022 := zpow_natCast _ _
      rw [h9] at hr
      linarith
  rw [if_neg h1, if_neg h2]
  exact ⟨_, rfl, hrt, by omega⟩

/-! ### Comparing -/

/-- The value of a double. -/
def Dbl.val (a : Dbl) : ℚ := a.units * 2 ^ (-1074 : Int)

theorem f64_abs {b : Nat} (hb : b ≤ f64.inf) : absValue 52 11 b = f64.units b * 2 ^ (-1074 : Int) := by
  have h := absValue_units f64.toFloatFmt (b := b) (lt_of_le_of_lt hb (inf_lt _))
  rw [f64_emin] at h
  exact h

theorem Dbl.val_eq {neg : Bool} {b : Nat} (hb : b ≤ f64.inf) : (⟨neg, b⟩ : Dbl).val = if neg then -absValue 52 11 b else absValue 52 11 b := by
  unfold Dbl.val Dbl.units
  rw [f64_abs hb]
  cases neg <;> simp

theorem roundsTo_zero {b : Nat} (h : RoundsTo 52 11 b 0) : b = 0 := by
  have h2 := roundTo_nearest f64.toFloatFmt (by decide) (n := 0) (d := 1) (by norm_num)
  have h3 : roundTo f64.toFloatFmt 0 1 = 0 := by simp [roundTo]
  rw [h3] at h2
  simp only [Nat.cast_zero, zero_div] at h2
  exact roundsTo_unique (F := f64.toFloatFmt) h h2

/-- Reading a number gives the nearest double. -/
theorem stod_nearest (lib : CLib) {s : Bytes} {v x : ℚ} (hs : HasValue s v) (hr : InDoubleRange v) (hx : NearestDouble v x) :
    ∃ a, stod lib s = some a ∧ a.mag < f64.inf ∧ a.val = x := by
  obtain ⟨n, rfl, hn, hi, rfl⟩ := hs
  obtain ⟨b, h1, h2, h3⟩ := stod_text lib hn hi hr
  obtain ⟨c, h4, rfl⟩ := hx
  have hp := absValue_pos n
  have habs : |n.value| = n.absValue := by
    unfold NumText.value
    split
    · rw [abs_neg, abs_of_nonneg hp]
    · rw [abs_of_nonneg hp]
  rw [habs] at h4
  have : c = b := roundsTo_unique (F := f64.toFloatFmt) h4 h2
  subst this
  refine ⟨_, h1, h3, ?_⟩
  rw [Dbl.val_eq h3.le]
  by_cases hz : n.absValue = 0
  · rw [hz] at h2
    have := roundsTo_zero h2
    subst this
    simp [absValue, magnitude]
  · have hp' : 0 < n.absValue := lt_of_le_of_ne hp (Ne.symm hz)
    unfold NumText.value
    cases n.neg
    · have : ¬ n.absValue < 0 := by linarith
      simp [this]
    · simp [hp']

/-- `fuzzyEquals` compares the distance, as it is rounded, with the tolerance. -/
theorem fuzzyEquals_eq (a b e : Dbl) : fuzzyEquals a b e =
    (!e.nan && decide ((f64.units (roundTo f64.toFloatFmt (b.units - a.units).natAbs (2 ^ 1074)) : Int) ≤ e.units)) := by
  have hle := (roundTo_mid f64.toFloatFmt (n := (b.units - a.units).natAbs) (d := 2 ^ 1074) (by positivity) rfl).1
  have h0 : b.units - a.units = 0 → roundTo f64.toFloatFmt (b.units - a.units).natAbs (2 ^ 1074) = 0 := by
    intro h; rw [h]; simp [roundTo]
  unfold fuzzyEquals Dbl.sub
  dsimp only
  generalize b.units - a.units = d at *
  generalize roundTo f64.toFloatFmt d.natAbs (2 ^ 1074) = r at *
  have hn : ∀ s, (⟨s, r⟩ : Dbl).nan = false := by intro s; simp only [Dbl.nan, decide_eq_false_iff_not]; exact Nat.not_lt.2 hle
  simp only [Dbl.positive, Dbl.le, Dbl.opp, hn, Bool.not_false, Bool.true_and]
  have hu0 : f64.units 0 = 0 := units_zero _
  rcases lt_trichotomy d 0 with h | h | h
  · have h2 : ¬ 0 < (⟨true, r⟩ : Dbl).units := by simp [Dbl.units]
    simp only [decide_eq_true h, Bool.not_true, h2, decide_false, Bool.false_eq_true, if_false]
    rfl
  · have := h0 h
    subst this h
    simp [Dbl.units, hu0]
  · simp only [show decide (d < 0) = false by simp; omega, Bool.not_false]
    by_cases hr : 0 < f64.units r
    · have h2 : 0 < (⟨false, r⟩ : Dbl).units := by simpa [Dbl.units] using hr
      simp only [h2, decide_true, if_true]
      rfl
    · have h2 : ¬ 0 < (⟨false, r⟩ : Dbl).units := by simpa [Dbl.units] using hr
      have h3 : f64.units r = 0 := by omega
      simp [Dbl.units, h3]

theorem fuzzyEquals_comm (a b e : Dbl) : fuzzyEquals a b e = fuzzyEquals b a e := by
  rw [fuzzyEquals_eq, fuzzyEquals_eq, ← Int.natAbs_neg, Int.neg_sub]

theorem Dbl.same_comm (a b : Dbl) : a.same b = b.same a := by
  unfold Dbl.same
  rw [Bool.and_comm (!a.nan)]
  congr 1
  simp only [decide_eq_decide]
  exact eq_comm

theorem Dbl.same_iff {a b : Dbl} (ha : a.mag < f64.inf) (hb : b.mag < f64.inf) : a.same b = true ↔ a.val = b.val := by
  have h1 : a.nan = false := by simp only [Dbl.nan, decide_eq_false_iff_not]; omega
  have h2 : b.nan = false := by simp only [Dbl.nan, decide_eq_false_iff_not]; omega
  unfold Dbl.same Dbl.val
  rw [h1, h2]
  have hp : (2 : ℚ) ^ (-1074 : Int) ≠ 0 := by positivity
  simp only [Bool.not_false, Bool.true_and, decide_eq_true_eq]
  rw [mul_left_inj' hp]
  exact_mod_cast Iff.rfl

/-- The distance of two doubles. -/
theorem dist_eq (a b : Dbl) : |a.val - b.val| = (((b.units - a.units).natAbs : Nat) : ℚ) / ((2 ^ 1074 : Nat) : ℚ) := by
  unfold Dbl.val
  rw [← sub_mul, abs_mul, abs_of_nonneg (show (0 : ℚ) ≤ 2 ^ (-1074 : Int) by positivity), Nat.cast_natAbs, Int.cast_abs, abs_sub_comm,
    Int.cast_sub, zpow_neg, div_eq_mul_inv, Nat.cast_pow]
  rw [show (1074 : Int) = ((1074 : Nat) : Int) from rfl, zpow_natCast]
  norm_num only [Nat.cast_ofNat]

theorem fuzzyEquals_iff {a b : Dbl} {e : Nat} (he : e ≤ f64.inf) :
    fuzzyEquals a b (.ofBits e) = true ↔ ∃ d, NearestDouble |a.val - b.val| d ∧ d ≤ absValue 52 11 e := by
  have he' : e < 2 ^ 63 := lt_of_le_of_lt he (inf_lt _)
  have hof : Dbl.ofBits e = ⟨false, e⟩ := by unfold Dbl.ofBits; rw [Nat.mod_eq_of_lt he']; simp; exact he'
  have hn : (⟨false, e⟩ : Dbl).nan = false := by simp only [Dbl.nan, decide_eq_false_iff_not]; exact Nat.not_lt.2 he
  have hrt := roundTo_nearest f64.toFloatFmt (by decide) (n := (b.units - a.units).natAbs) (d := 2 ^ 1074) (by positivity)
  rw [← dist_eq] at hrt
  rw [fuzzyEquals_eq, hof, hn]
  generalize hr : roundTo f64.toFloatFmt (b.units - a.units).natAbs (2 ^ 1074) = r at *
  have hri : r ≤ f64.inf := hrt.1
  have key : (f64.units r : Int) ≤ (⟨false, e⟩ : Dbl).units ↔ absValue 52 11 r ≤ absValue 52 11 e := by
    rw [f64_abs hri, f64_abs he, mul_le_mul_iff_left₀ (by positivity)]
    simp [Dbl.units]
  simp only [Bool.not_false, Bool.true_and, decide_eq_true_eq, key]
  have habs : ¬ |a.val - b.val| < 0 := not_lt.2 (abs_nonneg _)
  constructor
  · intro h
    exact ⟨_, ⟨r, by rw [abs_abs]; exact hrt, by rw [if_neg habs]⟩, h⟩
  · rintro ⟨d, ⟨c, h1, rfl⟩, h2⟩
    rw [abs_abs] at h1
    have : c = r := roundsTo_unique (F := f64.toFloatFmt) h1 hrt
    subst this
    rwa [if_neg habs] at h2

end JsonStruct
