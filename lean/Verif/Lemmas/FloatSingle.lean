import Verif.Lemmas.FloatUnits

/-
`correctly_round_float` gives the nearest float, if it is given a double that is near enough.
-/

namespace JsonStruct

/-- Which multiples of the smallest number are numbers. -/
theorem units_repr (F : FloatFmt) {k m j : Nat} (hk : k = m * 2 ^ j) (hm : m < 2 ^ (F.mant + 1)) (hlt : k < F.units F.inf) :
    ∃ x < F.inf, F.units x = k := by
  have hp : 0 < 2 ^ F.mant := by positivity
  have key : ∃ x, F.units x = k := by
    by_cases h : k < 2 ^ F.mant
    · refine ⟨k, ?_⟩
      unfold FloatFmt.units
      rw [if_pos (Nat.div_eq_of_lt h), Nat.mod_eq_of_lt h]
    · have h0 : k ≠ 0 := by omega
      obtain ⟨l1, l2⟩ := log2_bounds h0
      have hL : F.mant ≤ Nat.log2 k := by
        by_contra hc
        have : 2 ^ (Nat.log2 k + 1) ≤ 2 ^ F.mant := Nat.pow_le_pow_right (by norm_num) (by omega)
        omega
      obtain ⟨i, hi⟩ : ∃ i, Nat.log2 k = F.mant + i := ⟨Nat.log2 k - F.mant, by omega⟩
      rw [hi] at l1 l2
      have hij : i ≤ j := by
        by_contra hc
        have h1 : m * 2 ^ j < 2 ^ (F.mant + 1) * 2 ^ j := Nat.mul_lt_mul_of_pos_right hm (by positivity)
        rw [← pow_add] at h1
        have h2 : 2 ^ (F.mant + 1 + j) ≤ 2 ^ (F.mant + i) := Nat.pow_le_pow_right (by norm_num) (by omega)
        omega
      obtain ⟨t, rfl⟩ := Nat.exists_eq_add_of_le hij
      have hk2 : k = (m * 2 ^ t) * 2 ^ i := by rw [hk, pow_add]; ring
      generalize m * 2 ^ t = M at hk2
      have hi0 : 0 < 2 ^ i := by positivity
      have hM1 : 2 ^ F.mant ≤ M := by
        rw [hk2, pow_add] at l1
        exact Nat.le_of_mul_le_mul_right l1 hi0
      have hM2 : M < 2 * 2 ^ F.mant := by
        rw [hk2, show F.mant + i + 1 = F.mant + 1 + i by ring, pow_add] at l2
        have := Nat.lt_of_mul_lt_mul_right l2
        rwa [pow_succ, Nat.mul_comm] at this
      refine ⟨2 ^ F.mant * (i + 1) + (M - 2 ^ F.mant), ?_⟩
      unfold FloatFmt.units
      rw [Nat.mul_add_div hp, Nat.mul_add_mod, Nat.div_eq_of_lt (show M - 2 ^ F.mant < 2 ^ F.mant by omega),
        Nat.mod_eq_of_lt (show M - 2 ^ F.mant < 2 ^ F.mant by omega), if_neg (by omega), Nat.add_zero, Nat.add_sub_cancel, hk2]
      congr 1
      omega
  obtain ⟨x, hx⟩ := key
  refine ⟨x, ?_, hx⟩
  rw [← hx] at hlt
  exact (units_strictMono F).lt_iff_lt.1 hlt

theorem f32_emin : f32.emin = -149 := by decide

/-- The value of a double. -/
theorem value64 {x : Nat} (h : x ≤ f64.inf) : absValue 52 11 x = (f64.units x : ℚ) / (2 ^ 1074 : Nat) := by
  have := absValue_units f64.toFloatFmt (b := x) (by have := inf_lt f64.toFloatFmt; omega)
  rw [f64_emin] at this
  rw [show absValue 52 11 x = absValue f64.mant f64.expw x from rfl, this, show (-1074 : Int) = -((1074 : Nat) : Int) from rfl, zpow_neg, zpow_natCast,
    div_eq_mul_inv, Nat.cast_pow]
  rfl

/-- The value of a float. -/
theorem value32 {x : Nat} (h : x ≤ f32.inf) : absValue 23 8 x = (f32.units x : ℚ) / (2 ^ 149 : Nat) := by
  have := absValue_units f32.toFloatFmt (b := x) (by have := inf_lt f32.toFloatFmt; omega)
  rw [f32_emin] at this
  rw [show absValue 23 8 x = absValue f32.mant f32.expw x from rfl, this, show (-149 : Int) = -((149 : Nat) : Int) from rfl, zpow_neg, zpow_natCast,
    div_eq_mul_inv, Nat.cast_pow]
  rfl

theorem inf64_units : f64.units f64.inf = 2 ^ 2098 := by decide +kernel
theorem inf32_units : f32.units f32.inf = 2 ^ 277 := by decide +kernel

/-- A number with few bits is a double. -/
theorem double_exact {n d m j : Nat} {c : Nat} (hd : 0 < d) (h : n * 2 ^ 1074 = c * d) (hc : c = m * 2 ^ j) (hm : m < 2 ^ 53) (hlt : c < 2 ^ 2098) :
    roundTo f64.toFloatFmt n d < f64.inf ∧ f64.units (roundTo f64.toFloatFmt n d) = c := by
  obtain ⟨x, hx, hxc⟩ := units_repr f64.toFloatFmt hc hm (by rw [inf64_units]; exact hlt)
  have : roundTo f64.toFloatFmt n d = x := by
    refine roundTo_exact _ hx.le hd ?_
    rw [show absValue f64.mant f64.expw x = absValue 52 11 x from rfl, value64 hx.le, hxc, div_eq_div_iff (by positivity) (by positivity)]
    exact_mod_cast h
  rw [this]
  exact ⟨hx, hxc⟩

/-- Few bits and a power of two. -/
theorem units_form (F : FloatFmt) (b : Nat) : ∃ m, F.units b = m * F.step b ∧ m < 2 ^ (F.mant + 1) := by
  have hp : 0 < 2 ^ F.mant := by positivity
  have hr := Nat.mod_lt b hp
  unfold FloatFmt.units FloatFmt.step
  split
  · rename_i h
    exact ⟨b % 2 ^ F.mant, by rw [h]; simp, by rw [pow_succ]; omega⟩
  · exact ⟨2 ^ F.mant + b % 2 ^ F.mant, rfl, by rw [pow_succ]; omega⟩

theorem widen_spec {g : Nat} (hg : g ≤ f32.inf) : widen g < f64.inf ∧ f64.units (widen g) = f32.units g * 2 ^ 925 := by
  obtain ⟨m, h1, h2⟩ := units_form f32.toFloatFmt g
  have hle : f32.units g ≤ 2 ^ 277 := by rw [← inf32_units]; exact (units_strictMono _).monotone hg
  refine double_exact (m := m) (j := g / 2 ^ 23 - 1 + 925) (by positivity) ?_ ?_ ?_ ?_
  · rw [Nat.mul_assoc, ← pow_add]
  · rw [h1, pow_add, ← Nat.mul_assoc]; rfl
  · exact Nat.lt_of_lt_of_le h2 (Nat.pow_le_pow_right (by norm_num) (by decide))
  · refine Nat.lt_of_le_of_lt (Nat.mul_le_mul_right _ hle) ?_
    rw [← pow_add]
    exact Nat.pow_lt_pow_right (by norm_num) (by norm_num)

/-- The middle between two floats is computed exactly. -/
theorem middle_spec {g : Nat} (hg : g < f32.inf) :
    dHalf (dAdd (widen g) (widen (g + 1))) < f64.inf ∧
    f64.units (dHalf (dAdd (widen g) (widen (g + 1)))) = (f32.units g + f32.units (g + 1)) * 2 ^ 924 := by
  obtain ⟨m, h1, h2⟩ := units_form f32.toFloatFmt g
  obtain ⟨w1, w2⟩ := widen_spec hg.le
  obtain ⟨w3, w4⟩ := widen_spec (g := g + 1) hg
  have hle : f32.units g ≤ 2 ^ 277 := by rw [← inf32_units]; exact (units_strictMono _).monotone hg.le
  have hle' : f32.units (g + 1) ≤ 2 ^ 277 := by rw [← inf32_units]; exact (units_strictMono _).monotone hg
  have hsum : f32.units g + f32.units (g + 1) = (2 * m + 1) * f32.step g := by
    rw [units_succ, h1]; ring
  have hm : 2 * m + 1 < 2 ^ 53 := by
    have h2 : m < 2 ^ 24 := h2
    norm_num at h2 ⊢
    omega
  have hlt : ∀ k, k ≤ 925 → (f32.units g + f32.units (g + 1)) * 2 ^ k < 2 ^ 2098 := by
    intro k hk
    have h3 : f32.units g + f32.units (g + 1) ≤ 2 ^ 278 := by rw [show 2 ^ 278 = 2 ^ 277 + 2 ^ 277 by rw [pow_succ]; ring]; exact Nat.add_le_add hle hle'
    refine Nat.lt_of_le_of_lt (Nat.mul_le_mul h3 (Nat.pow_le_pow_right (by norm_num) hk)) ?_
    rw [← pow_add]
    exact Nat.pow_lt_pow_right (by norm_num) (by norm_num)
  have hadd : dAdd (widen g) (widen (g + 1)) < f64.inf ∧ f64.units (dAdd (widen g) (widen (g + 1))) = (f32.units g + f32.units (g + 1)) * 2 ^ 925 := by
    unfold dAdd
    rw [w2, w4]
    refine double_exact (m := 2 * m + 1) (j := g / 2 ^ 23 - 1 + 925) (by positivity) ?_ ?_ hm (hlt 925 (le_refl _))
    · ring
    · rw [hsum, pow_add, ← Nat.mul_assoc]; rfl
  unfold dHalf
  rw [hadd.2]
  refine double_exact (m := 2 * m + 1) (j := g / 2 ^ 23 - 1 + 924) (by positivity) ?_ ?_ hm (hlt 924 (by norm_num))
  · rw [Nat.mul_assoc, Nat.mul_assoc, ← pow_add, ← pow_add]
  · rw [hsum, pow_add, ← Nat.mul_assoc]; rfl

/-- The distance to the next double is computed exactly. -/
theorem ulp_spec {d : Nat} (hd : d < f64.inf) : dDist (d + 1) d < f64.inf ∧ f64.units (dDist (d + 1) d) = f64.step d := by
  have hlt : f64.step d < 2 ^ 2098 := by
    unfold FloatFmt.step
    refine Nat.pow_lt_pow_right (by norm_num) ?_
    have : d / 2 ^ f64.mant < 2048 := by
      rw [Nat.div_lt_iff_lt_mul (by positivity)]
      refine Nat.lt_trans hd (by decide +kernel)
    omega
  unfold dDist
  rw [units_succ]
  refine double_exact (m := 1) (j := d / 2 ^ 52 - 1) (by positivity) ?_ ?_ (by norm_num) hlt
  · congr 1; omega
  · rw [Nat.one_mul]; rfl

/-- If the flag is not set, the middle is more than four units away. -/
theorem nearMiddle_far {d g : Nat} (hd : d < f64.inf) (hg : g < f32.inf) (h : nearMiddle d (dDist (d + 1) d) g (g + 1) = false) :
    4 * (f64.step d : ℚ) / (2 ^ 1074 : Nat) < |absValue 52 11 d - (absValue 23 8 g + absValue 23 8 (g + 1)) / 2| := by
  obtain ⟨m1, m2⟩ := middle_spec hg
  obtain ⟨u1, u2⟩ := ulp_spec hd
  unfold nearMiddle at h
  simp only [decide_eq_false_iff_not, Nat.not_le] at h
  unfold dTimes4 at h
  rw [u2] at h
  generalize dHalf (dAdd (widen g) (widen (g + 1))) = M at *
  have hmid : (absValue 23 8 g + absValue 23 8 (g + 1)) / 2 = (f64.units M : ℚ) / (2 ^ 1074 : Nat) := by
    rw [value32 hg.le, value32 hg, m2]
    have e1 : ((2 ^ 1074 : Nat) : ℚ) = (2 ^ 149 : Nat) * 2 * 2 ^ 924 := by
      rw [Nat.cast_pow, Nat.cast_pow, Nat.cast_ofNat, show (1074 : Nat) = 149 + 1 + 924 from rfl, pow_add, pow_add, pow_one]
    rw [e1]
    push_cast
    field_simp
  by_contra hc
  rw [not_lt, value64 hd.le, hmid, ← sub_div, abs_div, abs_of_pos (show (0 : ℚ) < (2 ^ 1074 : Nat) by positivity)] at hc
  have habs : |(f64.units d : ℚ) - f64.units M| = ((f64.units d - f64.units M + (f64.units M - f64.units d) : Nat) : ℚ) := by
    rcases Nat.le_total (f64.units d) (f64.units M) with h | h
    · rw [abs_of_nonpos (by have : (f64.units d : ℚ) ≤ f64.units M := by exact_mod_cast h
                            linarith)]
      rw [Nat.sub_eq_zero_of_le h, Nat.zero_add, Nat.cast_sub h]; ring
    · rw [abs_of_nonneg (by have : (f64.units M : ℚ) ≤ f64.units d := by exact_mod_cast h
                            linarith)]
      rw [Nat.sub_eq_zero_of_le h, Nat.add_zero, Nat.cast_sub h]
  rw [habs] at hc
  have := roundTo_mono f64.toFloatFmt (n := f64.units d - f64.units M + (f64.units M - f64.units d)) (n' := 4 * f64.step d) (d := 2 ^ 1074) (d' := 2 ^ 1074)
    (by positivity) (by positivity) (by push_cast at hc ⊢; exact hc)
  unfold dDist at h
  omega

/-! ### Exact comparison -/

theorem floatToIntPow2_spec {g : Nat} (hg : g < f32.inf) :
    ∃ (m : Nat) (e : Int), floatToIntPow2 g = ([m], e) ∧ m < 2 ^ 32 ∧ absValue 23 8 g = m * 2 ^ e ∧ -149 ≤ e := by
  have hg' : g / 2 ^ 23 < 255 := by
    rw [Nat.div_lt_iff_lt_mul (by positivity)]
    exact Nat.lt_of_lt_of_le hg (by decide)
  have hr := Nat.mod_lt g (show 0 < 2 ^ 23 by positivity)
  have hor : g % 2 ^ 23 ||| 0x800000 = g % 2 ^ 23 + 2 ^ 23 := by
    have := or_mul_pow (y := 1) hr
    rwa [Nat.one_mul] at this
  have hmag : magnitude 23 8 g = g := by unfold magnitude; norm_num at hg' ⊢; omega
  unfold floatToIntPow2 absValue
  simp only [hmag, hor]
  rw [Nat.mod_eq_of_lt (show g / 2 ^ 23 < 2 ^ 8 by omega)]
  by_cases h : g / 2 ^ 23 = 0
  · rw [if_neg (not_not_intro h), if_neg (not_not_intro h), if_pos h]
    refine ⟨_, _, rfl, by omega, ?_, le_refl _⟩
    norm_num
  · rw [if_pos h, if_pos h, if_neg h]
    refine ⟨_, _, rfl, by omega, ?_, by omega⟩
    push_cast
    rw [add_comm]
    congr 1
    congr 1
    norm_num
    ring

theorem midpoint_spec {g1 g2 : Nat} (h1 : g1 < f32.inf) (h2 : g2 < f32.inf) :
    (floatPairMidpoint g1 g2).1.Ok ∧ (floatPairMidpoint g1 g2).1 ≠ [] ∧
    ((floatPairMidpoint g1 g2).1.val : ℚ) * 2 ^ (floatPairMidpoint g1 g2).2 = (absValue 23 8 g1 + absValue 23 8 g2) / 2 := by
  obtain ⟨m1, e1, a1, a2, a3, a4⟩ := floatToIntPow2_spec h1
  obtain ⟨m2, e2, b1, b2, b3, b4⟩ := floatToIntPow2_spec h2
  unfold floatPairMidpoint
  rw [a1, b1]
  simp only
  generalize he : (if e1 < e2 then e1 else e2) = e
  have he1 : e ≤ e1 := by rw [← he]; split <;> omega
  have he2 : e ≤ e2 := by rw [← he]; split <;> omega
  obtain ⟨c1, c2, c3⟩ := Big.shiftLeft_val (w := [m1]) (e1 - e).toNat (Big.ok_cons a2 Big.ok_nil)
  obtain ⟨d1, d2, d3⟩ := Big.shiftLeft_val (w := [m2]) (e2 - e).toNat (Big.ok_cons b2 Big.ok_nil)
  generalize Big.shiftLeft [m1] (e1 - e).toNat = w1 at *
  generalize Big.shiftLeft [m2] (e2 - e).toNat = w2 at *
  obtain ⟨f1, f2, f3⟩ := Big.addLoop_val (if List.length w2 < List.length w1 then List.length w1 else List.length w2) w1 w2 0 c1 d1 (by omega)
    (by split <;> omega) (by split <;> omega)
  refine ⟨f1, ?_, ?_⟩
  · intro hc
    rw [hc] at f3
    simp only [List.length_cons, List.length_nil] at c3 d3 f3
    split at f3 <;> omega
  · rw [f2, c2, d2, a3, b3]
    obtain ⟨k1, hk1⟩ := Int.eq_ofNat_of_zero_le (show 0 ≤ e1 - e by omega)
    obtain ⟨k2, hk2⟩ := Int.eq_ofNat_of_zero_le (show 0 ≤ e2 - e by omega)
    rw [hk1, hk2, show e1 = k1 + e by omega, show e2 = k2 + e by omega]
    rw [zpow_sub_one₀ (by norm_num), zpow_add₀ (by norm_num), zpow_add₀ (by norm_num)]
    simp only [Int.ofNat_eq_natCast, Int.toNat_natCast, zpow_natCast, Big.val]
    push_cast
    ring

theorem compareScaled_spec {digits mid : Big} {e p : Int} (h1 : digits.Ok) (h2 : mid.Ok) (h3 : digits ≠ []) (h4 : mid ≠ []) :
    match compareScaled digits e mid p with
    | .lt => (digits.val : ℚ) * 10 ^ e < mid.val * 2 ^ p
    | .eq => (digits.val : ℚ) * 10 ^ e = mid.val * 2 ^ p
    | .gt => (mid.val : ℚ) * 2 ^ p < digits.val * 10 ^ e := by
  unfold compareScaled
  simp only
  generalize hm5 : (if e < 0 then e else 0) = m5
  generalize hm2 : (if e < p then e else p) = m2
  have g1 : m5 ≤ e ∧ m5 ≤ 0 := by rw [← hm5]; split <;> omega
  have g2 : m2 ≤ e ∧ m2 ≤ p := by rw [← hm2]; split <;> omega
  obtain ⟨a1, a2, a3⟩ := Big.mulPow5_val (e - m5).toNat digits h1
  obtain ⟨b1, b2, b3⟩ := Big.shiftLeft_val (e - m2).toNat a1
  obtain ⟨c1, c2, c3⟩ := Big.mulPow5_val (0 - m5).toNat mid h2
  obtain ⟨d1, d2, d3⟩ := Big.shiftLeft_val (p - m2).toNat c1
  have l1 : 0 < List.length digits := List.length_pos_iff.2 h3
  have l2 : 0 < List.length mid := List.length_pos_iff.2 h4
  rw [compareBig_val b1 d1 (List.length_pos_iff.1 (by omega)) (List.length_pos_iff.1 (by omega)), b2, d2, a2, c2]
  obtain ⟨k1, hk1⟩ := Int.eq_ofNat_of_zero_le (show 0 ≤ e - m5 by omega)
  obtain ⟨k2, hk2⟩ := Int.eq_ofNat_of_zero_le (show 0 ≤ e - m2 by omega)
  obtain ⟨k3, hk3⟩ := Int.eq_ofNat_of_zero_le (show 0 ≤ 0 - m5 by omega)
  obtain ⟨k4, hk4⟩ := Int.eq_ofNat_of_zero_le (show 0 ≤ p - m2 by omega)
  rw [hk1, hk2, hk3, hk4]
  simp only [Int.ofNat_eq_natCast, Int.toNat_natCast]
  have hK : (0 : ℚ) < 5 ^ m5 * 2 ^ m2 := by positivity
  have hL : (digits.val : ℚ) * 10 ^ e = ((digits.val * 5 ^ k1 * 2 ^ k2 : Nat) : ℚ) * (5 ^ m5 * 2 ^ m2) := by
    rw [show (10 : ℚ) = 5 * 2 by norm_num, mul_zpow]
    conv_lhs => rw [show (5 : ℚ) ^ e = 5 ^ ((k1 : Int) + m5) by congr 1; omega, show (2 : ℚ) ^ e = 2 ^ ((k2 : Int) + m2) by congr 1; omega]
    rw [zpow_add₀ (by norm_num), zpow_add₀ (by norm_num), zpow_natCast, zpow_natCast]
    push_cast
    ring
  have hR : (mid.val : ℚ) * 2 ^ p = ((mid.val * 5 ^ k3 * 2 ^ k4 : Nat) : ℚ) * (5 ^ m5 * 2 ^ m2) := by
    have e5 : (5 : ℚ) ^ (k3 : Int) * 5 ^ m5 = 1 := by
      rw [← zpow_add₀ (by norm_num), show (k3 : Int) + m5 = 0 by omega, zpow_zero]
    rw [zpow_natCast] at e5
    conv_lhs => rw [show p = (k4 : Int) + m2 by omega, zpow_add₀ (by norm_num), zpow_natCast]
    push_cast
    calc (mid.val : ℚ) * (2 ^ k4 * 2 ^ m2) = mid.val * (5 ^ k3 * 5 ^ m5) * (2 ^ k4 * 2 ^ m2) := by rw [e5]; ring
      _ = _ := by ring
  rw [hL, hR]
  generalize digits.val * 5 ^ k1 * 2 ^ k2 = A
  generalize mid.val * 5 ^ k3 * 2 ^ k4 = B
  rcases Nat.lt_trichotomy A B with h | h | h
  · rw [Nat.compare_eq_lt.2 h]
    exact mul_lt_mul_of_pos_right (by exact_mod_cast h) hK
  · rw [h, Nat.compare_eq_eq.2 rfl]
  · rw [Nat.compare_eq_gt.2 h]
    exact mul_lt_mul_of_pos_right (by exact_mod_cast h) hK

/-! ### The choice between the neighbours -/

/-- The distance to the next float. -/
def gap32 (g : Nat) : ℚ := (f32.step g : ℚ) / (2 ^ 149 : Nat)

theorem gap32_pos (g : Nat) : 0 < gap32 g := by
  have := step_pos f32.toFloatFmt g
  unfold gap32
  positivity

theorem gap32_mono {a b : Nat} (h : a ≤ b) : gap32 a ≤ gap32 b := by
  unfold gap32
  have : (f32.step a : ℚ) ≤ f32.step b := by exact_mod_cast step_mono f32.toFloatFmt h
  gcongr

theorem gap32_two (a : Nat) : gap32 (a + 2) ≤ 2 * gap32 a := by
  have : (f32.step (a + 2) : ℚ) ≤ 2 * f32.step a := by
    have h : f32.step (a + 2) ≤ 2 * f32.step a := by
      unfold FloatFmt.step
      rw [← pow_succ']
      refine Nat.pow_le_pow_right (by norm_num) ?_
      rw [show f32.mant = 23 from rfl]
      omega
    exact_mod_cast h
  unfold gap32
  rw [← mul_div_assoc]
  gcongr

theorem value32_succ {g : Nat} (h : g < f32.inf) : absValue 23 8 (g + 1) = absValue 23 8 g + gap32 g := by
  rw [value32 h, value32 h.le, units_succ, gap32]
  push_cast
  ring

/-- The distance to the next double is far below the distance between floats. -/
theorem gap_double {d g : Nat} (hd : d < f64.inf) (hg : g < f32.inf) (h : 2 * absValue 52 11 d ≤ absValue 23 8 g + absValue 23 8 (g + 1)) :
    32 * ((f64.step d : ℚ) / (2 ^ 1074 : Nat)) ≤ gap32 g := by
  have e1 : ((2 ^ 1074 : Nat) : ℚ) = 2 ^ 925 * (2 ^ 149 : Nat) := by
    rw [Nat.cast_pow, Nat.cast_pow, Nat.cast_ofNat, show (1074 : Nat) = 925 + 149 from rfl, pow_add]
  suffices hs : 32 * (f64.step d : ℚ) ≤ f32.step g * 2 ^ 925 by
    unfold gap32
    rw [← mul_div_assoc, div_le_div_iff₀ (by positivity) (by positivity), e1]
    nlinarith [show (0 : ℚ) < (2 ^ 149 : Nat) by positivity]
  have hp := step_pos f32.toFloatFmt g
  by_cases hc : 2 ^ 52 ≤ d
  · have h1 := units_ge f64.toFloatFmt d hc
    have h2 := units_lt f32.toFloatFmt g
    rw [value32_succ hg, value32 hg.le, value64 hd.le, gap32, e1] at h
    have h3 : 2 * (f64.units d : ℚ) ≤ (2 * f32.units g + f32.step g) * 2 ^ 925 := by
      have p1 : (0 : ℚ) < 2 ^ 925 := by positivity
      have p2 : (0 : ℚ) < (2 ^ 149 : Nat) := by positivity
      generalize (2 : ℚ) ^ 925 = A at *
      generalize ((2 ^ 149 : Nat) : ℚ) = B at *
      rw [← mul_div_assoc, div_le_iff₀ (by positivity)] at h
      refine le_trans h (le_of_eq ?_)
      field_simp
      ring
    have h1' : (2 : ℚ) ^ 52 * f64.step d ≤ f64.units d := by exact_mod_cast h1
    have h2' : (f32.units g : ℚ) < 2 ^ 24 * f32.step g := by exact_mod_cast h2
    have hp' : (1 : ℚ) ≤ f32.step g := by exact_mod_cast hp
    have p1 : (0 : ℚ) < 2 ^ 925 := by positivity
    generalize (2 : ℚ) ^ 925 = A at *
    generalize (f64.step d : ℚ) = x at *
    generalize (f32.step g : ℚ) = y at *
    have h4 : (2 * (f32.units g : ℚ) + y) * A ≤ (2 ^ 26 * y) * A := mul_le_mul_of_nonneg_right (by linarith) p1.le
    have h5 : 0 < y * A := by positivity
    norm_num at h1' h4
    nlinarith
  · have h1 : f64.step d = 1 := by
      unfold FloatFmt.step
      rw [Nat.div_eq_of_lt (by rw [show f64.mant = 52 from rfl]; omega), Nat.zero_sub, pow_zero]
    rw [h1]
    have hp' : (1 : ℚ) ≤ f32.step g := by exact_mod_cast hp
    have p1 : (32 : ℚ) ≤ 2 ^ 925 := by
      rw [show (32 : ℚ) = 2 ^ 5 by norm_num]
      exact pow_le_pow_right₀ (by norm_num) (by norm_num)
    generalize (2 : ℚ) ^ 925 = A at *
    push_cast
    nlinarith

theorem narrow_mid {d b : Nat} (hd : d < f64.inf) (h : narrow d = b) :
    b ≤ f32.inf ∧ (0 < b → absValue 23 8 (b - 1) + absValue 23 8 b ≤ 2 * absValue 52 11 d) ∧
    (b < f32.inf → 2 * absValue 52 11 d ≤ absValue 23 8 b + absValue 23 8 (b + 1)) := by
  have := roundTo_mid f32.toFloatFmt (n := f64.units d) (d := 2 ^ 1074) (by positivity) h
  rw [value64 hd.le]
  exact this

/-- **The float chosen is the nearest**, if the double is within four units of the number. -/
theorem correctlyRound_nearest {text : Bytes} {d : Nat} {V : ℚ} {digits : Big} {e : Int} (hd : d < f64.inf)
    (hnear : |absValue 52 11 d - V| ≤ 4 * ((f64.step d : ℚ) / (2 ^ 1074 : Nat))) (hlo : 0 < narrow d) (hhi : narrow d < f32.inf)
    (hscan : scanNumber text = some (digits, e)) (hok : digits.Ok) (hne : digits ≠ []) (hV : V = digits.val * 10 ^ e)
    (hmax : narrow d + 1 = f32.inf → 2 * V < absValue 23 8 (narrow d) + absValue 23 8 f32.inf) :
    ∃ b, correctlyRound text d (narrow d) = some b ∧ RoundsTo 23 8 b V := by
  obtain ⟨_, k1, k2⟩ := narrow_mid hd rfl
  have k1 := k1 hlo
  have k2 := k2 hhi
  have hu := gap_double hd hhi k2
  generalize narrow d = af at *
  obtain ⟨dn, rfl⟩ : ∃ dn, af = dn + 1 := ⟨af - 1, by omega⟩
  rw [Nat.add_sub_cancel] at k1
  have hfarHi := nearMiddle_far (g := dn + 1) hd hhi
  have hfarLo := nearMiddle_far (g := dn) hd (by omega)
  rw [mul_div_assoc] at hfarHi hfarLo
  have hupos : 0 < (f64.step d : ℚ) / (2 ^ 1074 : Nat) := by
    have := step_pos f64.toFloatFmt d
    positivity
  generalize (f64.step d : ℚ) / (2 ^ 1074 : Nat) = u at *
  have s1 := value32_succ (g := dn) (by omega)
  have s2 := value32_succ hhi
  have g0 := gap32_pos dn
  have g1 := gap32_mono (show dn ≤ dn + 1 by omega)
  obtain ⟨n1, n2⟩ := abs_le.1 hnear
  have cmpHi : dn + 2 < f32.inf → match compareScaled digits e (floatPairMidpoint (dn + 1) (dn + 2)).1 (floatPairMidpoint (dn + 1) (dn + 2)).2 with
      | .lt => 2 * V < absValue 23 8 (dn + 1) + absValue 23 8 (dn + 2)
      | .eq => 2 * V = absValue 23 8 (dn + 1) + absValue 23 8 (dn + 2)
      | .gt => absValue 23 8 (dn + 1) + absValue 23 8 (dn + 2) < 2 * V := by
    intro h
    obtain ⟨m1, m2, m3⟩ := midpoint_spec hhi h
    have := compareScaled_spec (e := e) (p := (floatPairMidpoint (dn + 1) (dn + 2)).2) hok m1 hne m2
    rw [← hV, m3] at this
    cases hh : compareScaled digits e (floatPairMidpoint (dn + 1) (dn + 2)).1 (floatPairMidpoint (dn + 1) (dn + 2)).2 <;> rw [hh] at this <;>
      simp only at this ⊢ <;> linarith
  have cmpLo : match compareScaled digits e (floatPairMidpoint dn (dn + 1)).1 (floatPairMidpoint dn (dn + 1)).2 with
      | .lt => 2 * V < absValue 23 8 dn + absValue 23 8 (dn + 1)
      | .eq => 2 * V = absValue 23 8 dn + absValue 23 8 (dn + 1)
      | .gt => absValue 23 8 dn + absValue 23 8 (dn + 1) < 2 * V := by
    obtain ⟨m1, m2, m3⟩ := midpoint_spec (g1 := dn) (by omega) hhi
    have := compareScaled_spec (e := e) (p := (floatPairMidpoint dn (dn + 1)).2) hok m1 hne m2
    rw [← hV, m3] at this
    cases hh : compareScaled digits e (floatPairMidpoint dn (dn + 1)).1 (floatPairMidpoint dn (dn + 1)).2 <;> rw [hh] at this <;>
      simp only at this ⊢ <;> linarith
  -- the float just above
  have upCase : dn + 2 < f32.inf → absValue 23 8 (dn + 1) + absValue 23 8 (dn + 2) ≤ 2 * V →
      (absValue 23 8 (dn + 1) + absValue 23 8 (dn + 2) = 2 * V → dn % 2 = 0) → RoundsTo 23 8 (dn + 2) V := by
    intro h h1 h2
    refine roundsTo_of (F := f32.toFloatFmt) h.le (fun _ => ⟨h1, fun hh => by have := h2 hh; omega⟩) (fun _ => ?_)
    have s3 := value32_succ h
    have g3 := gap32_mono (show dn + 1 ≤ dn + 2 by omega)
    have : 2 * V < absValue 23 8 (dn + 2) + absValue 23 8 (dn + 2 + 1) := by
      rw [show dn + 1 + 1 = dn + 2 from rfl] at s2 k2
      linarith
    exact ⟨this.le, fun hh => absurd hh this.ne⟩
  -- the float just below
  have dnCase : 2 * V ≤ absValue 23 8 dn + absValue 23 8 (dn + 1) → (2 * V = absValue 23 8 dn + absValue 23 8 (dn + 1) → dn % 2 = 0) →
      RoundsTo 23 8 dn V := by
    intro h1 h2
    refine roundsTo_of (F := f32.toFloatFmt) (by omega) (fun hp => ?_) (fun _ => ⟨h1, h2⟩)
    obtain ⟨q, rfl⟩ : ∃ q, dn = q + 1 := ⟨dn - 1, by omega⟩
    have s3 := value32_succ (g := q) (by omega)
    have g3 := gap32_two q
    have g4 := gap32_mono (show q ≤ q + 1 by omega)
    have g5 := gap32_pos q
    rw [Nat.add_sub_cancel]
    have : absValue 23 8 q + absValue 23 8 (q + 1) < 2 * V := by
      rw [show q + 1 + 1 = q + 2 from rfl] at *
      linarith
    exact ⟨this.le, fun hh => absurd hh this.ne⟩
  -- the float itself
  have afCase : (absValue 23 8 dn + absValue 23 8 (dn + 1) ≤ 2 * V) → (absValue 23 8 dn + absValue 23 8 (dn + 1) = 2 * V → (dn + 1) % 2 = 0) →
      2 * V ≤ absValue 23 8 (dn + 1) + absValue 23 8 (dn + 2) → (2 * V = absValue 23 8 (dn + 1) + absValue 23 8 (dn + 2) → (dn + 1) % 2 = 0) →
      RoundsTo 23 8 (dn + 1) V := by
    intro h1 h2 h3 h4
    exact roundsTo_of (F := f32.toFloatFmt) hhi.le (fun _ => ⟨h1, h2⟩) (fun _ => ⟨h3, h4⟩)
  have farHi : dn + 2 < f32.inf → nearMiddle d (dDist (d + 1) d) (dn + 1) (dn + 2) = false → 2 * V < absValue 23 8 (dn + 1) + absValue 23 8 (dn + 2) := by
    intro _ h
    have := hfarHi h
    rw [abs_of_nonpos (by linarith)] at this
    rw [show dn + 1 + 1 = dn + 2 from rfl] at *
    linarith
  have farLo : nearMiddle d (dDist (d + 1) d) dn (dn + 1) = false → absValue 23 8 dn + absValue 23 8 (dn + 1) < 2 * V := by
    intro h
    have := hfarLo h
    rw [abs_of_nonneg (by linarith)] at this
    linarith
  have hmid : absValue 23 8 dn + absValue 23 8 (dn + 1) < absValue 23 8 (dn + 1) + absValue 23 8 (dn + 2) := by
    rw [show dn + 1 + 1 = dn + 2 from rfl] at s2
    linarith
  have hmax' : ¬ dn + 2 < f32.inf → 2 * V < absValue 23 8 (dn + 1) + absValue 23 8 (dn + 2) := by
    intro h
    have h' : dn + 2 = f32.inf := by omega
    have := hmax h'
    rwa [← h'] at this
  have heven : ∀ g, floatIsEven g = decide (g % 2 = 0) := fun g => by
    unfold floatIsEven
    by_cases h : g % 2 = 0 <;> simp [h]
  unfold correctlyRound
  rw [if_neg (by omega), if_neg (by omega)]
  simp only [Nat.add_sub_cancel, hscan, show dn + 1 + 1 = dn + 2 from rfl, heven]
  clear hfarHi hfarLo hmax k1 k2 hu n1 n2 hnear s1 s2 g0 g1 hlo
  generalize nearMiddle d (dDist (d + 1) d) (dn + 1) (dn + 2) = nh at *
  generalize nearMiddle d (dDist (d + 1) d) dn (dn + 1) = nl at *
  generalize compareScaled digits e (floatPairMidpoint (dn + 1) (dn + 2)).1 (floatPairMidpoint (dn + 1) (dn + 2)).2 = c1 at *
  generalize compareScaled digits e (floatPairMidpoint dn (dn + 1)).1 (floatPairMidpoint dn (dn + 1)).2 = c2 at *
  generalize absValue 23 8 dn + absValue 23 8 (dn + 1) = L at *
  generalize absValue 23 8 (dn + 1) + absValue 23 8 (dn + 2) = H at *
  -- below the upper middle
  have low : 2 * V ≤ H → (2 * V = H → (dn + 1) % 2 = 0) → ∀ mag, mag = dn + 1 →
      ∃ b, (if mag = dn + 1 ∧ nl = true then
          match c2 with
          | .lt => some dn
          | .eq => some (if decide (dn % 2 = 0) = true then dn else dn + 1)
          | .gt => some mag
        else some mag) = some b ∧ RoundsTo 23 8 b V := by
    rintro h1 h2 _ rfl
    cases nl with
    | false =>
      have := farLo rfl
      exact ⟨_, by simp, afCase this.le (fun h => absurd h this.ne) h1 h2⟩
    | true =>
      rw [if_pos ⟨rfl, rfl⟩]
      cases c2 with
      | lt =>
        have cmpLo : 2 * V < L := cmpLo
        exact ⟨_, rfl, dnCase cmpLo.le (fun h => absurd h cmpLo.ne)⟩
      | gt =>
        have cmpLo : L < 2 * V := cmpLo
        exact ⟨_, rfl, afCase cmpLo.le (fun h => absurd h cmpLo.ne) h1 h2⟩
      | eq =>
        have cmpLo : 2 * V = L := cmpLo
        refine ⟨_, rfl, ?_⟩
        by_cases hp : dn % 2 = 0
        · rw [if_pos (by simp [hp])]
          exact dnCase cmpLo.le (fun _ => hp)
        · rw [if_neg (by simp [hp])]
          exact afCase cmpLo.ge (fun _ => by omega) h1 h2
  have notUp : ∀ mag, mag = dn + 2 → ∃ b, (if mag = dn + 1 ∧ nl = true then
          match c2 with
          | .lt => some dn
          | .eq => some (if decide (dn % 2 = 0) = true then dn else dn + 1)
          | .gt => some mag
        else some mag) = some b ∧ b = dn + 2 := by
    rintro _ rfl
    exact ⟨_, if_neg (by omega), rfl⟩
  by_cases hup : dn + 2 < f32.inf
  · rw [decide_eq_true hup, Bool.true_and]
    cases nh with
    | false =>
      have h := farHi hup rfl
      cases hnl : nl with
      | false =>
        have h' := farLo hnl
        exact ⟨dn + 1, by simp, afCase h'.le (fun hh => absurd hh h'.ne) h.le (fun hh => absurd hh h.ne)⟩
      | true =>
        rw [hnl] at low
        rw [if_neg (by simp)]
        exact low h.le (fun hh => absurd hh h.ne) _ rfl
    | true =>
      have cmpHi := cmpHi hup
      rw [if_neg (by simp), if_pos rfl]
      cases c1 with
      | lt =>
        have h : 2 * V < H := cmpHi
        exact low h.le (fun hh => absurd hh h.ne) _ rfl
      | gt =>
        have h : H < 2 * V := cmpHi
        obtain ⟨b, h1, rfl⟩ := notUp _ rfl
        exact ⟨_, h1, upCase hup h.le (fun hh => absurd hh h.ne)⟩
      | eq =>
        have h : 2 * V = H := cmpHi
        by_cases hp : (dn + 1) % 2 = 0
        · exact low h.le (fun _ => hp) _ (by simp [hp])
        · obtain ⟨b, h1, rfl⟩ := notUp (if decide ((dn + 1) % 2 = 0) = true then dn + 1 else dn + 2) (by simp [hp])
          exact ⟨_, h1, upCase hup h.ge (fun _ => by omega)⟩
  · rw [decide_eq_false hup, Bool.false_and]
    have h := hmax' hup
    cases hnl : nl with
    | false =>
      have h' := farLo hnl
      exact ⟨dn + 1, by simp, afCase h'.le (fun hh => absurd hh h'.ne) h.le (fun hh => absurd hh h.ne)⟩
    | true =>
      rw [hnl] at low
      rw [if_neg (by simp)]
      exact low h.le (fun hh => absurd hh h.ne) _ rfl

end JsonStruct
