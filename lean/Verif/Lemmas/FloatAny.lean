import Verif.Lemmas.FloatDigits
import Verif.Lemmas.FloatValue

/-
Reading a number with any number of digits behind the point.
-/

namespace JsonStruct

/-- The exponent of a number. -/
def expoOf (n : NumText) : Int :=
  match n.exp with | none => 0 | some (_, sign, d) => if sign = b!"-" then -(decVal d : Int) else decVal d

theorem scale_eq (n : NumText) : n.scale = expoOf n - (n.frac.getD []).length := by
  unfold NumText.scale expoOf
  cases n.exp <;> rfl

theorem expIs_cases {n : NumText} {e : Int} (h : ExpIs n e) :
    e = expoOf n ∨ 100000000 ≤ expoOf n ∧ 100000000 ≤ e ∨ expoOf n ≤ -100000000 ∧ e ≤ -100000000 := by
  unfold ExpIs at h
  unfold expoOf
  cases hx : n.exp with
  | none => rw [hx] at h; exact .inl h
  | some x =>
    obtain ⟨c, sign, d⟩ := x
    rw [hx] at h
    simp only at h ⊢
    obtain ⟨e', h1, h2⟩ := h
    unfold ExpOk at h1
    split at h2 <;> rename_i hs <;> simp only [hs, if_true, if_false] <;> omega

/-- The first digit is not 0. -/
def Leads (s : Bytes) : Prop := ∃ c t, s = c :: t ∧ c ≠ 0x30

theorem leads_ge {s : Bytes} (hd : AllDigits s) (h : Leads s) : 10 ^ (s.length - 1) ≤ decVal s := by
  obtain ⟨c, t, rfl, hc⟩ := h
  have h1 : 1 ≤ c.toNat - 48 :=
    forall_byte (p := fun c => isDigit c = true → c ≠ 0x30 → 1 ≤ c.toNat - 48) (by decide +kernel) c (hd c (by simp)) hc
  rw [decVal_cons]
  simp only [List.length_cons, Nat.add_sub_cancel]
  have := Nat.mul_le_mul_right (10 ^ t.length) h1
  omega

theorem nearest_inf {V : ℚ} (hV : (2 : ℚ) ^ 1024 ≤ V) {x : Nat} (hx : magnitude 52 11 x ≤ 2047 * 2 ^ 52) :
    |absValue 52 11 (2047 * 2 ^ 52) - V| ≤ |absValue 52 11 x - V| := by
  have := absValue_le hx
  rw [absValue_inf]
  generalize (2 : ℚ) ^ 1024 = I at *
  rw [abs_of_nonpos (by linarith), abs_of_nonpos (by linarith)]
  linarith

theorem nearest_zero {V : ℚ} (h0 : 0 ≤ V) (hV : V ≤ (10 : ℚ) ^ (-324 : Int)) (x : Nat) :
    |absValue 52 11 0 - V| ≤ |absValue 52 11 x - V| := by
  have := double_pow2
  rw [absValue_zero]
  rcases absValue_small x with hx | hx
  · rw [hx]
  · rw [abs_of_nonpos (by linarith), abs_of_nonneg (by linarith)]
    linarith

theorem allDigits_num {n : NumText} (hn : n.Loose) : AllDigits (n.int ++ n.frac.getD []) := by
  intro c hc
  rcases List.mem_append.1 hc with hc | hc
  · exact hn.1 c hc
  · cases hf : n.frac with
    | none => rw [hf] at hc; simp at hc
    | some f => rw [hf] at hc; exact hn.2.1 f (by rw [hf]; rfl) c hc

theorem decVal_ne_zero {s : Bytes} (hd : AllDigits s) (h : ∃ c ∈ s, c ≠ 0x30) : decVal s ≠ 0 := by
  induction s with
  | nil => obtain ⟨c, hc, _⟩ := h; simp at hc
  | cons a s ih =>
    rw [decVal_cons]
    intro h0
    have h1 := Nat.eq_zero_of_add_eq_zero h0
    obtain ⟨c, hc, hc0⟩ := h
    rcases List.mem_cons.1 hc with rfl | hc
    · have h2 : 1 ≤ c.toNat - 48 :=
        forall_byte (p := fun c => isDigit c = true → c ≠ 0x30 → 1 ≤ c.toNat - 48) (by decide +kernel) c (hd c (by simp)) hc0
      rcases Nat.mul_eq_zero.1 h1.1 with h | h
      · omega
      · exact absurd h (by positivity)
    · exact ih (fun x hx => hd x (by simp [hx])) ⟨c, hc, hc0⟩ h1.2

/-- How far the digits that are dropped can reach. -/
def dropped (n : NumText) : ℚ :=
  if (n.int ++ n.frac.getD []).length ≤ 19 then 0 else 10 ^ (n.scale + (n.int ++ n.frac.getD []).length - 19)

/-- The digits that are not kept, compared with the number. -/
theorem dropped_le {n : NumText} (hn : n.Loose) (hl : Leads (n.int ++ n.frac.getD [])) : dropped n ≤ n.absValue / 10 ^ 18 := by
  have hge := leads_ge (allDigits_num hn) hl
  have hpos : 1 ≤ (n.int ++ n.frac.getD []).length := by
    obtain ⟨c, t, g, _⟩ := hl
    rw [g]; simp
  have hv0 : 0 ≤ n.absValue := by unfold NumText.absValue; positivity
  unfold dropped
  split
  · positivity
  · rw [le_div_iff₀ (by positivity)]
    have g2 : ((10 ^ ((n.int ++ n.frac.getD []).length - 1) : Nat) : ℚ) ≤ n.mantissa := by exact_mod_cast hge
    refine le_trans (le_of_eq ?_) (mul_le_mul_of_nonneg_right g2 (show (0 : ℚ) ≤ 10 ^ n.scale by positivity))
    push_cast
    rw [← zpow_natCast, ← zpow_natCast, ← zpow_add₀ (by norm_num), ← zpow_add₀ (by norm_num)]
    congr 1
    rw [Nat.cast_sub hpos]
    push_cast
    ring

/-- A number that starts with 0. -/
theorem notLeads_le {n : NumText} (hn : n.Loose) (hl : ¬ Leads (n.int ++ n.frac.getD [])) (hne : (n.int ++ n.frac.getD []) ≠ []) :
    n.absValue ≤ 10 ^ (n.scale + (n.int ++ n.frac.getD []).length - 1) := by
  have hdig := allDigits_num hn
  unfold NumText.absValue NumText.mantissa
  generalize n.int ++ n.frac.getD [] = s at *
  cases s with
  | nil => exact absurd rfl hne
  | cons c s =>
    have hc : c = 0x30 := by
      by_contra hc
      exact hl ⟨c, s, rfl, hc⟩
    subst hc
    rw [decVal_cons]
    have h1 := decVal_lt s (fun c hc => hdig c (List.mem_cons_of_mem _ hc))
    have h2 : (decVal s : ℚ) ≤ ((10 ^ s.length : Nat) : ℚ) := by exact_mod_cast h1.le
    have h3 : ((0x30 : Byte).toNat - 48) * 10 ^ s.length + decVal s = decVal s := by
      rw [show (0x30 : Byte).toNat - 48 = 0 from rfl]; omega
    rw [h3]
    refine le_trans (mul_le_mul_of_nonneg_right h2 (by positivity)) (le_of_eq ?_)
    push_cast
    rw [← zpow_natCast, ← zpow_add₀ (by norm_num)]
    congr 1
    simp only [List.length_cons]
    push_cast
    ring

theorem double_any {n : NumText} (hn : n.Loose) (hne : n.text ≠ []) (hint : n.int.length ≤ 19)
    (hz : (n.int ++ n.frac.getD []).length ≤ 19 ∨ decVal ((n.int ++ n.frac.getD []).take 19) ≠ 0)
    (hl : Leads (n.int ++ n.frac.getD []) ∨ expoOf n + n.int.length ≤ 309 ∧ doubleTo n.text ≠ none) :
    ∃ b, doubleTo n.text = some (.noError, if n.neg then 2 ^ 63 + b else b) ∧ b ≤ 2047 * 2 ^ 52 ∧
      (2 ^ 1024 ≤ n.absValue → b = 2047 * 2 ^ 52) ∧
      ∀ x, magnitude 52 11 x ≤ 2047 * 2 ^ 52 →
        |absValue 52 11 b - n.absValue| ≤ |absValue 52 11 x - n.absValue| + n.absValue / 2 ^ 109 + 2 * dropped n := by
  obtain ⟨j1, j2, e, h1, h2, h3, h4, h5, h6, h7, h8⟩ := parseNumber_long hn hne hz
  have hj1 : j1 = n.int.length := by omega
  subst hj1
  rw [List.take_length] at h7 h8
  have hdig := allDigits_num hn
  have hfd : AllDigits (n.frac.getD []) := fun c hc => hdig c (List.mem_append_right _ hc)
  -- all digits
  have hmant : n.mantissa = (decVal n.int * 10 ^ j2 + decVal ((n.frac.getD []).take j2)) * 10 ^ ((n.frac.getD []).length - j2) +
      decVal ((n.frac.getD []).drop j2) := by
    unfold NumText.mantissa
    rw [decVal_append]
    conv_lhs => rw [← List.take_append_drop j2 (n.frac.getD [])]
    rw [decVal_append, List.length_append, List.length_take, List.length_drop, Nat.min_eq_left h3]
    rw [pow_add]
    ring
  have hR : decVal ((n.frac.getD []).drop j2) < 10 ^ ((n.frac.getD []).length - j2) := by
    have := decVal_lt _ (show AllDigits ((n.frac.getD []).drop j2) from fun c hc => hfd c (List.mem_of_mem_drop hc))
    rwa [List.length_drop] at this
  have hSlt : decVal n.int * 10 ^ j2 + decVal ((n.frac.getD []).take j2) < 10 ^ (n.int.length + j2) := by
    have := decVal_lt (n.int ++ (n.frac.getD []).take j2) (fun c hc => by
      rcases List.mem_append.1 hc with hc | hc
      · exact hn.1 c hc
      · exact hfd c (List.mem_of_mem_take hc))
    rwa [decVal_append, List.length_append, List.length_take, Nat.min_eq_left h3] at this
  have hSge : Leads (n.int ++ n.frac.getD []) → 10 ^ (n.int.length + j2 - 1) ≤ decVal n.int * 10 ^ j2 + decVal ((n.frac.getD []).take j2) ∨
      n.int.length + j2 = 0 := by
    intro hlead
    rcases Nat.eq_zero_or_pos (n.int.length + j2) with hc | hc
    · exact .inr hc
    · left
      have : Leads (n.int ++ (n.frac.getD []).take j2) := by
        obtain ⟨c, t, g1, g2⟩ := hlead
        have : n.int ++ (n.frac.getD []).take j2 = (c :: t).take (n.int.length + j2) := by
          rw [← g1, List.take_append, List.take_of_length_le (l := n.int) (Nat.le_add_right _ _), Nat.add_sub_cancel_left]
        rw [this, show n.int.length + j2 = (n.int.length + j2 - 1) + 1 by omega, List.take_succ_cons]
        exact ⟨_, _, rfl, g2⟩
      have := leads_ge (fun c hc => by
        rcases List.mem_append.1 hc with hc | hc
        · exact hn.1 c hc
        · exact hfd c (List.mem_of_mem_take hc)) this
      rwa [decVal_append, List.length_append, List.length_take, Nat.min_eq_left h3] at this
  have hd0 : 0 ≤ dropped n := by unfold dropped; split <;> positivity
  have hv0 : 0 ≤ n.absValue := by unfold NumText.absValue; positivity
  have hvd : 0 ≤ n.absValue / 2 ^ 109 := by positivity
  have hlen : (n.int ++ n.frac.getD []).length = n.int.length + (n.frac.getD []).length := List.length_append
  have hdouble : ∀ v, convertToDouble { negative := n.neg, count := n.int.length + j2, significand := decVal n.int * 10 ^ j2 + decVal ((n.frac.getD []).take j2), exp := e - j2, rest := [] } = some v →
      doubleTo n.text = some (.noError, v) := by
    intro v hv
    unfold doubleTo
    rw [h8]
    simp only
    rw [if_neg (by simp), if_neg (by simp), hv]
    simp
  rcases expIs_cases h1 with he | ⟨he1, he2⟩ | ⟨he1, he2⟩
  · -- the exponent is read as it is
    obtain ⟨b, c1, c2, c5, c3⟩ := convert_nearest (p := { negative := n.neg, count := n.int.length + j2, significand := decVal n.int * 10 ^ j2 + decVal ((n.frac.getD []).take j2), exp := e - j2, rest := [] }) h7 h6 hSlt (by
      simp only
      rcases hl with h | h
      · rcases hSge h with h | h
        · exact .inl h
        · exfalso
          obtain ⟨c, t, g1, g2⟩ := ‹Leads _›
          have := congrArg List.length g1
          simp at this
          omega
      · right
        refine ⟨by push_cast; omega, fun hn => h.2 ?_⟩
        unfold doubleTo
        rw [h8]
        simp only
        rw [if_neg (by simp), if_neg (by simp), hn])
    generalize hV' : Parsed.value _ = V' at c3 c5
    unfold Parsed.value at hV'
    simp only at hV'
    have hten : (10 : ℚ) ^ ((n.frac.getD []).length - j2) * 10 ^ n.scale = 10 ^ (e - j2) := by
      rw [scale_eq, ← he, ← zpow_natCast, ← zpow_add₀ (by norm_num), Nat.cast_sub h3]
      congr 1; ring
    have hVV : n.absValue = V' + decVal ((n.frac.getD []).drop j2) * 10 ^ n.scale := by
      unfold NumText.absValue
      rw [hmant, ← hV', ← hten]
      push_cast
      ring
    have hrest0 : (0 : ℚ) ≤ decVal ((n.frac.getD []).drop j2) * 10 ^ n.scale := by positivity
    have hrest : (decVal ((n.frac.getD []).drop j2) : ℚ) * 10 ^ n.scale ≤ dropped n := by
      unfold dropped
      rcases h5 with h5 | h5
      · have : decVal ((n.frac.getD []).drop j2) = 0 := by rw [h5, List.drop_length]; rfl
        rw [this]
        simp only [Nat.cast_zero, zero_mul]
        split <;> positivity
      · by_cases hj : j2 = (n.frac.getD []).length
        · have : decVal ((n.frac.getD []).drop j2) = 0 := by rw [hj, List.drop_length]; rfl
          rw [this]
          simp only [Nat.cast_zero, zero_mul]
          split <;> positivity
        · rw [if_neg (by omega)]
          have hRq : (decVal ((n.frac.getD []).drop j2) : ℚ) ≤ 10 ^ ((n.frac.getD []).length - j2) := by exact_mod_cast hR.le
          refine le_trans (mul_le_mul_of_nonneg_right hRq (by positivity)) ?_
          rw [hten]
          refine zpow_le_zpow_right₀ (by norm_num) ?_
          rw [scale_eq, ← he, hlen]
          push_cast
          omega
    have hV0 : V' ≤ n.absValue := by linarith
    have hVd : V' / 2 ^ 109 ≤ n.absValue / 2 ^ 109 := div_le_div_of_nonneg_right hV0 (by positivity)
    have hdd : n.absValue - V' ≤ dropped n := by linarith
    refine ⟨b, hdouble _ c1, c2, fun hV => c5 ?_, ?_⟩
    · by_cases hlead : Leads (n.int ++ n.frac.getD [])
      · have g1 := dropped_le hn hlead
        have g2 : (2 : ℚ) ^ 1024 - 2 ^ 968 ≤ 2 ^ 1024 * (1 - 1 / 10 ^ 18) := by
          rw [show (1024 : Nat) = 56 + 968 from rfl, pow_add]
          have : (0 : ℚ) < 2 ^ 968 := by positivity
          generalize (2 : ℚ) ^ 968 = t at *
          norm_num
          linarith
        refine le_trans g2 ?_
        generalize (2 : ℚ) ^ 1024 = I at *
        have g3 : I * (1 - 1 / 10 ^ 18) ≤ n.absValue * (1 - 1 / 10 ^ 18) := mul_le_mul_of_nonneg_right hV (by norm_num)
        have g4 : n.absValue * (1 - 1 / 10 ^ 18) = n.absValue - n.absValue / 10 ^ 18 := by ring
        linarith
      · exfalso
        rcases hl with h | ⟨h9, _⟩
        · exact hlead h
        · by_cases hnil : n.int ++ n.frac.getD [] = []
          · have h0 : n.absValue = 0 := by
              unfold NumText.absValue NumText.mantissa
              rw [hnil]
              simp [decVal]
            rw [h0] at hV
            exact absurd hV (not_le.2 (by positivity))
          · have g1 := notLeads_le hn hlead hnil
            have g2 : (10 : ℚ) ^ (n.scale + (n.int ++ n.frac.getD []).length - 1) ≤ 10 ^ (308 : Int) := by
              refine zpow_le_zpow_right₀ (by norm_num) ?_
              rw [scale_eq, hlen, ← he]
              push_cast
              omega
            have g3 : (10 : ℚ) ^ (308 : Int) < 2 ^ 1024 := by
              rw [show (308 : Int) = ((308 : Nat) : Int) from rfl, zpow_natCast]
              have : 10 ^ 308 < 2 ^ 1024 := by decide +kernel
              exact_mod_cast this
            exact absurd (le_trans hV (le_trans g1 g2)) (not_le.2 g3)
    intro x hx
    have c4 := c3 x hx
    have t1 : |absValue 52 11 b - n.absValue| ≤ |absValue 52 11 b - V'| + (n.absValue - V') := by
      have := abs_add_le (absValue 52 11 b - V') (V' - n.absValue)
      rw [abs_of_nonpos (show V' - n.absValue ≤ 0 by linarith)] at this
      have e' : absValue 52 11 b - V' + (V' - n.absValue) = absValue 52 11 b - n.absValue := by ring
      rw [e'] at this
      linarith
    have t2 : |absValue 52 11 x - V'| ≤ |absValue 52 11 x - n.absValue| + (n.absValue - V') := by
      have := abs_add_le (absValue 52 11 x - n.absValue) (n.absValue - V')
      rw [abs_of_nonneg (show 0 ≤ n.absValue - V' by linarith)] at this
      have e' : absValue 52 11 x - n.absValue + (n.absValue - V') = absValue 52 11 x - V' := by ring
      rw [e'] at this
      exact this
    linarith
  · -- too large
    refine ⟨2047 * 2 ^ 52, hdouble _ ?_, le_refl _, fun _ => rfl, ?_⟩
    · unfold convertToDouble
      simp only
      rw [if_pos (by push_cast; omega)]
      congr 1
      cases n.neg <;> decide
    · intro x hx
      have hlead : Leads (n.int ++ n.frac.getD []) := by
        rcases hl with h | h
        · exact h
        · omega
      have hge := leads_ge hdig hlead
      have hpos : 1 ≤ (n.int ++ n.frac.getD []).length := by
        obtain ⟨c, t, g, _⟩ := hlead
        rw [g]; simp
      have hV : (2 : ℚ) ^ 1024 ≤ n.absValue := by
        have g1 : (2 : ℚ) ^ 1024 ≤ 10 ^ 309 := by
          have : 2 ^ 1024 ≤ 10 ^ 309 := by decide +kernel
          have := (Nat.cast_le (α := ℚ)).2 this
          rwa [Nat.cast_pow, Nat.cast_pow] at this
        refine le_trans g1 ?_
        have g2 : ((10 ^ ((n.int ++ n.frac.getD []).length - 1) : Nat) : ℚ) ≤ n.mantissa := by exact_mod_cast hge
        have g3 : (10 : ℚ) ^ (309 : Int) ≤ ((10 ^ ((n.int ++ n.frac.getD []).length - 1) : Nat) : ℚ) * 10 ^ n.scale := by
          push_cast
          rw [← zpow_natCast, ← zpow_add₀ (by norm_num)]
          refine zpow_le_zpow_right₀ (by norm_num) ?_
          rw [Nat.cast_sub hpos, scale_eq, hlen]
          push_cast
          omega
        rw [show (10 : ℚ) ^ 309 = 10 ^ (309 : Int) from (zpow_natCast (10 : ℚ) 309).symm]
        exact le_trans g3 (mul_le_mul_of_nonneg_right g2 (by positivity))
      refine le_trans (nearest_inf hV hx) ?_
      clear hV
      linarith
  · -- too small
    have hV : n.absValue ≤ (10 : ℚ) ^ (-324 : Int) := by
      have g2 : (n.mantissa : ℚ) ≤ ((10 ^ (n.int ++ n.frac.getD []).length : Nat) : ℚ) := by exact_mod_cast (decVal_lt _ hdig).le
      refine le_trans (mul_le_mul_of_nonneg_right g2 (by positivity)) ?_
      push_cast
      rw [← zpow_natCast, ← zpow_add₀ (by norm_num)]
      refine zpow_le_zpow_right₀ (by norm_num) ?_
      rw [scale_eq, hlen]
      push_cast
      omega
    refine ⟨0, hdouble _ ?_, by norm_num, fun hb => ?_, ?_⟩
    · unfold convertToDouble
      simp only
      rw [if_neg (by push_cast; omega), if_pos (by push_cast; omega)]
      rfl
    · have g1 : (10 : ℚ) ^ (-324 : Int) ≤ 1 := zpow_le_one_of_nonpos₀ (by norm_num) (by norm_num)
      have g2 : (1 : ℚ) < 2 ^ 1024 := one_lt_pow₀ (by norm_num) (by norm_num)
      exact absurd (le_trans hb (le_trans hV g1)) (not_le.2 g2)
    · intro x hx
      have := nearest_zero hv0 hV x
      linarith

/-! ### Any text -/

/-- What is read after a digit that is not 0. -/
theorem digitsIn_safe (s : Bytes) (p : Parsed) (dp : Option Nat) (inc : Bool) (hk : Kept p inc) (h1 : 1 ≤ p.count)
    (hge : 10 ^ (p.count - 1) ≤ p.significand) :
    (digitsIn (2 ^ 64) false s p dp inc).1 ≠ .ub ∧ Kept (digitsIn (2 ^ 64) false s p dp inc).2.1 false ∧
      10 ^ ((digitsIn (2 ^ 64) false s p dp inc).2.1.count - 1) ≤ (digitsIn (2 ^ 64) false s p dp inc).2.1.significand := by
  induction s generalizing p dp inc with
  | nil => exact ⟨by simp [digitsIn], ⟨hk.count, fun _ => rfl, hk.fits, hk.below⟩, hge⟩
  | cons c s ih =>
    have hcount := hk.count
    have hpos : 0 < 10 ^ (p.count - 1) := by positivity
    rw [digitsIn]
    split
    · exact ⟨by simp, ⟨hk.count, fun _ => rfl, hk.fits, hk.below⟩, hge⟩
    · rename_i hd
      split
      · split
        · exact ⟨by simp, ⟨hk.count, fun _ => rfl, hk.fits, hk.below⟩, hge⟩
        · exact ih _ _ _ hk h1 hge
      · rename_i hdot
        have hc : isDigit c = true := by
          rw [← isDig_eq]
          cases h : isDig c with
          | true => rfl
          | false => exact absurd (by simp [h, hdot]) hd
        have hlt := digit_lt hc
        have step : ∀ inc', p.count < 20 → p.significand * 10 + (c.toNat - 48) < 2 ^ 64 → (p.count = 19 → inc' = false) →
            (digitsIn (2 ^ 64) false s { p with significand := (p.significand * 10 + (c.toNat - 48)) % 2 ^ 64, count := (p.count + 1) % 256 } dp inc').1 ≠ .ub ∧
            Kept (digitsIn (2 ^ 64) false s { p with significand := (p.significand * 10 + (c.toNat - 48)) % 2 ^ 64, count := (p.count + 1) % 256 } dp inc').2.1 false ∧
            10 ^ ((digitsIn (2 ^ 64) false s { p with significand := (p.significand * 10 + (c.toNat - 48)) % 2 ^ 64, count := (p.count + 1) % 256 } dp inc').2.1.count - 1) ≤
              (digitsIn (2 ^ 64) false s { p with significand := (p.significand * 10 + (c.toNat - 48)) % 2 ^ 64, count := (p.count + 1) % 256 } dp inc').2.1.significand := by
          intro inc' h20 h64 hinc
          rw [Nat.mod_eq_of_lt h64, Nat.mod_eq_of_lt (show p.count + 1 < 256 by omega)]
          refine ih _ _ _ ⟨by simp only; omega, by simp only; intro h; exact hinc (by omega), h64, ?_⟩ (by simp) ?_
          · have := hk.below
            simp only
            rw [pow_succ]; omega
          · simp only [Nat.add_sub_cancel]
            rw [show p.count = (p.count - 1) + 1 by omega, pow_succ]
            omega
        simp only [Bool.false_or, decide_eq_true_eq, Bool.and_eq_true]
        split
        · refine step inc (by omega) ?_ (by omega)
          have hb := hk.below
          have : 10 ^ (p.count + 1) ≤ 10 ^ 19 := Nat.pow_le_pow_right (by omega) (by omega)
          rw [pow_succ] at this
          norm_num at this ⊢
          omega
        · have hs0 : p.significand ≠ 0 := by omega
          split
          · rename_i hinc
            split
            · rename_i hfit
              refine step false hinc.2 ?_ (by simp)
              have := (Nat.le_div_iff_mul_le (Nat.pos_of_ne_zero hs0)).1 hfit
              omega
            · exact ih _ _ _ ⟨hk.count, fun _ => rfl, hk.fits, hk.below⟩ h1 hge
          · exact ih _ _ _ hk h1 hge

theorem parseNumber_safe {sp sign rest : Bytes} {d : Byte} (hsp : ∀ c ∈ sp, isSpace c = true) (hsign : sign = [] ∨ sign = b!"-")
    (hd : isDigit d = true) (hd0 : d ≠ 0x30) :
    (parseNumber (2 ^ 64) false (sp ++ sign ++ d :: rest)).1 ≠ .ub ∧
      ((parseNumber (2 ^ 64) false (sp ++ sign ++ d :: rest)).1 = .ok →
        Kept (parseNumber (2 ^ 64) false (sp ++ sign ++ d :: rest)).2 false ∧
        10 ^ ((parseNumber (2 ^ 64) false (sp ++ sign ++ d :: rest)).2.count - 1) ≤
          (parseNumber (2 ^ 64) false (sp ++ sign ++ d :: rest)).2.significand) := by
  have hd1 : isSpace d = false ∧ d ≠ MINUS ∧ d ≠ DOT ∧ 1 ≤ d.toNat - 48 ∧ d.toNat - 48 < 10 :=
    forall_byte (p := fun d => isDigit d = true → d ≠ 0x30 → isSpace d = false ∧ d ≠ MINUS ∧ d ≠ DOT ∧ 1 ≤ d.toNat - 48 ∧ d.toNat - 48 < 10)
      (by decide +kernel) d hd hd0
  obtain ⟨g1, g2, g3, g4, g5⟩ := hd1
  have hdrop : (sp ++ sign ++ d :: rest).dropWhile isSpace = sign ++ d :: rest := by
    rw [List.append_assoc, List.dropWhile_append_of_pos hsp]
    rcases hsign with rfl | rfl
    · simp [List.dropWhile_cons, g1]
    · simp [List.dropWhile_cons, show isSpace 45 = false by decide]
  have hdig : ∀ neg : Bool, (digitsIn (2 ^ 64) false (d :: rest) { negative := neg } none true).1 ≠ .ub ∧
      Kept (digitsIn (2 ^ 64) false (d :: rest) { negative := neg } none true).2.1 false ∧
      10 ^ ((digitsIn (2 ^ 64) false (d :: rest) { negative := neg } none true).2.1.count - 1) ≤
        (digitsIn (2 ^ 64) false (d :: rest) { negative := neg } none true).2.1.significand := by
    intro neg
    rw [digitsIn]
    simp only [isDig_eq, hd, Bool.not_true, Bool.false_and, Bool.false_eq_true, if_false, if_neg g3, Bool.false_or, decide_eq_true_eq]
    rw [if_pos (by norm_num)]
    have hm : (0 * 10 + (d.toNat - 48)) % 2 ^ 64 = d.toNat - 48 := by
      rw [Nat.zero_mul, Nat.zero_add, Nat.mod_eq_of_lt]
      norm_num; omega
    rw [hm]
    refine digitsIn_safe _ _ _ _ ⟨by simp, by simp, ?_, ?_⟩ (by simp) ?_
    · norm_num; omega
    · simpa using g5
    · simpa using g4
  unfold parseNumber
  rw [hdrop]
  have key : ∀ neg : Bool, ∀ r : NumErr × Parsed, r = (
      let (err, p, decPos) := digitsIn (2 ^ 64) false (d :: rest) { negative := neg } none true
      if err ≠ .ok then (err, p)
      else
        match p.rest with
        | [] => (.ok, { p with exp := fracExp decPos p.count })
        | e :: s =>
          if e ≠ 101 ∧ e ≠ 69 then (.ok, { p with exp := fracExp decPos p.count })
          else
            match s with
            | [] => (.illegalExponent, { p with rest := [] })
            | sg :: s' =>
              let s := if sg = MINUS ∨ sg = PLUS then s' else s
              match s with
              | [] => (.illegalExponent, { p with rest := [] })
              | _ :: _ =>
                let (e, assigned, rest) := exponentIn s 0 false
                if !assigned then (.illegalExponent, { p with rest := rest })
                else
                  let e : Int := if sg = MINUS then -(e : Int) else e
                  (.ok, { p with exp := fracExp decPos p.count + e, rest := rest })) →
      r.1 ≠ .ub ∧ (r.1 = .ok → Kept r.2 false ∧ 10 ^ (r.2.count - 1) ≤ r.2.significand) := by
    intro neg r hr
    obtain ⟨a1, a2, a3⟩ := hdig neg
    generalize digitsIn (2 ^ 64) false (d :: rest) { negative := neg } none true = q at *
    obtain ⟨err, p, decPos⟩ := q
    simp only at a1 a2 a3 hr
    have kp : ∀ (x : Int) (y : Bytes), Kept { p with exp := x, rest := y } false ∧
        10 ^ (({ p with exp := x, rest := y } : Parsed).count - 1) ≤ ({ p with exp := x, rest := y } : Parsed).significand :=
      fun x y => ⟨⟨a2.count, a2.last, a2.fits, a2.below⟩, a3⟩
    split at hr
    · subst hr
      exact ⟨a1, fun h => absurd h (by assumption)⟩
    · split at hr
      · subst hr; exact ⟨by simp, fun _ => kp _ _⟩
      · split at hr
        · subst hr; exact ⟨by simp, fun _ => kp _ _⟩
        · split at hr
          · subst hr; exact ⟨by simp, by simp⟩
          · split at hr
            · subst hr; exact ⟨by simp, by simp⟩
            · generalize exponentIn _ 0 false = z at hr
              obtain ⟨e0, asg, rst⟩ := z
              simp only at hr
              split at hr
              · subst hr; exact ⟨by simp, by simp⟩
              · subst hr; exact ⟨by simp, fun _ => kp _ _⟩
  rcases hsign with rfl | rfl
  · simp only [List.nil_append, decide_eq_true_eq, if_neg g2]
    exact key (decide (d = MINUS)) _ rfl
  · simp only [List.cons_append, List.nil_append, decide_eq_true_eq, show (45 : Byte) = MINUS from rfl, if_true]
    exact key (decide (MINUS = MINUS)) _ rfl

theorem doubleTo_safe {sp sign rest : Bytes} {d : Byte} (hsp : ∀ c ∈ sp, isSpace c = true) (hsign : sign = [] ∨ sign = b!"-")
    (hd : isDigit d = true) (hd0 : d ≠ 0x30) : doubleTo (sp ++ sign ++ d :: rest) ≠ none := by
  obtain ⟨h1, h2⟩ := parseNumber_safe (rest := rest) hsp hsign hd hd0
  unfold doubleTo
  simp only
  rw [if_neg h1]
  split
  · simp
  · rename_i hok
    obtain ⟨a, b⟩ := h2 (Decidable.not_not.1 hok)
    obtain ⟨v, hv, _⟩ := convert_nearest a.fits a.count a.below (.inl b)
    rw [hv]
    simp

end JsonStruct
