import Verif.Lemmas.FloatScale
import Mathlib.Tactic.FieldSimp

/-
`decode`: the decimal number it finds lies between the two neighbours' midpoints.
-/

namespace JsonStruct

/-- What the proofs need of the constants of a type. -/
structure TyConst (T : FloatTy) : Prop where
  mant : T.mant ≤ 52
  five : T.max5 ≤ 23
  five' : 2 ^ (T.mant + 2) < 5 ^ (T.max5 + 1)
  two : 1 ≤ T.max2

theorem f64_const : TyConst f64 := by constructor <;> decide
theorem f32_const : TyConst f32 := by constructor <;> decide

/-- The scale. -/
def scaleOf (exp : Int) : ℚ := (scaleNum exp : ℚ) / scaleDen exp

theorem scaleDen_pos (exp : Int) : 0 < scaleDen exp := by unfold scaleDen; split <;> positivity

section
variable {T : FloatTy} {exp : Int} {b : Nat × Nat} {sh : Nat}

/-- Truncated products. -/
theorem ScaleOk.floor (h : ScaleOk T exp b sh) {u : Nat} (hu : u < 2 ^ (T.mant + 4)) :
    ((u * (b.1 + 2 ^ 64 * b.2) / 2 ^ sh : Nat) : ℚ) ≤ u * scaleOf exp ∧
    u * scaleOf exp < (u * (b.1 + 2 ^ 64 * b.2) / 2 ^ sh : Nat) + 1 + 1 / 1000 ∧
    (((u * (b.1 + 2 ^ 64 * b.2) + 2 ^ (sh - 1)) / 2 ^ sh : Nat) : ℚ) ≤ u * scaleOf exp + 1 / 2 ∧
    u * scaleOf exp - 1 / 2 - 1 / 1000 ≤ ((u * (b.1 + 2 ^ 64 * b.2) + 2 ^ (sh - 1)) / 2 ^ sh : Nat) := by
  have hD : (0 : ℚ) < scaleDen exp := by exact_mod_cast scaleDen_pos exp
  have hp : (0 : ℚ) < 2 ^ sh := by positivity
  have hsh : sh ≠ 0 := fun e => h.ne (by simp [e])
  have hp2 : 2 * 2 ^ (sh - 1) = 2 ^ sh := by rw [← Nat.pow_succ']; congr 1; omega
  have hp2' : (2 : ℚ) * 2 ^ (sh - 1) = 2 ^ sh := by exact_mod_cast hp2
  have hb := h.below
  have ha := h.above
  generalize b.1 + 2 ^ 64 * b.2 = t at *
  have hb' : (t : ℚ) * scaleDen exp ≤ scaleNum exp * 2 ^ sh := by exact_mod_cast hb
  have ha' : (scaleNum exp : ℚ) * 2 ^ sh < (t + 1) * scaleDen exp := by exact_mod_cast ha
  have hs1 : (t : ℚ) ≤ scaleOf exp * 2 ^ sh := by
    unfold scaleOf; rw [div_mul_eq_mul_div, le_div_iff₀ hD]; exact hb'
  have hs2 : scaleOf exp * 2 ^ sh < t + 1 := by
    unfold scaleOf; rw [div_mul_eq_mul_div, div_lt_iff₀ hD]; exact ha'
  have hu' : (u : ℚ) * 1000 ≤ 2 ^ sh := by
    have : u * 1000 ≤ 2 ^ sh := Nat.le_trans (Nat.mul_le_mul_right 1000 hu.le) h.fine
    exact_mod_cast this
  have hu0 : (0 : ℚ) ≤ u := by positivity
  have hP1 : (u : ℚ) * t ≤ u * scaleOf exp * 2 ^ sh := by
    rw [mul_assoc]; exact mul_le_mul_of_nonneg_left hs1 hu0
  have hP2 : (u : ℚ) * scaleOf exp * 2 ^ sh ≤ u * t + 2 ^ sh / 1000 := by
    have := mul_le_mul_of_nonneg_left hs2.le hu0
    rw [mul_assoc]; linarith
  have d1 := Nat.div_mul_le_self (u * t) (2 ^ sh)
  have d2 := Nat.lt_div_mul_add (a := u * t) (b := 2 ^ sh) (by positivity)
  have d3 := Nat.div_mul_le_self (u * t + 2 ^ (sh - 1)) (2 ^ sh)
  have d4 := Nat.lt_div_mul_add (a := u * t + 2 ^ (sh - 1)) (b := 2 ^ sh) (by positivity)
  generalize u * t / 2 ^ sh = v at *
  generalize (u * t + 2 ^ (sh - 1)) / 2 ^ sh = a at *
  have e1 : (v : ℚ) * 2 ^ sh ≤ u * t := by exact_mod_cast d1
  have e2 : (u : ℚ) * t < v * 2 ^ sh + 2 ^ sh := by exact_mod_cast d2
  have e3 : (a : ℚ) * 2 ^ sh ≤ u * t + 2 ^ (sh - 1) := by exact_mod_cast d3
  have e4 : (u : ℚ) * t + 2 ^ (sh - 1) < a * 2 ^ sh + 2 ^ sh := by exact_mod_cast d4
  generalize u * scaleOf exp = x at *
  generalize (u : ℚ) * t = y at *
  refine ⟨?_, ?_, ?_, ?_⟩
  · exact le_of_mul_le_mul_right (by linarith) hp
  · exact lt_of_mul_lt_mul_right (by linarith) hp.le
  · exact le_of_mul_le_mul_right (by linarith) hp
  · exact le_of_mul_le_mul_right (by linarith) hp

theorem ScaleOk.mulDown (h : ScaleOk T exp b sh) (hT : TyConst T) {u : Nat} (hu : u < 2 ^ (T.mant + 4)) :
    mulShift u b (shiftOf T exp) false = some (u * (b.1 + 2 ^ 64 * b.2) / 2 ^ sh) ∧
    mulShift u b (shiftOf T exp) true = some ((u * (b.1 + 2 ^ 64 * b.2) + 2 ^ (sh - 1)) / 2 ^ sh) ∧
    u * (b.1 + 2 ^ 64 * b.2) / 2 ^ sh < 2 ^ 63 := by
  have hu64 : u < 2 ^ 56 :=
    lt_of_lt_of_le hu (Nat.pow_le_pow_right (by decide) (by have := hT.mant; omega))
  have hfl := (h.floor hu).1
  have hs : scaleOf exp ≤ 100 := by
    have hD : (0 : ℚ) < scaleDen exp := by exact_mod_cast scaleDen_pos exp
    unfold scaleOf; rw [div_le_iff₀ hD]; exact_mod_cast h.hundred
  have hlt : u * (b.1 + 2 ^ 64 * b.2) / 2 ^ sh < 2 ^ 63 := by
    have h1 : (u : ℚ) * scaleOf exp ≤ u * 100 := mul_le_mul_of_nonneg_left hs (by positivity)
    have h2 : (u : ℚ) < 2 ^ 56 := by exact_mod_cast hu64
    have : ((u * (b.1 + 2 ^ 64 * b.2) / 2 ^ sh : Nat) : ℚ) < 2 ^ 63 := by
      refine lt_of_le_of_lt hfl ?_
      have e : (2 : ℚ) ^ 63 = 128 * 2 ^ 56 := by norm_num
      rw [e]; linarith
    exact_mod_cast this
  have e : b = (b.1, b.2) := rfl
  rw [h.shift]
  refine ⟨?_, ?_, hlt⟩
  · have := mulShift_eq (a := u) false (by omega) h.w0 h.w1 h.lt h.ne (by omega)
    rw [e]; simpa using this
  · have := mulShift_eq (a := u) true (by omega) h.w0 h.w1 h.lt h.ne (by omega)
    rw [e]; simpa using this

theorem scaleOf_pos (exp : Int) : 0 < scaleOf exp := by
  have h1 : (0 : ℚ) < scaleDen exp := by exact_mod_cast scaleDen_pos exp
  have h2 : (0 : ℚ) < scaleNum exp := by
    have : 0 < scaleNum exp := by unfold scaleNum; split <;> positivity
    exact_mod_cast this
  exact div_pos h2 h1

theorem powInt_five {q : Nat} (h : q ≤ 23) : powInt 5 q = 5 ^ q := by
  unfold powInt
  apply Nat.mod_eq_of_lt
  calc 5 ^ q ≤ 5 ^ 23 := Nat.pow_le_pow_right (by decide) h
    _ < 2 ^ 64 := by decide

/-- `zero[0]` is only set if the lower end is an integer. -/
theorem zero0_int (h : ScaleOk T exp b sh) (hT : TyConst T) {u m w : Nat} (hz : (scaling T exp u m w).2.2.1 = true) :
    ∃ k : Nat, u * scaleOf exp = k := by
  have hD : (scaleDen exp : ℚ) ≠ 0 := by have := scaleDen_pos exp; positivity
  suffices hs : ∃ k, u * scaleNum exp = k * scaleDen exp by
    obtain ⟨k, hk⟩ := hs
    refine ⟨k, ?_⟩
    unfold scaleOf
    rw [mul_div_assoc', div_eq_iff hD]
    exact_mod_cast hk
  unfold scaling at hz
  unfold scaleNum scaleDen
  by_cases he : 0 ≤ exp
  · simp only [if_pos he, Bool.and_eq_true, decide_eq_true_eq, beq_iff_eq] at hz ⊢
    have hq : truncMul exp.toNat log10of2 - 1 = qOf exp := by unfold qOf; rw [if_pos he]
    rw [hq] at hz
    have hqle : qOf exp ≤ exp.toNat := by rcases h.qlt with h | h <;> omega
    rw [powInt_five (by have := hT.five; omega)] at hz
    obtain ⟨v, hv⟩ := Nat.dvd_of_mod_eq_zero hz.2
    refine ⟨v * 2 ^ (exp.toNat - qOf exp), ?_⟩
    have e1 : (2 : Nat) ^ exp.toNat = 2 ^ qOf exp * 2 ^ (exp.toNat - qOf exp) := by rw [← Nat.pow_add]; congr 1; omega
    have e2 : (10 : Nat) ^ qOf exp = 5 ^ qOf exp * 2 ^ qOf exp := by rw [← Nat.mul_pow]
    rw [hv, e1, e2]; ring
  · simp only [if_neg he, Bool.and_eq_true, decide_eq_true_eq, beq_iff_eq] at hz ⊢
    have hq : truncMul (-exp).toNat log10of5 - 1 = qOf exp := by unfold qOf; rw [if_neg he]
    rw [hq] at hz
    obtain ⟨v, hv⟩ := Nat.dvd_of_mod_eq_zero hz.2
    exact ⟨v * 5 ^ ((-exp).toNat - qOf exp), by rw [hv]; ring⟩

/-- If the upper end is an integer, then `zero[2]` is set, but for two exponents. -/
theorem upper_int (hT : TyConst T) {u m R : Nat} (hm : m < 2 ^ (T.mant + 1))
    (hR : (R : ℚ) = (m * 4 + 2 : Nat) * scaleOf exp) :
    ((scaling T exp u (m * 4) (m * 4 + 2)).2.2.2.2 = true ∧ (exp < 0 → qOf exp = 1)) ∨ exp < 0 ∧ qOf exp = 0 := by
  have hD : (scaleDen exp : ℚ) ≠ 0 := by have := scaleDen_pos exp; positivity
  have hR' : R * scaleDen exp = (m * 4 + 2) * scaleNum exp := by
    unfold scaleOf at hR
    rw [mul_div_assoc', eq_div_iff hD] at hR
    exact_mod_cast hR
  unfold scaling
  unfold scaleNum scaleDen at hR'
  by_cases he : 0 ≤ exp
  · left
    refine ⟨?_, fun h => absurd he (by omega)⟩
    simp only [if_pos he, Bool.and_eq_true, decide_eq_true_eq, beq_iff_eq] at hR' ⊢
    have hq : truncMul exp.toNat log10of2 - 1 = qOf exp := by unfold qOf; rw [if_pos he]
    rw [hq]
    have hdvd : 5 ^ qOf exp ∣ m * 4 + 2 := by
      have h1 : 5 ^ qOf exp ∣ (m * 4 + 2) * 2 ^ exp.toNat := by
        rw [← hR']
        exact Dvd.dvd.mul_left (pow_dvd_pow_of_dvd (by decide) _) _
      exact (Nat.Coprime.pow _ _ (by decide)).dvd_of_dvd_mul_right h1
    have hle : qOf exp ≤ T.max5 := by
      by_contra hgt
      obtain ⟨k, hk⟩ := hdvd
      have h5 : 5 ^ (T.max5 + 1) ≤ 5 ^ qOf exp := Nat.pow_le_pow_right (by decide) (by omega)
      have hodd : 5 ^ qOf exp % 2 = 1 := by
        have := Nat.pow_mod 5 (qOf exp) 2
        simpa using this
      have hk2 : 2 ≤ k := by
        rcases k with _ | _ | k
        · omega
        · omega
        · omega
      have h6 : 5 ^ qOf exp * 2 ≤ m * 4 + 2 := by rw [hk]; exact Nat.mul_le_mul_left _ hk2
      have := hT.five'
      have e : (2 : Nat) ^ (T.mant + 2) = 2 * 2 ^ (T.mant + 1) := by rw [← Nat.pow_succ']
      omega
    rw [powInt_five (by have := hT.five; omega)]
    exact ⟨⟨by omega, hle⟩, Nat.mod_eq_zero_of_dvd hdvd⟩
  · rcases Nat.eq_zero_or_pos (qOf exp) with hq0 | hq0
    · right; exact ⟨by omega, hq0⟩
    · left
      simp only [if_neg he, Bool.and_eq_true, decide_eq_true_eq, beq_iff_eq] at hR' ⊢
      have hq : truncMul (-exp).toNat log10of5 - 1 = qOf exp := by unfold qOf; rw [if_neg he]
      rw [hq]
      have hdvd : 2 ^ qOf exp ∣ m * 4 + 2 := by
        have h1 : 2 ^ qOf exp ∣ (m * 4 + 2) * 5 ^ ((-exp).toNat - qOf exp) := by
          rw [← hR']; exact Nat.dvd_mul_left _ _
        exact (Nat.Coprime.pow _ _ (by decide)).dvd_of_dvd_mul_right h1
      have hq1 : qOf exp = 1 := by
        by_contra hne
        have : 2 ^ 2 ∣ m * 4 + 2 := dvd_trans (pow_dvd_pow 2 (by omega)) hdvd
        omega
      rw [hq1]
      have := hT.two
      exact ⟨⟨⟨⟨by omega, by omega⟩, by omega⟩, by omega⟩, fun _ => rfl⟩

theorem ScaleOk.exactly (h : ScaleOk T exp b sh) (hq : qOf exp = 0) (u : Nat) :
    u * (b.1 + 2 ^ 64 * b.2) / 2 ^ sh = u * scaleNum exp ∧
    (u * (b.1 + 2 ^ 64 * b.2) + 2 ^ (sh - 1)) / 2 ^ sh = u * scaleNum exp ∧ scaleOf exp = scaleNum exp := by
  have hd : scaleDen exp = 1 := by unfold scaleDen; rw [hq]; split <;> rfl
  have hx := h.exact hq
  rw [hd, Nat.mul_one] at hx
  have hsh : sh ≠ 0 := fun e => h.ne (by simp [e])
  have hp2 : 2 * 2 ^ (sh - 1) = 2 ^ sh := by rw [← Nat.pow_succ']; congr 1; omega
  have hp : 0 < 2 ^ sh := by positivity
  refine ⟨?_, ?_, ?_⟩
  · rw [hx, ← Nat.mul_assoc, Nat.mul_div_cancel _ hp]
  · rw [hx, ← Nat.mul_assoc, Nat.add_comm, Nat.add_mul_div_right _ _ hp, Nat.div_eq_of_lt (by omega), Nat.zero_add]
  · unfold scaleOf; rw [hd]; simp

theorem scaleNum_one : scaleNum (-1) = 5 := by decide +kernel
theorem scaleNum_two : scaleNum (-2) = 25 := by decide +kernel

/-- The number found by `decode`, in units of the scale, for a mantissa `m` whose two neighbours are equally far. -/
theorem shortest_between (hT : TyConst T) (h : ScaleOk T exp b sh) {m : Nat} (hm0 : 0 < m) (hm : m < 2 ^ (T.mant + 1)) :
    ∃ i r, computeShortest (((m * 4 - 2) * (b.1 + 2 ^ 64 * b.2) + 2 ^ (sh - 1)) / 2 ^ sh)
        (m * 4 * (b.1 + 2 ^ 64 * b.2) / 2 ^ sh) ((m * 4 + 2) * (b.1 + 2 ^ 64 * b.2) / 2 ^ sh)
        (m % 2 == 0 && (scaling T exp (m * 4 - 2) (m * 4) (m * 4 + 2)).2.2.1)
        (m % 2 == 0 || !(scaling T exp (m * 4 - 2) (m * 4) (m * 4 + 2)).2.2.2.2)
        (scaling T exp (m * 4 - 2) (m * 4) (m * 4 + 2)).2.2.2.1 = some (i, r) ∧
      ((m * 4 - 2 : ℚ) * scaleOf exp + 1 / 100 ≤ (r * 10 ^ i : Nat) ∨
        ((r * 10 ^ i : Nat) : ℚ) = (m * 4 - 2 : ℚ) * scaleOf exp ∧ m % 2 = 0 ∧ 0 ≤ exp) ∧
      ((r * 10 ^ i : Nat) : ℚ) ≤ (m * 4 + 2 : ℚ) * scaleOf exp ∧
      (((r * 10 ^ i : Nat) : ℚ) = (m * 4 + 2 : ℚ) * scaleOf exp → m % 2 = 0 ∧ -4 ≤ exp) ∧
      4 * scaleOf exp - 26 / 10 < 10 ^ (i + 1) ∧ (qOf exp = 0 → 4 * scaleOf exp - 1 < 10 ^ (i + 1)) ∧
      (∀ D k : Nat, 10 ^ k ∣ D → (m * 4 - 188 / 100 : ℚ) * scaleOf exp ≤ D → (D : ℚ) ≤ (m * 4 + 188 / 100 : ℚ) * scaleOf exp → k ≤ i) := by
  have hp2 : (2 : Nat) ^ (T.mant + 4) = 8 * 2 ^ (T.mant + 1) := by
    rw [show T.mant + 4 = 3 + (T.mant + 1) by omega, Nat.pow_add]
  obtain ⟨_, _, fa1, fa2⟩ := h.floor (u := m * 4 - 2) (by omega)
  obtain ⟨fb1, fb2, _, _⟩ := h.floor (u := m * 4) (by omega)
  obtain ⟨fc1, fc2, _, _⟩ := h.floor (u := m * 4 + 2) (by omega)
  have hc63 := (h.mulDown hT (u := m * 4 + 2) (by omega)).2.2
  have hs1 : 1 ≤ scaleOf exp := by
    have hD : (0 : ℚ) < scaleDen exp := by exact_mod_cast scaleDen_pos exp
    unfold scaleOf; rw [le_div_iff₀ hD]; have := h.one; rw [one_mul]; exact_mod_cast this
  have hs100 : scaleOf exp ≤ 100 := by
    have hD : (0 : ℚ) < scaleDen exp := by exact_mod_cast scaleDen_pos exp
    unfold scaleOf; rw [div_le_iff₀ hD]; exact_mod_cast h.hundred
  have hcu : ((m * 4 - 2 : Nat) : ℚ) = (m : ℚ) * 4 - 2 := by
    rw [Nat.cast_sub (by omega)]; push_cast; ring
  have hm1 : (1 : ℚ) ≤ m := by exact_mod_cast hm0
  have hz0 : (m % 2 == 0 && (scaling T exp (m * 4 - 2) (m * 4) (m * 4 + 2)).2.2.1) = true →
      ((((m * 4 - 2) * (b.1 + 2 ^ 64 * b.2) + 2 ^ (sh - 1)) / 2 ^ sh : Nat) : ℚ) = (m * 4 - 2 : Nat) * scaleOf exp := by
    intro hz
    obtain ⟨k, hk⟩ := zero0_int h hT (Bool.and_eq_true _ _ ▸ hz : _ ∧ _).2
    rw [hk] at fa1 fa2 ⊢
    generalize ((m * 4 - 2) * (b.1 + 2 ^ 64 * b.2) + 2 ^ (sh - 1)) / 2 ^ sh = a at *
    have h1 : a < k + 1 := by
      have : (a : ℚ) < (k + 1 : Nat) := by push_cast; linarith
      exact_mod_cast this
    have h2 : k < a + 1 := by
      have : (k : ℚ) < (a + 1 : Nat) := by push_cast; linarith
      exact_mod_cast this
    have : a = k := by omega
    rw [this]
  have hz0m : (m % 2 == 0 && (scaling T exp (m * 4 - 2) (m * 4) (m * 4 + 2)).2.2.1) = true → m % 2 = 0 := by
    intro hz; simp only [Bool.and_eq_true, beq_iff_eq] at hz; exact hz.1
  have hz2f : qOf exp = 0 → exp < 0 → (scaling T exp (m * 4 - 2) (m * 4) (m * 4 + 2)).2.2.2.2 = false := by
    intro hq he
    unfold qOf at hq
    rw [if_neg (by omega)] at hq
    unfold scaling
    rw [if_neg (by omega)]
    simp [hq]
  have hz0q : (scaling T exp (m * 4 - 2) (m * 4) (m * 4 + 2)).2.2.1 = true → exp < 0 → qOf exp = 1 := by
    intro hz he
    have hq : truncMul (-exp).toNat log10of5 - 1 = qOf exp := by unfold qOf; rw [if_neg (by omega)]
    unfold scaling at hz
    rw [if_neg (by omega)] at hz
    simp only [Bool.and_eq_true, decide_eq_true_eq, beq_iff_eq, hq] at hz
    by_contra hne
    have : 2 ^ 2 ∣ m * 4 - 2 := dvd_trans (pow_dvd_pow 2 (by omega)) (Nat.dvd_of_mod_eq_zero hz.2)
    omega
  have hup : ∀ R : Nat, (R : ℚ) = (m * 4 + 2 : Nat) * scaleOf exp →
      ((scaling T exp (m * 4 - 2) (m * 4) (m * 4 + 2)).2.2.2.2 = true ∧ (exp < 0 → qOf exp = 1)) ∨ exp < 0 ∧ qOf exp = 0 :=
    fun R => upper_int hT hm
  have hex1 := fun hq => h.exactly hq (m * 4 - 2)
  have hex2 := fun hq => h.exactly hq (m * 4)
  have hex3 := fun hq => h.exactly hq (m * 4 + 2)
  have hexq0 : qOf exp = 0 → ((((m * 4 - 2) * (b.1 + 2 ^ 64 * b.2) + 2 ^ (sh - 1)) / 2 ^ sh : Nat) : ℚ) ≤ (m * 4 - 2 : Nat) * scaleOf exp ∧
      (((m * 4 + 2) * (b.1 + 2 ^ 64 * b.2) / 2 ^ sh : Nat) : ℚ) = (m * 4 + 2 : Nat) * scaleOf exp := by
    intro hq
    rw [(hex1 hq).2.1, (hex3 hq).1, (hex1 hq).2.2]
    push_cast
    exact ⟨le_rfl, rfl⟩
  generalize (scaling T exp (m * 4 - 2) (m * 4) (m * 4 + 2)).2.2.1 = z0 at *
  generalize (scaling T exp (m * 4 - 2) (m * 4) (m * 4 + 2)).2.2.2.1 = z1 at *
  generalize (scaling T exp (m * 4 - 2) (m * 4) (m * 4 + 2)).2.2.2.2 = z2 at *
  generalize ((m * 4 - 2) * (b.1 + 2 ^ 64 * b.2) + 2 ^ (sh - 1)) / 2 ^ sh = a at *
  generalize m * 4 * (b.1 + 2 ^ 64 * b.2) / 2 ^ sh = bb at *
  generalize (m * 4 + 2) * (b.1 + 2 ^ 64 * b.2) / 2 ^ sh = c at *
  push_cast at fb1 fb2 fc1 fc2 hup hexq0
  rw [hcu] at fa1 fa2 hz0 hexq0
  have hx2 : 2 ≤ 2 * scaleOf exp := by linarith
  have hms : scaleOf exp ≤ m * scaleOf exp := by
    have := mul_le_mul_of_nonneg_right hm1 (scaleOf_pos exp).le
    linarith
  have hapos : 0 < a := by
    have : (0 : ℚ) < a := by linarith
    exact_mod_cast this
  have hal0 : ∀ c', c' = (if (m % 2 == 0 || !z2) = true then c else c - 1) → c - 1 ≤ c' ∧ c' ≤ c := by
    intro c' h; rw [h]; split <;> omega
  obtain ⟨i, r, g1, g2, g3, g4, g5, g6⟩ := computeShortest_in (A := (m * 4 - 2) * scaleOf exp) (B := m * 4 * scaleOf exp)
    (C := (m * 4 + 2) * scaleOf exp) (x := 2 * scaleOf exp) (t := 1 / 1000) (a := a) (b := bb) (c0 := c)
    (asm := (m % 2 == 0 && z0)) (al := (m % 2 == 0 || !z2)) (btd := z1) (by ring) (by ring) le_rfl fa1 fa2 fb1 fb2 fc1 fc2
    hx2 hz0
    (by
      intro c' i hc' hz hlt hle
      obtain ⟨hc1, hc2⟩ := hal0 c' hc'
      rcases h.gap with hg | hg
      · exfalso
        have hq : qOf exp = 0 := by rw [hg]; decide +kernel
        have ea := (hex1 hq).2.1
        have ec := (hex3 hq).1
        rw [hg, scaleNum_two] at ea ec
        rcases i with _ | i
        · simp only [Nat.zero_add, Nat.pow_one] at hlt hle
          omega
        · have : 10 ^ 2 ∣ a := dvd_trans (pow_dvd_pow 10 (by omega)) (Nat.dvd_of_mod_eq_zero hz)
          omega
      · have hD : (0 : ℚ) < scaleDen exp := by exact_mod_cast scaleDen_pos exp
        have hN : (scaleNum exp : ℚ) = scaleOf exp * scaleDen exp := by unfold scaleOf; rw [div_mul_cancel₀ _ hD.ne']
        by_cases hi : i < 3
        · rcases hg i hi with hg | hg
          · left
            have hg' : (2000 : ℚ) * scaleNum exp + scaleDen exp ≤ 5000 * 10 ^ i * scaleDen exp := by exact_mod_cast hg
            rw [hN] at hg'
            have := le_of_mul_le_mul_right (show (2000 * scaleOf exp + 1) * scaleDen exp ≤ (5000 * 10 ^ i) * scaleDen exp by linarith) hD
            linarith
          · right
            have hg' : ((125 : ℚ) * 10 ^ i + 1) * scaleDen exp ≤ 50 * scaleNum exp := by exact_mod_cast hg
            rw [hN] at hg'
            have := le_of_mul_le_mul_right (show ((125 : ℚ) * 10 ^ i + 1) * scaleDen exp ≤ (50 * scaleOf exp) * scaleDen exp by linarith) hD
            linarith
        · left
          have : (10 : ℚ) ^ 3 ≤ 10 ^ i := pow_le_pow_right₀ (by norm_num) (by omega)
          linarith)
    (by omega) hapos
  generalize hcd : (if (m % 2 == 0 || !z2) = true then c else c - 1) = c' at *
  obtain ⟨hc1, hc2⟩ := hal0 c' rfl
  have hcpos : 0 < c := by
    have : (0 : ℚ) < c := by linarith
    exact_mod_cast this
  have hc1' : (c : ℚ) ≤ c' + 1 := by
    have : c ≤ c' + 1 := by omega
    exact_mod_cast this
  have hc2' : (c' : ℚ) ≤ c := by exact_mod_cast hc2
  have g3' : ((r * 10 ^ i : Nat) : ℚ) ≤ c' := by exact_mod_cast g3
  have g4' : (c' : ℚ) < a + 10 ^ (i + 1) := by exact_mod_cast g4
  have hi1 : 10 + a ≤ c' → 1 ≤ i := by
    intro h; apply g5 1; simp only [Nat.pow_one]; omega
  refine ⟨i, r, g1, ?_, by linarith, ?_, by linarith, ?_, ?_⟩
  · rcases g2 with g2 | ⟨g2, g2'⟩
    · exact .inl g2
    · refine .inr ⟨g2', hz0m g2, ?_⟩
      by_contra he
      have hq := hz0q (Bool.and_eq_true _ _ ▸ g2 : _ ∧ _).2 (by omega)
      have hD : (0 : ℚ) < scaleDen exp := by exact_mod_cast scaleDen_pos exp
      have hs10 : 10 ≤ scaleOf exp := by
        rcases h.ten with ht | ht
        · omega
        · unfold scaleOf; rw [le_div_iff₀ hD]; exact_mod_cast ht
      have haA := hz0 g2
      have hi : 1 ≤ i := by
        apply hi1
        have : ((10 + a : Nat) : ℚ) ≤ c' := by push_cast; linarith
        exact_mod_cast this
      have hs : scaleOf exp = (5 ^ ((-exp).toNat - 1) : Nat) / 2 := by
        unfold scaleOf scaleNum scaleDen; rw [if_neg he, if_neg he, hq]; norm_num
      have hk : r * 10 ^ i = (m * 2 - 1) * 5 ^ ((-exp).toNat - 1) := by
        have e : ((m * 2 - 1 : Nat) : ℚ) = (m : ℚ) * 2 - 1 := by
          rw [Nat.cast_sub (by omega)]; push_cast; ring
        have : ((r * 10 ^ i : Nat) : ℚ) = ((m * 2 - 1) * 5 ^ ((-exp).toNat - 1) : Nat) := by
          rw [g2', Nat.cast_mul, e, hs]; ring
        exact_mod_cast this
      have h5 : 5 ^ ((-exp).toNat - 1) % 2 = 1 := by
        have := Nat.pow_mod 5 ((-exp).toNat - 1) 2
        simpa using this
      have e1 : r * 10 ^ i % 2 = 0 := by
        obtain ⟨j, rfl⟩ : ∃ j, i = j + 1 := ⟨i - 1, by omega⟩
        rw [Nat.pow_succ, ← Nat.mul_assoc]; omega
      have e2 : (m * 2 - 1) * 5 ^ ((-exp).toNat - 1) % 2 = 1 := by
        rw [Nat.mul_mod, h5]; omega
      omega
  · intro hR
    rcases hup _ hR with ⟨hz2, hq1⟩ | ⟨he, hq⟩
    · constructor
      · by_contra hodd
        have : c' = c - 1 := by rw [← hcd, hz2]; simp [hodd]
        have : (c' : ℚ) + 1 = c := by
          have : c' + 1 = c := by omega
          exact_mod_cast this
        linarith
      · by_contra hlt
        have := h.small (by rw [hq1 (by omega)])
        omega
    · exfalso
      have hcc : c' = c := by rw [← hcd, hz2f hq he]; simp
      have ea := (hex1 hq).2.1
      have eb := (hex2 hq).1
      have ec := (hex3 hq).1
      have es := (hex3 hq).2.2
      have hRn : r * 10 ^ i = (m * 4 + 2) * scaleNum exp := by
        rw [es] at hR; exact_mod_cast hR
      rcases h.zero hq he with h1 | h1
      · rw [h1, scaleNum_one] at ea eb ec hRn
        have hi : 1 ≤ i := hi1 (by omega)
        rcases Nat.eq_or_lt_of_le hi with hi | hi
        · have := g6 hi.symm (by omega) (by omega)
          rw [← hi, Nat.pow_one] at hRn
          omega
        · have h100 : 10 ^ 2 ∣ r * 10 ^ i := Dvd.dvd.mul_left (pow_dvd_pow 10 hi) _
          rw [hRn] at h100
          omega
      · rw [h1, scaleNum_two] at ea eb ec hRn
        have hi : 2 ≤ i := by apply g5 2; norm_num; omega
        have h100 : 10 ^ 2 ∣ r * 10 ^ i := Dvd.dvd.mul_left (pow_dvd_pow 10 hi) _
        rw [hRn] at h100
        omega
  · intro hq
    obtain ⟨x1, x2⟩ := hexq0 hq
    linarith
  · intro D k hk hlo hhi
    have hten : qOf exp = 0 ∨ 10 ≤ scaleOf exp := by
      rcases h.ten with ht | ht
      · exact .inl ht
      · right
        have hD : (0 : ℚ) < scaleDen exp := by exact_mod_cast scaleDen_pos exp
        unfold scaleOf; rw [le_div_iff₀ hD]; exact_mod_cast ht
    have h1 : a < D := by
      have : (a : ℚ) < D := by
        rcases hten with hq | hq
        · have := (hexq0 hq).1; linarith
        · linarith
      exact_mod_cast this
    have h2 : D < c := by
      have : (D : ℚ) < c := by
        rcases hten with hq | hq
        · have := (hexq0 hq).2; linarith
        · linarith
      exact_mod_cast this
    apply g5
    have h3 : D / 10 ^ k ≤ c' / 10 ^ k := Nat.div_le_div_right (by omega)
    have h4 : a / 10 ^ k < D / 10 ^ k := by
      rw [Nat.div_lt_iff_lt_mul (by positivity), Nat.div_mul_cancel hk]; exact h1
    omega

end

end JsonStruct
