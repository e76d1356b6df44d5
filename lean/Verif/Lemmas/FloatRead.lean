import Verif.Lemmas.FloatMul
import Verif.Model.Float
import Verif.Spec.Float
import Mathlib.Tactic.Linarith
import Mathlib.Tactic.NormNum
import Mathlib.Tactic.Ring
import Mathlib.Tactic.Positivity
import Mathlib.Tactic.FieldSimp
import Mathlib.Data.Nat.Factorization.Basic

/-
Reading: the arithmetic with two words.
-/

namespace JsonStruct

/-- Two words of 64 bits. -/
def Words (a : Pair) : Prop := a.1 < 2 ^ 64 ∧ a.2 < 2 ^ 64

theorem leftShiftBy_wide {k : Nat} {a : Pair} (h1 : 0 < k) (h2 : k < 64) (ha : Words a) (h : wide a * 2 ^ k < 2 ^ 128) :
    Words (leftShiftBy k a) ∧ wide (leftShiftBy k a) = wide a * 2 ^ k := by
  obtain ⟨ha1, ha2⟩ := ha
  unfold wide at h
  have h3 : a.2 * 2 ^ k < 2 ^ 64 := by
    have : a.2 * 2 ^ k * 2 ^ 64 < 2 ^ 128 := by
      refine Nat.lt_of_le_of_lt ?_ h
      rw [Nat.add_mul]
      have : a.2 * 2 ^ k * 2 ^ 64 = 2 ^ 64 * a.2 * 2 ^ k := by ring
      omega
    have e : (2 : Nat) ^ 128 = 2 ^ 64 * 2 ^ 64 := by norm_num
    rw [e] at this
    exact Nat.lt_of_mul_lt_mul_right this
  have h64 : (2 : Nat) ^ 64 = 2 ^ (64 - k) * 2 ^ k := by rw [← Nat.pow_add]; congr 1; omega
  have h4 : a.1 / 2 ^ (64 - k) < 2 ^ k := by
    rw [Nat.div_lt_iff_lt_mul (by positivity), Nat.mul_comm, ← h64]; exact ha1
  have h5 : (a.2 * 2 ^ k % 2 ^ 64) ||| (a.1 / 2 ^ (64 - k)) = a.1 / 2 ^ (64 - k) + a.2 * 2 ^ k := by
    rw [Nat.mod_eq_of_lt h3, Nat.or_comm, or_mul_pow h4]
  have h6 : a.1 * 2 ^ k % 2 ^ 64 = a.1 % 2 ^ (64 - k) * 2 ^ k := by
    rw [h64, Nat.mul_mod_mul_right]
  have h7 := Nat.div_add_mod a.1 (2 ^ (64 - k))
  have h8 : a.2 + 1 ≤ 2 ^ (64 - k) := by
    rw [h64] at h3
    exact Nat.lt_of_mul_lt_mul_right h3
  refine ⟨⟨Nat.mod_lt _ (by positivity), ?_⟩, ?_⟩
  · show (a.2 * 2 ^ k % 2 ^ 64) ||| (a.1 / 2 ^ (64 - k)) < 2 ^ 64
    rw [h5, h64]
    have := Nat.mul_le_mul_right (2 ^ k) h8
    rw [Nat.add_mul] at this
    omega
  · show a.1 * 2 ^ k % 2 ^ 64 + 2 ^ 64 * ((a.2 * 2 ^ k % 2 ^ 64) ||| (a.1 / 2 ^ (64 - k))) = (a.1 + 2 ^ 64 * a.2) * 2 ^ k
    rw [h5, h6]
    conv_rhs => rw [← h7]
    conv_lhs => rw [Nat.mul_add]
    rw [show 2 ^ 64 * (a.1 / 2 ^ (64 - k)) = 2 ^ (64 - k) * (a.1 / 2 ^ (64 - k)) * 2 ^ k by rw [h64]; ring]
    ring

theorem leftShift_wide {k : Nat} {a : Pair} (ha : Words a) (hk : k < 128) (h : wide a * 2 ^ k < 2 ^ 128) :
    Words (leftShift a k) ∧ wide (leftShift a k) = wide a * 2 ^ k := by
  unfold leftShift
  split
  · rename_i h0; subst h0; exact ⟨ha, by simp⟩
  · split
    · rename_i h0 h64
      have ha2 : a.2 = 0 := by
        rcases Nat.eq_zero_or_pos a.2 with h | hp
        · exact h
        · exfalso
          have h1 : 2 ^ 64 * 2 ^ 64 ≤ wide a * 2 ^ k := by
            refine Nat.mul_le_mul ?_ (Nat.pow_le_pow_right (by omega) h64)
            unfold wide; omega
          norm_num at h1 h
          omega
      have e : (2 : Nat) ^ k = 2 ^ (k - 64) * 2 ^ 64 := by rw [← Nat.pow_add]; congr 1; omega
      have hlt : a.1 * 2 ^ (k - 64) < 2 ^ 64 := by
        unfold wide at h
        rw [ha2, e] at h
        have h' : a.1 * 2 ^ (k - 64) * 2 ^ 64 < 2 ^ 64 * 2 ^ 64 := by
          calc _ = (a.1 + 2 ^ 64 * 0) * (2 ^ (k - 64) * 2 ^ 64) := by ring
            _ < 2 ^ 128 := h
            _ = _ := by norm_num
        exact Nat.lt_of_mul_lt_mul_right h'
      refine ⟨⟨by simp, Nat.mod_lt _ (by positivity)⟩, ?_⟩
      show 0 + 2 ^ 64 * (a.1 * 2 ^ (k - 64) % 2 ^ 64) = (a.1 + 2 ^ 64 * a.2) * 2 ^ k
      rw [Nat.mod_eq_of_lt hlt, ha2, e]; ring
    · exact leftShiftBy_wide (by omega) (by omega) ha h

theorem rightShift_wide {a : Pair} (ha : Words a) : Words (rightShift a) ∧ wide (rightShift a) = wide a / 2 := by
  obtain ⟨h1, h2⟩ := ha
  have h3 : a.2 * 2 ^ 63 % 2 ^ 64 = a.2 % 2 * 2 ^ 63 := by
    rw [show (2 : Nat) ^ 64 = 2 * 2 ^ 63 by norm_num, Nat.mul_mod_mul_right]
  have h4 : (a.1 / 2) ||| (a.2 * 2 ^ 63 % 2 ^ 64) = a.1 / 2 + a.2 % 2 * 2 ^ 63 := by
    rw [h3]; exact or_mul_pow (by norm_num at h1 ⊢; omega) 
  unfold Words rightShift wide
  simp only [h4]
  norm_num at h1 h2 ⊢
  omega

theorem addPair_wide {a b : Pair} (ha : Words a) (hb : Words b) (h : wide a + wide b < 2 ^ 128) :
    Words (addPair a b) ∧ wide (addPair a b) = wide a + wide b := by
  obtain ⟨a1, a2⟩ := ha
  obtain ⟨b1, b2⟩ := hb
  obtain ⟨x, y⟩ := a
  obtain ⟨z, w⟩ := b
  unfold wide at h
  simp only at *
  have e (u v : Nat) : (u % 2 ^ 32) ||| (v * 2 ^ 32 % 2 ^ 64) = u % 2 ^ 32 + v % 2 ^ 32 * 2 ^ 32 := by
    rw [show (2 : Nat) ^ 64 = 2 ^ 32 * 2 ^ 32 by norm_num, Nat.mul_mod_mul_right]
    exact or_mul_pow (Nat.mod_lt _ (by positivity))
  unfold Words addPair wide
  simp only [e]
  norm_num at a1 a2 b1 b2 h ⊢
  omega

theorem divideBy10_wide {a : Pair} (ha : Words a) : Words (divideBy10 a) ∧ wide (divideBy10 a) = wide a / 10 := by
  obtain ⟨a1, a2⟩ := ha
  obtain ⟨x, y⟩ := a
  simp only at *
  set high := x / 2 ^ 32 + y % 10 * 2 ^ 32 with hh
  set low := (x % 2 ^ 32 + high % 10 * 2 ^ 32) / 10 with hl
  have hlow : low < 2 ^ 32 := by norm_num at *; omega
  have hhigh : high / 10 < 2 ^ 32 := by norm_num at *; omega
  have e : (high / 10 * 2 ^ 32 % 2 ^ 64) ||| low = low + high / 10 * 2 ^ 32 := by
    rw [Nat.mod_eq_of_lt (by norm_num at *; omega), Nat.or_comm, or_mul_pow hlow]
  have : divideBy10 (x, y) = ((high / 10 * 2 ^ 32 % 2 ^ 64) ||| low, y / 10) := rfl
  rw [this, e]
  unfold Words wide
  simp only
  clear this e
  norm_num at *
  omega

theorem log2_bounds {x : Nat} (h : x ≠ 0) : 2 ^ Nat.log2 x ≤ x ∧ x < 2 ^ (Nat.log2 x + 1) :=
  ⟨Nat.log2_self_le h, Nat.lt_log2_self⟩

theorem shiftMsb_wide {a : Pair} (ha : Words a) (h0 : wide a ≠ 0) (h : wide a < 2 ^ 125) :
    Words (shiftMsb a).1 ∧ wide (shiftMsb a).1 = wide a * 2 ^ (shiftMsb a).2 ∧ 2 ^ 124 ≤ wide (shiftMsb a).1 ∧
      wide (shiftMsb a).1 < 2 ^ 125 := by
  have key : ∀ msb, 2 ^ msb ≤ wide a → wide a < 2 ^ (msb + 1) → ¬ 124 < msb ∧
      Words (leftShift a (124 - msb)) ∧ wide (leftShift a (124 - msb)) = wide a * 2 ^ (124 - msb) ∧ 2 ^ 124 ≤ wide (leftShift a (124 - msb)) ∧
      wide (leftShift a (124 - msb)) < 2 ^ 125 := by
    intro msb h1 h2
    have h3 : msb < 125 := by
      have := Nat.lt_of_le_of_lt h1 h
      exact (Nat.pow_lt_pow_iff_right (by omega)).1 this
    have h4 : wide a * 2 ^ (124 - msb) < 2 ^ 125 := by
      calc wide a * 2 ^ (124 - msb) < 2 ^ (msb + 1) * 2 ^ (124 - msb) := Nat.mul_lt_mul_of_pos_right h2 (by positivity)
        _ = 2 ^ 125 := by rw [← Nat.pow_add]; congr 1; omega
    have h5 : 2 ^ 124 ≤ wide a * 2 ^ (124 - msb) := by
      calc 2 ^ 124 = 2 ^ msb * 2 ^ (124 - msb) := by rw [← Nat.pow_add]; congr 1; omega
        _ ≤ _ := Nat.mul_le_mul_right _ h1
    obtain ⟨w1, w2⟩ := leftShift_wide (k := 124 - msb) ha (by omega) (Nat.lt_trans h4 (by norm_num))
    exact ⟨by omega, w1, w2, by rw [w2]; exact h5, by rw [w2]; exact h4⟩
  obtain ⟨a1, a2⟩ := ha
  unfold shiftMsb
  by_cases hz : a.2 = 0
  · rw [if_neg (by simpa using hz)]
    have hw : wide a = a.1 := by unfold wide; rw [hz]; simp
    have h1 : a.1 ≠ 0 := by rw [← hw]; exact h0
    rw [if_pos h1]
    obtain ⟨l1, l2⟩ := log2_bounds h1
    obtain ⟨k1, k⟩ := key (Nat.log2 a.1) (by rw [hw]; exact l1) (by rw [hw]; exact l2)
    rw [if_neg k1]
    exact k
  · rw [if_pos hz]
    obtain ⟨l1, l2⟩ := log2_bounds hz
    have g1 : 2 ^ (Nat.log2 a.2 + 64) ≤ wide a := by
      rw [Nat.pow_add]
      refine Nat.le_trans (Nat.mul_le_mul_right _ l1) ?_
      unfold wide
      omega
    have g2 : wide a < 2 ^ (Nat.log2 a.2 + 64 + 1) := by
      rw [Nat.add_right_comm, Nat.pow_add _ _ 64]
      have h9 : (a.2 + 1) * 2 ^ 64 ≤ 2 ^ (Nat.log2 a.2 + 1) * 2 ^ 64 := Nat.mul_le_mul_right _ l2
      refine Nat.lt_of_lt_of_le ?_ h9
      unfold wide
      omega
    obtain ⟨k1, k⟩ := key (Nat.log2 a.2 + 64) g1 g2
    simp only
    rw [if_neg k1]
    exact k

theorem maskLoop_wide (n : Nat) {a : Pair} (e : Int) (ha : Words a) (h : wide a < 2 ^ (124 + n)) :
    ∃ s : Nat, Words (maskLoop n a e).1 ∧ wide (maskLoop n a e).1 = wide a / 2 ^ s ∧ (maskLoop n a e).2 = e + s ∧
      wide (maskLoop n a e).1 < 2 ^ 124 ∧ (s = 0 ∨ 2 ^ (123 + s) ≤ wide a) := by
  induction n generalizing a e with
  | zero => exact ⟨0, ha, by simp [maskLoop], by simp [maskLoop], by simpa [maskLoop] using h, .inl rfl⟩
  | succ n ih =>
    have hm : a.2 / 2 ^ 60 ≠ 0 ↔ 2 ^ 124 ≤ wide a := by
      obtain ⟨a1, a2⟩ := ha
      unfold wide
      norm_num at a1 a2 ⊢
      omega
    unfold maskLoop
    by_cases hb : 2 ^ 124 ≤ wide a
    · rw [if_pos (hm.2 hb)]
      obtain ⟨w1, w2⟩ := rightShift_wide ha
      obtain ⟨s, s1, s2, s3, s4, s5⟩ := ih (a := rightShift a) (e + 1) w1 (by
        rw [w2, Nat.div_lt_iff_lt_mul (by omega), ← Nat.pow_succ]; exact h)
      refine ⟨s + 1, s1, ?_, by rw [s3]; push_cast; ring, s4, .inr ?_⟩
      · rw [s2, w2, Nat.div_div_eq_div_mul, Nat.pow_succ']
      · rcases s5 with rfl | s5
        · exact hb
        · rw [w2, Nat.le_div_iff_mul_le (by omega), ← Nat.pow_succ] at s5
          exact s5
    · rw [if_neg (fun hc => hb (hm.1 hc))]
      exact ⟨0, ha, by simp, by simp, Nat.lt_of_not_le hb, .inl rfl⟩

/-- The number a pair with its exponent stands for. -/
def valOf (a : Pair) (e : Int) : ℚ := (wide a : ℚ) * 2 ^ e

/-- One rounding error of the loops, relative. -/
def delta : ℚ := 1 / 2 ^ 120

theorem floor_div (x y : Nat) (hy : 0 < y) : ((x / y : Nat) : ℚ) * y ≤ x ∧ (x : ℚ) < (((x / y : Nat) : ℚ) + 1) * y := by
  constructor
  · exact_mod_cast Nat.div_mul_le_self x y
  · have := Nat.lt_div_mul_add (a := x) hy
    have h : x < (x / y + 1) * y := by rw [Nat.add_mul]; omega
    exact_mod_cast h

/-- A large divisor of a small number times a power of two is a multiple of a power of two. -/
theorem pow_dvd_of_large {x u k s : Nat} (hu : 0 < u) (hu2 : u < 2 ^ 100) (h : x ∣ u * 2 ^ k) (hx : 2 ^ (123 + s) ≤ x) : 2 ^ s ∣ x := by
  have hx0 : x ≠ 0 := by
    have : 0 < 2 ^ (123 + s) := by positivity
    omega
  obtain ⟨j, o, ho, rfl⟩ := Nat.exists_eq_two_pow_mul_odd hx0
  have h1 : o ∣ u := by
    have h2 : o ∣ u * 2 ^ k := Nat.dvd_trans (Nat.dvd_mul_left _ _) h
    have hc : Nat.Coprime o (2 ^ k) := Nat.Coprime.pow_right _ (Nat.coprime_two_right.2 ho)
    exact hc.dvd_of_dvd_mul_right h2
  have h2 : o < 2 ^ 100 := Nat.lt_of_le_of_lt (Nat.le_of_dvd hu h1) hu2
  have h3 : 2 ^ (123 + s) < 2 ^ (j + 100) := by
    rw [Nat.pow_add _ j]
    exact Nat.lt_of_le_of_lt hx (Nat.mul_lt_mul_of_pos_left h2 (by positivity))
  have h4 : s ≤ j := by have := (Nat.pow_lt_pow_iff_right (by omega : 1 < 2)).1 h3; omega
  exact Nat.dvd_trans (Nat.pow_dvd_pow 2 h4) (Nat.dvd_mul_right _ _)

theorem timesLoop_wide (n : Nat) {a : Pair} (e : Int) (ha : Words a) (h0 : wide a ≠ 0) (h : wide a < 2 ^ 124) :
    Words (timesLoop n a e).1 ∧ wide (timesLoop n a e).1 ≠ 0 ∧ wide (timesLoop n a e).1 < 2 ^ 124 ∧
    valOf (timesLoop n a e).1 (timesLoop n a e).2 ≤ valOf a e * 10 ^ n ∧
    (n * delta ≤ 1 → valOf a e * 10 ^ n * (1 - n * delta) ≤ valOf (timesLoop n a e).1 (timesLoop n a e).2) ∧
    (∀ u k, 0 < u → u < 2 ^ 100 → wide a * 10 ^ n ∣ u * 2 ^ k → valOf (timesLoop n a e).1 (timesLoop n a e).2 = valOf a e * 10 ^ n) := by
  induction n generalizing a e with
  | zero =>
    refine ⟨ha, h0, h, ?_, ?_, ?_⟩ <;> simp [timesLoop]
  | succ n ih =>
    have hb2 : wide a * 2 ^ 1 < 2 ^ 128 := by norm_num at h ⊢; omega
    obtain ⟨p1, p2⟩ := leftShiftBy_wide (k := 1) (by omega) (by omega) ha hb2
    obtain ⟨q1, q2⟩ := leftShiftBy_wide (k := 2) (by omega) (by omega) p1 (by rw [p2]; norm_num at h ⊢; omega)
    obtain ⟨r1, r2⟩ := addPair_wide q1 p1 (by rw [q2, p2]; norm_num at h ⊢; omega)
    have r3 : wide (addPair (leftShiftBy 2 (leftShiftBy 1 a)) (leftShiftBy 1 a)) = 10 * wide a := by
      rw [r2, q2, p2]; ring
    obtain ⟨s, s1, s2, s3, s4, s5⟩ := maskLoop_wide 4 e r1 (by rw [r3]; norm_num at h ⊢; omega)
    have hstep : timesLoop (n + 1) a e = timesLoop n (maskLoop 4 (addPair (leftShiftBy 2 (leftShiftBy 1 a)) (leftShiftBy 1 a)) e).1
        (maskLoop 4 (addPair (leftShiftBy 2 (leftShiftBy 1 a)) (leftShiftBy 1 a)) e).2 := rfl
    rw [hstep]
    generalize maskLoop 4 (addPair (leftShiftBy 2 (leftShiftBy 1 a)) (leftShiftBy 1 a)) e = x at *
    obtain ⟨x, e'⟩ := x
    simp only at s1 s2 s3 s4 ⊢
    rw [r3] at s2 s5
    subst s3
    have hs0 : (0 : ℚ) < 2 ^ s := by positivity
    have hx0 : wide x ≠ 0 := by
      rw [s2]
      rcases s5 with rfl | s5
      · simp; exact h0
      · have : 1 ≤ 10 * wide a / 2 ^ s := by
          rw [Nat.le_div_iff_mul_le (by positivity), Nat.one_mul]
          exact Nat.le_trans (Nat.pow_le_pow_right (by omega) (by omega)) s5
        omega
    obtain ⟨f1, f2⟩ := floor_div (10 * wide a) (2 ^ s) (by positivity)
    rw [← s2] at f1 f2
    push_cast at f1 f2
    have hv : valOf x (e + s) = (wide x * 2 ^ s) * 2 ^ e := by
      unfold valOf; rw [zpow_add₀ (by norm_num), zpow_natCast]; ring
    have he0 : (0 : ℚ) < 2 ^ e := by positivity
    have hup : valOf x (e + s) ≤ 10 * valOf a e := by
      rw [hv]; unfold valOf
      have := mul_le_mul_of_nonneg_right f1 he0.le
      linarith
    have hlow : 10 * valOf a e * (1 - delta) ≤ valOf x (e + s) := by
      rw [hv]; unfold valOf
      have : 10 * (wide a : ℚ) * (1 - delta) ≤ wide x * 2 ^ s := by
        rcases s5 with rfl | s5
        · have : wide x = 10 * wide a := by rw [s2]; simp
          rw [this]
          push_cast
          unfold delta
          have : (0 : ℚ) ≤ wide a := by positivity
          linarith
        · have h5 : (2 : ℚ) ^ (123 + s) ≤ 10 * wide a := by exact_mod_cast s5
          rw [pow_add] at h5
          unfold delta
          norm_num at h5 ⊢
          linarith
      have := mul_le_mul_of_nonneg_right this he0.le
      linarith
    have hv0 : 0 ≤ valOf a e := by unfold valOf; positivity
    obtain ⟨i1, i2, i3, i4, i5, i6⟩ := ih (a := x) (e + s) s1 hx0 s4
    refine ⟨i1, i2, i3, ?_, ?_, ?_⟩
    · have := mul_le_mul_of_nonneg_right hup (show (0 : ℚ) ≤ 10 ^ n by positivity)
      rw [pow_succ]; linarith
    · intro hn
      push_cast at hn ⊢
      have hd : (0 : ℚ) ≤ delta := by unfold delta; positivity
      have hn' : (n : ℚ) * delta ≤ 1 := by linarith
      refine le_trans ?_ (i5 hn')
      have h1 : 10 * valOf a e * (1 - delta) * (10 ^ n * (1 - n * delta)) ≤ valOf x (e + s) * (10 ^ n * (1 - n * delta)) :=
        mul_le_mul_of_nonneg_right hlow (mul_nonneg (by positivity) (by linarith))
      have h2 : valOf a e * 10 ^ (n + 1) * (1 - (n + 1) * delta) ≤ valOf a e * 10 ^ (n + 1) * ((1 - delta) * (1 - n * delta)) := by
        refine mul_le_mul_of_nonneg_left ?_ (mul_nonneg hv0 (by positivity))
        have : 0 ≤ (n : ℚ) * delta * delta := by positivity
        nlinarith
      rw [pow_succ] at h2 ⊢
      linarith
    · intro u k hu hu2 hdvd
      have hd1 : 10 * wide a ∣ u * 2 ^ k := by
        refine Nat.dvd_trans ?_ hdvd
        rw [pow_succ]
        exact ⟨10 ^ n, by ring⟩
      have hd2 : 2 ^ s ∣ 10 * wide a := by
        rcases s5 with rfl | s5
        · simp
        · exact pow_dvd_of_large hu hu2 hd1 s5
      have hx : wide x * 2 ^ s = 10 * wide a := by rw [s2]; exact Nat.div_mul_cancel hd2
      rw [i6 u k hu hu2 (Nat.dvd_trans ⟨2 ^ s, by rw [pow_succ]; calc wide a * (10 ^ n * 10) = 10 * wide a * 10 ^ n := by ring
            _ = _ := by rw [← hx]; ring⟩ hdvd), hv]
      have hx' : (wide x : ℚ) * 2 ^ s = 10 * wide a := by exact_mod_cast hx
      rw [hx', pow_succ]; unfold valOf; ring

theorem overLoop_wide (n : Nat) {a : Pair} (e : Int) (ha : Words a) (h0 : wide a ≠ 0) (h : wide a < 2 ^ 125) :
    Words (overLoop n a e).1 ∧ wide (overLoop n a e).1 ≠ 0 ∧ wide (overLoop n a e).1 < 2 ^ 125 ∧
    valOf (overLoop n a e).1 (overLoop n a e).2 * 10 ^ n ≤ valOf a e ∧
    (n * delta ≤ 1 → valOf a e * (1 - n * delta) ≤ valOf (overLoop n a e).1 (overLoop n a e).2 * 10 ^ n) ∧
    (10 ^ n ∣ wide a → valOf (overLoop n a e).1 (overLoop n a e).2 * 10 ^ n = valOf a e) := by
  induction n generalizing a e with
  | zero =>
    refine ⟨ha, h0, h, ?_, ?_, ?_⟩ <;> simp [overLoop]
  | succ n ih =>
    obtain ⟨p1, p2, p3, p4⟩ := shiftMsb_wide ha h0 h
    obtain ⟨q1, q2⟩ := divideBy10_wide p1
    have hstep : overLoop (n + 1) a e = overLoop n (divideBy10 (shiftMsb a).1) (e - (shiftMsb a).2) := rfl
    rw [hstep]
    generalize (shiftMsb a).2 = t at *
    generalize (shiftMsb a).1 = b at *
    generalize divideBy10 b = x at *
    have hx0 : wide x ≠ 0 := by rw [q2]; norm_num at p3; omega
    have hx1 : wide x < 2 ^ 125 := by rw [q2]; exact Nat.lt_of_le_of_lt (Nat.div_le_self _ _) p4
    obtain ⟨f1, f2⟩ := floor_div (wide b) 10 (by omega)
    rw [← q2] at f1 f2
    push_cast at f1 f2
    have he0 : (0 : ℚ) < 2 ^ (e - t) := by positivity
    have hv : valOf a e = wide b * 2 ^ (e - t) := by
      unfold valOf; rw [p2, zpow_sub₀ (by norm_num), zpow_natCast]; push_cast; field_simp
    have hup : valOf x (e - t) * 10 ≤ valOf a e := by
      rw [hv]; unfold valOf
      have := mul_le_mul_of_nonneg_right f1 he0.le
      linarith
    have hlow : valOf a e * (1 - delta) ≤ valOf x (e - t) * 10 := by
      rw [hv]; unfold valOf
      have : (wide b : ℚ) * (1 - delta) ≤ wide x * 10 := by
        have h5 : (2 : ℚ) ^ 124 ≤ wide b := by exact_mod_cast p3
        unfold delta
        linarith
      have := mul_le_mul_of_nonneg_right this he0.le
      linarith
    have hv0 : 0 ≤ valOf a e := by unfold valOf; positivity
    obtain ⟨i1, i2, i3, i4, i5, i6⟩ := ih (a := x) (e - t) q1 hx0 hx1
    refine ⟨i1, i2, i3, ?_, ?_, ?_⟩
    · rw [pow_succ]; linarith
    · intro hn
      push_cast at hn ⊢
      have hd : (0 : ℚ) ≤ delta := by unfold delta; positivity
      have hn' : (n : ℚ) * delta ≤ 1 := by linarith
      have i5 := i5 hn'
      have h1 : valOf a e * (1 - delta) * (1 - n * delta) ≤ valOf x (e - t) * 10 * (1 - n * delta) :=
        mul_le_mul_of_nonneg_right hlow (by linarith)
      have h2 : valOf a e * (1 - (n + 1) * delta) ≤ valOf a e * ((1 - delta) * (1 - n * delta)) := by
        refine mul_le_mul_of_nonneg_left ?_ hv0
        have : 0 ≤ (n : ℚ) * delta * delta := by positivity
        nlinarith
      rw [pow_succ]
      linarith
    · intro hdvd
      have hd1 : 10 ∣ wide b := by
        rw [p2]; exact Nat.dvd_trans (Nat.dvd_trans ⟨10 ^ n, by rw [pow_succ']⟩ hdvd) (Nat.dvd_mul_right _ _)
      have hx : wide x * 10 = wide b := by rw [q2]; exact Nat.div_mul_cancel hd1
      have hd2 : 10 ^ n ∣ wide x := by
        refine Nat.dvd_of_mul_dvd_mul_right (k := 10) (by omega) ?_
        rw [hx, p2, ← pow_succ]
        exact Nat.dvd_trans hdvd (Nat.dvd_mul_right _ _)
      have := i6 hd2
      have hx' : (wide x : ℚ) * 10 = wide b := by exact_mod_cast hx
      rw [pow_succ, ← mul_assoc, this, hv, ← hx']
      unfold valOf; ring

end JsonStruct
