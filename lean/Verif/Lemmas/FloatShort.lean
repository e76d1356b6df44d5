import Verif.Model.Float
import Mathlib.Tactic.Linarith
import Mathlib.Tactic.NormNum
import Mathlib.Tactic.Ring
import Mathlib.Tactic.Positivity
import Mathlib.Tactic.SplitIfs
import Mathlib.Algebra.Order.Field.Rat
import Mathlib.Data.Nat.Cast.Order.Field
import Mathlib.Data.Rat.Cast.Order

/-
`compute_shortest`: where the decimal number it chooses lies.
-/

namespace JsonStruct

/-- The variables after `i` rounds of either loop, for the arguments `a b c`. -/
structure ShortInv (a b c i : Nat) (s : Shortest) : Prop where
  ei : s.i = i
  ea : s.a = a / 10 ^ i
  eb : s.b = b / 10 ^ i
  ec : s.c = c / 10 ^ i
  az : s.aZero = true ↔ a % 10 ^ i = 0
  bz : s.bZero = true ↔ b % 10 ^ i = 0
  rem : 0 < i → s.bRem = b / 10 ^ (i - 1) % 10

theorem mod_pow_succ (x i : Nat) : x % 10 ^ (i + 1) = 0 ↔ x % 10 ^ i = 0 ∧ x / 10 ^ i % 10 = 0 := by
  rw [Nat.pow_succ, Nat.mod_mul]
  constructor
  · intro h
    have h1 : x % 10 ^ i = 0 := by omega
    have h2 : 10 ^ i * (x / 10 ^ i % 10) = 0 := by omega
    rcases Nat.mul_eq_zero.mp h2 with h3 | h3
    · exact absurd h3 (by positivity)
    · exact ⟨h1, h3⟩
  · rintro ⟨h1, h2⟩
    rw [h1, h2]; rfl

theorem div_pow_succ (x i : Nat) : x / 10 ^ i / 10 = x / 10 ^ (i + 1) := by
  rw [Nat.div_div_eq_div_mul, Nat.pow_succ]

theorem ShortInv.step {a b c i : Nat} {s : Shortest} (h : ShortInv a b c i s) :
    ShortInv a b c (i + 1)
      ⟨s.a / 10, s.b / 10, s.c / 10, s.b % 10, s.aZero && s.a % 10 == 0, s.bZero && s.b % 10 == 0, s.i + 1⟩ := by
  refine ⟨by simp [h.ei], ?_, ?_, ?_, ?_, ?_, ?_⟩
  · simp only [h.ea, div_pow_succ]
  · simp only [h.eb, div_pow_succ]
  · simp only [h.ec, div_pow_succ]
  · simp only [Bool.and_eq_true, beq_iff_eq, h.az, h.ea, mod_pow_succ]
  · simp only [Bool.and_eq_true, beq_iff_eq, h.bz, h.eb, mod_pow_succ]
  · intro _; simp only [h.eb, Nat.add_sub_cancel]

theorem ShortInv.stepZero {a b c i : Nat} {s : Shortest} (h : ShortInv a b c i s) (hz : s.aZero = true)
    (ha : s.a % 10 = 0) :
    ShortInv a b c (i + 1) ⟨s.a / 10, s.b / 10, s.c / 10, s.b % 10, s.aZero, s.bZero && s.b % 10 == 0, s.i + 1⟩ := by
  have := h.step
  simpa [ha] using this

theorem pow_ten_gt {c i : Nat} (h : c < 10 ^ 20) (hi : 0 < c / 10 ^ i) : i < 20 := by
  rcases Nat.lt_or_ge i 20 with h1 | h1
  · exact h1
  · have : (10 : Nat) ^ 20 ≤ 10 ^ i := Nat.pow_le_pow_right (by decide) h1
    rw [Nat.div_eq_of_lt (by omega)] at hi
    omega

/-- The first loop ends, after the smallest number of rounds that makes the prefixes meet. -/
theorem shortLoop_ok {a b c : Nat} (hc : c < 10 ^ 20) :
    ∀ (n i : Nat) (s : Shortest), 20 ≤ n + i → 0 < n → ShortInv a b c i s → (0 < i → a / 10 ^ i < c / 10 ^ i) →
      ∃ j s', shortLoop n s = some s' ∧ ShortInv a b c j s' ∧ i ≤ j ∧ (0 < j → a / 10 ^ j < c / 10 ^ j) ∧
        c / 10 ^ (j + 1) ≤ a / 10 ^ (j + 1)
  | 0, _, _, _, h, _, _ => absurd h (by decide)
  | n + 1, i, s, hn, _, hs, hi => by
    rw [shortLoop]
    have e1 : s.a / 10 = a / 10 ^ (i + 1) := by rw [hs.ea, div_pow_succ]
    have e2 : s.c / 10 = c / 10 ^ (i + 1) := by rw [hs.ec, div_pow_succ]
    by_cases hlt : s.a / 10 < s.c / 10
    · simp only [hlt, if_true]
      have hlt' : a / 10 ^ (i + 1) < c / 10 ^ (i + 1) := by rw [← e1, ← e2]; exact hlt
      have hi20 := pow_ten_gt hc (show 0 < c / 10 ^ (i + 1) by omega)
      obtain ⟨j, s', h1, h2, h3, h4, h5⟩ := shortLoop_ok hc n (i + 1) _ (by omega) (by omega) hs.step (fun _ => hlt')
      exact ⟨j, s', h1, h2, by omega, h4, h5⟩
    · simp only [hlt, if_false]
      exact ⟨i, s, rfl, hs, Nat.le_refl _, hi, by rw [← e1, ← e2]; omega⟩

/-- The second loop ends if `a` is not zero, and removes zeros only. -/
theorem zeroLoop_ok {a b c : Nat} (ha : 0 < a) (ha' : a < 10 ^ 20) :
    ∀ (n i : Nat) (s : Shortest), 20 ≤ n + i → 0 < n → ShortInv a b c i s → s.aZero = true → s.a % 10 = 0 →
      ∃ j s', zeroLoop n s = some s' ∧ ShortInv a b c j s' ∧ i ≤ j ∧ s'.aZero = true
  | 0, _, _, _, h, _, _, _ => absurd h (by decide)
  | n + 1, i, s, hn, _, hs, hz, hm => by
    rw [zeroLoop]
    by_cases h0 : s.a / 10 % 10 = 0
    · simp only [h0, if_true]
      have hs' := hs.stepZero hz hm
      have hai : a % 10 ^ (i + 1) = 0 := hs'.az.mp hz
      have : 0 < a / 10 ^ (i + 1) := by
        have := Nat.div_add_mod a (10 ^ (i + 1))
        rcases Nat.eq_zero_or_pos (a / 10 ^ (i + 1)) with h | h
        · rw [h, hai] at this; simp at this; omega
        · exact h
      have hi20 := pow_ten_gt ha' this
      obtain ⟨j, s', h1, h2, h3, h4⟩ := zeroLoop_ok ha ha' n (i + 1) _ (by omega) (by omega) hs' hz h0
      exact ⟨j, s', h1, h2, by omega, h4⟩
    · simp only [h0, if_false]
      exact ⟨i, s, rfl, hs, Nat.le_refl _, hz⟩

/-- What the end of `compute_shortest` is about: after `i` rounds, either the prefixes met only now, or `a` ends in `i`
zeros and may be chosen. -/
theorem computeShortest_loops {a b c0 : Nat} (asm al btd : Bool) (hc : 0 < c0) (hc' : c0 < 2 ^ 64) (ha : 0 < a) (ha' : a < 2 ^ 64) :
    ∃ c i s, c = (if al then c0 else c0 - 1) ∧ computeShortest a b c0 asm al btd = some (shortEnd btd s) ∧ ShortInv a b c i s ∧
      c < a + 10 ^ (i + 1) ∧ (∀ k, a / 10 ^ k < c / 10 ^ k → k ≤ i) ∧
      ((0 < i → a / 10 ^ i < c / 10 ^ i) ∧ c / 10 ^ (i + 1) ≤ a / 10 ^ (i + 1) ∨ asm = true ∧ a % 10 ^ i = 0) := by
  have hcc : (if al then c0 else (c0 + (2 ^ 64 - 1)) % 2 ^ 64) = (if al then c0 else c0 - 1) := by
    cases al
    · simp only [Bool.false_eq_true, if_false]; omega
    · simp only [if_true]
  obtain ⟨c, rfl⟩ : ∃ c, c = (if al then c0 else c0 - 1) := ⟨_, rfl⟩
  generalize hcd : (if al then c0 else c0 - 1) = c at *
  have hc20 : c < 10 ^ 20 := by
    have : c ≤ c0 := by rw [← hcd]; split <;> omega
    omega
  have h0 : ShortInv a b c 0 ⟨a, b, c, b % 10, true, true, 0⟩ :=
    ⟨rfl, by simp, by simp, by simp, by simp [Nat.mod_one], by simp [Nat.mod_one], fun h => absurd h (by decide)⟩
  obtain ⟨i, s, h1, h2, h3, h4, h5⟩ := shortLoop_ok hc20 64 0 _ (by decide) (by decide) h0 (fun h => absurd h (by decide))
  have hlt : c < a + 10 ^ (i + 1) := by
    have e1 := Nat.div_add_mod c (10 ^ (i + 1))
    have e2 := Nat.mod_lt c (show 0 < 10 ^ (i + 1) by positivity)
    have e3 := Nat.div_mul_le_self a (10 ^ (i + 1))
    have e4 := Nat.mul_le_mul_left (10 ^ (i + 1)) h5
    rw [Nat.mul_comm (a / _)] at e3
    omega
  have hi1 : ∀ k, a / 10 ^ k < c / 10 ^ k → k ≤ i := by
    intro k h
    rcases Nat.lt_or_ge i k with h' | h'
    · obtain ⟨d, rfl⟩ : ∃ d, k = i + 1 + d := ⟨k - (i + 1), by omega⟩
      rw [Nat.pow_add, ← Nat.div_div_eq_div_mul, ← Nat.div_div_eq_div_mul] at h
      have := Nat.div_le_div_right (c := 10 ^ d) h5
      omega
    · exact h'
  unfold computeShortest
  simp only [hcc, h1]
  by_cases hz : (asm && s.aZero && s.a % 10 == 0) = true
  · simp only [hz, if_true]
    simp only [Bool.and_eq_true, beq_iff_eq] at hz
    obtain ⟨j, s', g1, g2, g3, g4⟩ := zeroLoop_ok (b := b) (c := c) ha (by omega) 64 i s (by omega) (by decide) h2 hz.1.2 hz.2
    refine ⟨c, j, s', rfl, by rw [g1]; rfl, g2, ?_, fun k h => by have := hi1 k h; omega, .inr ⟨hz.1.1, g2.az.mp g4⟩⟩
    have : (10 : Nat) ^ (i + 1) ≤ 10 ^ (j + 1) := Nat.pow_le_pow_right (by decide) (by omega)
    omega
  · simp only [hz]
    exact ⟨c, i, s, rfl, rfl, h2, hlt, hi1, .inl ⟨h4, h5⟩⟩

/-- Where `compute_shortest` goes: for an interval from `A` to `C` around `B`, with `a` rounded, `b` and `c` truncated,
up to an error `t`. -/
theorem computeShortest_in {A B C x t : ℚ} {a b c0 : Nat} {asm al btd : Bool}
    (hxA : B - A = x) (hxC : C - B = x) (ht : t ≤ 1 / 1000)
    (ha1 : (a : ℚ) ≤ A + 1 / 2) (ha2 : A - 1 / 2 - t ≤ a) (hb1 : (b : ℚ) ≤ B) (hb2 : B < b + 1 + t)
    (hc1 : (c0 : ℚ) ≤ C) (hc2 : C < c0 + 1 + t) (hx : 2 ≤ x) (hasm : asm = true → (a : ℚ) = A)
    (hlow : ∀ c i, c = (if al then c0 else c0 - 1) → a % 10 ^ (i + 1) = 0 → a / 10 ^ (i + 1) < c / 10 ^ (i + 1) →
      c / 10 ^ (i + 2) ≤ a / 10 ^ (i + 2) → x ≤ 5 * 10 ^ i - t ∨ 5 * 10 ^ i + 1 / 25 ≤ x)
    (hc64 : c0 < 2 ^ 64) (hapos : 0 < a) :
    ∃ i r, computeShortest a b c0 asm al btd = some (i, r) ∧
      (A + 1 / 100 ≤ (r * 10 ^ i : Nat) ∨ asm = true ∧ ((r * 10 ^ i : Nat) : ℚ) = A) ∧
      r * 10 ^ i ≤ (if al then c0 else c0 - 1) ∧ (if al then c0 else c0 - 1) < a + 10 ^ (i + 1) ∧
      (∀ k, a / 10 ^ k < (if al then c0 else c0 - 1) / 10 ^ k → k ≤ i) ∧ (i = 1 → b % 10 = 0 → a / 10 < b / 10 → r = b / 10) := by
  have hbc : b + 1 ≤ c0 := by
    have : (b : ℚ) < c0 := by linarith
    exact_mod_cast this
  have hab : a ≤ b := by
    have : (a : ℚ) < b + 1 := by linarith
    have : a < b + 1 := by exact_mod_cast this
    omega
  obtain ⟨c, i, s, hcd, h1, h2, h3, h4, h5⟩ := computeShortest_loops (b := b) asm al btd (by omega : 0 < c0) hc64 hapos (by omega)
  have hbc' : b ≤ c := by rw [hcd]; split <;> omega
  have hcc0 : c ≤ c0 := by rw [hcd]; split <;> omega
  rw [← hcd]
  have hp : 0 < 10 ^ i := by positivity
  have hb := Nat.div_add_mod b (10 ^ i)
  have hbm := Nat.mod_lt b hp
  have hA := Nat.div_add_mod a (10 ^ i)
  have hAm := Nat.mod_lt a hp
  have hC := Nat.div_mul_le_self c (10 ^ i)
  have habi : a / 10 ^ i ≤ b / 10 ^ i := Nat.div_le_div_right hab
  refine ⟨i, (shortEnd btd s).2, by rw [h1]; simp only [shortEnd, h2.ei], ?_⟩
  have hend : (shortEnd btd s).2 =
      if ((decide (s.bRem < 5) || ((s.bRem == 5 && s.bZero) && btd)) && (s.a != s.b || s.aZero) || decide (s.c < s.b + 1)) = true
      then s.b else s.b + 1 := rfl
  by_cases hd : ((decide (s.bRem < 5) || ((s.bRem == 5 && s.bZero) && btd)) && (s.a != s.b || s.aZero) || decide (s.c < s.b + 1)) = true
  · rw [hend, if_pos hd, h2.eb]
    have hle : b / 10 ^ i * 10 ^ i ≤ b := Nat.div_mul_le_self _ _
    refine ⟨?_, by omega, h3, h4, fun h _ _ => by rw [h, Nat.pow_one]⟩
    rcases Nat.lt_or_ge (a / 10 ^ i) (b / 10 ^ i) with hlt | hge
    · -- more than `a`
      left
      have h6 : a + 1 ≤ b / 10 ^ i * 10 ^ i := by
        have : (a / 10 ^ i + 1) * 10 ^ i ≤ b / 10 ^ i * 10 ^ i := Nat.mul_le_mul_right _ hlt
        have e : (a / 10 ^ i + 1) * 10 ^ i = 10 ^ i * (a / 10 ^ i) + 10 ^ i := by ring
        omega
      have h7 : (a : ℚ) + 1 ≤ (b / 10 ^ i * 10 ^ i : Nat) := by exact_mod_cast h6
      linarith
    · have hEq : a / 10 ^ i = b / 10 ^ i := by omega
      rcases Nat.eq_zero_or_pos i with hi0 | hi0
      · subst hi0
        left
        simp only [Nat.pow_zero, Nat.div_one, Nat.mul_one] at *
        have : (b : ℚ) > B - 1 - t := by linarith
        linarith
      by_cases haz : a % 10 ^ i = 0
      · have hR : b / 10 ^ i * 10 ^ i = a := by rw [← hEq, Nat.mul_comm]; omega
        rw [hR]
        cases hasmb : asm
        · left
          rcases h5 with ⟨h5, h5'⟩ | ⟨h5, _⟩
          · have hac := h5 hi0
            obtain ⟨k, rfl⟩ : ∃ k, i = k + 1 := ⟨i - 1, by omega⟩
            have hcge : a + 10 ^ (k + 1) ≤ c := by
              have : (a / 10 ^ (k + 1) + 1) * 10 ^ (k + 1) ≤ c / 10 ^ (k + 1) * 10 ^ (k + 1) := Nat.mul_le_mul_right _ hac
              have e : (a / 10 ^ (k + 1) + 1) * 10 ^ (k + 1) = 10 ^ (k + 1) * (a / 10 ^ (k + 1)) + 10 ^ (k + 1) := by ring
              omega
            have hrem : s.bRem < 5 := by
              rcases Bool.or_eq_true _ _ ▸ hd with hd | hd
              · have hd := (Bool.and_eq_true _ _ ▸ hd : _ ∧ _).1
                rcases Bool.or_eq_true _ _ ▸ hd with hd | hd
                · simpa using hd
                · simp only [Bool.and_eq_true, beq_iff_eq] at hd
                  have hz := (mod_pow_succ b k).mp (h2.bz.mp hd.1.2)
                  have := h2.rem (by omega)
                  simp only [Nat.add_sub_cancel] at this
                  omega
              · have : s.c < s.b + 1 := by simpa using hd
                rw [h2.ec, h2.eb] at this
                omega
            have hbr : b % 10 ^ (k + 1) < 5 * 10 ^ k := by
              have h8 := h2.rem (by omega)
              simp only [Nat.add_sub_cancel] at h8
              rw [h8] at hrem
              rw [Nat.pow_succ, Nat.mod_mul]
              have h9 := Nat.mod_lt b (show 0 < 10 ^ k by positivity)
              have h10 : 10 ^ k * (b / 10 ^ k % 10) ≤ 10 ^ k * 4 := Nat.mul_le_mul_left _ (by omega)
              omega
            have hb' : b + 1 ≤ a + 5 * 10 ^ k := by
              have : 10 ^ (k + 1) * (a / 10 ^ (k + 1)) = 10 ^ (k + 1) * (b / 10 ^ (k + 1)) := by rw [hEq]
              omega
            have q1 : (b : ℚ) + 1 ≤ a + 5 * 10 ^ k := by exact_mod_cast hb'
            have q2 : (a : ℚ) + 10 ^ k * 10 ≤ c0 := by
              have : a + 10 ^ k * 10 ≤ c0 := by rw [← Nat.pow_succ]; omega
              exact_mod_cast this
            rcases hlow c k hcd haz hac h5' with h | h
            · linarith
            · linarith
          · rw [hasmb] at h5; cases h5
        · right; exact ⟨rfl, hasm hasmb⟩
      · exfalso
        rcases Bool.or_eq_true _ _ ▸ hd with hd | hd
        · have hd := (Bool.and_eq_true _ _ ▸ hd : _ ∧ _).2
          rcases Bool.or_eq_true _ _ ▸ hd with hd | hd
          · rw [h2.ea, h2.eb] at hd; simp [hEq] at hd
          · exact haz (h2.az.mp hd)
        · have hlt : s.c < s.b + 1 := by simpa using hd
          rw [h2.ec, h2.eb] at hlt
          rcases h5 with ⟨h5, _⟩ | ⟨_, h5⟩
          · have := h5 hi0; omega
          · exact haz h5
  · rw [hend, if_neg hd, h2.eb]
    simp only [Bool.or_eq_true, not_or] at hd
    have hcb : b / 10 ^ i + 1 ≤ c / 10 ^ i := by
      have : ¬ s.c < s.b + 1 := by simpa using hd.2
      rw [h2.ec, h2.eb] at this; omega
    have hRc : (b / 10 ^ i + 1) * 10 ^ i ≤ c := le_trans (Nat.mul_le_mul_right _ hcb) hC
    have hRb : b + 1 ≤ (b / 10 ^ i + 1) * 10 ^ i := by
      have e : (b / 10 ^ i + 1) * 10 ^ i = 10 ^ i * (b / 10 ^ i) + 10 ^ i := by ring
      omega
    refine ⟨.inl ?_, hRc, h3, h4, ?_⟩
    · have : (b : ℚ) + 1 ≤ ((b / 10 ^ i + 1) * 10 ^ i : Nat) := by exact_mod_cast hRb
      linarith
    · intro hi hbz hlt
      exfalso
      subst hi
      have hr := h2.rem (by decide)
      simp only [Nat.sub_self, Nat.pow_zero, Nat.div_one] at hr
      have hd1 := hd.1
      simp only [Bool.and_eq_true, not_and] at hd1
      have := hd1 (by simp [hr, hbz])
      rw [h2.ea, h2.eb] at this
      simp only [Nat.pow_one] at this
      have : a / 10 ≠ b / 10 := by omega
      simp_all
end JsonStruct
