import Verif.Spec.Register
import Verif.Lemmas.Number

/- Integers: what is read, without conditions. -/

namespace JsonStruct

theorem decLen_eq {a d : Nat} (h : HasDigits a d) : decLen a = d := by
  induction d generalizing a with
  | zero => exact absurd h.1 (by decide)
  | succ d ih =>
    obtain ⟨h1, h2, h3⟩ := h
    rw [decLen]
    split
    · rename_i hlt
      rcases h3 with h3 | h3
      · omega
      · simp only [Nat.add_sub_cancel] at h3
        rcases Nat.eq_zero_or_pos d with rfl | hd
        · rfl
        · have : 10 ^ 1 ≤ 10 ^ d := Nat.pow_le_pow_right (by decide) hd
          omega
    · rename_i hlt
      rcases Nat.eq_zero_or_pos d with rfl | hd
      · simp at h2; omega
      · rw [ih ⟨hd, ?_, ?_⟩]
        · rw [Nat.pow_succ] at h2; omega
        · rcases h3 with h3 | h3
          · omega
          · simp only [Nat.add_sub_cancel] at h3
            obtain ⟨k, rfl⟩ : ∃ k, d = k + 1 := ⟨d - 1, by omega⟩
            right
            rw [Nat.pow_succ] at h3
            simp only [Nat.add_sub_cancel]
            omega

theorem natMulLoop_mod (M k x : Nat) (hx : x < M) : natMulLoop M k x = x * 10 ^ k % M := by
  induction k generalizing x with
  | zero => rw [natMulLoop, Nat.pow_zero, Nat.mul_one, Nat.mod_eq_of_lt hx]
  | succ k ih =>
    rw [natMulLoop, ih _ (Nat.mod_lt _ (by omega)), Nat.mod_mul_mod, Nat.pow_succ, Nat.mul_assoc, Nat.mul_comm 10]

theorem makeInteger_sign {T : IntTy} (h : T.Supported) (m : Nat) (neg : Bool) :
    makeInteger T m neg = T.clamp (if neg = true ∧ T.signed = true then -(m : Int) else m) := by
  cases hs : T.signed
  · have : makeInteger T m neg = makeInteger T m false := by unfold makeInteger; rw [hs]; rfl
    rw [this, makeInteger_eq h m false (by simp)]
    simp
  · rw [makeInteger_eq h m neg (fun _ => hs)]
    simp

/-- What `convertToInteger` computes, without conditions. -/
theorem convert_exact {T : IntTy} (h : T.Supported) (p : Parsed) (hD : p.significand < T.modulus) :
    convertToInteger T p =
      if 0 < p.exp ∧ (decLen T.max : Int) < decLen p.significand + p.exp then if p.negative then T.min else T.max
      else T.clamp (if p.negative = true ∧ T.signed = true then -((scaled p.significand p.exp % T.modulus : Nat) : Int)
        else (scaled p.significand p.exp % T.modulus : Nat)) := by
  have ok := tyOk h
  have hin : T.sig.InRange p.significand := by
    have := sig_max T
    refine ⟨?_, by omega⟩
    have h1 : T.sig.signed = false := rfl
    rw [(tyOk (sig_supported T)).min_zero h1]; omega
  have hdig := countChars_spec (sig_supported T) p.significand hin
  simp only [Int.natAbs_natCast] at hdig
  have hlen := decLen_eq hdig
  have hlog : decLen T.max = T.log10 := decLen_eq ⟨by have := ok.log_pos; omega, ok.max_lt, .inr ok.le_max⟩
  rw [hlen, hlog]
  unfold convertToInteger
  generalize countChars T.sig ↑p.significand = c at *
  rcases Int.lt_trichotomy p.exp 0 with he | he | he
  · have hn : ¬ (0 < p.exp ∧ (T.log10 : Int) < c + p.exp) := by omega
    rw [if_pos he, if_neg hn]
    have hs : scaled p.significand p.exp = p.significand / 10 ^ (-p.exp).toNat := by
      unfold scaled; rw [if_neg (by omega)]
    have hlt : scaled p.significand p.exp % T.modulus = p.significand / 10 ^ (-p.exp).toNat := by
      rw [hs, Nat.mod_eq_of_lt (Nat.lt_of_le_of_lt (Nat.div_le_self _ _) hD)]
    rw [hlt]
    show (if (c : Int) ≤ -p.exp then 0 else _) = _
    by_cases hc : (c : Int) ≤ -p.exp
    · rw [if_pos hc]
      have : p.significand / 10 ^ (-p.exp).toNat = 0 :=
        Nat.div_eq_of_lt (Nat.lt_of_lt_of_le hdig.2.1 (Nat.pow_le_pow_right (by decide) (by omega)))
      rw [this, ← makeInteger_sign h 0 p.negative]
      simp [makeInteger]
    · rw [if_neg hc, natDivLoop_eq, makeInteger_sign h]
  · have hs : scaled p.significand p.exp = p.significand := by unfold scaled; rw [if_pos (by omega), he]; simp
    rw [if_neg (by omega), if_neg (by omega), if_neg (by omega), hs, Nat.mod_eq_of_lt hD, makeInteger_sign h]
  · rw [if_neg (by omega), if_pos he]
    have hs : scaled p.significand p.exp = p.significand * 10 ^ p.exp.toNat := by unfold scaled; rw [if_pos (by omega)]
    simp only
    by_cases hc : (T.log10 : Int) - c < p.exp
    · have hn : 0 < p.exp ∧ (T.log10 : Int) < c + p.exp := by omega
      rw [if_pos hc, if_pos hn]
    · have hn : ¬ (0 < p.exp ∧ (T.log10 : Int) < c + p.exp) := by omega
      rw [if_neg hc, if_neg hn, natMulLoop_mod _ _ _ hD, makeInteger_sign h, hs]

/-- Reading an integer, without conditions. -/
theorem intTo_exact {T : IntTy} (h : T.Supported) (sp : Bytes) (hsp : ∀ c ∈ sp, isSpace c = true) (n : NumText) (hn : n.Loose)
    (hne : n.text ≠ []) : intTo T (sp ++ n.text) = (.noError, n.inRegister T (if T.bits ≤ 64 then 64 else 128)) := by
  have ok := tyOk h
  have hmod : 2 ^ (if T.bits ≤ 64 then 64 else 128) = T.modulus := by unfold IntTy.modulus; split <;> rfl
  obtain ⟨e, he, hp⟩ := parseNumber_num T.modulus (modulus_pos T) sp hsp n hn hne
  have hfe : fracExp (decPosOf n.int n.frac) ((n.int ++ n.frac.getD []).length % 256) = -n.places := by
    unfold NumText.places
    cases hf : n.frac with
    | none => simp [decPosOf, fracExp]
    | some f => simp only [decPosOf, fracExp, Option.getD_some, List.length_append]; omega
  have hpl : -256 < n.places ∧ n.places < 256 := by
    unfold NumText.places
    split <;> omega
  have hrel : e = n.exponent ∨ (100000000 ≤ n.exponent ∧ 100000000 ≤ e) ∨ (n.exponent ≤ -100000000 ∧ e ≤ -100000000) := by
    unfold NumText.exponent
    unfold ExpIs at he
    cases hx : n.exp with
    | none => rw [hx] at he; exact .inl he
    | some x =>
      obtain ⟨c, sign, d⟩ := x
      rw [hx] at he
      obtain ⟨e', h1, h2⟩ := he
      unfold ExpOk at h1
      simp only at h2 ⊢
      split at h2 <;> rename_i hsg <;> simp only [hsg, if_true, if_false] <;> omega
  unfold intTo
  rw [hp]
  simp only [ne_eq, not_true_eq_false, or_self, if_false, if_true, Prod.mk.injEq, true_and, hfe]
  have hD : n.mantissa % T.modulus < T.modulus := Nat.mod_lt _ (modulus_pos T)
  rw [convert_exact h _ hD]
  unfold NumText.inRegister
  simp only [hmod]
  have hE : -n.places + e = n.exponent - n.places ∨ (39 ≤ -n.places + e ∧ 39 ≤ n.exponent - n.places) ∨
    (-n.places + e ≤ -39 ∧ n.exponent - n.places ≤ -39) := by omega
  generalize -n.places + e = x at *
  generalize n.exponent - n.places = y at *
  generalize n.mantissa % T.modulus = m at *
  have hlog : decLen T.max = T.log10 := decLen_eq ⟨by have := ok.log_pos; omega, ok.max_lt, .inr ok.le_max⟩
  have hl := ok.log_le
  have hpos : 0 < decLen m := by rw [decLen]; split <;> omega
  rcases hE with rfl | ⟨h1, h2⟩ | ⟨h1, h2⟩
  · rfl
  · have hx : 0 < x ∧ (decLen T.max : Int) < decLen m + x := by omega
    have hy : 0 < y ∧ (decLen T.max : Int) < decLen m + y := by omega
    rw [if_pos hx, if_pos hy]
  · have hx : ¬ (0 < x ∧ (decLen T.max : Int) < decLen m + x) := by omega
    have hy : ¬ (0 < y ∧ (decLen T.max : Int) < decLen m + y) := by omega
    rw [if_neg hx, if_neg hy]
    have small : ∀ e : Int, e ≤ -39 → scaled m e = 0 := by
      intro e he
      unfold scaled
      rw [if_neg (by omega)]
      have hmod : T.modulus ≤ 10 ^ 39 := by
        unfold IntTy.modulus; split <;> decide
      exact Nat.div_eq_of_lt (Nat.lt_of_lt_of_le (Nat.lt_of_lt_of_le hD hmod) (Nat.pow_le_pow_right (by decide) (by omega)))
    rw [small x h1, small y h2]

end JsonStruct
