import Verif.Lemmas.Number
import Verif.Model.Float
import Mathlib.Algebra.Order.Field.Rat
import Mathlib.Algebra.Order.Field.Power
import Mathlib.Tactic.Linarith
import Mathlib.Tactic.NormNum
import Mathlib.Tactic.Ring
import Mathlib.Tactic.Positivity
import Mathlib.Tactic.FieldSimp

/-
The text of a floating point number, and how it is taken apart.
-/

namespace JsonStruct

/-! ### Reading -/

/-- The digits in front of the exponent. -/
def digitsBefore : Bytes → Nat
  | [] => 0
  | c :: s => if !isDig c && c != DOT then 0 else if c = DOT then digitsBefore s else digitsBefore s + 1

theorem digitsIn_same (M : Nat) (s : Bytes) (p : Parsed) (dp : Option Nat) (inc : Bool) (h : p.count + digitsBefore s ≤ 19) :
    digitsIn M false s p dp inc = digitsIn M true s p dp inc := by
  induction s generalizing p dp inc with
  | nil => rfl
  | cons c s ih =>
    unfold digitsBefore at h
    unfold digitsIn
    split
    · rfl
    · rename_i h1
      rw [if_neg h1] at h
      split
      · rename_i h2
        rw [if_pos h2] at h
        split
        · rfl
        · exact ih _ _ _ h
      · rename_i h2
        rw [if_neg h2] at h
        simp only [Bool.false_or, Bool.true_or, if_true]
        rw [if_pos (by simp; omega)]
        refine ih _ _ _ ?_
        simp only
        have : (p.count + 1) % 256 ≤ p.count + 1 := Nat.mod_le _ _
        omega

theorem digitsBefore_append {ds r : Bytes} (h : AllDigits ds) : digitsBefore (ds ++ r) = ds.length + digitsBefore r := by
  induction ds with
  | nil => simp
  | cons c s ih =>
    have hc : isDigit c = true := h c (by simp)
    have hdot : c ≠ DOT := by rintro rfl; exact absurd hc (by decide)
    rw [List.cons_append, digitsBefore]
    simp only [isDig_eq, hc, Bool.not_true, Bool.false_and, Bool.false_eq_true, if_false, if_neg hdot]
    rw [ih (fun x hx => h x (by simp [hx])), List.length_cons]
    omega

theorem digitsBefore_stop {r : Bytes} (h : Stops r) : digitsBefore r = 0 := by
  cases r with
  | nil => rfl
  | cons c s =>
    obtain ⟨h1, h2⟩ := h c s rfl
    rw [digitsBefore]
    simp [isDig_eq, h1, h2]

theorem digitsBefore_num {n : NumText} (hn : n.Loose) :
    digitsBefore (n.int ++ fracText n.frac ++ expText n.exp) = (n.int ++ n.frac.getD []).length := by
  have hs := expStops hn (r := []) (fun _ => by intro c s h; simp at h)
  rw [List.append_nil] at hs
  rw [List.append_assoc, digitsBefore_append hn.1, List.length_append]
  congr 1
  cases hf : n.frac with
  | none => simpa [fracText] using digitsBefore_stop hs
  | some f =>
    simp only [fracText, List.cons_append, Option.getD_some]
    rw [digitsBefore]
    simp only [show (!isDig 46 && (46 : Byte) != DOT) = false by decide, Bool.false_eq_true, if_false, show (46 : Byte) = DOT from rfl, if_true]
    rw [digitsBefore_append (hn.2.1 f (by rw [hf]; rfl)), digitsBefore_stop hs, Nat.add_zero]

theorem head_not_minus {n : NumText} (hn : n.Loose) (hneg : n.neg = false) {c : Byte} {s : Bytes} (ht : n.text = c :: s) : c ≠ MINUS := by
  unfold NumText.text at ht
  rw [hneg] at ht
  simp only [Bool.false_eq_true, if_false, List.nil_append] at ht
  obtain ⟨h1, h2, h3⟩ := hn
  rintro rfl
  cases hi : n.int with
  | nil =>
    rw [hi] at ht
    cases hf : n.frac with
    | none =>
      rw [hf] at ht
      cases he : n.exp with
      | none => rw [he] at ht; simp [fracText, expText] at ht
      | some x =>
        have := h3 x (by rw [he]; rfl)
        rw [he] at ht
        simp [fracText, expText] at ht
        rcases this.1 with h' | h' <;> rw [h'] at ht <;> exact absurd ht.1 (by decide)
    | some f => rw [hf] at ht; simp [fracText] at ht; exact absurd ht.1 (by decide)
  | cons d ds =>
    rw [hi] at ht
    simp at ht
    have := h1 d (by rw [hi]; simp)
    rw [ht.1] at this
    exact absurd this (by decide)

/-- Up to 19 digits are all kept. -/
theorem parseNumber_same {M : Nat} {n : NumText} (hn : n.Loose) (hlen : (n.int ++ n.frac.getD []).length ≤ 19) :
    parseNumber M false n.text = parseNumber M true n.text := by
  have hdrop : n.text.dropWhile isSpace = n.text := by
    cases ht : n.text with
    | nil => rfl
    | cons c s => rw [List.dropWhile_cons, text_head hn c s ht]; simp
  unfold parseNumber
  rw [hdrop]
  cases ht : n.text with
  | nil => rfl
  | cons c s' =>
    have hs : (if c = MINUS then s' else c :: s') = n.int ++ fracText n.frac ++ expText n.exp := by
      cases hneg : n.neg
      · rw [if_neg (head_not_minus hn hneg ht), ← ht]
        unfold NumText.text
        simp [hneg]
      · unfold NumText.text at ht
        rw [hneg] at ht
        simp at ht
        obtain ⟨rfl, ht⟩ := ht
        simp [← ht]
    simp only [decide_eq_true_eq]
    rw [hs, digitsIn_same]
    simp only [Nat.zero_add]
    rw [digitsBefore_num hn]
    exact hlen

/-- What is read of a number with up to 19 digits. -/
theorem parseNumber_double {n : NumText} (hn : n.Loose) (hne : n.text ≠ []) (hlen : (n.int ++ n.frac.getD []).length ≤ 19)
    (he : ∀ x ∈ n.exp, decVal x.2.2 < 100000000) :
    parseNumber (2 ^ 64) false n.text = (.ok,
      { negative := n.neg, count := (n.int ++ n.frac.getD []).length, significand := n.mantissa, exp := n.scale, rest := [] }) := by
  rw [parseNumber_same hn hlen]
  obtain ⟨e, h1, h2⟩ := parseNumber_num (2 ^ 64) (by norm_num) [] (by simp) n hn hne
  rw [List.nil_append] at h2
  rw [h2]
  have hc : (n.int ++ n.frac.getD []).length % 256 = (n.int ++ n.frac.getD []).length := Nat.mod_eq_of_lt (by omega)
  have hm : n.mantissa % 2 ^ 64 = n.mantissa := by
    refine Nat.mod_eq_of_lt ?_
    have : n.mantissa < 10 ^ (n.int ++ n.frac.getD []).length := by
      refine decVal_lt _ ?_
      intro c hc
      rcases List.mem_append.1 hc with hc | hc
      · exact hn.1 c hc
      · cases hf : n.frac with
        | none => rw [hf] at hc; simp at hc
        | some f => rw [hf] at hc; exact hn.2.1 f (by rw [hf]; rfl) c hc
    refine Nat.lt_of_lt_of_le this (Nat.le_trans (Nat.pow_le_pow_right (by omega) hlen) (by norm_num))
  rw [hc, hm]
  congr 2
  unfold NumText.scale
  have hf : fracExp (decPosOf n.int n.frac) (n.int ++ n.frac.getD []).length = -((n.frac.getD []).length : Int) := by
    cases hf : n.frac with
    | none => simp [fracExp]
    | some f =>
      rw [hf] at hlen
      simp only [Option.getD_some, List.length_append] at hlen
      simp only [decPosOf, fracExp, Option.getD_some, List.length_append]
      rw [Nat.mod_eq_of_lt (by omega)]
      push_cast
      ring
  rw [hf]
  unfold ExpIs at h1
  cases hx : n.exp with
  | none => rw [hx] at h1; simp only at h1; rw [h1]; simp
  | some x =>
    obtain ⟨c, sign, d⟩ := x
    rw [hx] at h1
    simp only at h1
    obtain ⟨e', h3, h4⟩ := h1
    have h5 : decVal d < 100000000 := he _ (by rw [hx]; rfl)
    rw [h4, h3.1 h5]
    simp only
    ring

/-! ### Writing -/

theorem natDigits_eq (k x : Nat) (out : Bytes) : natDigits k x out = fixedDigits k x ++ out := by
  induction k generalizing x out with
  | zero => rfl
  | succ k ih => rw [natDigits, ih, fixedDigits]; simp

theorem putDigits_eq (k : Nat) (pos : Int) (sig : Nat) (out : Bytes) (h : (k : Int) ≤ pos + 1) :
    putDigits k pos sig out = (pos - k, sig / 10 ^ k, fixedDigits k sig ++ out) := by
  induction k generalizing pos sig out with
  | zero => simp [putDigits, fixedDigits]
  | succ k ih =>
    rw [putDigits, if_pos (by omega), ih _ _ _ (by omega), fixedDigits]
    simp only [List.append_assoc, List.cons_append, List.nil_append, Prod.mk.injEq, and_true]
    refine ⟨by push_cast; ring, ?_⟩
    rw [Nat.div_div_eq_div_mul, Nat.pow_succ']

theorem putDigits_zero (pos : Int) (sig : Nat) (out : Bytes) : putDigits 0 pos sig out = (pos, sig, out) := rfl

theorem putZeros_zero (pos before : Int) (out : Bytes) : putZeros 0 pos before out = (pos, before, out) := rfl

theorem putZeros_eq (k : Nat) (pos before : Int) (out : Bytes) (h : (k : Int) ≤ pos + 1) :
    putZeros k pos before out = (pos - k, before - k, List.replicate k 48 ++ out) := by
  induction k generalizing pos before out with
  | zero => simp [putZeros]
  | succ k ih =>
    rw [putZeros, if_pos (by omega), ih _ _ _ (by omega), List.replicate_succ']
    simp only [List.append_assoc, List.cons_append, List.nil_append, Prod.mk.injEq, and_true]
    exact ⟨by push_cast; ring, by push_cast; ring⟩

theorem fixedDigits_add (a b x : Nat) : fixedDigits a (x / 10 ^ b) ++ fixedDigits b x = fixedDigits (a + b) x := by
  induction b generalizing x with
  | zero => simp [fixedDigits]
  | succ b ih =>
    rw [fixedDigits, ← List.append_assoc, Nat.pow_succ', ← Nat.div_div_eq_div_mul, ih, ← Nat.add_assoc, fixedDigits]

theorem decVal_zeros (k : Nat) : decVal (List.replicate k 48) = 0 := by
  induction k with
  | zero => rfl
  | succ k ih => rw [List.replicate_succ, decVal_cons, ih]; simp

/-- The text that is written: a JSON number with at most `digits` digits and the right value. -/
structure NumWritten (r : Base10) (n : NumText) : Prop where
  neg : n.neg = r.negative
  loose : n.Loose
  int : JsonInt n.int
  frac : ∀ f ∈ n.frac, f ≠ []
  exp : ∀ x ∈ n.exp, decVal x.2.2 < 1000
  value : (n.mantissa : ℚ) * 10 ^ n.scale = r.significand * 10 ^ r.exp
  len : (n.int ++ n.frac.getD []).length ≤ 17 ∨ (n.int ++ n.frac.getD []).length ≤ 18 ∧ n.scale = -1
  range : n.scale + (n.int ++ n.frac.getD []).length - 1 = 0 ∨ n.scale + (n.int ++ n.frac.getD []).length = r.exp + r.count
  scale : n.scale = -1 ∨ n.scale = r.exp

theorem expanded_written {r : Base10} {size : Nat} (hd : HasDigits r.significand r.count) (h0 : 0 < r.significand)
    (hc : max 1 ((r.count : Int) + r.exp) + max 1 (if r.exp < 0 then -r.exp else 0) + 1 < 19)
    (hs : max 1 ((r.count : Int) + r.exp) + max 1 (if r.exp < 0 then -r.exp else 0) + 1 ≤ size) :
    ∃ n, n.neg = r.negative ∧ NumWritten r n ∧ expandedText r size = some (n.int ++ fracText n.frac) ∧ n.exp = none := by
  obtain ⟨d1, d2, d3⟩ := hd
  have hlow : 10 ^ (r.count - 1) ≤ r.significand := by
    rcases d3 with d3 | d3
    · rw [d3]; exact h0
    · exact d3
  have hhead := fixedDigits_head hlow d2 d1
  have hne : ∀ k x, 1 ≤ k → fixedDigits k x ≠ [] := by
    intro k x hk h
    have := fixedDigits_length k x
    rw [h] at this
    simp at this
    omega
  unfold expandedText
  simp only
  rw [if_neg (by omega)]
  by_cases hneg : r.exp < 0
  · obtain ⟨k, hk⟩ := Int.eq_ofNat_of_zero_le (show 0 ≤ -r.exp by omega)
    have hk1 : 1 ≤ k := by omega
    rw [if_pos hneg] at hc hs ⊢
    have hexp : r.exp = -(k : Int) := by omega
    rw [hexp] at hc hs ⊢
    simp only [neg_neg, Int.toNat_natCast] at hc hs ⊢
    generalize hC : max 1 ((r.count : Int) + -k) + max 1 (k : Int) + 1 = C at *
    have c1 : ¬ ((k : Int) = 0 ∧ 0 ≤ max (C - 1) 0 - k) := by omega
    have c2 : 0 ≤ max (C - 1) 0 - (k : Int) := by omega
    rw [putDigits_eq _ _ _ _ (by omega)]
    simp only [List.append_nil]
    rw [if_neg c1]
    simp only
    rw [if_pos c2]
    rw [show (max (-(k : Int)) 0).toNat = 0 by omega, putZeros_zero]
    simp only
    by_cases hb : (r.count : Int) + -k ≤ 0
    · -- 0.000ddd
      rw [show ((r.count : Int) + -k).toNat = 0 by omega, putDigits_zero]
      simp only
      rw [if_pos (show (r.count : Int) + -k ≤ 0 ∧ 0 ≤ max (C - 1) 0 - (k : Int) - 1 by omega)]
      refine ⟨{ neg := r.negative, int := b!"0", frac := some (fixedDigits k r.significand) }, rfl, ?_, ?_, rfl⟩
      · refine ⟨rfl, ⟨by intro c hc; simp only [List.mem_singleton] at hc; subst hc; decide, ?_, by simp⟩, .inl rfl, ?_, by simp, ?_, ?_, ?_, ?_⟩
        · intro f hf
          simp only [Option.mem_some_iff] at hf
          subst hf
          exact fixedDigits_digits _ _
        · intro f hf
          simp only [Option.mem_some_iff] at hf
          subst hf
          exact hne _ _ hk1
        · unfold NumText.mantissa NumText.scale
          simp only [Option.getD_some, List.cons_append, List.nil_append]
          rw [decVal_cons, fixedDigits_val, fixedDigits_length, hexp, Nat.mod_eq_of_lt]
          · simp
          · exact Nat.lt_of_lt_of_le d2 (Nat.pow_le_pow_right (by omega) (by omega))
        · left; simp [fixedDigits_length]; omega
        · left
          unfold NumText.scale
          simp [fixedDigits_length]
        · right
          unfold NumText.scale
          simp [fixedDigits_length, hexp]
      · rw [if_pos (by simp [fixedDigits_length]; omega)]
        rfl
    · -- ddd.ddd
      obtain ⟨m, hm⟩ := Int.eq_ofNat_of_zero_le (show 0 ≤ (r.count : Int) + -k by omega)
      have hcount : r.count = m + k := by omega
      rw [hm]
      simp only [Int.toNat_natCast]
      rw [putDigits_eq _ _ _ _ (by omega)]
      simp only
      rw [if_neg (show ¬ ((m : Int) ≤ 0 ∧ 0 ≤ max (C - 1) 0 - (k : Int) - 1 - m) by omega)]
      have hlt : r.significand / 10 ^ k < 10 ^ m := by
        rw [Nat.div_lt_iff_lt_mul (by positivity), ← Nat.pow_add, ← hcount]; exact d2
      refine ⟨{ neg := r.negative, int := fixedDigits m (r.significand / 10 ^ k), frac := some (fixedDigits k r.significand) }, rfl, ?_, ?_, rfl⟩
      · refine ⟨rfl, ⟨fixedDigits_digits _ _, ?_, by simp⟩, .inr ⟨⟨hne _ _ (by omega), fixedDigits_digits _ _⟩, ?_⟩, ?_, by simp, ?_, ?_, ?_, ?_⟩
        · intro f hf
          simp only [Option.mem_some_iff] at hf
          subst hf
          exact fixedDigits_digits _ _
        · refine fixedDigits_head ?_ hlt (by omega)
          rw [Nat.le_div_iff_mul_le (by positivity), ← Nat.pow_add]
          rw [show m - 1 + k = r.count - 1 by omega]
          exact hlow
        · intro f hf
          simp only [Option.mem_some_iff] at hf
          subst hf
          exact hne _ _ hk1
        · unfold NumText.mantissa NumText.scale
          simp only [Option.getD_some]
          rw [fixedDigits_add, fixedDigits_val, fixedDigits_length, hexp, ← hcount, Nat.mod_eq_of_lt d2]
          simp
        · left; simp [fixedDigits_length]; omega
        · right
          unfold NumText.scale
          simp [fixedDigits_length]; omega
        · right
          unfold NumText.scale
          simp [fixedDigits_length, hexp]
      · rw [if_pos (by simp [fixedDigits_length]; omega)]
        rfl
  · -- ddd000.0
    obtain ⟨k, hk⟩ := Int.eq_ofNat_of_zero_le (show 0 ≤ r.exp by omega)
    rw [if_neg hneg] at hc hs ⊢
    rw [hk] at hc hs ⊢
    rw [show (max (k : Int) 0).toNat = k by omega, Int.toNat_zero, putDigits_zero]
    generalize hC : max 1 ((r.count : Int) + k) + max 1 (0 : Int) + 1 = C at *
    have c1 : (0 : Int) = 0 ∧ 0 ≤ max (C - 1) 0 := by omega
    rw [if_pos (show (0 : Int) = 0 ∧ 0 ≤ ((max (C - 1) 0, r.significand, ([] : Bytes)) : Int × Nat × Bytes).1 from c1)]
    simp only
    rw [if_pos (show 0 ≤ max (C - 1) 0 - 1 by omega)]
    simp only
    rw [putZeros_eq _ _ _ _ (by omega)]
    simp only [add_sub_cancel_right, Int.toNat_natCast]
    rw [putDigits_eq _ _ _ _ (by omega)]
    simp only
    rw [if_neg (show ¬ ((r.count : Int) ≤ 0 ∧ 0 ≤ max (C - 1) 0 - 1 - 1 - (k : Int) - r.count) by omega)]
    refine ⟨{ neg := r.negative, int := fixedDigits r.count r.significand ++ List.replicate k 48, frac := some b!"0" }, rfl, ?_, ?_, rfl⟩
    · refine ⟨rfl, ⟨?_, ?_, by simp⟩, .inr ⟨⟨?_, ?_⟩, ?_⟩, ?_, by simp, ?_, ?_, ?_, ?_⟩
      · intro c hc
        rcases List.mem_append.1 hc with hc | hc
        · exact fixedDigits_digits _ _ c hc
        · rw [List.eq_of_mem_replicate hc]; decide
      · intro f hf
        simp only [Option.mem_some_iff] at hf
        subst hf
        unfold AllDigits; decide
      · simp [hne _ r.significand d1]
      · intro c hc
        rcases List.mem_append.1 hc with hc | hc
        · exact fixedDigits_digits _ _ c hc
        · rw [List.eq_of_mem_replicate hc]; decide
      · rw [List.head?_append_of_ne_nil _ (hne _ r.significand d1)]; exact hhead
      · intro f hf
        simp only [Option.mem_some_iff] at hf
        subst hf
        simp
      · unfold NumText.mantissa NumText.scale
        simp only [Option.getD_some]
        rw [decVal_append, decVal_append, fixedDigits_val, decVal_zeros, hk, Nat.mod_eq_of_lt d2]
        simp [decVal]
      · right; refine ⟨?_, ?_⟩
        · simp [fixedDigits_length]; omega
        · unfold NumText.scale; simp
      · right
        unfold NumText.scale
        simp [fixedDigits_length, hk]; ring
      · left
        unfold NumText.scale
        simp
    · rw [if_pos (by simp [fixedDigits_length]; omega)]
      simp [fracText, DOT]

theorem hasDigits_le {a d k : Nat} (h : HasDigits a d) (hk : a < 10 ^ k) (h1 : 1 ≤ k) : d ≤ k := by
  obtain ⟨_, _, h3 | h3⟩ := h
  · omega
  · have := Nat.lt_of_le_of_lt h3 hk
    have := (Nat.pow_lt_pow_iff_right (by omega : 1 < 10)).1 this
    omega

theorem scientific_written {r : Base10} {offset size K : Nat} (hd : HasDigits r.significand r.count) (h0 : 0 < r.significand)
    (hK : 1 ≤ K ∧ K ≤ 3) (he : (r.exp + r.count - 1).natAbs < 10 ^ K) (h17 : r.count ≤ 17) (hs : offset + r.count + K + 3 ≤ size) :
    ∃ n, n.neg = r.negative ∧ NumWritten r n ∧ scientificText r offset size = some (n.int ++ fracText n.frac ++ expText n.exp) := by
  obtain ⟨d1, d2, d3⟩ := hd
  have hlow : 10 ^ (r.count - 1) ≤ r.significand := by
    rcases d3 with d3 | d3
    · rw [d3]; exact h0
    · exact d3
  have hhead := fixedDigits_head hlow d2 d1
  have hlen := fixedDigits_length r.count r.significand
  have hdig := fixedDigits_digits r.count r.significand
  have hval := fixedDigits_val r.count r.significand
  rw [Nat.mod_eq_of_lt d2] at hval
  have hK3 : 10 ^ K ≤ 10 ^ 3 := Nat.pow_le_pow_right (by omega) hK.2
  norm_num at hK3
  unfold scientificText
  simp only [natDigits_eq, List.append_nil]
  generalize hE : r.exp + r.count - 1 = E at *
  have hn := countChars_spec (T := ⟨32, true⟩) (by decide) E (by
    have h1 : IntTy.min ⟨32, true⟩ = -2147483648 := by decide
    have h2 : IntTy.max ⟨32, true⟩ = 2147483647 := by decide
    refine ⟨by rw [h1]; omega, by rw [h2]; push_cast; omega⟩)
  have hnK := hasDigits_le hn he hK.1
  generalize countChars ⟨32, true⟩ E = N at *
  obtain ⟨n1, n2, n3⟩ := hn
  have hElen := fixedDigits_length N E.natAbs
  have hEdig := fixedDigits_digits N E.natAbs
  have hEval := fixedDigits_val N E.natAbs
  rw [Nat.mod_eq_of_lt n2] at hEval
  have hexplen : ((if E < 0 then [MINUS] else []) ++ fixedDigits N E.natAbs).length ≤ K + 1 := by
    rw [List.length_append, hElen]; split <;> simp <;> omega
  rw [if_neg (by omega)]
  cases hf : fixedDigits r.count r.significand with
  | nil => rw [hf] at hlen; simp at hlen; omega
  | cons d ds =>
    rw [hf] at hlen hdig hval hhead
    simp only [List.length_cons] at hlen
    simp only [List.headD_cons, List.drop_succ_cons, List.drop_zero]
    rw [if_neg (by omega), if_neg (by omega)]
    generalize hX : (if E < 0 then [MINUS] else []) ++ fixedDigits N E.natAbs = X at *
    refine ⟨{ neg := r.negative, int := [d], frac := if 1 < r.count then some ds else none,
              exp := some (101, if E < 0 then [MINUS] else [], fixedDigits N E.natAbs) }, rfl, ?_, ?_⟩
    · have hgetD : (if 1 < r.count then some ds else none).getD [] = ds := by
        split
        · rfl
        · have : ds = [] := List.length_eq_zero_iff.1 (by omega)
          rw [this]; rfl
      have hsc : (⟨r.negative, [d], if 1 < r.count then some ds else none,
          some (101, if E < 0 then [MINUS] else [], fixedDigits N E.natAbs)⟩ : NumText).scale = r.exp := by
        unfold NumText.scale
        simp only [hgetD, hEval]
        by_cases hE0 : E < 0
        · rw [if_pos hE0, if_pos (by rfl)]; omega
        · rw [if_neg hE0, if_neg (by simp)]; omega
      refine ⟨rfl, ⟨?_, ?_, ?_⟩, .inr ⟨⟨by simp, ?_⟩, ?_⟩, ?_, ?_, ?_, ?_, ?_, .inr hsc⟩
      · intro c hc
        exact hdig c (by simp only [List.mem_singleton] at hc; simp [hc])
      · intro f hf
        simp only at hf
        split at hf
        · simp only [Option.mem_some_iff] at hf
          subst hf
          exact fun c hc => hdig c (by simp [hc])
        · simp at hf
      · intro x hx
        simp only [Option.mem_some_iff] at hx
        subst hx
        refine ⟨.inl rfl, ?_, ?_, hEdig⟩
        · split
          · exact .inr (.inr rfl)
          · exact .inl rfl
        · intro h
          simp only at h
          rw [h] at hElen
          simp at hElen
          omega
      · intro c hc
        exact hdig c (by simp only [List.mem_singleton] at hc; simp [hc])
      · simpa using hhead
      · intro f hf
        simp only at hf
        split at hf
        · simp only [Option.mem_some_iff] at hf
          subst hf
          intro hnil
          rw [hnil] at hlen
          simp at hlen
          omega
        · simp at hf
      · intro x hx
        simp only [Option.mem_some_iff] at hx
        subst hx
        simp only [hEval]
        omega
      · rw [hsc]
        unfold NumText.mantissa
        simp only [hgetD, List.cons_append, List.nil_append, hval]
      · left
        simp only [hgetD, List.cons_append, List.nil_append, List.length_cons]
        omega
      · right
        rw [hsc]
        simp only [hgetD, List.cons_append, List.nil_append, List.length_cons]
        omega
    · simp only [expText, hX]
      by_cases hc1 : 1 < r.count
      · rw [if_pos hc1, if_pos hc1]
        simp only [List.cons_append, List.nil_append, List.length_cons, List.length_nil]
        have ht : ds.take (min (size - (offset + (0 + 1 + 1))) (r.count - 1)) = ds := List.take_of_length_le (by omega)
        rw [ht]
        simp only [List.length_append, List.length_cons, List.length_nil]
        rw [if_neg (by omega)]
        have ht2 : ∀ k, X.length ≤ k → X.take (min k X.length) = X := fun k hk => List.take_of_length_le (by omega)
        rw [ht2 _ (by omega)]
        simp [fracText, DOT]
      · have hds : ds = [] := List.length_eq_zero_iff.1 (by omega)
        subst hds
        rw [if_neg hc1, if_neg hc1]
        simp only [List.take_nil, List.append_nil, List.length_cons, List.length_nil, List.cons_append, List.nil_append]
        rw [if_neg (by omega)]
        have ht2 : ∀ k, X.length ≤ k → X.take (min k X.length) = X := fun k hk => List.take_of_length_le (by omega)
        rw [ht2 _ (by omega)]
        simp [fracText]

/-- The text of a finite number that is not zero. -/
theorem convertToBuffer_written {r : Base10} {size expanded K : Nat} (hinf : r.inf = false) (hnan : r.nan = false)
    (hd : HasDigits r.significand r.count) (h0 : 0 < r.significand) (hK : 1 ≤ K ∧ K ≤ 3)
    (he : (r.exp + r.count - 1).natAbs < 10 ^ K) (h17 : r.count ≤ 17) (hs : r.count + K + 5 ≤ size) (hx : expanded ≤ 19)
    (hx2 : expanded ≤ size) :
    ∃ n, convertToBuffer r size expanded = some n.text ∧ NumWritten r n := by
  unfold convertToBuffer
  rw [if_neg (by omega), hnan, hinf]
  simp only [Bool.false_eq_true, if_false]
  have hsz : size - 1 ≤ (if r.negative = true then size - 1 else size) := by split <;> omega
  have hsz2 : (if r.negative = true then [MINUS] else []).length + (size - 1) ≤ (if r.negative = true then size - 1 else size) + 1 := by
    split
    · simp; omega
    · simp; omega
  generalize (if r.negative = true then size - 1 else size) = sz at *
  by_cases hc : max 1 ((r.count : Int) + r.exp) + max 1 (if r.exp < 0 then -r.exp else 0) + 1 < expanded
  · rw [if_pos hc]
    obtain ⟨n, n1, n2, n3, n4⟩ := expanded_written (size := sz) hd h0 (by omega) (by omega)
    refine ⟨n, ?_, n2⟩
    rw [n3]
    unfold NumText.text
    rw [n4, n1]
    simp [expText, MINUS]
  · rw [if_neg hc]
    obtain ⟨n, n1, n2, n3⟩ := scientific_written (offset := (if r.negative = true then [MINUS] else []).length)
      (size := sz) (K := K) hd h0 hK he h17 (by omega)
    refine ⟨n, ?_, n2⟩
    rw [n3]
    unfold NumText.text
    rw [n1]
    simp [MINUS]

end JsonStruct
