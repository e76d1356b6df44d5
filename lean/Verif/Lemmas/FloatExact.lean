import Verif.Lemmas.FloatAny
import Verif.Spec.Exact

/-
Exactly which numbers that start with 0 cannot be read without undefined operations.
-/

namespace JsonStruct

/-- A run of digits that are all kept. -/
theorem digitsIn_all (ds r : Bytes) (hd : AllDigits ds) (p : Parsed) (dp : Option Nat) (inc : Bool) (hlen : p.count + ds.length ≤ 19)
    (hb : p.significand < 10 ^ p.count) :
    digitsIn (2 ^ 64) false (ds ++ r) p dp inc =
      digitsIn (2 ^ 64) false r { p with count := p.count + ds.length, significand := p.significand * 10 ^ ds.length + decVal ds } dp inc := by
  induction ds generalizing p with
  | nil => simp [decVal]
  | cons c ds ih =>
    have hc : isDigit c = true := hd c (by simp)
    have hdot : c ≠ DOT := by rintro rfl; exact absurd hc (by decide)
    have hlt := digit_lt hc
    simp only [List.length_cons] at hlen
    rw [List.cons_append, digitsIn]
    simp only [isDig_eq, hc, Bool.not_true, Bool.false_and, Bool.false_eq_true, if_false, if_neg hdot, Bool.false_or, decide_eq_true_eq]
    rw [if_pos (by omega)]
    have h64 : p.significand * 10 + (c.toNat - 48) < 2 ^ 64 := by
      have : 10 ^ (p.count + 1) ≤ 10 ^ 19 := Nat.pow_le_pow_right (by omega) (by omega)
      rw [pow_succ] at this
      norm_num at this ⊢
      omega
    rw [Nat.mod_eq_of_lt h64, Nat.mod_eq_of_lt (show p.count + 1 < 256 by omega), ih (fun x hx => hd x (by simp [hx])) _ (by simp only; omega)
      (by simp only; rw [pow_succ]; omega)]
    simp only [decVal_cons, List.length_cons]
    congr 2
    · ring
    · rw [pow_succ]; ring

/-- What is read of the digits of a number that starts with 0. -/
theorem digits_zero {n : NumText} (hn : n.Loose) (hint : n.int = b!"0") :
    ((n.frac.getD []).length ≤ 18 ∨ decVal ((n.frac.getD []).take 18) ≠ 0) ∧
      (∃ e, ExpIs n e ∧ parseNumber (2 ^ 64) false n.text = (.ok,
        { negative := n.neg, count := 1 + ((n.frac.getD []).take 19).length, significand := decVal ((n.frac.getD []).take 19),
          exp := e - ((n.frac.getD []).take 19).length, rest := [] })) ∨
    19 ≤ (n.frac.getD []).length ∧ decVal ((n.frac.getD []).take 18) = 0 ∧ (parseNumber (2 ^ 64) false n.text).1 = .ub := by
  have hne : n.text ≠ [] := by
    unfold NumText.text
    rw [hint]
    simp
  have hst := expStops hn (r := []) (fun _ => by intro c s h; simp at h)
  rw [List.append_nil] at hst
  have hstop : ∀ p dp inc, digitsIn (2 ^ 64) false (expText n.exp) p dp inc = (.ok, { p with rest := expText n.exp }, dp) := by
    intro p dp inc
    cases hx : expText n.exp with
    | nil => rfl
    | cons c s =>
      obtain ⟨h1, h2⟩ := hst c s hx
      rw [digitsIn]
      simp [isDig_eq, h1, h2]
  have h0 : ∀ r, digitsIn (2 ^ 64) false (n.int ++ r) { negative := n.neg } none true =
      digitsIn (2 ^ 64) false r { negative := n.neg, count := 1 } none true := by
    intro r
    rw [hint, digitsIn_all b!"0" r (by intro c hc; simp at hc; subst hc; decide) _ _ _ (by simp) (by simp)]
    rfl
  cases hf : n.frac with
  | none =>
    left
    refine ⟨.inl (by simp), ?_⟩
    obtain ⟨e, e1, e2⟩ := parseNumber_of_digits (n := n) (M := 2 ^ 64) (nc := false) (c := 1) (s := 0) (dp := none) hn hne (by
      rw [hf, List.append_assoc, show fracText none ++ expText n.exp = expText n.exp from rfl, h0, hstop])
    refine ⟨e, e1, ?_⟩
    rw [e2]
    simp [decVal, fracExp]
  | some f =>
    have hfd : AllDigits f := hn.2.1 f (by rw [hf]; rfl)
    simp only [Option.getD_some]
    have hdot : ∀ r p, digitsIn (2 ^ 64) false (46 :: r) p none true = digitsIn (2 ^ 64) false r p (some p.count) true := by
      intro r p
      rw [digitsIn]
      simp only [show (!isDig 46 && (46 : Byte) != DOT) = false by decide, Bool.false_eq_true, if_false, show (46 : Byte) = DOT from rfl, if_true,
        Option.isSome_none]
    by_cases hlen : f.length ≤ 18
    · left
      refine ⟨.inl hlen, ?_⟩
      rw [List.take_of_length_le (show f.length ≤ 19 by omega)]
      obtain ⟨e, e1, e2⟩ := parseNumber_of_digits (n := n) (M := 2 ^ 64) (nc := false) (c := 1 + f.length) (s := decVal f) (dp := some 1) hn hne (by
        rw [hf, List.append_assoc, h0, show fracText (some f) ++ expText n.exp = 46 :: (f ++ expText n.exp) from rfl, hdot,
          digitsIn_all f _ hfd _ _ _ (by simp only; omega) (by simp), hstop]
        simp)
      refine ⟨e, e1, ?_⟩
      rw [e2]
      simp only [fracExp]
      congr 2
      push_cast
      ring
    · -- the digits that count
      obtain ⟨c, t, hct⟩ : ∃ c t, f.drop 18 = c :: t := by
        cases h : f.drop 18 with
        | nil => have := congrArg List.length h; simp at this; omega
        | cons c t => exact ⟨c, t, rfl⟩
      have hsplit : f = f.take 18 ++ c :: t := by rw [← hct, List.take_append_drop]
      have htl : (f.take 18).length = 18 := by rw [List.length_take]; omega
      have hc : isDigit c = true := hfd c (by rw [hsplit]; simp)
      have hcdot : c ≠ DOT := by rintro rfl; exact absurd hc (by decide)
      have hlt := digit_lt hc
      have htd : AllDigits t := fun x hx => hfd x (by rw [hsplit]; simp [hx])
      have h18d : AllDigits (f.take 18) := fun x hx => hfd x (List.mem_of_mem_take hx)
      have hrun : digitsIn (2 ^ 64) false (n.int ++ fracText n.frac ++ expText n.exp) { negative := n.neg } none true =
          digitsIn (2 ^ 64) false (c :: (t ++ expText n.exp)) { negative := n.neg, count := 19, significand := decVal (f.take 18) } (some 1) true := by
        rw [hf, List.append_assoc, h0, show fracText (some f) ++ expText n.exp = 46 :: (f ++ expText n.exp) from rfl, hdot]
        conv_lhs => rw [hsplit]
        rw [List.append_assoc, digitsIn_all (f.take 18) _ h18d _ _ _ (by simp only; omega) (by simp), htl]
        simp
      by_cases hz : decVal (f.take 18) = 0
      · right
        refine ⟨by omega, hz, ?_⟩
        have hub : (digitsIn (2 ^ 64) false (n.int ++ fracText n.frac ++ expText n.exp) { negative := n.neg } none true).1 = .ub := by
          rw [hrun, hz, digitsIn]
          simp [isDig_eq, hc, hcdot]
        have hdrop : n.text.dropWhile isSpace = n.text := by
          cases ht : n.text with
          | nil => rfl
          | cons c s => rw [List.dropWhile_cons, text_head hn c s ht]; simp
        unfold parseNumber
        rw [hdrop]
        cases ht : n.text with
        | nil => exact absurd ht hne
        | cons c0 s' =>
          have hs : (if c0 = MINUS then s' else c0 :: s') = n.int ++ fracText n.frac ++ expText n.exp ∧ decide (c0 = MINUS) = n.neg := by
            cases hneg : n.neg
            · have h1 := head_not_minus hn hneg ht
              rw [if_neg h1, ← ht]
              unfold NumText.text
              simp [hneg, h1]
            · unfold NumText.text at ht
              rw [hneg] at ht
              simp at ht
              obtain ⟨rfl, ht⟩ := ht
              simp [← ht]
          simp only [hs.1, hs.2]
          rw [if_pos (by rw [hub]; simp), hub]
      · left
        refine ⟨.inr hz, ?_⟩
        have htake : f.take 19 = f.take 18 ++ [c] := by
          conv_lhs => rw [hsplit]
          rw [List.take_append, htl, List.take_of_length_le (by omega)]
          simp
        have hd18 := decVal_lt _ h18d
        rw [htl] at hd18
        have hval : decVal (f.take 19) = decVal (f.take 18) * 10 + (c.toNat - 48) := by
          rw [htake, decVal_append]
          simp [decVal]
        obtain ⟨e, e1, e2⟩ := parseNumber_of_digits (n := n) (M := 2 ^ 64) (nc := false) (c := 20) (s := decVal (f.take 19)) (dp := some 1) hn hne (by
          rw [hrun, digitsIn]
          simp only [isDig_eq, hc, Bool.not_true, Bool.false_and, Bool.false_eq_true, if_false, if_neg hcdot, Bool.false_or, decide_eq_true_eq,
            Bool.true_and]
          rw [if_neg (by omega), if_pos (by omega), if_neg hz, if_pos]
          · rw [Nat.mod_eq_of_lt (show decVal (f.take 18) * 10 + (c.toNat - 48) < 2 ^ 64 by norm_num at hd18 ⊢; omega), digitsIn_skip t _ htd _ _ (by simp), hstop]
            simp only [hval]
          · rw [Nat.le_div_iff_mul_le (Nat.pos_of_ne_zero hz)]
            norm_num at hd18 ⊢
            omega)
        refine ⟨e, e1, ?_⟩
        rw [e2, show (f.take 19).length = 19 by rw [List.length_take]; omega]
        simp only [fracExp]
        congr 2
        push_cast
        ring

theorem decVal_zero_iff {s : Bytes} (hd : AllDigits s) : decVal s = 0 ↔ ∀ c ∈ s, c = 0x30 := by
  constructor
  · intro h c hc
    by_contra hne
    exact decVal_ne_zero hd ⟨c, hc, hne⟩ h
  · intro h
    clear hd
    induction s with
    | nil => rfl
    | cons c s ih =>
      rw [decVal_cons, ih (fun c hc => h c (by simp [hc])), h c (by simp)]
      simp

/-- When a number that starts with 0 cannot be read. -/
theorem double_none_zero {n : NumText} (hn : n.Loose) (hint : n.int = b!"0") :
    doubleTo n.text = none ↔
      19 ≤ (n.frac.getD []).length ∧ (∀ c ∈ (n.frac.getD []).take 18, c = 0x30) ∨
      0 < n.cut.absValue ∧ n.cut.absValue < 2 ^ (-1077 : Int) ∧ -324 ≤ expoOf n := by
  have hfd : AllDigits (n.frac.getD []) := fun c hc => allDigits_num hn c (List.mem_append_right _ hc)
  have hcutf : n.cut.frac.getD [] = (n.frac.getD []).take 19 := by
    unfold NumText.cut
    cases n.frac <;> simp
  have hcute : expoOf n.cut = expoOf n := rfl
  have hcutm : n.cut.mantissa = decVal ((n.frac.getD []).take 19) := by
    unfold NumText.mantissa
    rw [hcutf, show n.cut.int = b!"0" from hint, List.cons_append, List.nil_append, decVal_cons]
    simp
  have hcutv : n.cut.absValue = decVal ((n.frac.getD []).take 19) * (10 : ℚ) ^ (expoOf n - ((n.frac.getD []).take 19).length) := by
    unfold NumText.absValue
    rw [hcutm, scale_eq, hcutf, hcute]
  have hpos : 0 < n.cut.absValue ↔ decVal ((n.frac.getD []).take 19) ≠ 0 := by
    rw [hcutv]
    constructor
    · intro h h0
      rw [h0] at h
      simp at h
    · intro h
      have : (0 : ℚ) < decVal ((n.frac.getD []).take 19) := by exact_mod_cast Nat.pos_of_ne_zero h
      positivity
  have h18 : decVal ((n.frac.getD []).take 18) = 0 ↔ ∀ c ∈ (n.frac.getD []).take 18, c = 0x30 :=
    decVal_zero_iff (fun c hc => hfd c (List.mem_of_mem_take hc))
  have hl19 : ((n.frac.getD []).take 19).length ≤ 19 := by rw [List.length_take]; omega
  rcases digits_zero hn hint with ⟨h1, e, he, hp⟩ | ⟨h1, h2, h3⟩
  · have hno : ¬ (19 ≤ (n.frac.getD []).length ∧ ∀ c ∈ (n.frac.getD []).take 18, c = 0x30) := by
      rw [← h18]
      rcases h1 with h1 | h1
      · intro h; omega
      · intro h; exact h1 h.2
    have hd : doubleTo n.text = none ↔
        convertToDouble (⟨n.neg, 1 + ((n.frac.getD []).take 19).length, e - ((n.frac.getD []).take 19).length, decVal ((n.frac.getD []).take 19), []⟩ : Parsed) = none := by
      unfold doubleTo
      rw [hp]
      simp only
      rw [if_neg (by simp), if_neg (by simp)]
      generalize convertToDouble _ = o
      cases o <;> simp
    have hlt := decVal_lt _ (show AllDigits ((n.frac.getD []).take 19) from fun c hc => hfd c (List.mem_of_mem_take hc))
    have hlt19 : 10 ^ ((n.frac.getD []).take 19).length ≤ 10 ^ 19 := Nat.pow_le_pow_right (by norm_num) hl19
    have h64 : decVal ((n.frac.getD []).take 19) < 2 ^ 64 := lt_of_lt_of_le hlt (hlt19.trans (by norm_num))
    rw [hd, convert_none h64 (by simp only; omega), hpos]
    simp only [hno, false_or]
    unfold Parsed.value
    simp only
    constructor
    · rintro ⟨g1, g2, g3, g4⟩
      push_cast at g2 g3
      have hee : e = expoOf n := by
        rcases expIs_cases he with h | h | h
        · exact h
        · omega
        · omega
      refine ⟨g1, ?_, by omega⟩
      rw [hcutv, ← hee]
      exact g4
    · rintro ⟨g1, g2, g3⟩
      have hup : expoOf n ≤ 0 := by
        by_contra hc
        have h2 : (1 : ℚ) ≤ decVal ((n.frac.getD []).take 19) := by exact_mod_cast Nat.pos_of_ne_zero g1
        have h3 : (10 : ℚ) ^ (-324 : Int) ≤ n.cut.absValue := by
          rw [hcutv]
          refine le_trans ?_ (mul_le_mul_of_nonneg_right h2 (by positivity))
          rw [one_mul]
          exact zpow_le_zpow_right₀ (by norm_num) (by omega)
        have h4 : (1 : ℚ) / 10 ^ 324 = 10 ^ (-324 : Int) := by
          rw [show (-324 : Int) = -((324 : Nat) : Int) from rfl, zpow_neg, zpow_natCast, one_div]
        have := pow_1077
        rw [h4] at this
        exact absurd g2 (not_lt.2 (le_trans this h3))
      have hee : e = expoOf n := by
        rcases expIs_cases he with h | h | h
        · exact h
        · omega
        · omega
      refine ⟨g1, by push_cast; omega, by push_cast; omega, ?_⟩
      rw [hee, ← hcutv]
      exact g2
  · constructor
    · intro _
      exact .inl ⟨h1, h18.1 h2⟩
    · intro _
      unfold doubleTo
      simp only
      rw [if_pos h3]

theorem expo_eq (n : NumText) : n.expo = expoOf n := rfl

/-- When a JSON number cannot be read. -/
theorem double_none {n : NumText} (hn : n.Loose) (hint : JsonInt n.int) : doubleTo n.text = none ↔ n.Undefined := by
  by_cases h0 : n.int = b!"0"
  · rw [double_none_zero hn h0]
    unfold NumText.Undefined
    rw [expo_eq]
    simp only [h0, true_and]
  · constructor
    · intro h
      exfalso
      rcases hint with h' | ⟨⟨h', hd⟩, h''⟩
      · exact h0 h'
      · cases hi : n.int with
        | nil => exact h' hi
        | cons c s =>
          rw [hi] at h'' hd
          refine doubleTo_safe (sp := []) (sign := if n.neg then b!"-" else []) (d := c) (rest := s ++ fracText n.frac ++ expText n.exp) (by simp)
            (by cases n.neg <;> simp) (hd c (by simp)) (by simpa using h'') ?_
          rw [← h]
          unfold NumText.text
          rw [hi]
          simp
    · intro h
      exact absurd h.1 h0

/-- A number of a few digits that is not too small can be read. -/
theorem double_defined {n : NumText} (hn : n.Loose) (hint : JsonInt n.int) (hlen : (n.frac.getD []).length ≤ 18)
    (h : 2 ^ (-1077 : Int) ≤ n.absValue) : doubleTo n.text ≠ none := by
  rw [ne_eq, double_none hn hint]
  rintro ⟨_, ⟨h1, _⟩ | ⟨_, h1, _⟩⟩
  · omega
  · have : n.cut = n := by
      obtain ⟨neg, int, frac, exp⟩ := n
      unfold NumText.cut
      cases frac with
      | none => rfl
      | some f => simp only [Option.getD_some] at hlen; simp [List.take_of_length_le (show f.length ≤ 19 by omega)]
    rw [this] at h1
    exact absurd h1 (not_lt.2 h)

/-- A number that starts with 0 and has a large exponent is read as infinity. -/
theorem double_inf_zero {n : NumText} (hn : n.Loose) (hint : n.int = b!"0") (he : 308 < expoOf n)
    (hz : (n.frac.getD []).length ≤ 18 ∨ ∃ c ∈ (n.frac.getD []).take 18, c ≠ 0x30) :
    doubleTo n.text = some (.noError, makeInf f64 n.neg) := by
  have hfd : AllDigits (n.frac.getD []) := fun c hc => allDigits_num hn c (List.mem_append_right _ hc)
  rcases digits_zero hn hint with ⟨h1, e, he', hp⟩ | ⟨h1, h2, h3⟩
  · unfold doubleTo
    rw [hp]
    simp only
    rw [if_neg (by simp), if_neg (by simp)]
    unfold convertToDouble
    simp only
    rw [if_pos (by push_cast; rcases expIs_cases he' with h | h | h <;> omega)]
    simp
  · exfalso
    rcases hz with hz | hz
    · omega
    · exact decVal_ne_zero (fun c hc => hfd c (List.mem_of_mem_take hc)) hz h2

end JsonStruct
