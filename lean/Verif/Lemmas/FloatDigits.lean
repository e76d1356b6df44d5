import Verif.Lemmas.FloatText

/-
Numbers of any length: which digits are kept.
-/

namespace JsonStruct

theorem digit_lt {c : Byte} (h : isDigit c = true) : c.toNat - 48 < 10 :=
  forall_byte (p := fun c => isDigit c = true → c.toNat - 48 < 10) (by decide +kernel) c h

/-- What holds while digits are read. -/
structure Kept (p : Parsed) (inc : Bool) : Prop where
  count : p.count ≤ 20
  last : p.count = 20 → inc = false
  fits : p.significand < 2 ^ 64
  below : p.significand < 10 ^ p.count

/-- No more digits are kept. -/
theorem digitsIn_skip (ds r : Bytes) (hd : AllDigits ds) (p : Parsed) (dp : Option Nat) (h : 19 ≤ p.count) :
    digitsIn (2 ^ 64) false (ds ++ r) p dp false = digitsIn (2 ^ 64) false r p dp false := by
  induction ds with
  | nil => rfl
  | cons c ds ih =>
    have hc : isDigit c = true := hd c (by simp)
    have hdot : c ≠ DOT := by rintro rfl; exact absurd hc (by decide)
    rw [List.cons_append, digitsIn]
    simp only [isDig_eq, hc, Bool.not_true, Bool.false_and, Bool.false_eq_true, if_false, if_neg hdot, Bool.false_or, decide_eq_true_eq,
      show ¬ p.count < 19 by omega]
    exact ih (fun x hx => hd x (by simp [hx]))

/-- A run of digits. -/
theorem digitsIn_run (ds r : Bytes) (hd : AllDigits ds) (p : Parsed) (dp : Option Nat) (inc : Bool) (hk : Kept p inc)
    (hz : p.count + ds.length ≤ 19 ∨ p.significand * 10 ^ (19 - p.count) + decVal (ds.take (19 - p.count)) ≠ 0) :
    ∃ j p' inc', j ≤ ds.length ∧ digitsIn (2 ^ 64) false (ds ++ r) p dp inc = digitsIn (2 ^ 64) false r p' dp inc' ∧
      p' = { p with count := p.count + j, significand := p.significand * 10 ^ j + decVal (ds.take j) } ∧
      (j = ds.length ∨ 19 ≤ p'.count) ∧ Kept p' inc' := by
  induction ds generalizing p inc with
  | nil => exact ⟨0, p, inc, by simp, rfl, by simp [decVal], .inl rfl, hk⟩
  | cons c ds ih =>
    have hc : isDigit c = true := hd c (by simp)
    have hdot : c ≠ DOT := by rintro rfl; exact absurd hc (by decide)
    have hlt := digit_lt hc
    have hd' : AllDigits ds := fun x hx => hd x (by simp [hx])
    rw [List.cons_append, digitsIn]
    simp only [isDig_eq, hc, Bool.not_true, Bool.false_and, Bool.false_eq_true, if_false, if_neg hdot, Bool.false_or, decide_eq_true_eq,
      Bool.and_eq_true]
    have hcount := hk.count
    -- one more digit is kept
    have step : ∀ inc', p.count < 20 → p.significand * 10 + (c.toNat - 48) < 2 ^ 64 → (p.count = 19 → inc' = false) →
        ∃ j p' inc'', j ≤ (c :: ds).length ∧ digitsIn (2 ^ 64) false (ds ++ r)
            { p with significand := (p.significand * 10 + (c.toNat - 48)) % 2 ^ 64, count := (p.count + 1) % 256 } dp inc' =
            digitsIn (2 ^ 64) false r p' dp inc'' ∧
          p' = { p with count := p.count + j, significand := p.significand * 10 ^ j + decVal ((c :: ds).take j) } ∧
          (j = (c :: ds).length ∨ 19 ≤ p'.count) ∧ Kept p' inc'' := by
      intro inc' h20 h64 hinc
      rw [Nat.mod_eq_of_lt h64, Nat.mod_eq_of_lt (show p.count + 1 < 256 by omega)]
      have hbelow : p.significand * 10 + (c.toNat - 48) < 10 ^ (p.count + 1) := by
        have := hk.below
        rw [pow_succ]; omega
      obtain ⟨j, p', inc'', h1, h2, h3, h4, h5⟩ := ih hd' { p with significand := p.significand * 10 + (c.toNat - 48), count := p.count + 1 } inc'
        ⟨by simp only; omega, by simp only; intro h; exact hinc (by omega), h64, hbelow⟩ (by
          simp only
          rcases hz with hz | hz
          · exact .inl (by simp at hz; omega)
          · right
            rcases Nat.lt_or_ge p.count 19 with h19 | h19
            · rw [show 19 - p.count = (19 - (p.count + 1)) + 1 by omega, List.take_succ_cons, decVal_cons, pow_succ] at hz
              intro hcon
              apply hz
              have e1 := Nat.eq_zero_of_add_eq_zero hcon
              have e2 : p.significand * 10 + (c.toNat - 48) = 0 := by
                rcases Nat.mul_eq_zero.1 e1.1 with h | h
                · exact h
                · exact absurd h (by positivity)
              have e3 : p.significand = 0 := by omega
              have e4 : c.toNat - 48 = 0 := by omega
              rw [e3, e4, e1.2]; simp
            · rw [show 19 - p.count = 0 by omega] at hz
              rw [show 19 - (p.count + 1) = 0 by omega]
              simp [decVal] at hz ⊢
              intro h; exact absurd h hz)
      refine ⟨j + 1, p', inc'', by simp; omega, h2, ?_, ?_, h5⟩
      · rw [h3]
        simp only [List.take_succ_cons, decVal_cons]
        have htl : (ds.take j).length = j := by rw [List.length_take]; omega
        rw [htl]
        congr 1
        · ring
        · rw [pow_succ]; ring
      · rcases h4 with h4 | h4
        · left; rw [h4]; simp
        · exact .inr h4
    split
    · rename_i h19
      refine step inc (by omega) ?_ (by omega)
      have hb := hk.below
      have : 10 ^ (p.count + 1) ≤ 10 ^ 19 := Nat.pow_le_pow_right (by omega) (by omega)
      rw [pow_succ] at this
      norm_num at this ⊢
      omega
    · rename_i h19
      have hsz : p.significand ≠ 0 := by
        rcases hz with hz | hz
        · simp at hz; omega
        · rw [show 19 - p.count = 0 by omega] at hz
          simpa [decVal] using hz
      split
      · rename_i hinc
        split
        · rename_i hfit
          refine step false hinc.2 ?_ (by simp)
          have := (Nat.le_div_iff_mul_le (Nat.pos_of_ne_zero hsz)).1 hfit
          omega
        · exact ⟨0, p, false, by simp, digitsIn_skip ds r hd' p dp (by omega), by simp [decVal], .inr (by omega),
            ⟨hk.count, fun _ => rfl, hk.fits, hk.below⟩⟩
      · rename_i hinc
        have hi : inc = false := by
          by_cases h : inc = true
          · exact hk.last (by have : ¬ p.count < 20 := fun h2 => hinc ⟨h, h2⟩; omega)
          · simpa using h
        subst hi
        exact ⟨0, p, false, by simp, digitsIn_skip ds r hd' p dp (by omega), by simp [decVal], .inr (by omega), hk⟩

/-- The text behind the digits: the exponent. -/
theorem parseNumber_of_digits {M : Nat} {nc : Bool} {n : NumText} {c s : Nat} {dp : Option Nat} (hn : n.Loose) (hne : n.text ≠ [])
    (hdig : digitsIn M nc (n.int ++ fracText n.frac ++ expText n.exp) { negative := n.neg } none true =
      (.ok, { negative := n.neg, count := c, significand := s, rest := expText n.exp }, dp)) :
    ∃ e, ExpIs n e ∧ parseNumber M nc n.text = (.ok,
      { negative := n.neg, count := c, significand := s, exp := fracExp dp c + e, rest := [] }) := by
  have hdrop : n.text.dropWhile isSpace = n.text := by
    cases ht : n.text with
    | nil => rfl
    | cons c s => rw [List.dropWhile_cons, text_head hn c s ht]; simp
  unfold parseNumber
  rw [hdrop]
  cases ht : n.text with
  | nil => exact absurd ht hne
  | cons c0 s' =>
    have hs : (if c0 = MINUS then s' else c0 :: s') = n.int ++ fracText n.frac ++ expText n.exp ∧ decide (c0 = MINUS) = n.neg := by
      cases hneg : n.neg
      · have h1 := head_not_minus hn hneg ht
        rw [if_neg h1, ← ht]
        unfold NumText.text
        simp [hneg, h1]
      · unfold NumText.text at ht
        rw [hneg] at ht
        simp at ht
        obtain ⟨rfl, ht⟩ := ht
        simp [← ht]
    obtain ⟨h1, h2⟩ := hs
    simp only [h2]
    rw [h1, hdig]
    simp only [ne_eq, not_true_eq_false, if_false]
    cases he : n.exp with
    | none =>
      refine ⟨0, by simp [ExpIs, he], ?_⟩
      simp [expText]
    | some x =>
      obtain ⟨e, sign, d⟩ := x
      obtain ⟨he1, he2, he3⟩ := loose_signs hn e sign d he
      have hne' : ¬ (e ≠ 101 ∧ e ≠ 69) := by rcases he1 with rfl | rfl <;> decide
      have hr0 : ∀ c s, ([] : Bytes) = c :: s → isDigit c = false := by simp
      obtain ⟨e', g1, g2⟩ := exponentIn_digits d [] 0 0 false he3.2 hr0 (by simp [ExpOk])
      rw [List.append_nil] at g1
      have hdne : (!d.isEmpty) = true := by
        cases d with
        | nil => exact absurd rfl he3.1
        | cons => rfl
      rw [hdne] at g1
      refine ⟨if sign = b!"-" then -(e' : Int) else e', by simp only [ExpIs, he]; exact ⟨e', by simpa using g2, rfl⟩, ?_⟩
      simp only [expText, hne', if_false]
      obtain ⟨d0, ds, rfl⟩ : ∃ d0 ds, d = d0 :: ds := by
        cases d with
        | nil => exact absurd rfl he3.1
        | cons d0 ds => exact ⟨d0, ds, rfl⟩
      have hd0 : d0 ≠ MINUS ∧ d0 ≠ PLUS := by
        have := he3.2 d0 (by simp)
        exact forall_byte (p := fun c => isDigit c = true → c ≠ MINUS ∧ c ≠ PLUS) (by decide +kernel) d0 this
      rcases he2 with rfl | rfl | rfl
      · simp [hd0, g1]
      · simp [g1, show (43 : Byte) ≠ MINUS by decide]
      · simp [g1]

/-- What is read of a number of any length: a first part of its digits. -/
theorem parseNumber_long {n : NumText} (hn : n.Loose) (hne : n.text ≠ [])
    (hz : (n.int ++ n.frac.getD []).length ≤ 19 ∨ decVal ((n.int ++ n.frac.getD []).take 19) ≠ 0) :
    ∃ (j1 j2 : Nat) (e : Int), ExpIs n e ∧ j1 ≤ n.int.length ∧ j2 ≤ (n.frac.getD []).length ∧ (j1 = n.int.length ∨ 19 ≤ j1) ∧
      (j2 = (n.frac.getD []).length ∨ 19 ≤ j1 + j2) ∧ j1 + j2 ≤ 20 ∧
      decVal (n.int.take j1) * 10 ^ j2 + decVal ((n.frac.getD []).take j2) < 2 ^ 64 ∧
      parseNumber (2 ^ 64) false n.text = (.ok,
        { negative := n.neg, count := j1 + j2, significand := decVal (n.int.take j1) * 10 ^ j2 + decVal ((n.frac.getD []).take j2),
          exp := e - j2, rest := [] }) := by
  have hst := expStops hn (r := []) (fun _ => by intro c s h; simp at h)
  rw [List.append_nil] at hst
  have hstop : ∀ p dp inc, digitsIn (2 ^ 64) false (expText n.exp) p dp inc = (.ok, { p with rest := expText n.exp }, dp) := by
    intro p dp inc
    cases hx : expText n.exp with
    | nil => rfl
    | cons c s =>
      obtain ⟨h1, h2⟩ := hst c s hx
      rw [digitsIn]
      simp [isDig_eq, h1, h2]
  obtain ⟨j1, p1, inc1, a1, a2, a3, a4, a5⟩ := digitsIn_run n.int (fracText n.frac ++ expText n.exp) hn.1 { negative := n.neg } none true
    ⟨by simp, by simp, by simp, by simp⟩ (by
      simp only [Nat.zero_add, Nat.zero_mul, Nat.sub_zero]
      rcases hz with hz | hz
      · left; simp at hz; omega
      · rcases Nat.lt_or_ge 19 n.int.length with h | h
        · right
          rwa [List.take_append_of_le_length (by omega)] at hz
        · exact .inl h)
  simp only [Nat.zero_add, Nat.zero_mul] at a3
  have hp1 := a5.count
  cases hf : n.frac with
  | none =>
    rw [hf] at a2
    rw [show fracText none ++ expText n.exp = expText n.exp from rfl, hstop, a3] at a2
    obtain ⟨e, e1, e2⟩ := parseNumber_of_digits (n := n) (M := 2 ^ 64) (nc := false) hn hne (by
      rw [hf, List.append_assoc, show fracText none ++ expText n.exp = expText n.exp from rfl, a2])
    have h64 := a5.fits
    rw [a3] at hp1 a4 h64
    refine ⟨j1, 0, e, e1, a1, by simp, a4, by simp, hp1, by simpa [decVal] using h64, ?_⟩
    rw [e2]
    simp [decVal, fracExp]
  | some f =>
    have hfd := hn.2.1 f (by rw [hf]; rfl)
    rw [hf] at hz
    simp only [Option.getD_some] at hz ⊢
    rw [hf] at a2
    rw [show fracText (some f) ++ expText n.exp = 46 :: (f ++ expText n.exp) from rfl, digitsIn] at a2
    simp only [show (!isDig 46 && (46 : Byte) != DOT) = false by decide, Bool.false_eq_true, if_false, show (46 : Byte) = DOT from rfl, if_true,
      Option.isSome_none] at a2
    have hp1c : p1.count = j1 := by rw [a3]
    obtain ⟨j2, p2, inc2, b1, b2, b3, b4, b5⟩ := digitsIn_run f (expText n.exp) hfd p1 (some p1.count) inc1 a5 (by
      rw [hp1c]
      rcases hz with hz | hz
      · left; simp at hz; omega
      · rcases Nat.lt_or_ge 19 (n.int.length) with h | h
        · right
          intro hcon
          have : j1 ≥ 19 := by rcases a4 with h' | h' <;> omega
          rw [show 19 - j1 = 0 by omega, pow_zero, Nat.mul_one, List.take_zero] at hcon
          simp only [decVal, List.foldl_nil, Nat.add_zero] at hcon
          rw [a3] at hcon
          simp only at hcon
          apply hz
          rw [List.take_append_of_le_length (by omega)]
          have h3 : n.int.take j1 = n.int.take 19 ++ (n.int.drop 19).take (j1 - 19) := by
            rw [show j1 = 19 + (j1 - 19) by omega, List.take_add]; simp
          rw [h3, decVal_append] at hcon
          have := Nat.eq_zero_of_add_eq_zero hcon
          rcases Nat.mul_eq_zero.1 this.1 with h | h
          · exact h
          · exact absurd h (by positivity)
        · have hj : j1 = n.int.length := by rcases a4 with h' | h' <;> omega
          right
          rw [List.take_append, decVal_append] at hz
          rw [a3]
          simp only
          rw [hj]
          intro hcon
          apply hz
          have := Nat.eq_zero_of_add_eq_zero hcon
          have h0 : decVal (n.int.take n.int.length) = 0 := by
            rcases Nat.mul_eq_zero.1 this.1 with h | h
            · exact h
            · exact absurd h (by positivity)
          rw [List.take_of_length_le (show n.int.length ≤ 19 by omega)]
          rw [List.take_length] at h0
          rw [h0, this.2]; simp)
    rw [b2, hstop, b3] at a2
    obtain ⟨e, e1, e2⟩ := parseNumber_of_digits (n := n) (M := 2 ^ 64) (nc := false) (c := j1 + j2)
      (s := decVal (n.int.take j1) * 10 ^ j2 + decVal (f.take j2)) (dp := some j1) hn hne (by
      rw [hf, List.append_assoc, show fracText (some f) ++ expText n.exp = 46 :: (f ++ expText n.exp) from rfl, a2, a3])
    have h64 := b5.fits
    have hp2 := b5.count
    rw [b3, a3] at hp2 b4 h64
    rw [a3] at a4
    refine ⟨j1, j2, e, e1, a1, b1, a4, b4, hp2, h64, ?_⟩
    rw [e2]
    simp only [fracExp]
    congr 2
    push_cast
    ring

end JsonStruct
