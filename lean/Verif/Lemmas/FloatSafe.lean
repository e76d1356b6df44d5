import Verif.Lemmas.FloatNearest

/-
Reading a float does nothing undefined, whatever follows the first digit.
-/

namespace JsonStruct

theorem digitsIn_scan (s : Bytes) (p : Parsed) (dp : Option Nat) (inc : Bool) (w : Big) (k : Nat) (hc : p.count < 256) (hdp : ∀ x ∈ dp, x < 256)
    (h : (digitsIn (2 ^ 64) false s p dp inc).1 = .ok) :
    (digitsIn (2 ^ 64) false s p dp inc).2.1.rest = (scanDigits s w k dp.isSome).2.2 ∧ (scanDigits s w k dp.isSome).2.1 ≤ k + s.length ∧
    (digitsIn (2 ^ 64) false s p dp inc).2.1.count < 256 ∧ ∀ x ∈ (digitsIn (2 ^ 64) false s p dp inc).2.2, x < 256 := by
  induction s generalizing p dp inc w k with
  | nil => exact ⟨rfl, by simp [scanDigits], hc, hdp⟩
  | cons c s ih =>
    have step : ∀ (p' : Parsed) (inc' : Bool), c ≠ DOT → isDig c = true → p'.count < 256 → (digitsIn (2 ^ 64) false s p' dp inc').1 = .ok →
        (digitsIn (2 ^ 64) false s p' dp inc').2.1.rest = (scanDigits (c :: s) w k dp.isSome).2.2 ∧
        (scanDigits (c :: s) w k dp.isSome).2.1 ≤ k + (c :: s).length ∧
        (digitsIn (2 ^ 64) false s p' dp inc').2.1.count < 256 ∧ ∀ x ∈ (digitsIn (2 ^ 64) false s p' dp inc').2.2, x < 256 := by
      intro p' inc' h1 h2 h3 h4
      obtain ⟨a1, a2, a3, a4⟩ := ih p' dp inc' ((w.mulSmall 10).addSmall (c.toNat - 48)) (if dp.isSome then k + 1 else k) h3 hdp h4
      rw [scanDigits, if_neg h1, if_neg (by simp [h2])]
      refine ⟨a1, ?_, a3, a4⟩
      simp only [List.length_cons]
      cases hdps : dp.isSome <;> simp only [hdps, if_true, if_false, Bool.false_eq_true] at a2 ⊢ <;> omega
    rw [digitsIn] at h ⊢
    split at h
    · rename_i hd
      rw [if_pos hd]
      simp only [Bool.and_eq_true, Bool.not_eq_true', bne_iff_ne] at hd
      refine ⟨?_, ?_, hc, hdp⟩
      · rw [scanDigits, if_neg hd.2, if_pos (by simp [hd.1])]
      · rw [scanDigits, if_neg hd.2, if_pos (by simp [hd.1])]
        simp only
        omega
    · rename_i hd
      rw [if_neg hd]
      split at h
      · rename_i hdot
        rw [if_pos hdot]
        split at h
        · cases h
        · rename_i hnone
          rw [if_neg hnone]
          obtain ⟨a1, a2, a3, a4⟩ := ih p (some p.count) inc w k hc (by intro x hx; cases hx; exact hc) h
          rw [scanDigits, if_pos hdot, if_neg hnone]
          refine ⟨a1, ?_, a3, a4⟩
          simp only [List.length_cons]
          simp only [Option.isSome_some] at a2
          omega
      · rename_i hdot
        have hdig : isDig c = true := by
          cases hh : isDig c with
          | true => rfl
          | false => exact absurd (by simp [hh, hdot]) hd
        rw [if_neg hdot]
        split at h
        · rename_i h1
          rw [if_pos h1]
          exact step _ _ hdot hdig (Nat.mod_lt _ (by norm_num)) h
        · rename_i h1
          rw [if_neg h1]
          split at h
          · rename_i h2
            rw [if_pos h2]
            split at h
            · cases h
            · rename_i h3
              rw [if_neg h3]
              simp only at h ⊢
              split at h
              · rename_i h4
                rw [if_pos h4]
                exact step _ _ hdot hdig (Nat.mod_lt _ (by norm_num)) h
              · rename_i h4
                rw [if_neg h4]
                exact step _ _ hdot hdig hc h
          · rename_i h2
            rw [if_neg h2]
            exact step _ _ hdot hdig hc h

theorem exponentIn_ge (s : Bytes) (a : Nat) (asg : Bool) (h : 100000000 ≤ a) : 100000000 ≤ (exponentIn s a asg).1 := by
  induction s generalizing a asg with
  | nil => exact h
  | cons c s ih =>
    rw [exponentIn]
    split
    · exact h
    · rw [if_neg (by omega)]
      exact ih _ _ h

theorem exponentIn_scan (s : Bytes) (a : Nat) (asg : Bool) (h : (exponentIn s a asg).1 < 100000000) :
    scanExp s a = some (exponentIn s a asg).1 := by
  induction s generalizing a asg with
  | nil => rfl
  | cons c s ih =>
    have hc : c.toNat - 48 < 256 := by have := c.toNat_lt; omega
    rw [exponentIn] at h ⊢
    rw [scanExp]
    by_cases hd : (!isDig c) = true
    · rw [if_pos hd] at h ⊢
      rw [if_pos hd]
    · rw [if_neg hd] at h ⊢
      rw [if_neg hd]
      have ha : a < 100000000 := by
        by_contra hcon
        rw [if_neg hcon] at h
        have := exponentIn_ge s a true (by omega)
        omega
      rw [if_pos ha] at h ⊢
      rw [if_neg (by omega)]
      exact ih _ _ h

theorem fracExp_bound {dp : Option Nat} {k : Nat} (hk : k < 256) (hdp : ∀ x ∈ dp, x < 256) : -256 < fracExp dp k ∧ fracExp dp k < 256 := by
  unfold fracExp
  cases dp with
  | none => simp
  | some x =>
    have := hdp x rfl
    simp only
    omega

/-- A number with a small exponent can be read again. -/
theorem parse_scan {text : Bytes} {p : Parsed} (h : parseNumber (2 ^ 64) false text = (.ok, p)) (hplus : (text.dropWhile isSpace).head? ≠ some PLUS)
    (hlen : text.length < 2 ^ 30) (hexp : p.exp.natAbs < 10000000) : scanNumber text ≠ none := by
  have hl : (text.dropWhile isSpace).length ≤ text.length := (List.dropWhile_suffix _).length_le
  unfold parseNumber at h
  unfold scanNumber
  simp only [decide_eq_true_eq] at h ⊢
  generalize text.dropWhile isSpace = t at *
  cases t with
  | nil => simp at h
  | cons c s' =>
    simp only [decide_eq_true_eq] at h ⊢
    have hcp : c ≠ PLUS := by simpa using hplus
    have hs : (if c = MINUS ∨ c = PLUS then s' else c :: s') = if c = MINUS then s' else c :: s' := by
      by_cases hm : c = MINUS
      · simp [hm]
      · simp [hm, hcp]
    rw [hs]
    have hsl : (if c = MINUS then s' else c :: s').length < 2 ^ 30 := by
      simp only [List.length_cons] at hl
      split
      · omega
      · simp only [List.length_cons]; omega
    generalize (if c = MINUS then s' else c :: s') = s at *
    by_cases hok : (digitsIn (2 ^ 64) false s { negative := decide (c = MINUS) } none true).1 = .ok
    · obtain ⟨a1, a2, a3, a4⟩ := digitsIn_scan s { negative := decide (c = MINUS) } none true Big.zero 0 (by simp) (by simp) hok
      generalize digitsIn (2 ^ 64) false s { negative := decide (c = MINUS) } none true = q at *
      obtain ⟨err, p1, dp⟩ := q
      simp only at hok a1 a3 a4 h
      subst hok
      rw [show (none : Option Nat).isSome = false from rfl] at a1 a2
      generalize scanDigits s Big.zero 0 false = z at *
      obtain ⟨w, k, rest⟩ := z
      simp only at a1 a2 ⊢
      rw [a1] at h
      simp only [ne_eq, not_true_eq_false, if_false] at h
      have hfr := fracExp_bound a3 a4
      -- what is left to be shown
      suffices hx : ∃ ex : Int, (match rest with
          | [] => some 0
          | c :: s =>
            if c = 101 ∨ c = 69 then
              match s with
              | [] => some 0
              | g :: s' => ((scanExp (if g = MINUS ∨ g = PLUS then s' else g :: s') 0).map fun ex => if g = MINUS then -(ex : Int) else ex)
            else some 0) = some ex ∧ ex.natAbs < 20000000 by
        obtain ⟨ex, h1, h2⟩ := hx
        have h3 : ∀ o : Option Int, o = some ex → (match o with
            | none => none
            | some ex =>
              if 2 ^ 31 - 1000 ≤ k ∨ -(k : Int) + ex < -(2 ^ 31) + 1000 ∨ 2 ^ 31 - 1000 < -(k : Int) + ex then none else some (w, -(k : Int) + ex)) ≠ none := by
          rintro _ rfl
          simp only
          rw [if_neg (by omega)]
          simp
        refine h3 _ ?_
        rw [← h1]
        cases rest with
        | nil => rfl
        | cons c s =>
          simp only
          split
          · cases s with
            | nil => rfl
            | cons g s' =>
              simp only
          · rfl
      cases rest with
      | nil => exact ⟨0, rfl, by simp⟩
      | cons e s1 =>
        simp only at h ⊢
        by_cases he : e = 101 ∨ e = 69
        · rw [if_pos he]
          rw [if_neg (by tauto)] at h
          cases s1 with
          | nil => exact ⟨0, rfl, by simp⟩
          | cons g s2 =>
            simp only at h ⊢
            generalize (if g = MINUS ∨ g = PLUS then s2 else g :: s2) = s3 at *
            cases s3 with
            | nil => simp at h
            | cons y s4 =>
              simp only at h
              by_cases hasg : (exponentIn (y :: s4) 0 false).2.1 = true
              · rw [if_neg (by simp [hasg])] at h
                simp only [Prod.mk.injEq, true_and] at h
                subst h
                simp only at hexp
                have hlt : (exponentIn (y :: s4) 0 false).1 < 20000000 := by
                  split at hexp <;> omega
                rw [exponentIn_scan _ _ false (by omega)]
                refine ⟨_, rfl, ?_⟩
                by_cases hg : g = MINUS
                · simp only [hg, if_true]; omega
                · simp only [hg, if_false]; omega
              · rw [if_pos (by simpa using hasg)] at h
                simp at h
        · rw [if_neg he]
          exact ⟨0, rfl, by simp⟩
    · rw [if_pos hok] at h
      simp only [Prod.mk.injEq] at h
      exact absurd h.1 hok

theorem correctlyRound_safe {text : Bytes} {d f : Nat} (h : scanNumber text ≠ none) : correctlyRound text d f ≠ none := by
  unfold correctlyRound
  cases hs : scanNumber text with
  | none => exact absurd hs h
  | some x =>
    obtain ⟨w, e⟩ := x
    simp only
    repeat' split
    all_goals simp

/-- A number with a large exponent is 0 or infinite. -/
theorem convert_large {p : Parsed} (hc : p.count < 256) (h : 10000000 ≤ p.exp.natAbs) :
    ∃ v, convertToDouble p = some v ∧ (v % 2 ^ 63 = 0 ∨ v % 2 ^ 63 = f64.inf) := by
  unfold convertToDouble
  simp only
  by_cases h1 : 308 < p.exp + p.count - 1
  · rw [if_pos h1]
    refine ⟨_, rfl, .inr ?_⟩
    cases p.negative <;> decide
  · rw [if_neg h1, if_pos (by omega)]
    refine ⟨_, rfl, .inl ?_⟩
    cases p.negative <;> decide

theorem narrow_zero : narrow 0 = 0 := by decide +kernel
theorem narrow_inf : narrow f64.inf = f32.inf := by decide +kernel

theorem floatTo_safe {sp sign rest : Bytes} {d : Byte} (hsp : ∀ c ∈ sp, isSpace c = true) (hsign : sign = [] ∨ sign = b!"-")
    (hd : isDigit d = true) (hd0 : d ≠ 0x30) (hlen : (sp ++ sign ++ d :: rest).length < 2 ^ 30) : floatTo (sp ++ sign ++ d :: rest) ≠ none := by
  obtain ⟨h1, h2⟩ := parseNumber_safe (rest := rest) hsp hsign hd hd0
  have hdrop : ((sp ++ sign ++ d :: rest).dropWhile isSpace).head? ≠ some PLUS := by
    have g := forall_byte (p := fun d => isDigit d = true → isSpace d = false ∧ d ≠ PLUS) (by decide +kernel) d hd
    rw [List.append_assoc, List.dropWhile_append_of_pos hsp]
    rcases hsign with rfl | rfl
    · simp [g.1, g.2]
    · simp [show isSpace 45 = false by decide, show (45 : Byte) ≠ PLUS by decide]
  generalize sp ++ sign ++ d :: rest = text at *
  unfold floatTo
  simp only
  rw [if_neg h1]
  split
  · simp
  · rename_i hok
    have hok := Decidable.not_not.1 hok
    obtain ⟨a, b⟩ := h2 hok
    obtain ⟨v, hv, _⟩ := convert_nearest a.fits a.count a.below (.inl b)
    rw [hv]
    simp only
    have hr : correctlyRound text ((if (parseNumber (2 ^ 64) false text).2.negative then 2 ^ 63 + v else v) % 2 ^ 63)
        (narrow ((if (parseNumber (2 ^ 64) false text).2.negative then 2 ^ 63 + v else v) % 2 ^ 63)) ≠ none := by
      by_cases hexp : (parseNumber (2 ^ 64) false text).2.exp.natAbs < 10000000
      · exact correctlyRound_safe (parse_scan (p := (parseNumber (2 ^ 64) false text).2) (Prod.ext hok rfl) hdrop hlen hexp)
      · obtain ⟨v', c1, c2⟩ := convert_large (p := (parseNumber (2 ^ 64) false text).2) (by have := a.count; omega) (by omega)
        rw [hv] at c1
        have c1 := Option.some.inj c1
        rw [c1]
        rcases c2 with c2 | c2 <;> rw [c2]
        · rw [narrow_zero, correctlyRound_zero]; simp
        · rw [narrow_inf, correctlyRound_inf]; simp
    split
    · rename_i hn
      exact absurd hn hr
    · simp

/-- How many digits are kept. -/
theorem parse_count {text : Bytes} (h : (parseNumber (2 ^ 64) false text).1 = .ok) : (parseNumber (2 ^ 64) false text).2.count < 256 := by
  unfold parseNumber at h ⊢
  cases hd : text.dropWhile isSpace with
  | nil => rw [hd] at h; simp at h
  | cons c s' =>
    rw [hd] at h
    simp only at h ⊢
    generalize hs : (if c = MINUS then s' else c :: s') = s at *
    by_cases hok : (digitsIn (2 ^ 64) false s { negative := decide (c = MINUS) } none true).1 = .ok
    · obtain ⟨_, _, a3, _⟩ := digitsIn_scan s { negative := decide (c = MINUS) } none true Big.zero 0 (by simp) (by simp) hok
      generalize digitsIn (2 ^ 64) false s { negative := decide (c = MINUS) } none true = q at *
      obtain ⟨err, p1, dp⟩ := q
      simp only at hok a3 h ⊢
      subst hok
      simp only [ne_eq, not_true_eq_false, if_false] at h ⊢
      repeat' split
      all_goals exact a3
    · rw [if_pos hok] at h
      exact absurd h hok

/-- A float can be read if and only if a double can. -/
theorem float_none {text : Bytes} (hplus : (text.dropWhile isSpace).head? ≠ some PLUS) (hlen : text.length < 2 ^ 30) :
    floatTo text = none ↔ doubleTo text = none := by
  unfold floatTo doubleTo
  simp only
  split
  · simp
  · split
    · simp
    · rename_i hok
      have hok := Decidable.not_not.1 hok
      have hc := parse_count hok
      cases hv : convertToDouble (parseNumber (2 ^ 64) false text).2 with
      | none => simp
      | some v =>
        simp only [reduceCtorEq, iff_false]
        have hr : correctlyRound text (v % 2 ^ 63) (narrow (v % 2 ^ 63)) ≠ none := by
          by_cases hexp : (parseNumber (2 ^ 64) false text).2.exp.natAbs < 10000000
          · exact correctlyRound_safe (parse_scan (p := (parseNumber (2 ^ 64) false text).2) (Prod.ext hok rfl) hplus hlen hexp)
          · obtain ⟨v', c1, c2⟩ := convert_large (p := (parseNumber (2 ^ 64) false text).2) hc (by omega)
            rw [hv] at c1
            cases c1
            rcases c2 with c2 | c2 <;> rw [c2]
            · rw [narrow_zero, correctlyRound_zero]; simp
            · rw [narrow_inf, correctlyRound_inf]; simp
        split
        · rename_i hn
          exact absurd hn hr
        · simp

/-- A number starts with no plus. -/
theorem text_plus {n : NumText} (hn : n.Loose) (hint : JsonInt n.int) : (n.text.dropWhile isSpace).head? ≠ some PLUS := by
  have hdrop : n.text.dropWhile isSpace = n.text := by
    cases ht : n.text with
    | nil => rfl
    | cons c s => rw [List.dropWhile_cons, text_head hn c s ht]; simp
  rw [hdrop]
  have hi : ∀ c s, n.int = c :: s → c ≠ PLUS := by
    rintro c s h rfl
    have := hn.1 PLUS (by rw [h]; simp)
    exact absurd this (by decide)
  unfold NumText.text
  cases n.neg
  · cases h : n.int with
    | nil => rw [h] at hint; rcases hint with h' | ⟨⟨h', _⟩, _⟩ <;> simp at h'
    | cons c s => simpa using hi c s h
  · simp [show (45 : Byte) ≠ PLUS by decide]

end JsonStruct
