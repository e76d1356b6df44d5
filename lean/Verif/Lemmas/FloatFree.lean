import Verif.Lemmas.FloatSafe
import Verif.Spec.Gentle

/-
Reading a double or a float does nothing undefined for gentle texts.
-/

namespace JsonStruct

theorem digitsIn_rest (s : Bytes) (p : Parsed) (dp : Option Nat) (inc : Bool) :
    ∀ c ∈ (digitsIn (2 ^ 64) false s p dp inc).2.1.rest, c ∈ s := by
  induction s generalizing p dp inc with
  | nil => simp [digitsIn]
  | cons c s ih =>
    rw [digitsIn]
    simp only
    repeat' split
    all_goals first | (intro c hc; exact hc) | (intro x hx; exact List.mem_cons_of_mem _ (ih _ _ _ _ hx))

/-- What has been read is not 0, or will not be in time. -/
def Soon (p : Parsed) (s : Bytes) : Prop :=
  p.significand ≠ 0 ∨ p.count + (digitsOf s).length < 20 ∨ ∃ c ∈ (digitsOf s).take (19 - p.count), c ≠ 0x30

theorem digitsIn_free (s : Bytes) (p : Parsed) (dp : Option Nat) (inc : Bool) (hk : Kept p inc) (hs : Soon p s) :
    (digitsIn (2 ^ 64) false s p dp inc).1 ≠ .ub ∧ Kept (digitsIn (2 ^ 64) false s p dp inc).2.1 false := by
  induction s generalizing p dp inc with
  | nil => exact ⟨by simp [digitsIn], ⟨hk.count, fun _ => rfl, hk.fits, hk.below⟩⟩
  | cons c s ih =>
    have hcount := hk.count
    rw [digitsIn]
    split
    · exact ⟨by simp, ⟨hk.count, fun _ => rfl, hk.fits, hk.below⟩⟩
    · rename_i hd
      split
      · rename_i hdot
        split
        · exact ⟨by simp, ⟨hk.count, fun _ => rfl, hk.fits, hk.below⟩⟩
        · refine ih _ _ _ hk ?_
          subst hdot
          exact hs
      · rename_i hdot
        have hc : isDigit c = true := by
          rw [← isDig_eq]
          cases h : isDig c with
          | true => rfl
          | false => exact absurd (by simp [h, hdot]) hd
        have hlt := digit_lt hc
        have hz := forall_byte (p := fun c => isDigit c = true → (decide (0x30 ≤ c) && decide (c ≤ 0x39)) = true ∧ (c.toNat - 48 = 0 → c = 0x30)) (by decide +kernel) c hc
        have hdig : digitsOf (c :: s) = c :: digitsOf s := by
          unfold digitsOf
          rw [List.filter_cons, if_pos hz.1]
        have hsoon : ∀ n m, n < 20 → n = p.count → m = p.significand * 10 + (c.toNat - 48) → Soon { p with significand := m, count := n + 1 } s := by
          rintro n m hn rfl rfl
          unfold Soon
          simp only
          rcases hs with h | h | ⟨x, hx, h⟩
          · left; omega
          · rw [hdig] at h; right; left; simp only [List.length_cons] at h; omega
          · rw [hdig] at hx
            by_cases h19 : p.count < 19
            · rw [show 19 - p.count = (19 - (p.count + 1)) + 1 by omega, List.take_succ_cons, List.mem_cons] at hx
              rcases hx with rfl | hx
              · left
                intro h0
                exact h (hz.2 (by omega))
              · right; right; exact ⟨x, hx, h⟩
            · rw [show 19 - p.count = 0 by omega] at hx
              simp at hx
        have step : ∀ inc', p.count < 20 → p.significand * 10 + (c.toNat - 48) < 2 ^ 64 → (p.count = 19 → inc' = false) →
            (digitsIn (2 ^ 64) false s { p with significand := (p.significand * 10 + (c.toNat - 48)) % 2 ^ 64, count := (p.count + 1) % 256 } dp inc').1 ≠ .ub ∧
            Kept (digitsIn (2 ^ 64) false s { p with significand := (p.significand * 10 + (c.toNat - 48)) % 2 ^ 64, count := (p.count + 1) % 256 } dp inc').2.1 false := by
          intro inc' h20 h64 hinc
          rw [Nat.mod_eq_of_lt h64, Nat.mod_eq_of_lt (show p.count + 1 < 256 by omega)]
          refine ih _ _ _ ⟨by simp only; omega, by simp only; intro h; exact hinc (by omega), h64, ?_⟩ (hsoon _ _ h20 rfl rfl)
          have := hk.below
          simp only
          rw [pow_succ]; omega
        simp only [Bool.false_or, decide_eq_true_eq, Bool.and_eq_true]
        split
        · refine step inc (by omega) ?_ (by omega)
          have hb := hk.below
          have : 10 ^ (p.count + 1) ≤ 10 ^ 19 := Nat.pow_le_pow_right (by omega) (by omega)
          rw [pow_succ] at this
          norm_num at this ⊢
          omega
        · rename_i h19
          have hs0 : p.significand ≠ 0 := by
            rcases hs with h | h | ⟨x, hx, h⟩
            · exact h
            · rw [hdig] at h; simp only [List.length_cons] at h; omega
            · rw [show 19 - p.count = 0 by omega] at hx
              simp at hx
          split
          · rename_i hinc
            split
            · rename_i hfit
              refine step false hinc.2 ?_ (by simp)
              have := (Nat.le_div_iff_mul_le (Nat.pos_of_ne_zero hs0)).1 hfit
              omega
            · exact ih _ _ _ ⟨hk.count, fun _ => rfl, hk.fits, hk.below⟩ (.inl hs0)
          · exact ih _ _ _ hk (.inl hs0)

/-- The parts of a number. -/
theorem parse_parts {text s' : Bytes} {c : Byte} (h : text.dropWhile isSpace = c :: s') {q : NumErr × Parsed × Option Nat}
    (hq : q = digitsIn (2 ^ 64) false (if c = MINUS then s' else c :: s') { negative := decide (c = MINUS) } none true) :
    (q.1 ≠ .ub → (parseNumber (2 ^ 64) false text).1 ≠ .ub) ∧
    ((parseNumber (2 ^ 64) false text).1 = .ok → q.1 = .ok ∧
      (parseNumber (2 ^ 64) false text).2.count = q.2.1.count ∧ (parseNumber (2 ^ 64) false text).2.significand = q.2.1.significand ∧
      ((∀ x ∈ q.2.1.rest, x ≠ 0x65 ∧ x ≠ 0x45) → (parseNumber (2 ^ 64) false text).2.exp = fracExp q.2.2 q.2.1.count)) := by
  unfold parseNumber
  rw [h]
  simp only
  rw [← hq]
  obtain ⟨err, p, dp⟩ := q
  simp only
  generalize hr : p.rest = rest
  split
  · rename_i he
    exact ⟨fun h => h, fun h => absurd h he⟩
  · rename_i he
    cases rest with
    | nil => exact ⟨by simp, fun _ => ⟨Decidable.not_not.1 he, rfl, rfl, fun _ => rfl⟩⟩
    | cons e s1 =>
      simp only
      split
      · exact ⟨by simp, fun _ => ⟨Decidable.not_not.1 he, rfl, rfl, fun _ => rfl⟩⟩
      · rename_i h1
        have hno : ¬ ∀ x ∈ e :: s1, x ≠ 0x65 ∧ x ≠ 0x45 := fun h => h1 (h e (by simp))
        cases s1 with
        | nil => exact ⟨by simp, by simp⟩
        | cons g s2 =>
          simp only
          generalize (if g = MINUS ∨ g = PLUS then s2 else g :: s2) = s3
          cases s3 with
          | nil => exact ⟨by simp, by simp⟩
          | cons y s4 =>
            simp only
            split
            · exact ⟨by simp, by simp⟩
            · exact ⟨by simp, fun _ => ⟨Decidable.not_not.1 he, rfl, rfl, fun h => absurd h hno⟩⟩

theorem convert_zero {p : Parsed} (h : p.significand = 0) :
    ∃ v, convertToDouble p = some v ∧ (v % 2 ^ 63 = 0 ∨ v % 2 ^ 63 = f64.inf) := by
  unfold convertToDouble
  simp only
  split
  · exact ⟨_, rfl, .inr (by cases p.negative <;> decide)⟩
  · split
    · exact ⟨_, rfl, .inl (by cases p.negative <;> decide)⟩
    · exact ⟨_, rfl, .inl (by cases p.negative <;> decide)⟩

/-- What is known of gentle texts. -/
theorem gentle_parse {text : Bytes} (h : GentleText text) :
    (parseNumber (2 ^ 64) false text).1 ≠ .ub ∧ ((parseNumber (2 ^ 64) false text).1 = .ok →
      (parseNumber (2 ^ 64) false text).2.count < 256 ∧
      ∃ v, convertToDouble (parseNumber (2 ^ 64) false text).2 = some v ∧
        (v % 2 ^ 63 = 0 ∨ v % 2 ^ 63 = f64.inf ∨ (text.dropWhile isSpace).head? ≠ some PLUS)) := by
  cases hd : text.dropWhile isSpace with
  | nil => unfold parseNumber; rw [hd]; simp
  | cons c s' =>
    obtain ⟨a1, a2⟩ := parse_parts hd rfl
    have hsp : ∃ sp, (∀ d ∈ sp, isSpace d = true) ∧ text = sp ++ c :: s' :=
      ⟨text.takeWhile isSpace, fun d hd => by simpa using (List.all_eq_true.mp List.all_takeWhile) d hd, by rw [← hd, List.takeWhile_append_dropWhile]⟩
    obtain ⟨sp, hsp, htext⟩ := hsp
    have hplus : c = PLUS → (digitsIn (2 ^ 64) false (if c = MINUS then s' else c :: s') { negative := decide (c = MINUS) } none true).2.1.significand = 0 ∧
        (digitsIn (2 ^ 64) false (if c = MINUS then s' else c :: s') { negative := decide (c = MINUS) } none true).2.1.count = 0 := by
      rintro rfl
      rw [if_neg (by decide), digitsIn, if_pos (by decide)]
      exact ⟨rfl, rfl⟩
    -- the case that no digit is read
    have hnone : (digitsIn (2 ^ 64) false (if c = MINUS then s' else c :: s') { negative := decide (c = MINUS) } none true).1 ≠ .ub →
        (digitsIn (2 ^ 64) false (if c = MINUS then s' else c :: s') { negative := decide (c = MINUS) } none true).2.1.significand = 0 →
        (digitsIn (2 ^ 64) false (if c = MINUS then s' else c :: s') { negative := decide (c = MINUS) } none true).2.1.count ≤ 20 →
        (parseNumber (2 ^ 64) false text).1 ≠ .ub ∧ ((parseNumber (2 ^ 64) false text).1 = .ok →
        (parseNumber (2 ^ 64) false text).2.count < 256 ∧
        ∃ v, convertToDouble (parseNumber (2 ^ 64) false text).2 = some v ∧
          (v % 2 ^ 63 = 0 ∨ v % 2 ^ 63 = f64.inf ∨ (c :: s').head? ≠ some PLUS)) := by
      intro h1 h2 h3
      refine ⟨a1 h1, fun hok => ?_⟩
      obtain ⟨_, b1, b2, _⟩ := a2 hok
      obtain ⟨v, hv, hv'⟩ := convert_zero (b2.trans h2)
      exact ⟨by omega, v, hv, by tauto⟩
    rcases h with ⟨hnoe, hdig⟩ | hled
    · have hsub : ∀ x ∈ (if c = MINUS then s' else c :: s'), x ∈ text := by
        intro x hx
        rw [htext]
        split at hx <;> simp [hx]
      have hdsp : digitsOf sp = [] := by
        unfold digitsOf
        rw [List.filter_eq_nil_iff]
        intro d hd
        exact forall_byte (p := fun d => isSpace d = true → ¬ (decide (0x30 ≤ d) && decide (d ≤ 0x39)) = true) (by decide +kernel) d (hsp d hd)
      have hdeq : digitsOf text = digitsOf (if c = MINUS then s' else c :: s') := by
        rw [htext]
        unfold digitsOf at hdsp ⊢
        rw [List.filter_append, hdsp, List.nil_append]
        split
        · rename_i hm
          subst hm
          rw [List.filter_cons, if_neg (by decide)]
        · rfl
      have hsoon : Soon { negative := decide (c = MINUS) } (if c = MINUS then s' else c :: s') := by
        unfold Soon
        rw [← hdeq]
        right
        simpa using hdig
      obtain ⟨g1, g2⟩ := digitsIn_free _ { negative := decide (c = MINUS) } none true ⟨by simp, by simp, by norm_num, by norm_num⟩ hsoon
      refine ⟨a1 g1, fun hok => ?_⟩
      obtain ⟨b0, b1, b2, b3⟩ := a2 hok
      have hexp := b3 (fun x hx => hnoe x (hsub x (digitsIn_rest _ _ _ _ x hx)))
      have hc := g2.count
      by_cases hp : c = PLUS
      · exact (hnone g1 (hplus hp).1 hc).2 hok
      · obtain ⟨_, _, f1, f2⟩ := digitsIn_scan _ _ none true Big.zero 0 (by simp) (by simp) b0
        have hfr := fracExp_bound f1 f2
        obtain ⟨v, hv, _⟩ := convert_nearest (p := (parseNumber (2 ^ 64) false text).2) (by rw [b2]; exact g2.fits) (by rw [b1]; exact hc) (by rw [b1, b2]; exact g2.below)
          (.inr (by
            have hle : (parseNumber (2 ^ 64) false text).2.exp + (parseNumber (2 ^ 64) false text).2.count - 1 ≤ 308 := by rw [hexp, b1]; omega
            refine ⟨hle, fun hn => ?_⟩
            obtain ⟨n1, _, _, n2⟩ := (convert_none (by rw [b2]; exact g2.fits) (by rw [b1]; exact hc)).1 hn
            rcases above_1077 (p := (parseNumber (2 ^ 64) false text).2) (by rw [hexp]; omega) with h | h
            · exact n1 h
            · exact absurd n2 (not_lt.2 h)))
        exact ⟨by omega, _, hv, .inr (.inr (by simpa using hp))⟩
    · have hspace : ∀ d ∈ sp, d = 0x20 ∨ 9 ≤ d ∧ d ≤ 13 := fun d hd =>
        forall_byte (p := fun d => isSpace d = true → d = 0x20 ∨ 9 ≤ d ∧ d ≤ 13) (by decide +kernel) d (hsp d hd)
      -- a digit or something else comes first
      have hfirst : ∀ sign d s, sign = [] ∨ sign = b!"-" → text = sp ++ sign ++ d :: s → (if c = MINUS then s' else c :: s') = d :: s →
          (parseNumber (2 ^ 64) false text).1 ≠ .ub ∧ ((parseNumber (2 ^ 64) false text).1 = .ok →
          (parseNumber (2 ^ 64) false text).2.count < 256 ∧
          ∃ v, convertToDouble (parseNumber (2 ^ 64) false text).2 = some v ∧
            (v % 2 ^ 63 = 0 ∨ v % 2 ^ 63 = f64.inf ∨ (c :: s').head? ≠ some PLUS)) := by
        intro sign d s hsign ht he
        obtain ⟨hd0, hd1⟩ := hled sp sign d s hspace hsign ht
        by_cases hdd : isDigit d = true
        · obtain ⟨k1, k2⟩ := parseNumber_safe (rest := s) hsp hsign hdd hd0
          rw [← ht] at k1 k2
          refine ⟨k1, fun hok => ?_⟩
          obtain ⟨l1, l2⟩ := k2 hok
          obtain ⟨v, hv, _⟩ := convert_nearest l1.fits l1.count l1.below (.inl l2)
          have := l1.count
          refine ⟨by omega, _, hv, .inr (.inr ?_)⟩
          intro hp
          have hp : c = PLUS := by simpa using hp
          subst hp
          rw [if_neg (by decide)] at he
          cases he
          exact absurd hdd (by decide)
        · refine hnone ?_ ?_ ?_ <;>
          · rw [he, digitsIn, if_pos (by simp [isDig_eq, hdd, hd1, DOT])]
            try simp
      by_cases hm : c = MINUS
      · cases s' with
        | nil => refine hnone ?_ ?_ ?_ <;> (rw [if_pos hm]; simp [digitsIn])
        | cons d s => exact hfirst b!"-" d s (.inr rfl) (by rw [htext, hm]; simp [MINUS]) (if_pos hm)
      · exact hfirst [] c s' (.inl rfl) (by simpa using htext) (if_neg hm)

theorem gentle_double {text : Bytes} (h : GentleText text) : doubleTo text ≠ none := by
  obtain ⟨h1, h2⟩ := gentle_parse h
  unfold doubleTo
  simp only
  rw [if_neg h1]
  split
  · simp
  · rename_i hok
    obtain ⟨_, v, hv, _⟩ := h2 (Decidable.not_not.1 hok)
    rw [hv]
    simp

theorem gentle_float {text : Bytes} (h : GentleText text) (hlen : text.length < 2 ^ 30) : floatTo text ≠ none := by
  obtain ⟨h1, h2⟩ := gentle_parse h
  unfold floatTo
  simp only
  rw [if_neg h1]
  split
  · simp
  · rename_i hok
    have hok := Decidable.not_not.1 hok
    obtain ⟨hc, v, hv, hv'⟩ := h2 hok
    rw [hv]
    simp only
    have hend : (v % 2 ^ 63 = 0 ∨ v % 2 ^ 63 = f64.inf) → correctlyRound text (v % 2 ^ 63) (narrow (v % 2 ^ 63)) ≠ none := by
      rintro (c2 | c2) <;> rw [c2]
      · rw [narrow_zero, correctlyRound_zero]; simp
      · rw [narrow_inf, correctlyRound_inf]; simp
    have hr : correctlyRound text (v % 2 ^ 63) (narrow (v % 2 ^ 63)) ≠ none := by
      rcases hv' with h0 | h0 | hplus
      · exact hend (.inl h0)
      · exact hend (.inr h0)
      · by_cases hexp : (parseNumber (2 ^ 64) false text).2.exp.natAbs < 10000000
        · exact correctlyRound_safe (parse_scan (p := (parseNumber (2 ^ 64) false text).2) (Prod.ext hok rfl) hplus hlen hexp)
        · obtain ⟨v', c1, c2⟩ := convert_large (p := (parseNumber (2 ^ 64) false text).2) hc (by omega)
          rw [hv] at c1
          cases c1
          exact hend c2
    split
    · rename_i hn
      exact absurd hn hr
    · simp

end JsonStruct
