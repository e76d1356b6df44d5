import Verif.Spec.Decimal
import Verif.Lemmas.Scan

/- Integers: counting digits, writing and reading. -/

namespace JsonStruct

set_option linter.unusedSimpArgs false
attribute [local simp] fracText expText

/-! ### The types -/

theorem supported_cases {T : IntTy} (h : T.Supported) :
    T = ⟨8, false⟩ ∨ T = ⟨8, true⟩ ∨ T = ⟨16, false⟩ ∨ T = ⟨16, true⟩ ∨ T = ⟨32, false⟩ ∨ T = ⟨32, true⟩ ∨
    T = ⟨64, false⟩ ∨ T = ⟨64, true⟩ ∨ T = ⟨128, false⟩ ∨ T = ⟨128, true⟩ := by
  obtain ⟨b, s⟩ := T
  simp [IntTy.Supported] at h
  rcases h with rfl | rfl | rfl | rfl | rfl <;> cases s <;> simp

/-- The facts about a type used below. -/
structure TyOk (T : IntTy) : Prop where
  log_pos : 2 ≤ T.log10
  log_le : T.log10 ≤ 39
  max_lt : T.max < 10 ^ T.log10
  le_max : 10 ^ (T.log10 - 1) ≤ T.max
  min_eq : T.signed = true → T.min = -((T.max + 1 : Nat) : Int)
  min_zero : T.signed = false → T.min = 0
  succ_lt : T.max + 1 < 10 ^ T.log10
  max_mod : T.max < T.modulus

theorem tyOk {T : IntTy} (h : T.Supported) : TyOk T := by
  rcases supported_cases h with rfl | rfl | rfl | rfl | rfl | rfl | rfl | rfl | rfl | rfl <;>
    exact ⟨by decide +kernel, by decide +kernel, by decide +kernel, by decide +kernel, by decide +kernel,
      by decide +kernel, by decide +kernel, by decide +kernel⟩

/-- No power of ten is one more than the maximum of a type. -/
theorem max_succ_ne {T : IntTy} (h : T.Supported) (d : Nat) : T.max + 1 ≠ 10 ^ d := by
  intro he
  have h1 := tyOk h
  have hd : d < T.log10 := by
    rcases Nat.lt_or_ge d T.log10 with hd | hd
    · exact hd
    · have := Nat.pow_le_pow_right (n := 10) (by decide) hd
      have := h1.succ_lt
      omega
  have key : ∀ T : IntTy, T.Supported → ∀ d < T.log10, T.max + 1 ≠ 10 ^ d := by
    intro T h
    rcases supported_cases h with rfl | rfl | rfl | rfl | rfl | rfl | rfl | rfl | rfl | rfl <;> decide +kernel
  exact key T h d hd he

theorem sig_supported (T : IntTy) : T.sig.Supported := by
  unfold IntTy.sig; split <;> simp [IntTy.Supported]

theorem sig_max (T : IntTy) : T.sig.max + 1 = T.modulus := by
  unfold IntTy.sig IntTy.modulus; split <;> simp [IntTy.max]

/-! ### Counting digits -/

theorem charsInDigit_spec (n width cur t : Nat) (hn : width ≤ n) (h1 : ∀ k < cur, pow10 k - 1 < t) :
    let r := charsInDigit n width cur t
    cur ≤ r ∧ r ≤ cur + width ∧ (∀ k < r, pow10 k - 1 < t) ∧ (r < cur + width → ¬ pow10 r - 1 < t) := by
  induction n generalizing width cur with
  | zero =>
    have : width = 0 := by omega
    subst this
    exact ⟨Nat.le_refl _, Nat.le_refl _, h1, by intro h; simp [charsInDigit] at h⟩
  | succ n ih =>
    rw [charsInDigit]
    by_cases hw : width = 0
    · rw [if_pos hw]; exact ⟨Nat.le_refl _, by omega, h1, by intro h; omega⟩
    · rw [if_neg hw]
      have mono : ∀ a b, a ≤ b → pow10 a ≤ pow10 b := by
        intro a b hab
        unfold pow10
        split
        · split
          · exact Nat.le_refl _
          · exact Nat.one_le_pow _ _ (by decide)
        · rw [if_neg (by omega)]
          exact Nat.pow_le_pow_right (by decide) (by omega)
      split
      · rename_i h
        obtain ⟨a, b, c, d⟩ := ih (width - (width / 2 + 1)) (cur + width / 2 + 1) (by omega) (by
          intro k hk
          have := mono k (cur + width / 2) (by omega)
          omega)
        exact ⟨by omega, by omega, c, fun hr => d (by omega)⟩
      · rename_i h
        obtain ⟨a, b, c, d⟩ := ih (width / 2) cur (by omega) h1
        refine ⟨a, by omega, c, fun hr => ?_⟩
        by_cases hh : charsInDigit n (width / 2) cur t < cur + width / 2
        · exact d hh
        · have : charsInDigit n (width / 2) cur t = cur + width / 2 := by omega
          rw [this]; exact h

/-- `d` is the number of decimal digits of `a`; zero has one digit. -/
def HasDigits (a d : Nat) : Prop := 1 ≤ d ∧ a < 10 ^ d ∧ (d = 1 ∨ 10 ^ (d - 1) ≤ a)

theorem countChars_abs {T : IntTy} (h : T.Supported) (t : Int) (ht : iabs T t < 10 ^ T.log10) :
    HasDigits (iabs T t) (countChars T t) := by
  unfold countChars
  simp only
  generalize iabs T t = a at *
  split
  · rename_i h10
    exact ⟨Nat.le_refl _, h10, .inl rfl⟩
  · rename_i h10
    obtain ⟨h1, h2, h3, h4⟩ := charsInDigit_spec (T.log10 + 1) (T.log10 + 1) 0 a (Nat.le_refl _) (by simp)
    generalize hr : charsInDigit (T.log10 + 1) (T.log10 + 1) 0 a = r at *
    have hr2 : 2 < r := by
      rcases Nat.lt_or_ge 2 r with h | h
      · exact h
      · exfalso
        have this := h4 (by have := (tyOk ‹_›).log_pos; omega)
        have hr3 : r = 0 ∨ r = 1 ∨ r = 2 := by omega
        rw [pow10] at this; rcases hr3 with rfl | rfl | rfl <;> (simp at this; omega)
    refine ⟨by omega, ?_, .inr ?_⟩
    · by_cases hlt : r < T.log10 + 1
      · have := h4 (by omega)
        unfold pow10 at this
        rw [if_neg (by omega)] at this
        omega
      · have : r = T.log10 + 1 := by omega
        rw [this]; simpa using ht
    · have := h3 (r - 1) (by omega)
      unfold pow10 at this
      rw [if_neg (by omega)] at this
      omega

theorem hasDigits_unique {a d e : Nat} (h : HasDigits a d) (h' : HasDigits a e) : d = e := by
  obtain ⟨h1, h2, h3⟩ := h
  obtain ⟨g1, g2, g3⟩ := h'
  rcases Nat.lt_trichotomy d e with hlt | rfl | hlt
  · exfalso
    have := Nat.pow_le_pow_right (n := 10) (by decide) (show d ≤ e - 1 by omega)
    omega
  · rfl
  · exfalso
    have := Nat.pow_le_pow_right (n := 10) (by decide) (show e ≤ d - 1 by omega)
    omega

/-- `count_chars` is the number of digits of every value of the type. -/
theorem countChars_spec {T : IntTy} (h : T.Supported) (t : Int) (ht : T.InRange t) :
    HasDigits t.natAbs (countChars T t) := by
  have ok := tyOk h
  obtain ⟨h1, h2⟩ := ht
  by_cases hm : T.signed = true ∧ t = T.min
  · obtain ⟨hs, rfl⟩ := hm
    have hi : iabs T T.min = T.max := by
      have := ok.min_eq hs
      unfold iabs
      rw [if_pos hs, if_neg (by omega)]
      simp only [if_true]
      omega
    have hc := countChars_abs h T.min (by rw [hi]; exact ok.max_lt)
    rw [hi] at hc
    have e : (T.min).natAbs = T.max + 1 := by rw [ok.min_eq hs]; omega
    rw [e]
    obtain ⟨c1, c2, c3⟩ := hc
    exact ⟨c1, by have := max_succ_ne h (countChars T T.min); omega, by omega⟩
  · have hi : iabs T t = t.natAbs := by
      unfold iabs
      split
      · rename_i hs
        split
        · omega
        · have : t ≠ T.min := fun hc => hm ⟨hs, hc⟩
          simp only [this, if_false]
          omega
      · rename_i hs
        have := ok.min_zero (by simpa using hs)
        omega
    have := countChars_abs h t (by
      rw [hi]
      have h3 := ok.succ_lt
      cases hs : T.signed
      · have := ok.min_zero hs; omega
      · have := ok.min_eq hs; omega)
    rwa [hi] at this

/-! ### Writing -/

/-- The last `n` digits of `x`. -/
def fixedDigits : Nat → Nat → Bytes
  | 0, _ => []
  | n + 1, x => fixedDigits n (x / 10) ++ [UInt8.ofNat (48 + x % 10)]

theorem digitLoop_eq (n : Nat) (neg : Bool) (x : Nat) (acc : Bytes) :
    digitLoop n neg (if neg then -(x : Int) else x) acc = fixedDigits n x ++ acc := by
  induction n generalizing x acc with
  | zero => rfl
  | succ n ih =>
    rw [digitLoop, fixedDigits]
    have e : ((if neg then -(x : Int) else x)).tdiv 10 = if neg then -((x / 10 : Nat) : Int) else ((x / 10 : Nat) : Int) := by
      cases neg <;> simp [Int.neg_tdiv, Int.ofNat_tdiv]
    have e2 : (if neg then -((if neg then -(x : Int) else x)).tmod 10 else ((if neg then -(x : Int) else x)).tmod 10).toNat = x % 10 := by
      have ht : (x : Int).tmod 10 = ((x % 10 : Nat) : Int) := rfl
      cases neg <;> simp only [Int.neg_tmod, ht, if_true, Bool.false_eq_true, if_false] <;> omega
    simp only [e, e2]
    rw [ih]
    simp

theorem decVal_foldl (ds : Bytes) (a : Nat) :
    ds.foldl (fun a c => a * 10 + (c.toNat - 48)) a = a * 10 ^ ds.length + decVal ds := by
  induction ds generalizing a with
  | nil => simp [decVal]
  | cons c ds ih =>
    have h0 : decVal (c :: ds) = List.foldl (fun a c => a * 10 + (c.toNat - 48)) (c.toNat - 48) ds := by simp [decVal]
    rw [h0, List.foldl_cons, ih, ih (c.toNat - 48), List.length_cons, Nat.pow_succ, Nat.add_mul, Nat.mul_assoc, Nat.mul_comm 10, Nat.add_assoc]

theorem decVal_append (a b : Bytes) : decVal (a ++ b) = decVal a * 10 ^ b.length + decVal b := by
  rw [decVal, List.foldl_append, decVal_foldl]; rfl

theorem decVal_cons (c : Byte) (s : Bytes) : decVal (c :: s) = (c.toNat - 48) * 10 ^ s.length + decVal s := by
  have := decVal_append [c] s
  simpa [decVal] using this

theorem digit_toNat {x : Nat} (h : x < 10) : (UInt8.ofNat (48 + x)).toNat = 48 + x := by
  simp; omega

theorem digit_isDigit {x : Nat} (h : x < 10) : isDigit (UInt8.ofNat (48 + x)) = true := by
  have : ∀ x < 10, isDigit (UInt8.ofNat (48 + x)) = true := by decide +kernel
  exact this x h

theorem fixedDigits_val (n x : Nat) : decVal (fixedDigits n x) = x % 10 ^ n := by
  induction n generalizing x with
  | zero => simp [fixedDigits, decVal, Nat.mod_one]
  | succ n ih =>
    rw [fixedDigits, decVal_append, ih]
    simp only [decVal, List.foldl_cons, List.foldl_nil, List.length_singleton, digit_toNat (Nat.mod_lt x (by decide : 10 > 0)), Nat.pow_one]
    rw [Nat.pow_succ, Nat.mul_comm (10 ^ n) 10, Nat.mod_mul]
    omega

theorem fixedDigits_length (n x : Nat) : (fixedDigits n x).length = n := by
  induction n generalizing x with
  | zero => rfl
  | succ n ih => simp [fixedDigits, ih]

theorem fixedDigits_digits (n x : Nat) : ∀ c ∈ fixedDigits n x, isDigit c = true := by
  induction n generalizing x with
  | zero => simp [fixedDigits]
  | succ n ih =>
    intro c hc
    simp only [fixedDigits, List.mem_append, List.mem_singleton] at hc
    rcases hc with hc | rfl
    · exact ih _ _ hc
    · exact digit_isDigit (Nat.mod_lt x (by decide))

theorem decVal_lt (s : Bytes) (h : AllDigits s) : decVal s < 10 ^ s.length := by
  induction s with
  | nil => simp [decVal]
  | cons c s ih =>
    rw [decVal_cons, List.length_cons, Nat.pow_succ]
    have h1 := ih (fun x hx => h x (by simp [hx]))
    have h2 : c.toNat - 48 ≤ 9 := by
      have := h c (by simp)
      exact forall_byte (p := fun c => isDigit c = true → c.toNat - 48 ≤ 9) (by decide +kernel) c this
    have : (c.toNat - 48) * 10 ^ s.length ≤ 9 * 10 ^ s.length := Nat.mul_le_mul_right _ h2
    omega

/-- What `to_buffer` writes. -/
theorem intFrom_eq {T : IntTy} (h : T.Supported) (v : Int) (hv : T.InRange v) :
    intFrom T v = some ((if v < 0 then [MINUS] else []) ++ fixedDigits (countChars T v) v.natAbs) := by
  have ok := tyOk h
  obtain ⟨c1, c2, c3⟩ := countChars_spec h v hv
  have hneg : (T.signed && decide (v < 0)) = decide (v < 0) := by
    cases hs : T.signed
    · have := ok.min_zero hs; have := hv.1; simp; omega
    · simp
  have hle : countChars T v ≤ 39 := by
    rcases Nat.lt_or_ge 39 (countChars T v) with hh | hh
    · exfalso
      have h1 : 10 ^ (countChars T v - 1) ≤ v.natAbs := by omega
      have h2 := Nat.pow_le_pow_right (n := 10) (by decide) (show 39 ≤ countChars T v - 1 by omega)
      have h3 : T.max + 1 < 10 ^ 39 := Nat.lt_of_lt_of_le ok.succ_lt (Nat.pow_le_pow_right (by decide) ok.log_le)
      have : v.natAbs ≤ T.max + 1 := by
        obtain ⟨g1, g2⟩ := hv
        cases hs : T.signed
        · have := ok.min_zero hs; omega
        · have := ok.min_eq hs; omega
      omega
    · exact hh
  have hrem : countChars T v - (if decide (v < 0) = true then 40 - 1 else 40) = 0 := by split <;> omega
  have hv' : v = if decide (v < 0) = true then -(v.natAbs : Int) else v.natAbs := by split <;> simp_all <;> omega
  unfold intFrom toBuffer
  simp only [hneg, hrem, Nat.sub_zero, divLoop]
  have hd := digitLoop_eq (countChars T v) (decide (v < 0)) v.natAbs []
  rw [← hv'] at hd
  rw [hd]
  by_cases hn : v < 0
  · simp [hn]
  · have : fixedDigits (countChars T v) v.natAbs ≠ [] := by
      intro he; have := fixedDigits_length (countChars T v) v.natAbs; rw [he] at this; simp at this; omega
    simp [hn, this]

theorem fixedDigits_head {n x : Nat} (h1 : 10 ^ (n - 1) ≤ x) (h2 : x < 10 ^ n) (hn : 1 ≤ n) : (fixedDigits n x).head? ≠ some 48 := by
  have hl := fixedDigits_length n x
  have hv := fixedDigits_val n x
  have hd := fixedDigits_digits n x
  intro hh
  cases hf : fixedDigits n x with
  | nil => rw [hf] at hh; simp at hh
  | cons c s =>
    rw [hf] at hh hl hv hd
    simp at hh
    subst hh
    rw [decVal_cons, Nat.mod_eq_of_lt h2] at hv
    simp at hv hl
    have := decVal_lt s (fun x hx => hd x (by simp [hx]))
    rw [hv] at this
    have e : s.length = n - 1 := by omega
    rw [e] at this
    omega

/-! ### Reading -/

theorem isDig_eq (c : Byte) : isDig c = isDigit c := rfl

theorem digitsIn_digits (M : Nat) (ds r : Bytes) (p : Parsed) (dp : Option Nat) (inc : Bool) (hd : AllDigits ds)
    (hp : p.significand < M) (hc : p.count < 256) :
    digitsIn M true (ds ++ r) p dp inc = digitsIn M true r
      { p with significand := (p.significand * 10 ^ ds.length + decVal ds) % M, count := (p.count + ds.length) % 256 } dp inc := by
  induction ds generalizing p with
  | nil => simp [decVal, Nat.mod_eq_of_lt hp, Nat.mod_eq_of_lt hc]
  | cons c ds ih =>
    have hc1 : isDigit c = true := hd c (by simp)
    have hdot : c ≠ DOT := by rintro rfl; exact absurd hc1 (by decide)
    rw [List.cons_append, digitsIn]
    simp only [isDig_eq, hc1, Bool.not_true, Bool.false_and, Bool.false_eq_true, if_false, if_neg hdot, Bool.true_or, if_true]
    rw [ih _ (fun x hx => hd x (by simp [hx])) (Nat.mod_lt _ (by omega)) (Nat.mod_lt _ (by decide))]
    congr 2
    · simp; omega
    · show ((p.significand * 10 + (c.toNat - 48)) % M * 10 ^ ds.length + decVal ds) % M = _
      rw [decVal_cons, List.length_cons, Nat.pow_succ]
      conv => lhs; rw [Nat.add_mod, Nat.mul_mod, Nat.mod_mod, ← Nat.mul_mod, ← Nat.add_mod]
      congr 1
      rw [Nat.add_mul, Nat.mul_assoc, Nat.mul_comm 10]
      omega

/-- Where the digit loop stops. -/
def Stops (r : Bytes) : Prop := ∀ c s, r = c :: s → isDigit c = false ∧ c ≠ DOT

theorem digitsIn_stop (M : Nat) (r : Bytes) (p : Parsed) (dp : Option Nat) (inc : Bool) (h : Stops r) (nc : Bool) :
    digitsIn M nc r p dp inc = (.ok, { p with rest := r }, dp) := by
  cases r with
  | nil => rfl
  | cons c s =>
    obtain ⟨h1, h2⟩ := h c s rfl
    rw [digitsIn]
    simp [isDig_eq, h1, h2]

/-- `desimal_position` at the end. -/
@[simp] def decPosOf (ds : Bytes) : Option Bytes → Option Nat
  | none => none
  | some _ => some (ds.length % 256)

/-- The loop over all digits. -/
theorem digitsIn_num (M : Nat) (hM : 0 < M) (neg : Bool) (ds : Bytes) (f : Option Bytes) (r : Bytes) (hd : AllDigits ds)
    (hf : ∀ f' ∈ f, AllDigits f') (hr : Stops r) :
    digitsIn M true (ds ++ fracText f ++ r) { negative := neg } none true =
      (.ok, { negative := neg, count := (ds ++ f.getD []).length % 256, significand := decVal (ds ++ f.getD []) % M, rest := r },
        decPosOf ds f) := by
  cases f with
  | none =>
    simp only [fracText]; rw [List.append_nil, digitsIn_digits M ds r _ _ _ hd hM (by simp), digitsIn_stop _ _ _ _ _ hr]
    simp
  | some f =>
    simp only [fracText]
    rw [List.append_assoc, digitsIn_digits M ds _ _ _ _ hd hM (by simp)]
    simp only [List.cons_append, List.nil_append]
    rw [digitsIn]
    simp only [show (!isDig 46 && (46 : Byte) != DOT) = false by decide, Bool.false_eq_true, if_false, show (46 : Byte) = DOT from rfl, if_true,
      Option.isSome_none]
    rw [digitsIn_digits M f r _ _ _ (hf f rfl) (Nat.mod_lt _ hM) (Nat.mod_lt _ (by decide)), digitsIn_stop _ _ _ _ _ hr]
    simp only [Option.getD_some, decVal_append, List.length_append, Prod.mk.injEq, Parsed.mk.injEq, true_and, and_true, Nat.zero_mul, Nat.zero_add]
    refine ⟨⟨by simp, ?_⟩, by simp [decPosOf]⟩
    rw [Nat.add_mod, Nat.mul_mod, Nat.mod_mod, ← Nat.mul_mod, ← Nat.add_mod]

/-- Agreement of the exponent as it is read with its value. -/
def ExpOk (e x : Nat) : Prop := (x < 100000000 → e = x) ∧ (100000000 ≤ x → 100000000 ≤ e)

theorem exponentIn_digits (ds r : Bytes) (e x : Nat) (a : Bool) (hd : AllDigits ds) (hr : ∀ c s, r = c :: s → isDigit c = false)
    (he : ExpOk e x) : ∃ e', exponentIn (ds ++ r) e a = (e', (a || !ds.isEmpty), r) ∧ ExpOk e' (x * 10 ^ ds.length + decVal ds) := by
  induction ds generalizing e x a with
  | nil =>
    refine ⟨e, ?_, by simpa [decVal] using he⟩
    cases r with
    | nil => simp [exponentIn]
    | cons c s => simp [exponentIn, isDig_eq, hr c s rfl]
  | cons c ds ih =>
    have hc : isDigit c = true := hd c (by simp)
    rw [List.cons_append, exponentIn]
    simp only [isDig_eq, hc, Bool.not_true, Bool.false_eq_true, if_false]
    obtain ⟨e', h1, h2⟩ := ih (if e < 100000000 then e * 10 + (c.toNat - 48) else e) (x * 10 + (c.toNat - 48)) true
      (fun x hx => hd x (by simp [hx])) (by
        unfold ExpOk at *
        split <;> omega)
    refine ⟨e', by rw [h1]; simp, ?_⟩
    rw [decVal_cons, List.length_cons, Nat.pow_succ]
    have : (x * 10 + (c.toNat - 48)) * 10 ^ ds.length = x * (10 ^ ds.length * 10) + (c.toNat - 48) * 10 ^ ds.length := by
      rw [Nat.add_mul, Nat.mul_assoc, Nat.mul_comm 10]
    rw [← Nat.add_assoc, ← this]
    exact h2

/-- The exponent as `parseNumber` gets it. -/
def ExpIs (n : NumText) (e : Int) : Prop :=
  match n.exp with
  | none => e = 0
  | some (_, sign, d) => ∃ e' : Nat, ExpOk e' (decVal d) ∧ e = if sign = b!"-" then -(e' : Int) else e'

theorem expStops {n : NumText} (hn : n.Loose) {r : Bytes} (hr : n.exp = none → Stops r) :
    Stops (expText n.exp ++ r) := by
  obtain ⟨_, _, h⟩ := hn
  cases he : n.exp with
  | none => simpa using hr he
  | some x =>
    obtain ⟨e, sign, d⟩ := x
    obtain ⟨h1, _, _⟩ := h _ (by rw [he]; rfl)
    intro c s hc
    simp at hc
    obtain ⟨rfl, _⟩ := hc
    rcases h1 with rfl | rfl <;> decide

/-- The head of a number's text is no white space. -/
theorem text_head {n : NumText} (hn : n.Loose) : ∀ c s, n.text = c :: s → isSpace c = false := by
  obtain ⟨h1, h2, h3⟩ := hn
  intro c s h
  have key : ∀ c : Byte, (isDigit c = true ∨ c = 45 ∨ c = 46 ∨ c = 0x65 ∨ c = 0x45) → isSpace c = false := by
    intro c
    exact forall_byte (p := fun c => (isDigit c = true ∨ c = 45 ∨ c = 46 ∨ c = 0x65 ∨ c = 0x45) → isSpace c = false)
      (by decide +kernel) c
  apply key
  unfold NumText.text at h
  cases hneg : n.neg
  · rw [hneg] at h
    simp only [Bool.false_eq_true, if_false, List.nil_append] at h
    cases hi : n.int with
    | nil =>
      rw [hi] at h
      cases hf : n.frac with
      | none =>
        rw [hf] at h
        cases he : n.exp with
        | none => rw [he] at h; simp at h
        | some x =>
          have := h3 x (by rw [he]; rfl)
          rw [he] at h
          simp at h
          rcases this.1 with h' | h' <;> simp [← h.1, h']
      | some f => rw [hf] at h; simp at h; simp [← h.1]
    | cons d ds =>
      rw [hi] at h
      simp at h
      have := h1 d (by rw [hi]; simp)
      simp [← h.1, this]
  · rw [hneg] at h
    simp at h
    simp [← h.1]

theorem loose_signs {n : NumText} (hn : n.Loose) (e : Byte) (sign d : Bytes) (he : n.exp = some (e, sign, d)) :
    (e = 0x65 ∨ e = 0x45) ∧ (sign = [] ∨ sign = b!"+" ∨ sign = b!"-") ∧ Digits d := hn.2.2 _ (by rw [he]; rfl)

/-- Reading a number: everything but the meaning of the exponent. -/
theorem parseNumber_num (M : Nat) (hM : 0 < M) (sp : Bytes) (hsp : ∀ c ∈ sp, isSpace c = true) (n : NumText)
    (hn : n.Loose) (hne : n.text ≠ []) :
    ∃ e, ExpIs n e ∧ parseNumber M true (sp ++ n.text) = (.ok,
      { negative := n.neg, count := (n.int ++ n.frac.getD []).length % 256, significand := n.mantissa % M,
        exp := fracExp (decPosOf n.int n.frac) ((n.int ++ n.frac.getD []).length % 256) + e,
        rest := [] }) := by
  have hdrop : (sp ++ n.text).dropWhile isSpace = n.text := by
    rw [List.dropWhile_append_of_pos hsp]
    cases ht : n.text with
    | nil => rfl
    | cons c s => rw [List.dropWhile_cons, text_head hn c s ht]; simp
  unfold parseNumber
  rw [hdrop]
  have hloop : ∀ c s', n.text = c :: s' → (if c = MINUS then s' else c :: s') =
      n.int ++ fracText n.frac ++ expText n.exp ∧
      decide (c = MINUS) = n.neg := by
    intro c s' ht
    have ht2 := ht
    unfold NumText.text at ht
    cases hneg : n.neg
    · rw [hneg] at ht
      simp only [Bool.false_eq_true, if_false, List.nil_append] at ht
      have : c ≠ MINUS := by
        obtain ⟨h1, h2, h3⟩ := hn
        rintro rfl
        cases hi : n.int with
        | nil =>
          rw [hi] at ht
          cases hf : n.frac with
          | none =>
            rw [hf] at ht
            cases he : n.exp with
            | none => rw [he] at ht; simp at ht
            | some x =>
              have := h3 x (by rw [he]; rfl)
              rw [he] at ht
              simp at ht
              rcases this.1 with h' | h' <;> rw [h'] at ht <;> exact absurd ht.1 (by decide)
          | some f => rw [hf] at ht; simp [fracText] at ht; exact absurd ht.1 (by decide)
        | cons d ds =>
          rw [hi] at ht
          simp at ht
          have := h1 d (by rw [hi]; simp)
          rw [ht.1] at this
          exact absurd this (by decide)
      rw [if_neg this, ht]
      simp [this]
    · rw [hneg] at ht
      simp at ht
      obtain ⟨rfl, ht⟩ := ht
      simp [← ht]
  cases ht : n.text with
  | nil => exact absurd ht hne
  | cons c s' =>
    obtain ⟨h1, h2⟩ := hloop c s' ht
    simp only [h2]
    rw [h1]
    have hst := expStops hn (r := []) (fun _ => by intro c s h; simp at h)
    rw [List.append_nil] at hst
    rw [digitsIn_num M hM n.neg n.int n.frac _ hn.1 hn.2.1 hst]
    simp only [ne_eq, not_true_eq_false, if_false]
    cases he : n.exp with
    | none =>
      refine ⟨0, by simp [ExpIs, he], ?_⟩
      simp [NumText.mantissa]
    | some x =>
      obtain ⟨e, sign, d⟩ := x
      obtain ⟨he1, he2, he3⟩ := loose_signs hn e sign d he
      have hne' : ¬ (e ≠ 101 ∧ e ≠ 69) := by rcases he1 with rfl | rfl <;> decide
      have hr0 : ∀ c s, ([] : Bytes) = c :: s → isDigit c = false := by simp
      obtain ⟨e', g1, g2⟩ := exponentIn_digits d [] 0 0 false he3.2 hr0 (by simp [ExpOk])
      rw [List.append_nil] at g1
      have hdne : (!d.isEmpty) = true := by
        cases d with
        | nil => exact absurd rfl he3.1
        | cons => rfl
      rw [hdne] at g1
      refine ⟨if sign = b!"-" then -(e' : Int) else e', by simp only [ExpIs, he]; exact ⟨e', by simpa using g2, rfl⟩, ?_⟩
      simp only [expText, hne', if_false]
      obtain ⟨d0, ds, rfl⟩ : ∃ d0 ds, d = d0 :: ds := by
        cases d with
        | nil => exact absurd rfl he3.1
        | cons d0 ds => exact ⟨d0, ds, rfl⟩
      have hd0 : d0 ≠ MINUS ∧ d0 ≠ PLUS := by
        have := he3.2 d0 (by simp)
        exact forall_byte (p := fun c => isDigit c = true → c ≠ MINUS ∧ c ≠ PLUS) (by decide +kernel) d0 this
      rcases he2 with rfl | rfl | rfl
      · simp [hd0, g1, NumText.mantissa]
      · simp [g1, NumText.mantissa, show (43 : Byte) ≠ MINUS by decide]
      · simp [g1, NumText.mantissa]

/-! ### The value -/

theorem natDivLoop_eq (k x : Nat) : natDivLoop k x = x / 10 ^ k := by
  induction k generalizing x with
  | zero => simp [natDivLoop]
  | succ k ih => rw [natDivLoop, ih, Nat.div_div_eq_div_mul, Nat.pow_succ, Nat.mul_comm]

theorem natMulLoop_eq (M k x : Nat) (h : x * 10 ^ k < M) : natMulLoop M k x = x * 10 ^ k := by
  induction k generalizing x with
  | zero => simp [natMulLoop]
  | succ k ih =>
    rw [Nat.pow_succ] at h
    have e : x * 10 * 10 ^ k = x * (10 ^ k * 10) := by rw [Nat.mul_assoc, Nat.mul_comm 10]
    have : x * 10 < M := by
      have : x * 10 * 1 ≤ x * 10 * 10 ^ k := Nat.mul_le_mul_left _ (Nat.one_le_pow _ _ (by decide))
      omega
    rw [natMulLoop, Nat.mod_eq_of_lt this, ih _ (by rw [e]; exact h), Nat.pow_succ, e]

theorem makeInteger_eq {T : IntTy} (h : T.Supported) (m : Nat) (neg : Bool) (hneg : neg = true → T.signed = true) :
    makeInteger T m neg = T.clamp (if neg then -(m : Int) else m) := by
  have ok := tyOk h
  unfold makeInteger IntTy.clamp
  cases hs : T.signed
  · have h0 := ok.min_zero hs
    cases neg
    · simp only [Bool.false_eq_true, if_false]
      split <;> split <;> (try split) <;> omega
    · have := hneg rfl; simp [hs] at this
  · have h0 := ok.min_eq hs
    cases neg
    · simp only [Bool.false_eq_true, if_false, if_true]
      split <;> split <;> (try split) <;> omega
    · simp only [if_true]
      split <;> split <;> (try split) <;> omega

/-- A magnitude above every value of the type. -/
theorem clamp_big {T : IntTy} (h : T.Supported) (m : Nat) (neg : Bool) (hneg : neg = true → T.signed = true)
    (hm : 10 ^ T.log10 ≤ m) : T.clamp (if neg then -(m : Int) else m) = if neg then T.min else (T.max : Int) := by
  have ok := tyOk h
  have := ok.succ_lt
  unfold IntTy.clamp
  cases neg
  · simp only [Bool.false_eq_true, if_false]
    have : T.min ≤ 0 := by
      cases hs : T.signed
      · rw [ok.min_zero hs]; exact Int.le_refl _
      · rw [ok.min_eq hs]; omega
    rw [if_neg (by omega), if_pos (by omega)]
  · have h0 := ok.min_eq (hneg rfl)
    simp only [if_true]
    rw [if_pos (by omega)]

theorem convert_eq {T : IntTy} (h : T.Supported) (p : Parsed) (hneg : p.negative = true → T.signed = true)
    (hD : p.significand < T.modulus) (h0 : p.significand = 0 → p.exp ≤ 0)
    (hw : 10 ^ T.log10 ≤ T.modulus ∨ scaled p.significand p.exp < T.modulus) :
    convertToInteger T p = T.clamp (if p.negative then -(scaled p.significand p.exp : Int) else scaled p.significand p.exp) := by
  have ok := tyOk h
  have hin : T.sig.InRange p.significand := by
    have := sig_max T
    refine ⟨?_, by omega⟩
    have h1 : T.sig.signed = false := rfl
    rw [(tyOk (sig_supported T)).min_zero h1]; omega
  obtain ⟨c1, c2, c3⟩ := countChars_spec (sig_supported T) p.significand hin
  simp only [Int.natAbs_natCast] at c2 c3
  unfold convertToInteger
  generalize countChars T.sig ↑p.significand = c at *
  split
  · rename_i he
    have hs : scaled p.significand p.exp = p.significand / 10 ^ (-p.exp).toNat := by
      unfold scaled; rw [if_neg (by omega)]
    simp only
    split
    · rename_i hc
      have : scaled p.significand p.exp = 0 := by
        rw [hs]
        refine Nat.div_eq_of_lt (Nat.lt_of_lt_of_le c2 (Nat.pow_le_pow_right (by decide) (by omega)))
      rw [this]
      have hmin : T.min ≤ 0 := by
        cases hs : T.signed
        · rw [ok.min_zero hs]; exact Int.le_refl _
        · rw [ok.min_eq hs]; omega
      unfold IntTy.clamp
      simp only [Int.natCast_zero, Int.neg_zero, ite_self, Int.ofNat_eq_natCast]
      rw [if_neg (by simp; omega), if_neg (by simp)]
    · rw [natDivLoop_eq, makeInteger_eq h _ _ hneg, hs]
  · split
    · rename_i he1 he
      have hs : scaled p.significand p.exp = p.significand * 10 ^ p.exp.toNat := by
        unfold scaled; rw [if_pos (by omega)]
      have hne : p.significand ≠ 0 := fun hc => by have := h0 hc; omega
      have hc1 : 10 ^ (c - 1) ≤ p.significand := by
        rcases c3 with rfl | c3
        · simp; omega
        · exact c3
      simp only
      split
      · rename_i hc
        rw [clamp_big h _ _ hneg]
        rw [hs]
        have : 10 ^ T.log10 ≤ 10 ^ (c - 1) * 10 ^ p.exp.toNat := by
          rw [← Nat.pow_add]; exact Nat.pow_le_pow_right (by decide) (by omega)
        exact Nat.le_trans this (Nat.mul_le_mul_right _ hc1)
      · rename_i hc
        have hlt : p.significand * 10 ^ p.exp.toNat < T.modulus := by
          rcases hw with hw | hw
          · refine Nat.lt_of_lt_of_le ?_ hw
            have : p.significand * 10 ^ p.exp.toNat < 10 ^ c * 10 ^ p.exp.toNat :=
              Nat.mul_lt_mul_of_pos_right c2 (Nat.pow_pos (by decide))
            refine Nat.lt_of_lt_of_le this ?_
            rw [← Nat.pow_add]; exact Nat.pow_le_pow_right (by decide) (by omega)
          · rwa [hs] at hw
        rw [natMulLoop_eq _ _ _ hlt, makeInteger_eq h _ _ hneg, hs]
    · have : p.exp = 0 := by omega
      have hs : scaled p.significand p.exp = p.significand := by
        unfold scaled; rw [if_pos (by omega), this]; simp
      rw [makeInteger_eq h _ _ hneg, hs]

/-- Exponents beyond all types have the same effect. -/
theorem clamp_scaled {T : IntTy} (h : T.Supported) (neg : Bool) (hneg : neg = true → T.signed = true) (m : Nat) (e e' : Int)
    (hm : m < T.modulus) (h0 : m = 0 → e ≤ 0) (h0' : m = 0 → e' ≤ 0)
    (he : e = e' ∨ (39 ≤ e ∧ 39 ≤ e') ∨ (e ≤ -39 ∧ e' ≤ -39)) :
    T.clamp (if neg then -(scaled m e : Int) else scaled m e) = T.clamp (if neg then -(scaled m e' : Int) else scaled m e') := by
  have ok := tyOk h
  rcases he with rfl | ⟨h1, h2⟩ | ⟨h1, h2⟩
  · rfl
  · have big : ∀ e : Int, 39 ≤ e → (m = 0 → e ≤ 0) → 10 ^ T.log10 ≤ scaled m e := by
      intro e he h0
      have hne : m ≠ 0 := fun hc => by have := h0 hc; omega
      unfold scaled
      rw [if_pos (by omega)]
      have : 10 ^ T.log10 ≤ 10 ^ e.toNat := Nat.pow_le_pow_right (by decide) (by have := ok.log_le; omega)
      exact Nat.le_trans this (Nat.le_mul_of_pos_left _ (by omega))
    rw [clamp_big h _ _ hneg (big e h1 h0), clamp_big h _ _ hneg (big e' h2 h0')]
  · have small : ∀ e : Int, e ≤ -39 → scaled m e = 0 := by
      intro e he
      unfold scaled
      rw [if_neg (by omega)]
      have hmod : T.modulus ≤ 10 ^ 39 := by
        unfold IntTy.modulus; split <;> decide
      exact Nat.div_eq_of_lt (Nat.lt_of_lt_of_le (Nat.lt_of_lt_of_le hm hmod) (Nat.pow_le_pow_right (by decide) (by omega)))
    rw [small e h1, small e' h2]

theorem modulus_pos (T : IntTy) : 0 < T.modulus := by unfold IntTy.modulus; split <;> decide

/-- Reading an integer. -/
theorem intTo_value {T : IntTy} (h : T.Supported) (sp : Bytes) (hsp : ∀ c ∈ sp, isSpace c = true) (n : NumText) (hn : n.Loose)
    (hne : n.text ≠ []) (hneg : n.neg = true → T.signed = true) (hD : n.mantissa < T.modulus)
    (hlen : n.frac = none ∨ (n.int ++ n.frac.getD []).length < 256) (h0 : n.mantissa = 0 → n.scale ≤ 0)
    (hw : 10 ^ T.log10 ≤ T.modulus ∨ scaled n.mantissa n.scale < T.modulus) :
    intTo T (sp ++ n.text) = (.noError, T.clamp n.trunc) := by
  have ok := tyOk h
  obtain ⟨e, he, hp⟩ := parseNumber_num T.modulus (modulus_pos T) sp hsp n hn hne
  have hfe : fracExp (decPosOf n.int n.frac) ((n.int ++ n.frac.getD []).length % 256) = -((n.frac.getD []).length : Int) := by
    cases hf : n.frac with
    | none => simp [decPosOf, fracExp]
    | some f =>
      rw [hf] at hlen
      simp at hlen
      simp only [decPosOf, fracExp, Option.getD_some, List.length_append]
      rw [Nat.mod_eq_of_lt (by omega), Nat.mod_eq_of_lt hlen]
      omega
  unfold intTo
  rw [hp]
  simp only [ne_eq, not_true_eq_false, or_self, if_false, if_true, Prod.mk.injEq, true_and, hfe, Nat.mod_eq_of_lt hD]
  have hrel : ∃ E : Int, n.scale = E - (n.frac.getD []).length ∧ (e = E ∨ (100000000 ≤ E ∧ 100000000 ≤ e) ∨ (E ≤ -100000000 ∧ e ≤ -100000000)) := by
    unfold NumText.scale
    unfold ExpIs at he
    cases hx : n.exp with
    | none => rw [hx] at he; exact ⟨0, rfl, .inl he⟩
    | some x =>
      obtain ⟨c, sign, d⟩ := x
      rw [hx] at he
      obtain ⟨e', h1, h2⟩ := he
      refine ⟨_, rfl, ?_⟩
      unfold ExpOk at h1
      simp only at h2 ⊢
      split at h2 <;> rename_i hsg <;> simp only [hsg, if_true, if_false] <;> omega
  obtain ⟨E, hE, hEe⟩ := hrel
  have hlen2 : (n.frac.getD []).length < 256 := by
    rcases hlen with hf | hf
    · rw [hf]; simp
    · simp at hf; omega
  -- the condition of `clamp_scaled`
  have hclose : n.scale = -((n.frac.getD []).length : Int) + e ∨ (39 ≤ n.scale ∧ 39 ≤ -((n.frac.getD []).length : Int) + e) ∨
      (n.scale ≤ -39 ∧ -((n.frac.getD []).length : Int) + e ≤ -39) := by omega
  have h0' : n.mantissa = 0 → -((n.frac.getD []).length : Int) + e ≤ 0 := by
    intro hc; have := h0 hc; omega
  rw [convert_eq h _ hneg hD h0' ?_]
  · exact (clamp_scaled h n.neg hneg n.mantissa _ _ hD h0 h0' hclose).symm
  · rcases hw with hw | hw
    · exact .inl hw
    · rcases hclose with hc | ⟨hc, _⟩ | ⟨_, hc⟩
      · rw [← hc]; exact .inr hw
      · -- a mantissa other than zero and 39 more digits do not fit
        exfalso
        have hne : n.mantissa ≠ 0 := fun hc' => by have := h0 hc'; omega
        unfold scaled at hw
        rw [if_pos (by omega)] at hw
        have h39 : 10 ^ 39 ≤ 10 ^ n.scale.toNat := Nat.pow_le_pow_right (by decide) (by omega)
        have := Nat.le_mul_of_pos_left (10 ^ n.scale.toNat) (show 0 < n.mantissa by omega)
        have hmod : T.modulus ≤ 10 ^ 39 := by
          unfold IntTy.modulus; split <;> decide
        omega
      · right
        show scaled n.mantissa (-((n.frac.getD []).length : Int) + e) < _
        unfold scaled
        rw [if_neg (by omega)]
        exact Nat.lt_of_le_of_lt (Nat.div_le_self _ _) hD

/-! ### What is accepted -/

theorem digitsIn_ok (M : Nat) (s : Bytes) (p : Parsed) (dp : Option Nat) (inc : Bool) (p' : Parsed) (dp' : Option Nat)
    (h : digitsIn M true s p dp inc = (.ok, p', dp')) :
    ∃ ds f, s = ds ++ fracText f ++ p'.rest ∧ AllDigits ds ∧ (∀ f' ∈ f, AllDigits f') ∧ (dp.isSome = true → f = none) := by
  induction s generalizing p dp inc with
  | nil =>
    rw [digitsIn] at h
    cases h
    exact ⟨[], none, by simp, by simp [AllDigits], by simp, by simp⟩
  | cons c s ih =>
    rw [digitsIn] at h
    split at h
    · cases h
      exact ⟨[], none, by simp, by simp [AllDigits], by simp, by simp⟩
    · rename_i h1
      split at h
      · rename_i hdot
        subst hdot
        split at h
        · cases h
        · rename_i hdp
          obtain ⟨ds, f, g1, g2, g3, g4⟩ := ih _ _ _ h
          refine ⟨[], some ds, ?_, by simp [AllDigits], ?_, fun hc => absurd hc hdp⟩
          · have := g4 rfl
            subst this
            simp [g1]
          · intro f' hf'
            cases hf'
            exact g2
      · rename_i hdot
        simp only [Bool.true_or, if_true] at h
        obtain ⟨ds, f, g1, g2, g3, g4⟩ := ih _ _ _ h
        refine ⟨c :: ds, f, by simp [g1], ?_, g3, g4⟩
        intro x hx
        rcases List.mem_cons.1 hx with rfl | hx
        · simpa [isDig_eq, hdot] using h1
        · exact g2 x hx

theorem exponentIn_ok (s : Bytes) (e : Nat) (a : Bool) :
    ∃ ds, s = ds ++ (exponentIn s e a).2.2 ∧ AllDigits ds ∧ (exponentIn s e a).2.1 = (a || !ds.isEmpty) := by
  induction s generalizing e a with
  | nil => exact ⟨[], by simp [exponentIn], by simp [AllDigits], by simp [exponentIn]⟩
  | cons c s ih =>
    rw [exponentIn]
    split
    · exact ⟨[], by simp, by simp [AllDigits], by simp⟩
    · rename_i hc
      obtain ⟨ds, h1, h2, h3⟩ := ih (if e < 100000000 then e * 10 + (c.toNat - 48) else e) true
      refine ⟨c :: ds, by rw [List.cons_append, ← h1], ?_, by simp [h3]⟩
      intro x hx
      rcases List.mem_cons.1 hx with rfl | hx
      · simpa [isDig_eq] using hc
      · exact h2 x hx

theorem dropWhile_split (s : Bytes) : ∃ sp, s = sp ++ s.dropWhile isSpace ∧ ∀ c ∈ sp, isSpace c = true := by
  refine ⟨s.takeWhile isSpace, (List.takeWhile_append_dropWhile).symm, ?_⟩
  clear * -
  induction s with
  | nil => simp
  | cons x s ih =>
    intro c hc
    rw [List.takeWhile_cons] at hc
    split at hc
    · rcases List.mem_cons.1 hc with rfl | hc
      · assumption
      · exact ih c hc
    · simp at hc

/-- Everything accepted is a (loose) number behind white space. -/
theorem parseNumber_accepts (M : Nat) (s : Bytes) (p : Parsed) (h : parseNumber M true s = (.ok, p)) (hr : p.rest = []) :
    ∃ (sp : Bytes) (n : NumText), s = sp ++ n.text ∧ (∀ c ∈ sp, isSpace c = true) ∧ n.Loose ∧ n.text ≠ [] := by
  obtain ⟨sp, hs, hsp⟩ := dropWhile_split s
  unfold parseNumber at h
  generalize s.dropWhile isSpace = t at *
  suffices hh : ∃ n : NumText, t = n.text ∧ n.Loose by
    obtain ⟨n, rfl, h2⟩ := hh
    refine ⟨sp, n, hs, hsp, h2, ?_⟩
    intro hc; rw [hc] at h; simp at h
  cases t with
  | nil => simp at h
  | cons c t =>
    simp only at h
    have hbody : (if c = MINUS then b!"-" else []) ++ (if c = MINUS then t else c :: t) = c :: t := by
      split <;> simp_all
    generalize hu : (if c = MINUS then t else c :: t) = u at *
    split at h
    · rename_i hne
      simp only [Prod.mk.injEq] at h
      exact absurd h.1 hne
    · rename_i hok
      rcases hd : digitsIn M true u { negative := decide (c = MINUS) } none true with ⟨err, q, dp⟩
      rw [hd] at h hok
      simp at hok
      subst hok
      obtain ⟨ds, f, g1, g2, g3, -⟩ := digitsIn_ok _ _ _ _ _ _ _ hd
      have hneg : (if decide (c = MINUS) = true then b!"-" else []) = (if c = MINUS then b!"-" else []) := by simp
      simp only at h
      split at h
      · rename_i hq
        rw [hq] at g1
        exact ⟨⟨decide (c = MINUS), ds, f, none⟩, by rw [← hbody, g1]; simp [NumText.text], g2, g3, by simp⟩
      · rename_i e r hq
        split at h
        · simp only [Prod.mk.injEq, true_and] at h
          subst h
          simp [hq] at hr
        · rename_i he
          split at h
          · simp at h
          · rename_i sg r'
            generalize hw : (if sg = MINUS ∨ sg = PLUS then r' else sg :: r') = w at h
            split at h
            · simp at h
            · rename_i x y
              obtain ⟨d, e1, e2, e3⟩ := exponentIn_ok (x :: y) 0 false
              split at h
              · simp at h
              · rename_i has
                simp only [Prod.mk.injEq, true_and] at h
                subst h
                simp only at hr
                rw [hr, List.append_nil] at e1
                have hdne : d ≠ [] := by
                  intro hc; subst hc; simp at e3; rw [e3] at has; simp at has
                refine ⟨⟨decide (c = MINUS), ds, f, some (e, if sg = MINUS ∨ sg = PLUS then [sg] else [], d)⟩, ?_, g2, g3, ?_⟩
                · rw [← hbody, g1, hq]
                  simp only [NumText.text, expText, hneg]
                  have : (if sg = MINUS ∨ sg = PLUS then [sg] else []) ++ d = sg :: r' := by
                    rw [← e1, ← hw]; split <;> simp
                  rw [this]
                  simp
                · intro x hx
                  cases hx
                  refine ⟨?_, ?_, hdne, e2⟩
                  · simp only
                    by_cases h1 : e = 101
                    · exact .inl h1
                    · by_cases h2 : e = 69
                      · exact .inr h2
                      · exact absurd ⟨h1, h2⟩ he
                  · simp only
                    split
                    · rename_i hsg
                      rcases hsg with rfl | rfl
                      · right; right; rfl
                      · right; left; rfl
                    · left; rfl

end JsonStruct
