import Verif.Lemmas.FloatSingle
import Verif.Lemmas.FloatAny

/-
`correctly_round_float` reads the digits of a number as they are.
-/

namespace JsonStruct

theorem isDig_of {c : Byte} (h : isDigit c = true) : isDig c = true ∧ c ≠ DOT ∧ c.toNat - 48 < 10 :=
  forall_byte (p := fun c => isDigit c = true → isDig c = true ∧ c ≠ DOT ∧ c.toNat - 48 < 10) (by decide +kernel) c h

theorem scanDigits_append (s t : Bytes) (hs : AllDigits s) (w : Big) (k : Nat) (dot : Bool) (hw : w.Ok) (hw0 : w ≠ []) :
    ∃ w' : Big, w'.Ok ∧ w' ≠ [] ∧ w'.val = w.val * 10 ^ s.length + decVal s ∧
      scanDigits (s ++ t) w k dot = scanDigits t w' (if dot then k + s.length else k) dot := by
  induction s generalizing w k with
  | nil => exact ⟨w, hw, hw0, by simp [decVal], by simp⟩
  | cons c s ih =>
    obtain ⟨h1, h2, h3⟩ := isDig_of (hs c (by simp))
    obtain ⟨a1, a2, a3⟩ := Big.mulSmall_val (m := 10) (by norm_num) hw
    obtain ⟨b1, b2, b3⟩ := Big.addSmall_val (w.mulSmall 10) (c.toNat - 48) a1 (by omega)
    have hl := List.length_pos_iff.2 hw0
    obtain ⟨w', c1, c2, c3, c4⟩ := ih (fun x hx => hs x (by simp [hx])) ((w.mulSmall 10).addSmall (c.toNat - 48)) (if dot then k + 1 else k) b1
      (List.length_pos_iff.1 (by omega))
    refine ⟨w', c1, c2, ?_, ?_⟩
    · rw [c3, b2, a2, decVal_cons, List.length_cons, pow_succ]
      ring
    · rw [List.cons_append, scanDigits, if_neg h2, if_neg (by simp [h1]), c4]
      cases dot
      · simp
      · simp only [if_true, List.length_cons]
        congr 1
        omega

theorem scanDigits_stop (c : Byte) (s : Bytes) (h : isDig c = false) (hd : c ≠ DOT) (w : Big) (k : Nat) (dot : Bool) :
    scanDigits (c :: s) w k dot = (w, k, c :: s) := by
  rw [scanDigits, if_neg hd, if_pos (by simp [h])]

theorem scanExp_digits (d : Bytes) (hd : AllDigits d) (a : Nat) (h : a * 10 ^ d.length + decVal d < 2 ^ 31) :
    scanExp d a = some (a * 10 ^ d.length + decVal d) := by
  induction d generalizing a with
  | nil => simp [scanExp, decVal]
  | cons c d ih =>
    obtain ⟨h1, h2, h3⟩ := isDig_of (hd c (by simp))
    rw [decVal_cons, List.length_cons, pow_succ] at h ⊢
    have hp : 1 ≤ 10 ^ d.length := Nat.one_le_pow _ _ (by norm_num)
    have e1 : (a * 10 + (c.toNat - 48)) * 10 ^ d.length + decVal d = a * (10 ^ d.length * 10) + ((c.toNat - 48) * 10 ^ d.length + decVal d) := by ring
    have hle : a * 10 + (c.toNat - 48) < 2 ^ 31 := by
      have := Nat.mul_le_mul_left (a * 10 + (c.toNat - 48)) hp
      omega
    rw [scanExp, if_neg (by simp [h1]), if_neg (by omega), ih (fun x hx => hd x (by simp [hx])) _ (by omega), e1]

/-- The text without its sign. -/
theorem scan_start {n : NumText} (hn : n.Loose) (hint : JsonInt n.int) :
    (match n.text.dropWhile isSpace with | c :: s' => if c = MINUS ∨ c = PLUS then s' else c :: s' | [] => []) =
      n.int ++ (fracText n.frac ++ expText n.exp) := by
  obtain ⟨c, s, hc⟩ : ∃ c s, n.int = c :: s := by
    cases h : n.int with
    | nil => rw [h] at hint; rcases hint with h | h <;> simp [Digits] at h
    | cons c s => exact ⟨c, s, rfl⟩
  have hd := hn.1 c (by rw [hc]; simp)
  have h2 : isSpace c = false ∧ c ≠ MINUS ∧ c ≠ PLUS :=
    forall_byte (p := fun c => isDigit c = true → isSpace c = false ∧ c ≠ MINUS ∧ c ≠ PLUS) (by decide +kernel) c hd
  unfold NumText.text
  cases n.neg
  · simp only [Bool.false_eq_true, if_false, hc, List.nil_append, List.cons_append, List.append_assoc]
    rw [List.dropWhile_cons_of_neg (by simp [h2.1])]
    simp only
    rw [if_neg (by simp [h2.2])]
  · simp only [if_true, List.append_assoc]
    rw [show b!"-" ++ (n.int ++ (fracText n.frac ++ expText n.exp)) = MINUS :: (n.int ++ (fracText n.frac ++ expText n.exp)) from rfl,
      List.dropWhile_cons_of_neg (by decide)]
    simp

theorem scanNumber_text {n : NumText} (hn : n.Loose) (hint : JsonInt n.int) (hfrac : (n.frac.getD []).length < 2 ^ 30)
    (he1 : -(2 ^ 29) < expoOf n) (he2 : expoOf n < 2 ^ 29) :
    ∃ w : Big, scanNumber n.text = some (w, n.scale) ∧ w.Ok ∧ w ≠ [] ∧ w.val = n.mantissa := by
  obtain ⟨w1, a1, a2, a3, a4⟩ := scanDigits_append n.int (fracText n.frac ++ expText n.exp) hn.1 Big.zero 0 false (Big.ok_cons (by norm_num) Big.ok_nil)
    (by simp [Big.zero])
  have hz : Big.zero.val = 0 := by simp [Big.zero, Big.val]
  rw [hz, Nat.zero_mul, Nat.zero_add] at a3
  have hdig : ∃ w : Big, w.Ok ∧ w ≠ [] ∧ w.val = n.mantissa ∧
      scanDigits (n.int ++ (fracText n.frac ++ expText n.exp)) Big.zero 0 false = (w, (n.frac.getD []).length, expText n.exp) := by
    have hstop : ∀ (w : Big) (k : Nat) (dot : Bool), scanDigits (expText n.exp) w k dot = (w, k, expText n.exp) := by
      intro w k dot
      cases hx : n.exp with
      | none => simp [expText, scanDigits]
      | some x =>
        obtain ⟨c, sign, d⟩ := x
        have := (hn.2.2 _ (by rw [hx]; rfl)).1
        refine scanDigits_stop c _ ?_ ?_ _ _ _ <;> rcases this with h | h <;> simp only at h <;> subst h <;> decide
    rw [a4]
    unfold NumText.mantissa
    cases hf : n.frac with
    | none =>
      refine ⟨w1, a1, a2, ?_, ?_⟩
      · simp [a3]
      · simp only [fracText, List.nil_append, hstop, Bool.false_eq_true, if_false, Option.getD_none, List.length_nil]
    | some f =>
      obtain ⟨w2, b1, b2, b3, b4⟩ := scanDigits_append f (expText n.exp) (hn.2.1 f (by rw [hf]; rfl)) w1 0 true a1 a2
      refine ⟨w2, b1, b2, ?_, ?_⟩
      · rw [b3, a3, Option.getD_some, decVal_append]
      · simp only [fracText, List.cons_append, Bool.false_eq_true, if_false]
        rw [scanDigits, if_pos (by rfl), if_neg (by simp), b4, hstop]
        simp
  obtain ⟨w, b1, b2, b3, b4⟩ := hdig
  refine ⟨w, ?_, b1, b2, b3⟩
  unfold scanNumber
  simp only
  have hs := scan_start hn hint
  generalize List.dropWhile isSpace n.text = D at hs
  have hne : D ≠ [] := by
    rintro rfl
    simp only at hs
    have := congrArg List.length hs
    rcases hint with h | h
    · rw [h] at this; simp at this
    · have := h.1.1
      cases hi : n.int with
      | nil => exact this hi
      | cons => rw [hi] at hs; simp at hs
  cases D with
  | nil => exact absurd rfl hne
  | cons c0 s0 =>
  simp only at hs ⊢
  rw [hs, b4]
  simp only
  rw [scale_eq]
  unfold expoOf at *
  cases hx : n.exp with
  | none =>
    simp only [expText]
    rw [if_neg (by omega)]
    congr 2
    ring
  | some x =>
    obtain ⟨c, sign, d⟩ := x
    obtain ⟨h1, h2, h3⟩ := hn.2.2 _ (by rw [hx]; rfl)
    simp only at h1 h2 h3
    rw [hx] at he1 he2
    simp only at he1 he2
    have hlt : decVal d < 2 ^ 31 := by
      by_cases hsg : sign = b!"-"
      · rw [if_pos hsg] at he1 he2; omega
      · rw [if_neg hsg] at he1 he2; omega
    have hscan := scanExp_digits d h3.2 0 (by omega)
    rw [Nat.zero_mul, Nat.zero_add] at hscan
    simp only [expText]
    rw [if_pos (by rcases h1 with h | h <;> rw [h] <;> decide)]
    obtain ⟨g, d', hd'⟩ : ∃ g d', d = g :: d' := by
      cases d with
      | nil => exact absurd rfl h3.1
      | cons g d' => exact ⟨g, d', rfl⟩
    have hg := h3.2 g (by rw [hd']; simp)
    have hg2 : g ≠ MINUS ∧ g ≠ PLUS := forall_byte (p := fun g => isDigit g = true → g ≠ MINUS ∧ g ≠ PLUS) (by decide +kernel) g hg
    rcases h2 with h | h | h <;> subst h
    · rw [List.nil_append]
      rw [if_neg (by decide)] at he1 he2 ⊢
      rw [hd'] at hscan he1 he2 ⊢
      simp only [hg2.1, hg2.2, or_self, if_false, hscan, Option.map_some, Option.bind_eq_bind, Option.bind_some, Option.pure_def]
      rw [if_neg (by omega)]
      congr 2
      ring
    · rw [if_neg (by decide)] at he1 he2 ⊢
      rw [show b!"+" ++ d = PLUS :: d from rfl]
      simp only [or_true, if_true, hscan, Option.map_some, Option.bind_eq_bind, Option.bind_some, Option.pure_def]
      rw [if_neg (show ¬ PLUS = MINUS by decide), if_neg (by omega)]
      congr 2
      ring
    · rw [if_pos rfl] at he1 he2 ⊢
      rw [show b!"-" ++ d = MINUS :: d from rfl]
      simp only [true_or, if_true, hscan, Option.map_some, Option.bind_eq_bind, Option.bind_some, Option.pure_def]
      rw [if_neg (by omega)]
      congr 2
      ring

end JsonStruct
