import Verif.Model.Tokenizer
import Verif.Lemmas.Scan

/- The three searching loops (`findStartOfNextValue`, `findDelimiter`,
`findTokenEnd`): independence of the vector mode and their meaning on the bytes
that remain. -/

namespace JsonStruct

/-- The options with the build variant replaced. -/
def Opts.withSimd (o : Opts) (m : Simd) : Opts := { o with simd := m }

theorem startLoop_simd (o : Opts) (m : Simd) (s : Bytes) (k p c : Nat) :
    startLoop (o.withSimd m) s k p c = startLoop o s k p c := by
  induction s generalizing k p c with
  | nil => simp [startLoop]
  | cons a s ih =>
    cases k with
    | succ k => simp only [startLoop, ih]
    | zero => simp only [startLoop, ih, skipComment_eq]; rfl

theorem delimLoop_simd (o : Opts) (m : Simd) (ct : Ty) (s : Bytes) (k p c : Nat) :
    delimLoop (o.withSimd m) ct s k p c = delimLoop o ct s k p c := by
  induction s generalizing k p c with
  | nil => simp [delimLoop]
  | cons a s ih =>
    cases k with
    | succ k => simp only [delimLoop, ih]
    | zero => simp only [delimLoop, ih, skipComment_eq]; rfl

theorem tokenEndLoop_simd (o : Opts) (m : Simd) (s : Bytes) (k p c : Nat) :
    tokenEndLoop (o.withSimd m) s k p c = tokenEndLoop o s k p c := by
  induction s generalizing k p c with
  | nil => simp [tokenEndLoop]
  | cons a s ih =>
    cases k with
    | succ k => simp only [tokenEndLoop, ih]
    | zero => simp only [tokenEndLoop, ih, skipComment_eq]; rfl

theorem startLoop_ws (o : Opts) (s : Bytes) (k p c : Nat) (hk : k ≤ s.length)
    (h : ∀ x ∈ s.take k, isWsV x = true) :
    startLoop o s 0 p c = startLoop o (s.drop k) 0 (p + k) c := by
  induction k generalizing s p with
  | zero => simp
  | succ k ih =>
    cases s with
    | nil => simp at hk
    | cons a s =>
      have ha := isWsV_facts a (h a (by simp))
      obtain ⟨h1, h2, h3, h4, h5, h6, h7, h8, h9, h10, -, -⟩ := ha
      rw [startLoop]
      simp only [beq_iff_eq, h1, h2, h3, h5, h6, h7, h8, h9, h10, if_false, Bool.and_eq_true,
        and_false, false_and, Bool.false_eq_true, List.drop_succ_cons]
      rw [ih s (p + 1) (by simpa using hk) (fun x hx => h x (by simp [hx]))]
      congr 1; omega

theorem delimLoop_ws (o : Opts) (ct : Ty) (s : Bytes) (k p c : Nat) (hk : k ≤ s.length)
    (hn : k ≠ 0 → o.newLines = false) (h : ∀ x ∈ s.take k, isWsV x = true) :
    delimLoop o ct s 0 p c = delimLoop o ct (s.drop k) 0 (p + k) c := by
  induction k generalizing s p with
  | zero => simp
  | succ k ih =>
    cases s with
    | nil => simp at hk
    | cons a s =>
      have ha := isWsV_facts a (h a (by simp))
      obtain ⟨h1, h2, h3, h4, h5, h6, h7, h8, h9, h10, h11, h12⟩ := ha
      have hn' := hn (by omega)
      rw [delimLoop]
      simp only [beq_iff_eq, h4, h5, h10, h11, h12, hn', if_false, Bool.and_eq_true, false_or, and_false,
        false_and, Bool.false_eq_true, List.drop_succ_cons, Bool.not_true]
      rw [ih s (p + 1) (by simpa using hk) (fun _ => hn') (fun x hx => h x (by simp [hx]))]
      congr 1; omega

theorem tokenEndLoop_ws (o : Opts) (s : Bytes) (k p c : Nat) (hk : k ≤ s.length)
    (hn : k ≠ 0 → o.newLines = false) (h : ∀ x ∈ s.take k, isWsV x = true) :
    tokenEndLoop o s 0 p c = tokenEndLoop o (s.drop k) 0 (p + k) c := by
  induction k generalizing s p with
  | zero => simp
  | succ k ih =>
    cases s with
    | nil => simp at hk
    | cons a s =>
      have ha := isWsV_facts a (h a (by simp))
      obtain ⟨h1, h2, h3, h4, h5, h6, h7, h8, h9, h10, h11, h12⟩ := ha
      have hn' := hn (by omega)
      rw [tokenEndLoop]
      simp only [beq_iff_eq, h4, h5, h8, h10, h11, hn', if_false, if_true, Bool.and_eq_true, false_or,
        and_false, false_and, Bool.false_eq_true, List.drop_succ_cons, ite_self]
      rw [ih s (p + 1) (by simpa using hk) (fun _ => hn') (fun x hx => h x (by simp [hx]))]
      congr 1; omega

/-- Neither the vector white space skip nor the fast path changes the result. -/
theorem findStart_eq (o : Opts) (buf : Bytes) (cur : Nat) :
    findStart o buf cur = startLoop o (buf.drop cur) 0 cur cur := by
  obtain ⟨h1, h2, -⟩ := wsSkip_spec o.simd true (buf.drop cur)
  simp only [findStart]
  have hw := startLoop_ws o (buf.drop cur) _ cur cur h1 h2
  rw [hw, List.drop_drop]
  generalize wsSkip o.simd true (buf.drop cur) = k
  generalize buf.drop (cur + k) = s
  cases s with
  | nil => simp [startFast]
  | cons c cs =>
    simp only [startFast]
    have q : ∀ d : UInt8, d ≠ SLASH → c = d → ¬ ((o.comments && c == SLASH && cs.head? == some SLASH) = true) := by
      intro d hd hc; subst hc; simp [hd]
    by_cases e1 : c = QUOTE
    · rw [startLoop, if_neg (q QUOTE (by decide) e1)]; simp [e1]
    by_cases e2 : c = LBRACE
    · rw [startLoop, if_neg (q LBRACE (by decide) e2)]; subst e2; simp (decide := true)
    by_cases e3 : c = RBRACE
    · rw [startLoop, if_neg (q RBRACE (by decide) e3)]; subst e3; simp (decide := true)
    by_cases e4 : c = LBRACK
    · rw [startLoop, if_neg (q LBRACK (by decide) e4)]; subst e4; simp (decide := true)
    by_cases e5 : c = RBRACK
    · rw [startLoop, if_neg (q RBRACK (by decide) e5)]; subst e5; simp (decide := true)
    simp only [e1, e2, e3, e4, e5, if_false]

theorem findDelimiter_eq (o : Opts) (ct : Ty) (st : List Ty) (buf : Bytes) (cur : Nat) :
    findDelimiter o (ct :: st) buf cur = delimLoop o ct (buf.drop cur) 0 cur cur := by
  obtain ⟨h1, h2, h3⟩ := wsSkip_spec o.simd (!o.newLines) (buf.drop cur)
  simp only [findDelimiter]
  rw [delimLoop_ws o ct (buf.drop cur) _ cur cur h1 (fun h => by simpa using h3 h) h2, List.drop_drop]

theorem findTokenEnd_eq (o : Opts) (ct : Ty) (st : List Ty) (buf : Bytes) (cur : Nat) :
    findTokenEnd o (ct :: st) buf cur = tokenEndLoop o (buf.drop cur) 0 cur cur := by
  obtain ⟨h1, h2, h3⟩ := wsSkip_spec o.simd (!o.newLines && !o.ascii) (buf.drop cur)
  simp only [findTokenEnd]
  rw [tokenEndLoop_ws o (buf.drop cur) _ cur cur h1
    (fun h => by have := h3 h; simp only [Bool.and_eq_true, Bool.not_eq_true'] at this; exact this.1) h2,
    List.drop_drop]

theorem findStart_simd (o : Opts) (m : Simd) (buf : Bytes) (cur : Nat) :
    findStart (o.withSimd m) buf cur = findStart o buf cur := by
  rw [findStart_eq, findStart_eq, startLoop_simd]

theorem findDelimiter_simd (o : Opts) (m : Simd) (st : List Ty) (buf : Bytes) (cur : Nat) :
    findDelimiter (o.withSimd m) st buf cur = findDelimiter o st buf cur := by
  cases st with
  | nil => rfl
  | cons ct st => rw [findDelimiter_eq, findDelimiter_eq, delimLoop_simd]

theorem findTokenEnd_simd (o : Opts) (m : Simd) (st : List Ty) (buf : Bytes) (cur : Nat) :
    findTokenEnd (o.withSimd m) st buf cur = findTokenEnd o st buf cur := by
  cases st with
  | nil => rfl
  | cons ct st => rw [findTokenEnd_eq, findTokenEnd_eq, tokenEndLoop_simd]

/-! ### Positions -/

theorem commentEnd_le (nl : Bool) (s : Bytes) (k : Nat) (h : commentEnd nl s = some k) :
    k ≤ s.length := by
  simp only [commentEnd] at h
  split at h <;> simp at h
  split at h <;> omega

/-- Where the start loop ends, relative to where it began. -/
theorem startLoop_pos (o : Opts) (s : Bytes) (k p c : Nat) (hc : c ≤ p + k) (hk : k ≤ s.length) :
    let r := startLoop o s k p c
    c ≤ r.cursor ∧ r.cursor + r.ahead ≤ p + s.length ∧
      (r.err = .noError → p ≤ r.cursor + r.ahead ∧ r.cursor + r.ahead < p + s.length) := by
  fun_induction startLoop o s k p c with
  | case1 => simp at hk; simp; omega
  | case2 a s k p c ih =>
    have := ih (by omega) (by simpa using hk)
    simp only [List.length_cons] at *
    refine ⟨this.1, by omega, fun h => ?_⟩
    have := this.2.2 h; omega
  | case3 ch cs p c hcom hsk =>
    simp only [Bool.and_eq_true, beq_iff_eq] at hcom
    cases cs <;> simp at hcom ⊢; omega
  | case4 ch cs p c hcom k hsk ih =>
    rw [skipComment_eq] at hsk
    have hle := commentEnd_le _ _ _ hsk
    simp only [Bool.and_eq_true, beq_iff_eq] at hcom
    have h2 : cs ≠ [] := by rintro rfl; simp at hcom
    have hl : cs.tail.length + 1 = cs.length := by cases cs <;> simp_all
    have := ih (by omega) (by omega)
    simp only [List.length_cons] at *
    refine ⟨by omega, by omega, fun h => ?_⟩
    have := this.2.2 h; omega
  | case13 ch cs p c _ _ _ _ _ _ _ _ _ ih =>
    have := ih (by omega) (by omega)
    simp only [List.length_cons] at *
    refine ⟨this.1, by omega, fun h => ?_⟩
    have := this.2.2 h; omega
  | _ => simp; omega

theorem delimLoop_pos (o : Opts) (ct : Ty) (s : Bytes) (k p c : Nat) (hc : c ≤ p + k) (hk : k ≤ s.length) :
    let r := delimLoop o ct s k p c
    c ≤ r.cursor ∧ r.cursor + r.ahead ≤ p + s.length ∧
      (r.err = .noError → p ≤ r.cursor + r.ahead) := by
  fun_induction delimLoop o ct s k p c with
  | case1 => simp at hk; simp; omega
  | case2 a s k p c ih =>
    have := ih (by omega) (by simpa using hk)
    simp only [List.length_cons] at *
    refine ⟨this.1, by omega, fun h => ?_⟩
    have := this.2.2 h; omega
  | case3 ch cs p c hcom hsk =>
    simp only [Bool.and_eq_true, beq_iff_eq] at hcom
    cases cs <;> simp at hcom ⊢; omega
  | case4 ch cs p c hcom k hsk ih =>
    rw [skipComment_eq] at hsk
    have hle := commentEnd_le _ _ _ hsk
    simp only [Bool.and_eq_true, beq_iff_eq] at hcom
    have h2 : cs ≠ [] := by rintro rfl; simp at hcom
    have hl : cs.tail.length + 1 = cs.length := by cases cs <;> simp_all
    have := ih (by omega) (by omega)
    simp only [List.length_cons] at *
    refine ⟨by omega, by omega, fun h => ?_⟩
    have := this.2.2 h; omega
  | case12 ch cs p c _ _ _ _ _ ih =>
    have := ih (by omega) (by omega)
    simp only [List.length_cons] at *
    refine ⟨this.1, by omega, fun h => ?_⟩
    have := this.2.2 h; omega
  | _ => simp; omega

theorem tokenEndLoop_pos (o : Opts) (s : Bytes) (k p c : Nat) (hc : c ≤ p + k) (hk : k ≤ s.length) :
    let r := tokenEndLoop o s k p c
    c ≤ r.cursor ∧ r.cursor + r.ahead ≤ p + s.length ∧
      (r.err = .noError → p ≤ r.cursor + r.ahead) := by
  fun_induction tokenEndLoop o s k p c with
  | case1 => simp at hk; simp; omega
  | case2 a s k p c ih =>
    have := ih (by omega) (by simpa using hk)
    simp only [List.length_cons] at *
    refine ⟨this.1, by omega, fun h => ?_⟩
    have := this.2.2 h; omega
  | case3 ch cs p c hcom hsk =>
    simp only [Bool.and_eq_true, beq_iff_eq] at hcom
    cases cs <;> simp at hcom ⊢; omega
  | case4 ch cs p c hcom k hsk ih =>
    rw [skipComment_eq] at hsk
    have hle := commentEnd_le _ _ _ hsk
    simp only [Bool.and_eq_true, beq_iff_eq] at hcom
    have h2 : cs ≠ [] := by rintro rfl; simp at hcom
    have hl : cs.tail.length + 1 = cs.length := by cases cs <;> simp_all
    have := ih (by omega) (by omega)
    simp only [List.length_cons] at *
    refine ⟨by omega, by omega, fun h => ?_⟩
    have := this.2.2 h; omega
  | case8 cs p c _ _ _ _ ih =>
    have := ih (by omega) (by omega)
    simp only [List.length_cons] at *
    refine ⟨this.1, by omega, fun h => ?_⟩
    have := this.2.2 h; omega
  | case9 ch cs p c _ _ _ _ _ ih =>
    have := ih (by omega) (by omega)
    simp only [List.length_cons] at *
    refine ⟨this.1, by omega, fun h => ?_⟩
    have := this.2.2 h; omega
  | _ => simp; omega

end JsonStruct
