import Verif.Lemmas.Doc
import Verif.Spec.Lenient

/- What the light machine has read when it reports no error. -/

namespace JsonStruct

set_option linter.unusedSimpArgs false

namespace Lax

/-! ### The scanners -/

theorem lStart_drop (o : Opts) (s : Bytes) (k : Nat) : lStart o s k = lStart o (s.drop k) 0 := by
  induction s generalizing k with
  | nil => simp [lStart]
  | cons c s ih => cases k with
    | zero => rfl
    | succ k => simpa [lStart] using ih k

theorem lDelim_drop (o : Opts) (ct : Ty) (s : Bytes) (k : Nat) : lDelim o ct s k = lDelim o ct (s.drop k) 0 := by
  induction s generalizing k with
  | nil => simp [lDelim]
  | cons c s ih => cases k with
    | zero => rfl
    | succ k => simpa [lDelim] using ih k

theorem lTokEnd_drop (o : Opts) (s : Bytes) (k : Nat) : lTokEnd o s k = lTokEnd o (s.drop k) 0 := by
  induction s generalizing k with
  | nil => simp [lTokEnd]
  | cons c s ih => cases k with
    | zero => rfl
    | succ k => simpa [lTokEnd] using ih k

theorem commentEnd_inv {nl : Bool} {s : Bytes} {k : Nat} (h : commentEnd nl s = some k) :
    ∃ body r, (10 : Byte) ∉ body ∧ s = body ++ 10 :: r ∧ s.drop k = if nl then 10 :: r else r := by
  unfold commentEnd at h
  simp only [Option.ite_none_right_eq_some, Option.some.injEq] at h
  obtain ⟨h1, rfl⟩ := h
  have h2 : s[s.findIdx (· = LF)] = LF := by simpa using List.findIdx_getElem (w := h1)
  refine ⟨s.take (s.findIdx (· = LF)), s.drop (s.findIdx (· = LF) + 1), ?_, ?_, ?_⟩
  rotate_left 2
  · cases nl
    · simp
    · simp only [if_true]
      rw [List.drop_eq_getElem_cons h1, h2]
  · intro hm
    obtain ⟨i, hi, hx⟩ := List.mem_iff_getElem.1 hm
    rw [List.length_take] at hi
    rw [List.getElem_take] at hx
    have := List.not_of_lt_findIdx (xs := s) (p := (· = LF)) (i := i) (by omega)
    simp [hx, LF] at this
  · conv_lhs => rw [← List.take_append_drop (s.findIdx (· = LF)) s, List.drop_eq_getElem_cons h1, h2]

/-- Which byte begins a token of which type. -/
def Starts (ty : Ty) (c : Byte) : Prop :=
  match ty with
  | .string => c = QUOTE
  | .objectStart => c = LBRACE
  | .objectEnd => c = RBRACE
  | .arrayStart => c = LBRACK
  | .arrayEnd => c = RBRACK
  | .number => has c (flPlusMinus ||| flDigits) = true
  | .ascii => has c flAscii = true
  | _ => False

theorem passed_of (c : Byte) : c ≠ QUOTE → c ≠ LBRACE → c ≠ RBRACE → c ≠ LBRACK → c ≠ RBRACK →
    has c (flPlusMinus ||| flDigits) = false → has c flAscii = false → lookup c ≠ 0 → passed c = true :=
  forall_byte (p := fun c => c ≠ QUOTE → c ≠ LBRACE → c ≠ RBRACE → c ≠ LBRACK → c ≠ RBRACK →
    has c (flPlusMinus ||| flDigits) = false → has c flAscii = false → lookup c ≠ 0 → passed c = true) (by decide +kernel) c

theorem head_slash {cs : Bytes} (h : cs.head? = some SLASH) : cs = SLASH :: cs.tail := by
  cases cs with
  | nil => simp at h
  | cons a cs => simp at h; simp [h]

theorem lStart_inv (o : Opts) (s : Bytes) {ty : Ty} {r : Bytes} (h : lStart o s 0 = .ok (ty, r)) :
    ∃ g c cs, s = g ++ c :: cs ∧ r = c :: cs ∧ Skip o.comments g ∧ Starts ty c := by
  induction hl : s.length using Nat.strongRecOn generalizing s with
  | _ n ih =>
  subst hl
  cases s with
  | nil => simp [lStart] at h
  | cons c cs =>
    rw [lStart] at h
    split at h
    · rename_i hc
      simp only [Bool.and_eq_true, beq_iff_eq] at hc
      obtain ⟨⟨h1, rfl⟩, h3⟩ := hc
      split at h
      · simp at h
      · rename_i k hk
        obtain ⟨body, r', hb, h4, h5⟩ := commentEnd_inv hk
        have hcs := head_slash h3
        rw [lStart_drop] at h
        have : cs.drop (k + 1) = if o.newLines then 10 :: r' else r' := by rw [hcs]; simpa using h5
        rw [this] at h
        have h : lStart o r' 0 = .ok (ty, r) := by
          cases hn : o.newLines with
          | false => simpa [hn] using h
          | true =>
            rw [hn, if_pos rfl, lStart] at h
            have a : (o.comments && (10 : Byte) == SLASH && r'.head? == some SLASH) = false := by
              simp [show ((10 : Byte) == SLASH) = false from rfl]
            simpa [a, show (10 : Byte) ≠ QUOTE by decide, show (10 : Byte) ≠ LBRACE by decide, show (10 : Byte) ≠ RBRACE by decide,
              show (10 : Byte) ≠ LBRACK by decide, show (10 : Byte) ≠ RBRACK by decide, show has 10 (flPlusMinus ||| flDigits) = false by decide +kernel,
              show has 10 flAscii = false by decide +kernel, show lookup 10 ≠ 0 by decide +kernel] using h
        obtain ⟨g, c, cs', e1, e2, e3, e4⟩ := ih r'.length (by rw [hcs, h4]; simp; omega) r' h rfl
        refine ⟨SLASH :: SLASH :: (body ++ 10 :: g), c, cs', ?_, e2, .comment h1 hb e3, e4⟩
        rw [hcs, h4, e1]; simp
    · rename_i hc
      simp only [Bool.and_eq_true, beq_iff_eq, not_and] at hc
      have fin : ∀ {ty' : Ty}, (Except.ok (ty', c :: cs) : LRes (Ty × Bytes)) = .ok (ty, r) → Starts ty' c →
          ∃ g c' cs', c :: cs = g ++ c' :: cs' ∧ r = c' :: cs' ∧ Skip o.comments g ∧ Starts ty c' := by
        intro ty' he hs
        cases he
        exact ⟨[], c, cs, rfl, rfl, .nil, hs⟩
      split_ifs at h with h1 h2 h3 h4 h5 h6 h7 h8
      · exact fin h h1
      · exact fin h h2
      · exact fin h h3
      · exact fin h h4
      · exact fin h h5
      · exact fin h h6
      · exact fin h h7
      obtain ⟨g, c', cs', e1, e2, e3, e4⟩ := ih cs.length (by simp) cs h rfl
      refine ⟨c :: g, c', cs', by rw [e1]; rfl, e2, .byte (passed_of c h1 h2 h3 h4 h5 (by simpa using h6) (by simpa using h7) h8) ?_ e3, e4⟩
      intro hcm hcs hg
      refine hc ⟨hcm, hcs⟩ ?_
      rw [e1]
      cases g with
      | nil => simp at hg
      | cons a g => simpa using hg

theorem blank_of (c : Byte) : has c flWs = true → blank c = true :=
  forall_byte (p := fun c => has c flWs = true → blank c = true) (by decide +kernel) c

theorem lDelim_inv (o : Opts) (ct : Ty) (s : Bytes) {b : Bool} {r : Bytes} (h : lDelim o ct s 0 = .ok (b, r)) :
    ∃ w, Blank o w ∧
      ((ct = .objectStart ∧ b = true ∧ s = w ++ COLON :: r) ∨
       (ct = .arrayStart ∧ b = false ∧ ((∃ c x, Sep o c x ∧ s = w ++ x ++ r) ∨ (s = w ++ r ∧ r.head? = some RBRACK)))) := by
  induction hl : s.length using Nat.strongRecOn generalizing s with
  | _ n ih =>
  subst hl
  cases s with
  | nil => simp [lDelim] at h
  | cons c cs =>
    rw [lDelim] at h
    split at h
    · rename_i hc
      simp only [Bool.and_eq_true, beq_iff_eq] at hc
      obtain ⟨⟨h1, rfl⟩, h3⟩ := hc
      split at h
      · simp at h
      · rename_i k hk
        obtain ⟨body, r', hb, h4, h5⟩ := commentEnd_inv hk
        have hcs := head_slash h3
        rw [lDelim_drop] at h
        have : cs.drop (k + 1) = if o.newLines then 10 :: r' else r' := by rw [hcs]; simpa using h5
        rw [this] at h
        have h0 : SLASH :: cs = SLASH :: SLASH :: (body ++ 10 :: r') := by rw [hcs, h4]
        rw [h0]
        cases hn : o.newLines with
        | true =>
          rw [hn, if_pos rfl, lDelim, if_neg (by simp [show ((10 : Byte) == SLASH) = false from rfl]),
            if_neg (by decide), if_pos (.inr ⟨hn, rfl⟩)] at h
          split at h
          · simp at h
          · rename_i hct
            simp at h hct
            exact ⟨[], .nil, .inr ⟨hct, h.1, .inl ⟨_, _, .comment hn h1 hb, by simp [← h.2]⟩⟩⟩
        | false =>
        rw [hn] at h
        obtain ⟨w, e1, e2⟩ := ih r'.length (by rw [hcs, h4]; simp; omega) r' h rfl
        refine ⟨SLASH :: SLASH :: (body ++ 10 :: w), .comment h1 hn hb e1, ?_⟩
        rcases e2 with ⟨a, a', rfl⟩ | ⟨a, a', ⟨c, x, a'', rfl⟩ | ⟨rfl, a''⟩⟩
        · exact .inl ⟨a, a', by simp⟩
        · exact .inr ⟨a, a', .inl ⟨c, x, a'', by simp⟩⟩
        · exact .inr ⟨a, a', .inr ⟨by simp, a''⟩⟩
    · by_cases h1 : c = COLON
      · by_cases h2 : ct = .objectStart
        · simp [h1, h2] at h; exact ⟨[], .nil, .inl ⟨h2, h.1, by rw [h1, h.2]; rfl⟩⟩
        · simp [h1, h2] at h
      by_cases h2 : c = COMMA
      · by_cases h3 : ct = .arrayStart
        · rw [if_neg h1, if_pos (.inl h2)] at h
          simp [h3] at h; exact ⟨[], .nil, .inr ⟨h3, h.1, .inl ⟨_, _, .comma, by rw [h2, h.2]; rfl⟩⟩⟩
        · rw [if_neg h1, if_pos (.inl h2)] at h
          simp [h3] at h
      by_cases hlf : o.newLines = true ∧ c = LF
      · rw [if_neg h1, if_pos (.inr hlf)] at h
        split at h
        · simp at h
        · rename_i hct
          simp at h hct
          exact ⟨[], .nil, .inr ⟨hct, h.1, .inl ⟨_, _, .line hlf.1, by rw [hlf.2, h.2]; rfl⟩⟩⟩
      by_cases h3 : c = RBRACK
      · by_cases h4 : ct = .arrayStart
        · simp [h1, h2, h3, h4] at h
          simp [show RBRACK ≠ COLON by decide, show RBRACK ≠ COMMA by decide, show RBRACK ≠ LF by decide] at h
          exact ⟨[], .nil, .inr ⟨h4, h.1, .inr ⟨by rw [h3, ← h.2]; rfl, by rw [← h.2]; rfl⟩⟩⟩
        · simp [h1, h2, h3, h4, show RBRACK ≠ COLON by decide, show RBRACK ≠ COMMA by decide, show RBRACK ≠ LF by decide] at h
      by_cases h4 : has c flWs = true
      · simp only [h1, h2, h3, h4, hlf, if_false, Bool.not_true, Bool.false_eq_true, false_and, or_self] at h
        obtain ⟨w, e1, e2⟩ := ih cs.length (by simp) cs h rfl
        refine ⟨c :: w, .byte (blank_of c h4) (fun a b => hlf ⟨a, b⟩) e1, ?_⟩
        rcases e2 with ⟨a, a', rfl⟩ | ⟨a, a', ⟨c, x, a'', rfl⟩ | ⟨rfl, a''⟩⟩
        · exact .inl ⟨a, a', by simp⟩
        · exact .inr ⟨a, a', .inl ⟨c, x, a'', by simp⟩⟩
        · exact .inr ⟨a, a', .inr ⟨by simp, a''⟩⟩
      · simp [h1, h2, h3, h4, hlf] at h

theorem lTokEnd_inv (o : Opts) (s : Bytes) {b : Bool} {r : Bytes} (h : lTokEnd o s 0 = .ok (b, r)) :
    ∃ w, Blank o w ∧
      ((∃ x, Sep o b x ∧ s = w ++ x ++ r) ∨ (b = false ∧ s = w ++ r ∧ (r.head? = some RBRACK ∨ r.head? = some RBRACE))) := by
  induction hl : s.length using Nat.strongRecOn generalizing s with
  | _ n ih =>
  subst hl
  cases s with
  | nil => simp [lTokEnd] at h
  | cons c cs =>
    rw [lTokEnd] at h
    split at h
    · rename_i hc
      simp only [Bool.and_eq_true, beq_iff_eq] at hc
      obtain ⟨⟨h1, rfl⟩, h3⟩ := hc
      split at h
      · simp at h
      · rename_i k hk
        obtain ⟨body, r', hb, h4, h5⟩ := commentEnd_inv hk
        have hcs := head_slash h3
        rw [lTokEnd_drop] at h
        have : cs.drop (k + 1) = if o.newLines then 10 :: r' else r' := by rw [hcs]; simpa using h5
        rw [this] at h
        have h0 : SLASH :: cs = SLASH :: SLASH :: (body ++ 10 :: r') := by rw [hcs, h4]
        rw [h0]
        cases hn : o.newLines with
        | true =>
          rw [hn, if_pos rfl, lTokEnd, if_neg (by simp [show ((10 : Byte) == SLASH) = false from rfl]),
            if_neg (by decide), if_neg (by decide), if_pos rfl, if_pos hn] at h
          simp at h
          rw [h.1]
          exact ⟨[], .nil, .inl ⟨_, .comment hn h1 hb, by simp [← h.2]⟩⟩
        | false =>
        rw [hn] at h
        obtain ⟨w, e1, e2⟩ := ih r'.length (by rw [hcs, h4]; simp; omega) r' h rfl
        refine ⟨SLASH :: SLASH :: (body ++ 10 :: w), .comment h1 hn hb e1, ?_⟩
        rcases e2 with ⟨x, a, rfl⟩ | ⟨a, rfl, a''⟩
        · exact .inl ⟨x, a, by simp⟩
        · exact .inr ⟨a, by simp, a''⟩
    · by_cases h1 : c = COMMA
      · simp [h1] at h; rw [h.1]; exact ⟨[], .nil, .inl ⟨_, .comma, by rw [h1, h.2]; rfl⟩⟩
      by_cases h2 : c = RBRACK ∨ c = RBRACE
      · rw [if_neg h1, if_pos h2] at h
        simp at h
        refine ⟨[], .nil, .inr ⟨h.1, by rw [← h.2]; rfl, ?_⟩⟩
        rw [← h.2]
        rcases h2 with h2 | h2 <;> simp [h2]
      have key : has c flWs = true → (o.newLines = true → c ≠ 10) → lTokEnd o cs 0 = .ok (b, r) → ∃ w, Blank o w ∧
          ((∃ x, Sep o b x ∧ c :: cs = w ++ x ++ r) ∨
            (b = false ∧ c :: cs = w ++ r ∧ (r.head? = some RBRACK ∨ r.head? = some RBRACE))) := fun h4 h5 h => by
        obtain ⟨w, e1, e2⟩ := ih cs.length (by simp) cs h rfl
        refine ⟨c :: w, .byte (blank_of c h4) h5 e1, ?_⟩
        rcases e2 with ⟨x, a, rfl⟩ | ⟨a, rfl, a''⟩
        · exact .inl ⟨x, a, by simp⟩
        · exact .inr ⟨a, by simp, a''⟩
      rw [if_neg h1, if_neg h2] at h
      by_cases h3 : c = LF
      · rw [if_pos h3] at h
        cases hn : o.newLines with
        | false => exact key (by rw [h3]; decide +kernel) (by simp [hn]) (by simpa [hn] using h)
        | true =>
          simp [hn] at h
          rw [h.1]
          exact ⟨[], .nil, .inl ⟨_, .line hn, by rw [h3, h.2]; rfl⟩⟩
      · rw [if_neg h3] at h
        by_cases h4 : has c flWs = true
        · rw [if_pos h4] at h; exact key h4 (fun _ => h3) h
        · simp [h4] at h

/-! ### Values -/

theorem strEnd_inv (s : Bytes) {k : Nat} (h : (strEnd false s).1 = some k) :
    1 ≤ k ∧ k ≤ s.length ∧ Quoted (s.take (k - 1)) ∧ s = s.take (k - 1) ++ QUOTE :: s.drop k := by
  induction hl : s.length using Nat.strongRecOn generalizing s k with
  | _ n ih =>
  subst hl
  cases s with
  | nil => simp [strEnd] at h
  | cons c s =>
    rw [strEnd] at h
    by_cases hc : lookup c = flStrEnd
    · rw [if_pos hc] at h
      rcases (lookup_strEnd c).1 hc with rfl | rfl
      · simp [show QUOTE ≠ BSL by decide] at h
        subst h
        exact ⟨by omega, by simp, by simpa using Quoted.nil, by simp⟩
      · simp only [if_true] at h
        cases s with
        | nil => simp [bump, strEnd] at h
        | cons d s =>
          rw [strEnd] at h
          simp only [bump, Option.map_eq_some_iff] at h
          obtain ⟨a, ⟨k', h, rfl⟩, rfl⟩ := h
          obtain ⟨h1, h2, h3, h4⟩ := ih s.length (by simp; omega) s h rfl
          obtain ⟨m, rfl⟩ : ∃ m, k' = m + 1 := ⟨k' - 1, by omega⟩
          have e : m + 1 + 1 + 1 - 1 = m + 1 + 1 := by omega
          refine ⟨by omega, by simp; omega, ?_, ?_⟩
          · rw [e]
            exact .esc (by simpa using h3)
          · rw [e]
            simp only [List.take_succ_cons, List.drop_succ_cons, List.cons_append]
            simp only [Nat.add_sub_cancel] at h4
            rw [← h4]
    · rw [if_neg hc] at h
      simp only [bump, Option.map_eq_some_iff] at h
      obtain ⟨k', h, rfl⟩ := h
      obtain ⟨h1, h2, h3, h4⟩ := ih s.length (by simp) s h rfl
      obtain ⟨m, rfl⟩ : ∃ m, k' = m + 1 := ⟨k' - 1, by omega⟩
      have e : m + 1 + 1 - 1 = m + 1 := by omega
      rw [lookup_strEnd] at hc
      refine ⟨by omega, by simp; omega, ?_, ?_⟩
      · rw [e]
        exact .plain (fun h => hc (.inl h)) (fun h => hc (.inr h)) (by simpa using h3)
      · rw [e]
        simp only [List.take_succ_cons, List.drop_succ_cons, List.cons_append]
        simp only [Nat.add_sub_cancel] at h4
        rw [← h4]

theorem numberEnd_inv (s : Bytes) {k : Nat} (h : numberEnd s = .found k) :
    (∀ x ∈ s.take k, numByte x = true) := by
  unfold numberEnd at h
  simp only at h
  split at h <;> simp at h
  rename_i h1
  subst h
  intro x hx
  obtain ⟨i, hi, rfl⟩ := List.mem_iff_getElem.1 hx
  rw [List.length_take] at hi
  rw [List.getElem_take]
  have := List.not_of_lt_findIdx (xs := s) (p := numberStop) (i := i) (by omega)
  exact forall_byte (p := fun c => numberStop c = false → numByte c = true) (by decide +kernel) _ (by simpa using this)

theorem asciiEndFrom_inv (s : Bytes) {j k : Nat} (h : asciiEndFrom j s = .found k) :
    ∃ m, k = j + m ∧ (∀ x ∈ s.take m, wordByte x = true) ∧ ∃ x r, s.drop m = x :: r ∧ x ≠ 0 ∧ x ≠ 0x2F := by
  induction s generalizing j with
  | nil => simp [asciiEndFrom] at h
  | cons c s ih =>
    rw [asciiEndFrom] at h
    by_cases h1 : asciiStop c = true
    · have h2 := forall_byte (p := fun c => asciiStop c = true → asciiRange c = false ∧ c ≠ 0x2F) (by decide +kernel) c h1
      simp only [h1, h2.1, if_true, Bool.false_eq_true, if_false] at h
      split at h
      · simp at h
      · rename_i h3
        simp at h; subst h
        exact ⟨0, rfl, by simp, c, s, rfl, h3, h2.2⟩
    · rw [if_neg h1] at h
      obtain ⟨m, rfl, e2, e3⟩ := ih h
      refine ⟨m + 1, by omega, ?_, e3⟩
      intro x hx
      rcases List.mem_cons.1 (by simpa using hx) with rfl | hx
      · exact forall_byte (p := fun c => asciiStop c = false → wordByte c = true) (by decide +kernel) _ (by simpa using h1)
      · exact e2 x hx

theorem getType_word (d : Bytes) : getType .ascii d =
    if d = b!"null" then .null else if d = b!"true" ∨ d = b!"false" then .bool else .ascii := by
  unfold getType
  simp only [ne_eq, not_true_eq_false, if_false]
  by_cases h4 : d.length = 4
  · rw [List.take_of_length_le (by omega)]
    have : d ≠ b!"false" := by rintro rfl; simp at h4
    simp [h4, this]
  · have n1 : d ≠ b!"null" := by rintro rfl; simp at h4
    have n2 : d ≠ b!"true" := by rintro rfl; simp at h4
    simp only [h4, n1, n2, if_false, false_or]
    by_cases h5 : d.length = 5
    · obtain ⟨a, b, c, e, f, rfl⟩ : ∃ a b c e f, d = [a, b, c, e, f] := by
        match d, h5 with
        | [a, b, c, e, f], _ => exact ⟨a, b, c, e, f, rfl⟩
      simp [and_assoc]
    · have n3 : d ≠ b!"false" := by rintro rfl; simp at h5
      simp [h5, n3]

/-- A bracket of type `ty`. -/
def bracketOf : Ty → Bytes
  | .objectStart => b!"{"
  | .objectEnd => b!"}"
  | .arrayStart => b!"["
  | _ => b!"]"

theorem lValue_inv (o : Opts) (s : Bytes) {ty : Ty} {d r : Bytes} (h : lValue o s = .ok (ty, d, r)) :
    ∃ g t, s = g ++ t ++ r ∧ Skip o.comments g ∧
      ((ty.isBracket = true ∧ d = bracketOf ty ∧ t = bracketOf ty ∧ getType ty d = ty) ∨
       ((ty = .string ∨ ty = .number ∨ ty = .ascii) ∧ ∃ k, Scalar k (getType ty d) d t ∧
          (k = .word → r.head? ≠ some 0 ∧ r.head? ≠ some 0x2F))) := by
  unfold lValue at h
  split at h
  · simp at h
  rename_i ty' s' hs
  obtain ⟨g, c, cs, rfl, rfl, hg, hst⟩ := lStart_inv o s hs
  have hbr : ty'.isBracket = true → (ty', [c], cs) = (ty, d, r) → _ := fun hb he => by
    simp only [Prod.mk.injEq] at he
    obtain ⟨rfl, rfl, rfl⟩ := he
    refine (⟨g, [c], by simp, hg, .inl ⟨hb, ?_, ?_, ?_⟩⟩ : ∃ g' t, g ++ c :: cs = g' ++ t ++ cs ∧ Skip o.comments g' ∧
      ((ty'.isBracket = true ∧ [c] = bracketOf ty' ∧ t = bracketOf ty' ∧ getType ty' [c] = ty') ∨
       ((ty' = .string ∨ ty' = .number ∨ ty' = .ascii) ∧ ∃ k, Scalar k (getType ty' [c]) [c] t ∧
          (k = .word → cs.head? ≠ some 0 ∧ cs.head? ≠ some 0x2F)))) <;>
      revert hst <;> cases ty' <;> simp_all [Ty.isBracket, Starts, bracketOf, getType, LBRACE, RBRACE, LBRACK, RBRACK]
  cases ty' with
  | string =>
    simp only [List.tail_cons] at h
    split at h <;> simp at h
    rename_i k hk
    obtain ⟨rfl, rfl, rfl⟩ := h
    obtain ⟨h1, h2, h3, h4⟩ := strEnd_inv cs hk
    refine ⟨g, QUOTE :: (cs.take (k - 1) ++ b!"\""), ?_, hg, .inr ⟨.inl rfl, .plain, .str h3, by simp⟩⟩
    rw [show c = QUOTE from hst]
    conv_lhs => rw [h4]
    simp
  | number =>
    simp only [List.tail_cons] at h
    split at h <;> simp at h
    rename_i k hk
    obtain ⟨rfl, rfl, rfl⟩ := h
    refine ⟨g, c :: cs.take k, by simp, hg, .inr ⟨.inr (.inl rfl), .plain, .num ?_ (numberEnd_inv cs hk), by simp⟩⟩
    exact forall_byte (p := fun c => has c (flPlusMinus ||| flDigits) = true → (isDigit c || c == 0x2B || c == 0x2D) = true) (by decide +kernel) c hst
  | ascii =>
    simp only [List.tail_cons] at h
    split at h <;> simp at h
    rename_i k hk
    obtain ⟨rfl, rfl, rfl⟩ := h
    obtain ⟨m, e1, e2, x, r, e3, e4, e5⟩ := asciiEndFrom_inv cs hk
    rw [Nat.zero_add] at e1
    subst e1
    have hl : isLetter c = true :=
      forall_byte (p := fun c => has c flAscii = true → isLetter c = true) (by decide +kernel) c hst
    refine ⟨g, c :: cs.take k, by simp, hg, .inr ⟨.inr (.inr rfl), .word, ?_, by rw [e3]; simp [e4, e5]⟩⟩
    rw [getType_word]
    split_ifs with a1 a2
    · rw [a1]; exact .null
    · rcases a2 with a2 | a2
      · rw [a2]; exact .tru
      · rw [a2]; exact .fls
    · simp only [not_or] at a2
      exact .word hl e2 a1 a2.1 a2.2
  | objectStart | objectEnd | arrayStart | arrayEnd =>
    simp only [List.take_succ_cons, List.take_zero, List.tail_cons, Except.ok.injEq] at h
    have := hbr rfl h
    simp only [Prod.mk.injEq] at h
    obtain ⟨rfl, rfl, rfl⟩ := h
    exact this
  | _ => exact hst.elim

end Lax

end JsonStruct
