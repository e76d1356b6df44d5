import Verif.Lemmas.Light
import Verif.Spec.Json

/- The light machine on well-formed texts. -/

namespace JsonStruct

set_option linter.unusedSimpArgs false

/-! ### Gaps -/

/-- White space, and comments if they are enabled. -/
def GapO (cm : Bool) (w : Bytes) : Prop := if cm then Gap w else Ws w

theorem gap_of_ws {w : Bytes} (h : Ws w) : Gap w := by
  induction w with
  | nil => exact .nil
  | cons c w ih => exact .ws (h c (by simp)) (ih (fun x hx => h x (by simp [hx])))

theorem gapO_gap {cm : Bool} {w : Bytes} (h : GapO cm w) : Gap w := by
  unfold GapO at h; split at h
  · exact h
  · exact gap_of_ws h

/-- What the loops ask about a white space byte. -/
theorem ws_facts (c : Byte) : isWs c = true → c ≠ SLASH ∧ c ≠ QUOTE ∧ c ≠ LBRACE ∧ c ≠ RBRACE ∧ c ≠ LBRACK ∧
    c ≠ RBRACK ∧ c ≠ COLON ∧ c ≠ COMMA ∧ has c (flPlusMinus ||| flDigits) = false ∧ has c flAscii = false ∧
    lookup c ≠ 0 ∧ has c flWs = true :=
  forall_byte (p := fun c => isWs c = true → c ≠ SLASH ∧ c ≠ QUOTE ∧ c ≠ LBRACE ∧ c ≠ RBRACE ∧ c ≠ LBRACK ∧
    c ≠ RBRACK ∧ c ≠ COLON ∧ c ≠ COMMA ∧ has c (flPlusMinus ||| flDigits) = false ∧ has c flAscii = false ∧
    lookup c ≠ 0 ∧ has c flWs = true) (by decide +kernel) c

theorem lStart_skip (o : Opts) (xs s : Bytes) : lStart o (xs ++ s) xs.length = lStart o s 0 := by
  induction xs with
  | nil => rfl
  | cons x xs ih => exact ih

theorem lDelim_skip (o : Opts) (ct : Ty) (xs s : Bytes) : lDelim o ct (xs ++ s) xs.length = lDelim o ct s 0 := by
  induction xs with
  | nil => rfl
  | cons x xs ih => exact ih

theorem lTokEnd_skip (o : Opts) (xs s : Bytes) : lTokEnd o (xs ++ s) xs.length = lTokEnd o s 0 := by
  induction xs with
  | nil => rfl
  | cons x xs ih => exact ih

theorem commentEnd_body {body s : Bytes} (h : (10 : Byte) ∉ body) :
    commentEnd false (body ++ 10 :: s) = some (body.length + 1) := by
  have : (body ++ 10 :: s).findIdx (· = LF) = body.length := by
    rw [List.findIdx_append]
    have h1 : body.findIdx (· = LF) = body.length := by
      rw [List.findIdx_eq_length]; intro x hx; simp; rintro rfl; exact h hx
    simp [h1, List.findIdx_cons]
  simp only [commentEnd, this]
  simp

/-- Induction over a gap in front of a loop `f` that steps over white space and comments. -/
theorem gap_induct {α : Type} (f : Bytes → Nat → α) (cm : Bool)
    (hws : ∀ c s, isWs c = true → f (c :: s) 0 = f s 0)
    (hcm : cm = true → ∀ body s, (10 : Byte) ∉ body → f (47 :: 47 :: (body ++ 10 :: s)) 0 = f s 0)
    (w s : Bytes) (h : GapO cm w) : f (w ++ s) 0 = f s 0 := by
  cases cm with
  | false =>
    replace h : Ws w := h
    induction w with
    | nil => rfl
    | cons c w ih =>
      rw [List.cons_append, hws _ _ (h c (by simp))]
      exact ih (fun x hx => h x (by simp [hx]))
  | true =>
    replace h : Gap w := h
    induction h with
    | nil => rfl
    | ws hc _ ih => rw [List.cons_append, hws _ _ hc, ih]
    | @comment body w hb _ ih =>
      rw [← ih]
      simpa using hcm rfl body (w ++ s) hb

theorem lStart_gap (o : Opts) (hn : o.newLines = false) (w s : Bytes) (h : GapO o.comments w) :
    lStart o (w ++ s) 0 = lStart o s 0 := by
  refine gap_induct (lStart o) o.comments ?_ ?_ w s h
  · intro c s hc
    obtain ⟨h1, h2, h3, h4, h5, h6, h7, h8, h9, h10, h11, h12⟩ := ws_facts c hc
    rw [lStart]
    simp [h1, h2, h3, h4, h5, h6, h7, h8, h9, h10, h11, h12, hn]
  · intro hcm body s hb
    rw [lStart, hcm]
    simp only [Bool.true_and, List.head?_cons, beq_self_eq_true, if_true, List.tail_cons, hn, commentEnd_body hb]
    have := lStart_skip o (47 :: (body ++ [10])) s
    simpa using this

theorem lDelim_gap (o : Opts) (hn : o.newLines = false) (ct : Ty) (w s : Bytes) (h : GapO o.comments w) :
    lDelim o ct (w ++ s) 0 = lDelim o ct s 0 := by
  refine gap_induct (lDelim o ct) o.comments ?_ ?_ w s h
  · intro c s hc
    obtain ⟨h1, h2, h3, h4, h5, h6, h7, h8, h9, h10, h11, h12⟩ := ws_facts c hc
    rw [lDelim]
    simp [h1, h2, h3, h4, h5, h6, h7, h8, h9, h10, h11, h12, hn]
  · intro hcm body s hb
    rw [lDelim, hcm]
    simp only [Bool.true_and, List.head?_cons, beq_self_eq_true, if_true, List.tail_cons, hn, commentEnd_body hb]
    have := lDelim_skip o ct (47 :: (body ++ [10])) s
    simpa using this

theorem lTokEnd_gap (o : Opts) (hn : o.newLines = false) (w s : Bytes) (h : GapO o.comments w) :
    lTokEnd o (w ++ s) 0 = lTokEnd o s 0 := by
  refine gap_induct (lTokEnd o) o.comments ?_ ?_ w s h
  · intro c s hc
    obtain ⟨h1, h2, h3, h4, h5, h6, h7, h8, h9, h10, h11, h12⟩ := ws_facts c hc
    rw [lTokEnd]
    simp [h1, h2, h3, h4, h5, h6, h7, h8, h9, h10, h11, h12, hn]
  · intro hcm body s hb
    rw [lTokEnd, hcm]
    simp only [Bool.true_and, List.head?_cons, beq_self_eq_true, if_true, List.tail_cons, hn, commentEnd_body hb]
    have := lTokEnd_skip o (47 :: (body ++ [10])) s
    simpa using this

/-! ### Single values -/

/-- Bytes between quotes that end where the next quote comes. -/
inductive StrBody : Bytes → Prop
  | nil : StrBody []
  | plain {c s} : c ≠ QUOTE → c ≠ BSL → StrBody s → StrBody (c :: s)
  | esc {c s} : StrBody s → StrBody (BSL :: c :: s)

theorem strBody_of_json {s : Bytes} (h : JsonString s) : StrBody s := by
  induction h with
  | nil => exact .nil
  | plain _ h2 h3 _ ih => exact .plain h2 h3 ih
  | esc _ _ ih => exact .esc ih
  | @uni a b c d s h1 h2 h3 h4 _ ih =>
    have hx : ∀ c : Byte, isHex c = true → c ≠ QUOTE ∧ c ≠ BSL :=
      fun c => forall_byte (p := fun c => isHex c = true → c ≠ QUOTE ∧ c ≠ BSL) (by decide +kernel) c
    exact .esc (.plain (hx _ h1).1 (hx _ h1).2 (.plain (hx _ h2).1 (hx _ h2).2
      (.plain (hx _ h3).1 (hx _ h3).2 (.plain (hx _ h4).1 (hx _ h4).2 ih))))

theorem strBody_append {s t : Bytes} (hs : StrBody s) (ht : StrBody t) : StrBody (s ++ t) := by
  induction hs with
  | nil => exact ht
  | plain h1 h2 _ ih => exact .plain h1 h2 ih
  | esc _ ih => exact .esc ih

theorem lookup_strEnd (c : Byte) : lookup c = flStrEnd ↔ (c = QUOTE ∨ c = BSL) :=
  forall_byte (p := fun c => lookup c = flStrEnd ↔ (c = QUOTE ∨ c = BSL)) (by decide +kernel) c

theorem strEnd_body {s r : Bytes} (h : StrBody s) :
    (strEnd false (s ++ QUOTE :: r)).1 = some (s.length + 1) := by
  induction h with
  | nil => simp [strEnd, lookup_strEnd, show QUOTE ≠ BSL by decide]
  | plain h1 h2 _ ih =>
    rw [List.cons_append, strEnd, if_neg (by rw [lookup_strEnd]; simp [h1, h2])]
    simp [bump, ih]
  | esc _ ih =>
    rw [List.cons_append, strEnd, if_pos (by rw [lookup_strEnd]; simp)]
    simp [bump, strEnd, ih]

/-- Bytes that read as one number token. -/
def NumTxt (s : Bytes) : Prop :=
  ∃ c cs, s = c :: cs ∧ has c (flPlusMinus ||| flDigits) = true ∧ c ≠ PLUS ∧ ∀ x ∈ cs, numberStop x = false

theorem digit_facts (c : Byte) : isDigit c = true →
    has c (flPlusMinus ||| flDigits) = true ∧ numberStop c = false ∧ c ≠ PLUS :=
  forall_byte (p := fun c => isDigit c = true →
    has c (flPlusMinus ||| flDigits) = true ∧ numberStop c = false ∧ c ≠ PLUS) (by decide +kernel) c

theorem numTxt_of_json {s : Bytes} (h : JsonNumber s) : NumTxt s := by
  obtain ⟨m, i, f, e, rfl, hm, hi, hf, he⟩ := h
  have hfe : ∀ x ∈ f ++ e, numberStop x = false := by
    intro x hx
    rw [List.mem_append] at hx
    rcases hx with hx | hx
    · rcases hf with rfl | ⟨d, rfl, hd⟩
      · simp at hx
      · rcases List.mem_cons.1 hx with rfl | hx
        · decide +kernel
        · exact (digit_facts x (hd.2 x hx)).2.1
    · rcases he with rfl | ⟨c, sg, d, rfl, hc, hsg, hd⟩
      · simp at hx
      · rcases List.mem_cons.1 hx with rfl | hx
        · rcases hc with rfl | rfl <;> decide +kernel
        · rcases List.mem_append.1 hx with hx | hx
          · rcases hsg with rfl | rfl | rfl
            · simp at hx
            · simp only [List.mem_singleton] at hx; subst hx; decide +kernel
            · simp only [List.mem_singleton] at hx; subst hx; decide +kernel
          · exact (digit_facts x (hd.2 x hx)).2.1
  have hi' : i ≠ [] ∧ ∀ x ∈ i, isDigit x = true := by
    rcases hi with rfl | hi
    · exact ⟨by simp, by intro x hx; simp only [List.mem_singleton] at hx; subst hx; decide +kernel⟩
    · exact hi.1
  obtain ⟨hine, hid⟩ := hi'
  cases i with
  | nil => exact absurd rfl hine
  | cons a i =>
    have htl : ∀ x ∈ i ++ (f ++ e), numberStop x = false := by
      intro x hx
      rcases List.mem_append.1 hx with hx | hx
      · exact (digit_facts x (hid x (by simp [hx]))).2.1
      · exact hfe x hx
    rcases hm with rfl | rfl
    · exact ⟨a, i ++ (f ++ e), by simp, (digit_facts a (hid a (by simp))).1, (digit_facts a (hid a (by simp))).2.2, htl⟩
    · refine ⟨45, a :: (i ++ (f ++ e)), by simp, by decide +kernel, by decide, ?_⟩
      intro x hx
      rcases List.mem_cons.1 hx with rfl | hx
      · exact (digit_facts x (hid x (by simp))).2.1
      · exact htl x hx

theorem numberEnd_txt {cs r : Bytes} {x : Byte} (h : ∀ x ∈ cs, numberStop x = false) (hx : numberStop x = true) :
    numberEnd (cs ++ x :: r) = .found cs.length := by
  have : (cs ++ x :: r).findIdx numberStop = cs.length := by
    rw [List.findIdx_append]
    have h1 : cs.findIdx numberStop = cs.length := by
      rw [List.findIdx_eq_length]; intro y hy; exact h y hy
    simp [h1, List.findIdx_cons, hx]
  simp [numberEnd, this]

theorem lValue_gap (o : Opts) (hn : o.newLines = false) (w s : Bytes) (h : GapO o.comments w) :
    lValue o (w ++ s) = lValue o s := by
  unfold lValue; rw [lStart_gap o hn w s h]

theorem lValue_str (o : Opts) {s r : Bytes} (h : StrBody s) :
    lValue o (QUOTE :: (s ++ QUOTE :: r)) = .ok (.string, s, r) := by
  simp only [lValue, lStart, show (QUOTE == SLASH) = false from rfl, Bool.and_false, Bool.false_and, Bool.false_eq_true,
    if_false, if_true, List.tail_cons, strEnd_body h]
  simp

theorem num_facts (c : Byte) : has c (flPlusMinus ||| flDigits) = true →
    (c == SLASH) = false ∧ c ≠ QUOTE ∧ c ≠ LBRACE ∧ c ≠ RBRACE ∧ c ≠ LBRACK ∧ c ≠ RBRACK :=
  forall_byte (p := fun c => has c (flPlusMinus ||| flDigits) = true →
    (c == SLASH) = false ∧ c ≠ QUOTE ∧ c ≠ LBRACE ∧ c ≠ RBRACE ∧ c ≠ LBRACK ∧ c ≠ RBRACK) (by decide +kernel) c

theorem lValue_num (o : Opts) {n r : Bytes} {x : Byte} (h : NumTxt n) (hx : numberStop x = true) :
    lValue o (n ++ x :: r) = .ok (.number, n, x :: r) := by
  obtain ⟨c, cs, rfl, h1, -, h2⟩ := h
  obtain ⟨g1, g2, g3, g4, g5, g6⟩ := num_facts c h1
  simp only [lValue, List.cons_append, lStart, g1, g2, g3, g4, g5, g6, h1, Bool.and_false, Bool.false_and, Bool.false_eq_true,
    if_false, if_true, List.tail_cons, numberEnd_txt h2 hx]
  simp

theorem asciiEndFrom_word {cs r : Bytes} {x : Byte} (k : Nat) (h : ∀ y ∈ cs, asciiStop y = false)
    (hx : asciiStop x = true) (hx0 : x ≠ 0) : asciiEndFrom k (cs ++ x :: r) = .found (k + cs.length) := by
  induction cs generalizing k with
  | nil =>
    have hr : asciiRange x = false :=
      forall_byte (p := fun c => asciiStop c = true → asciiRange c = false) (by decide +kernel) x hx
    simp [asciiEndFrom, hx, hr, hx0]
  | cons c cs ih =>
    rw [List.cons_append, asciiEndFrom, h c (by simp)]
    simp only [Bool.false_eq_true, if_false]
    rw [ih (k + 1) (fun y hy => h y (by simp [hy]))]
    simp; omega

theorem ascii_facts (c : Byte) : has c flAscii = true → has c (flPlusMinus ||| flDigits) = false ∧
    (c == SLASH) = false ∧ c ≠ QUOTE ∧ c ≠ LBRACE ∧ c ≠ RBRACE ∧ c ≠ LBRACK ∧ c ≠ RBRACK :=
  forall_byte (p := fun c => has c flAscii = true → has c (flPlusMinus ||| flDigits) = false ∧
    (c == SLASH) = false ∧ c ≠ QUOTE ∧ c ≠ LBRACE ∧ c ≠ RBRACE ∧ c ≠ LBRACK ∧ c ≠ RBRACK) (by decide +kernel) c

theorem lValue_word (o : Opts) {c : Byte} {cs r : Bytes} {x : Byte} (hc : has c flAscii = true)
    (h : ∀ y ∈ cs, asciiStop y = false) (hx : asciiStop x = true) (hx0 : x ≠ 0) :
    lValue o (c :: cs ++ x :: r) = .ok (.ascii, c :: cs, x :: r) := by
  obtain ⟨g0, g1, g2, g3, g4, g5, g6⟩ := ascii_facts c hc
  simp only [lValue, List.cons_append, lStart, g0, g1, g2, g3, g4, g5, g6, hc, Bool.and_false, Bool.false_and, Bool.false_eq_true,
    if_false, if_true, List.tail_cons, asciiEnd, asciiEndFrom_word 0 h hx hx0]
  simp

theorem lValue_open (o : Opts) (r : Bytes) :
    lValue o (LBRACK :: r) = .ok (.arrayStart, [LBRACK], r) ∧ lValue o (RBRACK :: r) = .ok (.arrayEnd, [RBRACK], r) ∧
    lValue o (LBRACE :: r) = .ok (.objectStart, [LBRACE], r) ∧ lValue o (RBRACE :: r) = .ok (.objectEnd, [RBRACE], r) := by
  refine ⟨?_, ?_, ?_, ?_⟩ <;> simp [lValue, lStart, SLASH, QUOTE, LBRACK, RBRACK, LBRACE, RBRACE]

/-! ### Runs -/

/-- Bracket matching, the second half of `lNext`. -/
def lFin : LRes (LC × Tok) → LRes (LC × Tok)
  | .error e => .error e
  | .ok (c', k) =>
    match k.valueType with
    | .objectStart => .ok ({ c' with stack := .objectStart :: c'.stack }, k)
    | .arrayStart => .ok ({ c' with stack := .arrayStart :: c'.stack }, k)
    | .objectEnd =>
      match c'.stack with
      | .objectStart :: r => .ok ({ c' with stack := r }, k)
      | _ => .error .unexpectedObjectEnd
    | .arrayEnd =>
      match c'.stack with
      | .arrayStart :: r => .ok ({ c' with stack := r }, k)
      | _ => .error .unexpectedArrayEnd
    | _ => .ok (c', k)

theorem lNext_fin (o : Opts) (c : LC) : lNext o c = lFin (lPop o c) := by
  unfold lNext lFin; rfl

/-- Successive calls from `c` return the tokens `ks` and end in `c'`. -/
inductive Run (o : Opts) : LC → List Tok → LC → Prop
  | nil {c} : Run o c [] c
  | cons {c k c1 ks c2} : lNext o c = .ok (c1, k) → Run o c1 ks c2 → Run o c (k :: ks) c2

theorem Run.append {o : Opts} {c c1 c2 : LC} {ks ls : List Tok} (h : Run o c ks c1) (h' : Run o c1 ls c2) :
    Run o c (ks ++ ls) c2 := by
  induction h with
  | nil => exact h'
  | cons h1 _ ih => exact .cons h1 (ih h')

/-- States that the next call does not tell apart. -/
def Sim (o : Opts) (c c' : LC) : Prop := lNext o c = lNext o c'

theorem Run.sim {o : Opts} {c c' c2 : LC} {k : Tok} {ks : List Tok} (hs : Sim o c c') (h : Run o c' (k :: ks) c2) :
    Run o c (k :: ks) c2 := by
  cases h with
  | cons h1 h2 => exact .cons (hs.trans h1) h2

theorem lFin_scalar {c : LC} {k : Tok} (h : k.valueType.isBracket = false) : lFin (.ok (c, k)) = .ok (c, k) := by
  unfold lFin; cases hk : k.valueType <;> simp_all [Ty.isBracket]

theorem getType_scalar {ty : Ty} {d : Bytes} (h : ty = .string ∨ ty = .number ∨ ty = .ascii) :
    (getType ty d).isBracket = false := by
  rcases h with rfl | rfl | rfl
  · rfl
  · rfl
  · unfold getType; simp only [ne_eq, not_true_eq_false, if_false]; split_ifs <;> rfl

/-- Written as a bare word. -/
def JVal.isWord : JVal → Bool
  | .null | .bool _ => true
  | _ => false

/-- The dialect the tokenizer can follow. -/
def lenient (o : Opts) : Dialect where
  str := StrBody
  num := NumTxt
  gap := GapO o.comments
  trailObj := o.superfluousComma = true
  trailArr := fun v => o.superfluousComma = true ∨ v.isContainer = false
  after := fun v w => GapO o.comments w ∧ (v.isWord = true → w.head? ≠ some SLASH)

theorem gap_head {w : Bytes} (h : Gap w) : w = [] ∨ (∃ c w', w = c :: w' ∧ isWs c = true) ∨ ∃ w', w = SLASH :: SLASH :: w' := by
  cases h with
  | nil => simp
  | ws h1 h2 => exact .inr (.inl ⟨_, _, rfl, h1⟩)
  | comment => exact .inr (.inr ⟨_, rfl⟩)

/-- The byte behind a value: `p` is the delimiter or bracket that follows the gap `w`. -/
theorem after_stops {o : Opts} {v : JVal} {w r : Bytes} {p : Byte} (h : (lenient o).after v w)
    (hp : p = COMMA ∨ p = RBRACK ∨ p = RBRACE) :
    ∃ x r', w ++ p :: r = x :: r' ∧ numberStop x = true ∧
      (v.isWord = true → asciiStop x = true ∧ x ≠ 0) := by
  obtain ⟨hg, hk⟩ := h
  rcases gap_head (gapO_gap hg) with rfl | ⟨c, w', rfl, hc⟩ | ⟨w', rfl⟩
  · refine ⟨p, r, rfl, ?_⟩
    rcases hp with rfl | rfl | rfl <;> exact ⟨by decide +kernel, fun _ => by decide +kernel⟩
  · refine ⟨c, _, rfl, ?_⟩
    have := forall_byte (p := fun c => isWs c = true → numberStop c = true ∧ asciiStop c = true ∧ c ≠ 0) (by decide +kernel) c hc
    exact ⟨this.1, fun _ => this.2⟩
  · refine ⟨SLASH, _, rfl, by decide +kernel, ?_⟩
    intro hv
    exact absurd rfl (hk hv)

/-- A scalar in front of something that ends it. -/
theorem lValue_scalar (o : Opts) {v : JVal} {t : Bytes} (ht : Text (lenient o) v t)
    (hv : v.isContainer = false) {w r : Bytes} {p : Byte} (h : (lenient o).after v w)
    (hp : p = COMMA ∨ p = RBRACK ∨ p = RBRACE) :
    ∃ ty d, lValue o (t ++ (w ++ p :: r)) = .ok (ty, d, w ++ p :: r) ∧
      (∀ nm nty, v.toks nm nty = [⟨nm, nty, d, getType ty d⟩]) ∧ getType ty d ≠ .ascii ∧ (ty = .string ∨ ty = .number ∨ ty = .ascii) := by
  obtain ⟨x, r', hx, hx1, hx2⟩ := after_stops (r := r) h hp
  rw [hx]
  cases ht with
  | null => exact ⟨.ascii, b!"null", lValue_word o (by decide +kernel) (by decide +kernel) (hx2 rfl).1 (hx2 rfl).2, fun _ _ => by simp [JVal.toks]; decide, by decide, by simp⟩
  | tru => exact ⟨.ascii, b!"true", lValue_word o (by decide +kernel) (by decide +kernel) (hx2 rfl).1 (hx2 rfl).2, fun _ _ => by simp [JVal.toks]; decide, by decide, by simp⟩
  | fls => exact ⟨.ascii, b!"false", lValue_word o (by decide +kernel) (by decide +kernel) (hx2 rfl).1 (hx2 rfl).2, fun _ _ => by simp [JVal.toks]; decide, by decide, by simp⟩
  | num hn => exact ⟨.number, _, lValue_num o hn hx1, fun _ _ => by simp [JVal.toks, getType], by simp [getType], by simp⟩
  | str hs => exact ⟨.string, _, by simpa using lValue_str o hs, fun _ _ => by simp [JVal.toks, getType], by simp [getType], by simp⟩
  | arrEmpty | arr | objEmpty | obj => simp [JVal.isContainer] at hv

theorem isEmpty_app {a : Bytes} {x : Byte} {b : Bytes} : (a ++ x :: b).isEmpty = false := by
  cases a <;> rfl

/-- Behind a container: the comma or the closing bracket. -/
theorem sim_comma (o : Opts) (hn : o.newLines = false) {e : Bool} {ct : Ty} {st : List Ty} {w r : Bytes} (hw : GapO o.comments w) :
    Sim o ⟨true, e, ct :: st, w ++ COMMA :: r⟩ ⟨false, true, ct :: st, r⟩ := by
  unfold Sim lNext lPop
  simp only [isEmpty_app, Bool.false_eq_true, if_false, if_true]
  rw [lTokEnd_gap o hn w _ hw]
  have : lTokEnd o (COMMA :: r) 0 = .ok (true, r) := by
    simp [lTokEnd, show (COMMA == SLASH) = false from rfl]
  rw [this]
  simp only [Bool.or_true]
  cases r with
  | nil => simp [lName]
  | cons a r => simp

theorem sim_end (o : Opts) (hn : o.newLines = false) {e : Bool} {ct : Ty} {st : List Ty} {w r : Bytes} {p : Byte}
    (hw : GapO o.comments w) (hp : p = RBRACK ∨ p = RBRACE) :
    Sim o ⟨true, e, ct :: st, w ++ p :: r⟩ ⟨false, e, ct :: st, p :: r⟩ := by
  unfold Sim lNext lPop
  simp only [isEmpty_app, Bool.false_eq_true, if_false, if_true]
  rw [lTokEnd_gap o hn w _ hw]
  have : lTokEnd o (p :: r) 0 = .ok (false, p :: r) := by
    rcases hp with rfl | rfl <;> simp [lTokEnd, show (RBRACK == SLASH) = false from rfl, show (RBRACE == SLASH) = false from rfl,
      show RBRACK ≠ COMMA by decide, show RBRACE ≠ COMMA by decide]
  rw [this]
  simp

/-- An opening bracket without a name. -/
theorem next_open (o : Opts) (hn : o.newLines = false) {e : Bool} {st : List Ty} {w r : Bytes} (hw : GapO o.comments w) :
    lNext o ⟨false, e, st, w ++ LBRACK :: r⟩ = .ok (⟨false, false, .arrayStart :: st, r⟩, ⟨[], .ascii, b!"[", .arrayStart⟩) ∧
    lNext o ⟨false, e, st, w ++ LBRACE :: r⟩ = .ok (⟨false, false, .objectStart :: st, r⟩, ⟨[], .ascii, b!"{", .objectStart⟩) := by
  constructor <;>
  · unfold lNext lPop lName
    simp only [isEmpty_app, Bool.false_eq_true, if_false]
    rw [lValue_gap o hn w _ hw]
    simp only [lValue_open, anonTok]

/-- The state flag that a trailing comma leaves behind. -/
def EOk (o : Opts) (e : Bool) : Prop := e = true → o.superfluousComma = true

theorem eok_false (o : Opts) : EOk o false := by simp [EOk]

/-- A closing bracket. -/
theorem next_close (o : Opts) (hn : o.newLines = false) {e : Bool} (he : EOk o e) {st : List Ty} {w r : Bytes} (hw : GapO o.comments w) :
    lNext o ⟨false, e, .arrayStart :: st, w ++ RBRACK :: r⟩ = .ok (⟨true, e, st, r⟩, ⟨[], .ascii, b!"]", .arrayEnd⟩) ∧
    lNext o ⟨false, e, .objectStart :: st, w ++ RBRACE :: r⟩ = .ok (⟨true, e, st, r⟩, ⟨[], .ascii, b!"}", .objectEnd⟩) := by
  have hx : (e && !o.superfluousComma) = false := by
    cases e
    · rfl
    · simp [he rfl]
  constructor <;>
  · unfold lNext lPop lName
    simp only [isEmpty_app, Bool.false_eq_true, if_false]
    rw [lValue_gap o hn w _ hw]
    simp only [lValue_open, anonTok, hx, Bool.false_eq_true, if_false]

/-- What is left of a container once its opening bracket has been returned. -/
def Inner (o : Opts) (v : JVal) (t : Bytes) : Prop :=
  match v with
  | .arr vs => ∃ t', t = LBRACK :: t' ∧ ∀ st tail, ∃ e', EOk o e' ∧ Run o ⟨false, false, .arrayStart :: st, t' ++ tail⟩
      (elemToks vs ++ [⟨[], .ascii, b!"]", .arrayEnd⟩]) ⟨true, e', st, tail⟩
  | .obj ms => ∃ t', t = LBRACE :: t' ∧ ∀ st tail, ∃ e', EOk o e' ∧ Run o ⟨false, false, .objectStart :: st, t' ++ tail⟩
      (memberToks ms ++ [⟨[], .ascii, b!"}", .objectEnd⟩]) ⟨true, e', st, tail⟩
  | _ => True

/-- A container without a name, its gap in front. -/
theorem run_container (o : Opts) (hn : o.newLines = false) {v : JVal} {t : Bytes} (h : Inner o v t)
    (hv : v.isContainer = true) {e : Bool} {st : List Ty} {w tail : Bytes} (hw : GapO o.comments w) :
    ∃ e', EOk o e' ∧ Run o ⟨false, e, st, w ++ (t ++ tail)⟩ (v.toks [] .ascii) ⟨true, e', st, tail⟩ := by
  cases v with
  | arr vs =>
    obtain ⟨t', rfl, hr⟩ := h
    rw [JVal.toks]
    obtain ⟨e', h1, h2⟩ := hr st tail
    exact ⟨e', h1, .cons (next_open o hn hw).1 h2⟩
  | obj ms =>
    obtain ⟨t', rfl, hr⟩ := h
    rw [JVal.toks]
    obtain ⟨e', h1, h2⟩ := hr st tail
    exact ⟨e', h1, .cons (next_open o hn hw).2 h2⟩
  | null | bool | num | str => simp [JVal.isContainer] at hv

/-- An array element and what separates it from the next one or ends the array. -/
theorem run_elem (o : Opts) (hn : o.newLines = false) {v : JVal} {t : Bytes} (ht : Text (lenient o) v t)
    (h : Inner o v t) {e : Bool} {st : List Ty} {w w' r : Bytes} (hw : GapO o.comments w)
    (hw' : (lenient o).after v w') :
    (∃ c', Run o ⟨false, e, .arrayStart :: st, w ++ (t ++ (w' ++ COMMA :: r))⟩ (v.toks [] .ascii) c' ∧
      Sim o c' ⟨false, v.isContainer, .arrayStart :: st, r⟩) ∧
    (∃ c' e', EOk o e' ∧ Run o ⟨false, e, .arrayStart :: st, w ++ (t ++ (w' ++ RBRACK :: r))⟩ (v.toks [] .ascii) c' ∧
      Sim o c' ⟨false, e', .arrayStart :: st, RBRACK :: r⟩) := by
  by_cases hv : v.isContainer = true
  · obtain ⟨e1, -, h2⟩ := run_container o hn h hv (e := e) (st := .arrayStart :: st) (tail := w' ++ COMMA :: r) hw
    obtain ⟨e3, h3, h4⟩ := run_container o hn h hv (e := e) (st := .arrayStart :: st) (tail := w' ++ RBRACK :: r) hw
    exact ⟨⟨_, h2, by rw [hv]; exact sim_comma o hn hw'.1⟩, ⟨_, _, h3, h4, sim_end o hn hw'.1 (.inl rfl)⟩⟩
  · have hv : v.isContainer = false := by simpa using hv
    constructor
    · obtain ⟨ty, d, h1, h2, h3, h4⟩ := lValue_scalar o ht hv (r := r) hw' (.inl rfl)
      refine ⟨_, ?_, by rw [hv]; exact rfl⟩
      rw [h2]
      refine .cons ?_ .nil
      rw [lNext_fin]
      unfold lPop lName
      rw [lValue_gap o hn w _ hw, h1]
      have hne : (w ++ (t ++ (w' ++ COMMA :: r))).isEmpty = false := by
        rw [← List.append_assoc, ← List.append_assoc]; exact isEmpty_app
      simp only [hne, Bool.false_eq_true, if_false]
      have hd : lDelim o .arrayStart (w' ++ COMMA :: r) 0 = .ok (false, r) := by
        rw [lDelim_gap o hn _ w' _ hw'.1]
        simp [lDelim, show (COMMA == SLASH) = false from rfl, show COMMA ≠ COLON by decide]
      have hl : lDelimiter o ⟨false, e, .arrayStart :: st, w' ++ COMMA :: r⟩ d (getType ty d) =
          .ok (⟨false, false, .arrayStart :: st, r⟩, anonTok d (getType ty d)) := by
        unfold lDelimiter; simp [isEmpty_app, hd]
      have hb := getType_scalar (d := d) h4
      rcases h4 with rfl | rfl | rfl <;> simp only [hl, anonTok] <;> exact lFin_scalar hb
    · obtain ⟨ty, d, h1, h2, h3, h4⟩ := lValue_scalar o ht hv (r := r) hw' (.inr (.inl rfl))
      refine ⟨_, false, eok_false o, ?_, rfl⟩
      rw [h2]
      refine .cons ?_ .nil
      rw [lNext_fin]
      unfold lPop lName
      rw [lValue_gap o hn w _ hw, h1]
      have hne : (w ++ (t ++ (w' ++ RBRACK :: r))).isEmpty = false := by
        rw [← List.append_assoc, ← List.append_assoc]; exact isEmpty_app
      simp only [hne, Bool.false_eq_true, if_false]
      have hd : lDelim o .arrayStart (w' ++ RBRACK :: r) 0 = .ok (false, RBRACK :: r) := by
        rw [lDelim_gap o hn _ w' _ hw'.1]
        simp [lDelim, show (RBRACK == SLASH) = false from rfl, show RBRACK ≠ COLON by decide, show RBRACK ≠ COMMA by decide, show RBRACK ≠ LF by decide]
      have hl : lDelimiter o ⟨false, e, .arrayStart :: st, w' ++ RBRACK :: r⟩ d (getType ty d) =
          .ok (⟨false, false, .arrayStart :: st, RBRACK :: r⟩, anonTok d (getType ty d)) := by
        unfold lDelimiter; simp [isEmpty_app, hd]
      have hb := getType_scalar (d := d) h4
      rcases h4 with rfl | rfl | rfl <;> simp only [hl, anonTok] <;> exact lFin_scalar hb

/-- A member. -/
theorem run_member (o : Opts) (hn : o.newLines = false) {n : Bytes} {v : JVal} {t : Bytes} (ht : Text (lenient o) v t)
    (hs : StrBody n) (h : Inner o v t) {e : Bool} {st : List Ty} {w1 w2 w3 w' r : Bytes} {p : Byte}
    (hw1 : GapO o.comments w1) (hw2 : GapO o.comments w2) (hw3 : GapO o.comments w3)
    (hw' : (lenient o).after v w') (hp : p = COMMA ∨ p = RBRACE) :
    ∃ e', EOk o e' ∧ Run o ⟨false, e, .objectStart :: st, w1 ++ (QUOTE :: (n ++ QUOTE :: (w2 ++ COLON :: (w3 ++ (t ++ (w' ++ p :: r))))))⟩
      (v.toks n .string) ⟨true, e', .objectStart :: st, w' ++ p :: r⟩ := by
  have hpop : lNext o ⟨false, e, .objectStart :: st, w1 ++ (QUOTE :: (n ++ QUOTE :: (w2 ++ COLON :: (w3 ++ (t ++ (w' ++ p :: r))))))⟩ =
      lFin (lData o ⟨false, false, .objectStart :: st, w3 ++ (t ++ (w' ++ p :: r))⟩ n .string) := by
    rw [lNext_fin]
    congr 1
    unfold lPop lName
    rw [lValue_gap o hn w1 _ hw1, lValue_str o hs]
    simp only [isEmpty_app, Bool.false_eq_true, if_false]
    unfold lDelimiter
    simp only [isEmpty_app, Bool.false_eq_true, if_false]
    rw [lDelim_gap o hn _ w2 _ hw2]
    have : lDelim o .objectStart (COLON :: (w3 ++ (t ++ (w' ++ p :: r)))) 0 = .ok (true, w3 ++ (t ++ (w' ++ p :: r))) := by
      simp [lDelim, show (COLON == SLASH) = false from rfl]
    rw [this]
    simp [getType]
  have hne : (w3 ++ (t ++ (w' ++ p :: r))).isEmpty = false := by
    rw [← List.append_assoc, ← List.append_assoc]; exact isEmpty_app
  have hdata : lData o ⟨false, false, .objectStart :: st, w3 ++ (t ++ (w' ++ p :: r))⟩ n .string =
      match lValue o (t ++ (w' ++ p :: r)) with
      | .error e => .error e
      | .ok (ty, d, r) =>
        if getType ty d = .ascii ∧ o.ascii = false then .error .illegalDataValue
        else .ok (⟨!(ty == .objectStart || ty == .arrayStart), false, .objectStart :: st, r⟩, ⟨n, .string, d, getType ty d⟩) := by
    unfold lData
    simp only [hne, Bool.false_eq_true, if_false]
    rw [lValue_gap o hn w3 _ hw3]
    cases lValue o (t ++ (w' ++ p :: r)) <;> rfl
  by_cases hv : v.isContainer = true
  · cases v with
    | arr vs =>
      obtain ⟨t', rfl, hr⟩ := h
      rw [JVal.toks]
      obtain ⟨e', h1, h2⟩ := hr (.objectStart :: st) (w' ++ p :: r)
      refine ⟨e', h1, .cons ?_ h2⟩
      rw [hpop, hdata]
      simp only [List.cons_append, lValue_open]
      simp [getType, lFin]
    | obj ms =>
      obtain ⟨t', rfl, hr⟩ := h
      rw [JVal.toks]
      obtain ⟨e', h1, h2⟩ := hr (.objectStart :: st) (w' ++ p :: r)
      refine ⟨e', h1, .cons ?_ h2⟩
      rw [hpop, hdata]
      simp only [List.cons_append, lValue_open]
      simp [getType, lFin]
    | null | bool | num | str => simp [JVal.isContainer] at hv
  · have hv : v.isContainer = false := by simpa using hv
    obtain ⟨ty, d, h1, h2, h3, h4⟩ := lValue_scalar o ht hv (r := r) (p := p) hw' (by rcases hp with h | h <;> simp [h])
    rw [h2]
    refine ⟨false, eok_false o, .cons ?_ .nil⟩
    rw [hpop, hdata, h1]
    simp only [h3, false_and, if_false]
    rw [lFin_scalar (getType_scalar h4)]
    rcases h4 with rfl | rfl | rfl <;> rfl

/-! ### Documents -/

theorem gapO_nil (cm : Bool) : GapO cm [] := by
  cases cm <;> simp [GapO, Ws]; exact .nil

/-- Every text of the dialect runs through. -/
theorem inner_text (o : Opts) (hn : o.newLines = false) {v : JVal} {t : Bytes} (ht : Text (lenient o) v t) :
    Inner o v t := by
  refine Text.rec (d := lenient o) (motive_1 := fun v t _ => Inner o v t)
    (motive_2 := fun vs t _ => ∀ e st tail, ∃ e', EOk o e' ∧ Run o ⟨false, e, .arrayStart :: st, t ++ RBRACK :: tail⟩
      (elemToks vs ++ [⟨[], .ascii, b!"]", .arrayEnd⟩]) ⟨true, e', st, tail⟩)
    (motive_3 := fun ms t _ => ∀ e st tail, ∃ e', EOk o e' ∧ Run o ⟨false, e, .objectStart :: st, t ++ RBRACE :: tail⟩
      (memberToks ms ++ [⟨[], .ascii, b!"}", .objectEnd⟩]) ⟨true, e', st, tail⟩)
    trivial trivial trivial (fun _ => trivial) (fun _ => trivial) ?_ ?_ ?_ ?_ ?_ ?_ ?_ ?_ ?_ ?_ ht
  · intro w hw
    refine ⟨w ++ b!"]", by simp, fun st tail => ⟨false, eok_false o, ?_⟩⟩
    rw [elemToks]
    refine .cons ?_ .nil
    simpa using (next_close o hn (eok_false o) (st := st) (r := tail) hw).1
  · intro vs t _ ih
    exact ⟨t ++ b!"]", by simp, fun st tail => by simpa using ih false st tail⟩
  · intro w hw
    refine ⟨w ++ b!"}", by simp, fun st tail => ⟨false, eok_false o, ?_⟩⟩
    rw [memberToks]
    refine .cons ?_ .nil
    simpa using (next_close o hn (eok_false o) (st := st) (r := tail) hw).2
  · intro vs t _ ih
    exact ⟨t ++ b!"}", by simp, fun st tail => by simpa using ih false st tail⟩
  · intro v t w w' hw ht hw' ih e st tail
    obtain ⟨c', e', he', h1, h2⟩ := (run_elem o hn ht ih (e := e) (st := st) (r := tail) hw hw').2
    rw [elemToks, elemToks, List.append_nil]
    refine ⟨e', he', Run.append (by simpa using h1) ?_⟩
    exact Run.sim h2 (.cons (next_close o hn he' (w := []) (gapO_nil _)).1 .nil)
  · intro v t w w' vs ts hw ht hw' hts ih ihs e st tail
    obtain ⟨c', h1, h2⟩ := (run_elem o hn ht ih (e := e) (st := st) (r := ts ++ RBRACK :: tail) hw hw').1
    rw [elemToks, List.append_assoc (JVal.toks _ _ _)]
    obtain ⟨e', he', this⟩ := ihs v.isContainer st tail
    refine ⟨e', he', Run.append (by simpa using h1) ?_⟩
    cases h : elemToks vs ++ [⟨[], .ascii, b!"]", .arrayEnd⟩] with
    | nil => simp at h
    | cons k ks => rw [h] at this; exact Run.sim h2 this
  · intro v t w w' w'' htr hw ht hw' hw'' ih e st tail
    obtain ⟨c', h1, h2⟩ := (run_elem o hn ht ih (e := e) (st := st) (r := w'' ++ RBRACK :: tail) hw hw').1
    rw [elemToks, elemToks, List.append_nil]
    have he : EOk o v.isContainer := by
      intro hc
      rcases htr with h | h
      · exact h
      · rw [hc] at h; simp at h
    refine ⟨v.isContainer, he, Run.append (by simpa using h1) ?_⟩
    exact Run.sim h2 (.cons (next_close o hn he hw'').1 .nil)
  · intro n v t w1 w2 w3 w4 hw1 hs hw2 hw3 ht hw4 ih e st tail
    obtain ⟨e', he', h1⟩ := run_member o hn ht hs ih (e := e) (st := st) (r := tail) (p := RBRACE) hw1 hw2 hw3 hw4 (.inr rfl)
    rw [memberToks, memberToks, List.append_nil]
    refine ⟨e', he', Run.append (by simpa using h1) ?_⟩
    exact Run.sim (sim_end o hn hw4.1 (.inr rfl)) (.cons (next_close o hn he' (w := []) (gapO_nil _)).2 .nil)
  · intro n v t w1 w2 w3 w4 ms ts hw1 hs hw2 hw3 ht hw4 hts ih ihs e st tail
    obtain ⟨e1, he1, h1⟩ := run_member o hn ht hs ih (e := e) (st := st) (r := ts ++ RBRACE :: tail) (p := COMMA) hw1 hw2 hw3 hw4 (.inl rfl)
    rw [memberToks, List.append_assoc (JVal.toks _ _ _)]
    obtain ⟨e', he', this⟩ := ihs true st tail
    refine ⟨e', he', Run.append (by simpa using h1) ?_⟩
    cases h : memberToks ms ++ [⟨[], .ascii, b!"}", .objectEnd⟩] with
    | nil => simp at h
    | cons k ks => rw [h] at this; exact Run.sim (sim_comma o hn hw4.1) this
  · intro n v t w1 w2 w3 w4 w5 htr hw1 hs hw2 hw3 ht hw4 hw5 ih e st tail
    obtain ⟨e1, he1, h1⟩ := run_member o hn ht hs ih (e := e) (st := st) (r := w5 ++ RBRACE :: tail) (p := COMMA) hw1 hw2 hw3 hw4 (.inl rfl)
    rw [memberToks, memberToks, List.append_nil]
    refine ⟨true, fun _ => htr, Run.append (by simpa using h1) ?_⟩
    exact Run.sim (sim_comma o hn hw4.1) (.cons (next_close o hn (fun _ => htr) hw5).2 .nil)

theorem run_doc (o : Opts) (hn : o.newLines = false) {v : JVal} {t : Bytes} (hv : v.isContainer = true)
    (h : Doc (lenient o) v t) :
    ∃ w' e', GapO o.comments w' ∧ Run o ⟨false, false, [], t⟩ v.docToks ⟨true, e', [], w'⟩ := by
  obtain ⟨w, b, w', h1, h2, h3, rfl⟩ := h
  obtain ⟨e', -, hr⟩ := run_container o hn (inner_text o hn h2) hv (e := false) (st := []) (tail := w') h1
  exact ⟨w', e', h3.1, by simpa [JVal.docToks] using hr⟩

theorem lNext_blank (o : Opts) (hn : o.newLines = false) {w : Bytes} {te e : Bool} (hw : GapO o.comments w) :
    lNext o ⟨te, e, [], w⟩ = .error .needMoreData := by
  rw [lNext_fin]
  have hl : lName o ⟨false, e, [], w⟩ = .error .needMoreData := by
    have : lValue o w = .error .needMoreData := by
      have := lValue_gap o hn w [] hw
      rw [List.append_nil] at this
      rw [this]; rfl
    unfold lName; simp only [this]; split <;> rfl
  unfold lPop
  cases te <;> simp only [hl, Bool.false_eq_true, if_false, if_true, ite_self] <;> rfl

/-- From runs of the light machine to calls. -/
theorem collect_run {buf : Bytes} (n : Nat) {t : Tz} {next : Token} {ks : List Tok} {c' : LC} {e : Err} (h : Good t buf)
    (hs : t.scopes = []) (hr : Run t.opts (t.light buf) ks c') (he : lNext t.opts c' = .error e)
    (hstop : (Tz.collect n t next).2.1 ≠ .noError) :
    (Tz.collect n t next).1.map Token.tok = ks ∧ (Tz.collect n t next).2.1 = e := by
  induction n generalizing t next ks with
  | zero => simp [Tz.collect] at hstop
  | succ n ih =>
    have hl := nextToken_light t buf next h (by simp [hs])
    cases hr with
    | nil =>
      rw [he] at hl
      obtain ⟨h1, h2⟩ := hl
      simp only [Tz.collect, h1, h2, if_false, List.map_nil, and_self]
    | cons h1 h2 =>
      rw [h1] at hl
      obtain ⟨t', tok, g1, g2, g3, g4, g5, g6⟩ := hl
      simp only [Tz.collect, g1, if_true, List.map_cons] at hstop ⊢
      rw [← g4] at h2
      rw [← g6.1] at h2 he
      have := ih g3 (by rw [g5, hs]; rfl) h2 he hstop
      exact ⟨by rw [this.1, g2], this.2⟩

theorem tokenize_run (o : Opts) {buf : Bytes} {ks : List Tok} {c' : LC} {e : Err}
    (hr : Run o ⟨false, false, [], buf⟩ ks c') (he : lNext o c' = .error e)
    (hstop : (tokenizeAll o [buf]).2.1 ≠ .noError) : tokenize o buf = (ks, e) := by
  unfold tokenizeAll at hstop
  have hg : Good ({ Tz.new o with bufs := [buf] } : Tz) buf :=
    ⟨rfl, rfl, ⟨rfl, rfl, Nat.zero_le _⟩, by simp [Tz.new], rfl, .inl rfl⟩
  have := collect_run _ (t := { Tz.new o with bufs := [buf] }) (e := e) hg rfl hr he hstop
  unfold tokenize tokenizeAll
  exact Prod.ext this.1 this.2

/-! ### Dialects -/

structure Dialect.Le (d d' : Dialect) : Prop where
  str : ∀ s, d.str s → d'.str s
  num : ∀ s, d.num s → d'.num s
  gap : ∀ s, d.gap s → d'.gap s
  after : ∀ v s, d.after v s → d'.after v s
  trailObj : d.trailObj → d'.trailObj
  trailArr : ∀ v, d.trailArr v → d'.trailArr v

theorem text_mono {d d' : Dialect} (h : d.Le d') {v : JVal} {t : Bytes} (ht : Text d v t) : Text d' v t := by
  refine Text.rec (d := d) (motive_1 := fun v t _ => Text d' v t) (motive_2 := fun vs t _ => TextElems d' vs t)
    (motive_3 := fun ms t _ => TextMembers d' ms t) ?_ ?_ ?_ ?_ ?_ ?_ ?_ ?_ ?_ ?_ ?_ ?_ ?_ ?_ ?_ ht
  · exact .null
  · exact .tru
  · exact .fls
  · exact fun hn => .num (h.num _ hn)
  · exact fun hs => .str (h.str _ hs)
  · exact fun hw => .arrEmpty (h.gap _ hw)
  · exact fun _ ih => .arr ih
  · exact fun hw => .objEmpty (h.gap _ hw)
  · exact fun _ ih => .obj ih
  · exact fun h1 _ h3 ih => .one (h.gap _ h1) ih (h.after _ _ h3)
  · exact fun h1 _ h3 _ ih ih2 => .cons (h.gap _ h1) ih (h.after _ _ h3) ih2
  · exact fun h0 h1 _ h3 h4 ih => .trail (h.trailArr _ h0) (h.gap _ h1) ih (h.after _ _ h3) (h.gap _ h4)
  · exact fun h1 h2 h3 h4 _ h5 ih => .one (h.gap _ h1) (h.str _ h2) (h.gap _ h3) (h.gap _ h4) ih (h.after _ _ h5)
  · exact fun h1 h2 h3 h4 _ h5 _ ih ih2 => .cons (h.gap _ h1) (h.str _ h2) (h.gap _ h3) (h.gap _ h4) ih (h.after _ _ h5) ih2
  · exact fun h0 h1 h2 h3 h4 _ h5 h6 ih => .trail (h.trailObj h0) (h.gap _ h1) (h.str _ h2) (h.gap _ h3) (h.gap _ h4) ih (h.after _ _ h5) (h.gap _ h6)

theorem doc_mono {d d' : Dialect} (h : d.Le d') {v : JVal} {t : Bytes} (ht : Doc d v t) : Doc d' v t := by
  obtain ⟨w, b, w', h1, h2, h3, rfl⟩ := ht
  exact ⟨w, b, w', h.gap _ h1, text_mono h h2, h.after _ _ h3, rfl⟩

theorem ws_gapO {w : Bytes} (cm : Bool) (h : Ws w) : GapO cm w := by
  cases cm
  · exact h
  · exact gap_of_ws h

theorem ws_head {w : Bytes} (h : Ws w) : w.head? ≠ some SLASH := by
  cases w with
  | nil => simp
  | cons c w => simpa using (ws_facts c (h c (by simp))).1

theorem rfc_le (o : Opts) : rfc.Le (lenient o) :=
  ⟨fun _ => strBody_of_json, fun _ => numTxt_of_json, fun _ => ws_gapO _, fun _ _ h => ⟨ws_gapO _ h, fun _ => ws_head h⟩,
    False.elim, fun _ => False.elim⟩

theorem rfcCommas_le (o : Opts) (ho : o.superfluousComma = true) : rfcCommas.Le (lenient o) :=
  ⟨fun _ => strBody_of_json, fun _ => numTxt_of_json, fun _ => ws_gapO _, fun _ _ h => ⟨ws_gapO _ h, fun _ => ws_head h⟩,
    fun _ => ho, fun _ _ => .inl ho⟩

end JsonStruct
