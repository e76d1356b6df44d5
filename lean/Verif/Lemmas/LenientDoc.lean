import Verif.Lemmas.LenientRun
import Verif.Lemmas.Prefix

/- The light machine reads lenient texts. -/

namespace JsonStruct

set_option linter.unusedSimpArgs false

namespace Lax

/-! ### Gaps -/

theorem passed_facts (c : Byte) : passed c = true → c ≠ QUOTE ∧ c ≠ LBRACE ∧ c ≠ RBRACE ∧ c ≠ LBRACK ∧ c ≠ RBRACK ∧
    has c (flPlusMinus ||| flDigits) = false ∧ has c flAscii = false ∧ lookup c ≠ 0 :=
  forall_byte (p := fun c => passed c = true → c ≠ QUOTE ∧ c ≠ LBRACE ∧ c ≠ RBRACE ∧ c ≠ LBRACK ∧ c ≠ RBRACK ∧
    has c (flPlusMinus ||| flDigits) = false ∧ has c flAscii = false ∧ lookup c ≠ 0) (by decide +kernel) c

theorem blank_facts (c : Byte) : blank c = true → c ≠ SLASH ∧ c ≠ COLON ∧ c ≠ COMMA ∧ c ≠ RBRACK ∧ c ≠ RBRACE ∧ has c flWs = true ∧
    numberStop c = true ∧ asciiStop c = true :=
  forall_byte (p := fun c => blank c = true → c ≠ SLASH ∧ c ≠ COLON ∧ c ≠ COMMA ∧ c ≠ RBRACK ∧ c ≠ RBRACE ∧ has c flWs = true ∧
    numberStop c = true ∧ asciiStop c = true) (by decide +kernel) c

theorem commentEnd_line {body s : Bytes} (h : (10 : Byte) ∉ body) :
    commentEnd true (body ++ 10 :: s) = some body.length := by
  have : (body ++ 10 :: s).findIdx (· = LF) = body.length := by
    rw [List.findIdx_append]
    have h1 : body.findIdx (· = LF) = body.length := by
      rw [List.findIdx_eq_length]; intro x hx; simp; rintro rfl; exact h hx
    simp [h1, List.findIdx_cons]
  simp only [commentEnd, this]
  simp

theorem lStart_lf (o : Opts) (s : Bytes) : lStart o (10 :: s) 0 = lStart o s 0 := by
  rw [lStart]
  obtain ⟨a1, a2, a3, a4, a5, a6, a7, a8⟩ := passed_facts 10 (by decide)
  simp [show ((10 : Byte) == SLASH) = false from rfl, a1, a2, a3, a4, a5, a6, a7, a8]

theorem lStart_skips (o : Opts) {g : Bytes} (hg : Skip o.comments g) {x : Byte} (hx : x ≠ SLASH) (s : Bytes) :
    lStart o (g ++ x :: s) 0 = lStart o (x :: s) 0 := by
  induction hg with
  | nil => rfl
  | @byte c w h1 h2 h3 ih =>
    rw [← ih]
    obtain ⟨a1, a2, a3, a4, a5, a6, a7, a8⟩ := passed_facts c h1
    have : (o.comments && c == SLASH && (w ++ x :: s).head? == some SLASH) = false := by
      by_contra hc
      simp only [Bool.not_eq_false, Bool.and_eq_true, beq_iff_eq] at hc
      cases w with
      | nil => exact hx (by simpa using hc.2)
      | cons a w => exact h2 hc.1.1 hc.1.2 (by simpa using hc.2)
    rw [List.cons_append, lStart]
    simp only [this, a1, a2, a3, a4, a5, a6, a7, a8, Bool.false_eq_true, if_false]
  | @comment body w h1 h2 h3 ih =>
    rw [← ih]
    simp only [List.cons_append, List.append_assoc]
    rw [lStart]
    cases hn : o.newLines with
    | false =>
      simp only [h1, Bool.true_and, List.head?_cons, beq_self_eq_true, if_true, List.tail_cons, commentEnd_body h2]
      have := lStart_skip o (47 :: (body ++ [10])) (w ++ x :: s)
      simpa using this
    | true =>
      simp only [h1, Bool.true_and, List.head?_cons, beq_self_eq_true, if_true, List.tail_cons, commentEnd_line h2]
      have := lStart_skip o (47 :: body) (10 :: (w ++ x :: s))
      rw [lStart_lf] at this
      simpa using this

theorem lDelim_blank (o : Opts) (ct : Ty) {w : Bytes} (hw : Blank o w) (s : Bytes) :
    lDelim o ct (w ++ s) 0 = lDelim o ct s 0 := by
  induction hw with
  | nil => rfl
  | @byte c w h1 h2 h3 ih =>
    rw [← ih]
    obtain ⟨a1, a2, a3, a4, a5, a6, -⟩ := blank_facts c h1
    rw [List.cons_append, lDelim]
    have : ¬ (o.newLines = true ∧ c = LF) := fun h => h2 h.1 h.2
    simp [a1, a2, a3, a4, a6, this]
  | @comment body w h1 hn h2 h3 ih =>
    rw [← ih]
    simp only [List.cons_append, List.append_assoc]
    rw [lDelim]
    simp only [h1, Bool.true_and, List.head?_cons, beq_self_eq_true, if_true, List.tail_cons, hn, commentEnd_body h2]
    have := lDelim_skip o ct (47 :: (body ++ [10])) (w ++ s)
    simpa using this

theorem lTokEnd_blank (o : Opts) {w : Bytes} (hw : Blank o w) (s : Bytes) :
    lTokEnd o (w ++ s) 0 = lTokEnd o s 0 := by
  induction hw with
  | nil => rfl
  | @byte c w h1 h2 h3 ih =>
    rw [← ih]
    obtain ⟨a1, a2, a3, a4, a5, a6, -⟩ := blank_facts c h1
    rw [List.cons_append, lTokEnd]
    by_cases hc : c = LF
    · have hn : o.newLines = false := by cases hn : o.newLines <;> [rfl; exact absurd hc (h2 hn)]
      simp [a1, a2, a3, a4, a5, a6, hn]
    · simp [a1, a2, a3, a4, a5, a6, hc]
  | @comment body w h1 hn h2 h3 ih =>
    rw [← ih]
    simp only [List.cons_append, List.append_assoc]
    rw [lTokEnd]
    simp only [h1, Bool.true_and, List.head?_cons, beq_self_eq_true, if_true, List.tail_cons, hn, commentEnd_body h2]
    have := lTokEnd_skip o (47 :: (body ++ [10])) (w ++ s)
    simpa using this

theorem lDelim_sep (o : Opts) {c : Bool} {x : Bytes} (h : Sep o c x) (r : Bytes) : lDelim o .arrayStart (x ++ r) 0 = .ok (false, r) := by
  cases h with
  | comma => simp [lDelim, show ((44 : Byte) == SLASH) = false from rfl, show (44 : Byte) ≠ COLON by decide, show (44 : Byte) = COMMA from rfl]
  | line hn => simp [lDelim, hn, show ((10 : Byte) == SLASH) = false from rfl, show (10 : Byte) ≠ COLON by decide, show (10 : Byte) = LF from rfl]
  | @comment body hn hc hb =>
    simp only [List.cons_append, List.append_assoc, List.nil_append]
    rw [lDelim]
    simp only [hc, Bool.true_and, List.head?_cons, show ((47 : Byte) == SLASH) = true from rfl, show (some (47 : Byte) == some SLASH) = true from rfl,
      if_true, List.tail_cons, hn, commentEnd_line hb]
    have := lDelim_skip o .arrayStart (47 :: body) (10 :: r)
    simp only [List.length_cons, List.cons_append] at this
    simp only [Bool.and_self, if_true, this]
    simp [lDelim, hn, show ((10 : Byte) == SLASH) = false from rfl, show (10 : Byte) ≠ COLON by decide, show (10 : Byte) = LF from rfl]

theorem lTokEnd_sep (o : Opts) {c : Bool} {x : Bytes} (h : Sep o c x) (r : Bytes) : lTokEnd o (x ++ r) 0 = .ok (c, r) := by
  cases h with
  | comma => simp [lTokEnd, show ((44 : Byte) == SLASH) = false from rfl, show (44 : Byte) = COMMA from rfl]
  | line hn => simp [lTokEnd, hn, show ((10 : Byte) == SLASH) = false from rfl, show (10 : Byte) ≠ COMMA by decide, show (10 : Byte) ≠ RBRACK by decide,
      show (10 : Byte) ≠ RBRACE by decide, show (10 : Byte) = LF from rfl]
  | @comment body hn hc hb =>
    simp only [List.cons_append, List.append_assoc, List.nil_append]
    rw [lTokEnd]
    simp only [hc, Bool.true_and, List.head?_cons, show ((47 : Byte) == SLASH) = true from rfl, show (some (47 : Byte) == some SLASH) = true from rfl,
      if_true, List.tail_cons, hn, commentEnd_line hb]
    have := lTokEnd_skip o (47 :: body) (10 :: r)
    simp only [List.length_cons, List.cons_append] at this
    simp only [Bool.and_self, if_true, this]
    simp [lTokEnd, hn, show ((10 : Byte) == SLASH) = false from rfl, show (10 : Byte) ≠ COMMA by decide, show (10 : Byte) ≠ RBRACK by decide,
      show (10 : Byte) ≠ RBRACE by decide, show (10 : Byte) = LF from rfl]

theorem lValue_skips (o : Opts) {g : Bytes} (hg : Skip o.comments g) {x : Byte} (hx : x ≠ SLASH) (s : Bytes) :
    lValue o (g ++ x :: s) = lValue o (x :: s) := by
  unfold lValue; rw [lStart_skips o hg hx]

/-! ### Scalars -/

/-- What ends a value or name. -/
def isEnd (o : Opts) (x : Bytes) : Prop := (∃ c, Sep o c x) ∨ x = [RBRACK] ∨ x = [RBRACE] ∨ x = [COLON]

theorem behind_closed {o : Opts} {k : Kind} {w x : Bytes} (h : Behind o k w []) (hx : x = [RBRACK] ∨ x = [RBRACE] ∨ x = [COLON]) :
    Behind o k w x := by
  refine ⟨h.1, fun hk => ?_⟩
  have := h.2 hk
  rw [List.append_nil] at this
  cases w with
  | nil => rcases hx with rfl | rfl | rfl <;> decide
  | cons a w => simpa using this

theorem behind_stops {o : Opts} {k : Kind} {w r x : Bytes} (h : Behind o k w x) (hx : isEnd o x) :
    ∃ y r', w ++ (x ++ r) = y :: r' ∧ numberStop y = true ∧ (k = .word → asciiStop y = true ∧ y ≠ 0) := by
  obtain ⟨h1, h2⟩ := h
  cases h1 with
  | nil =>
    rcases hx with ⟨c, hx⟩ | rfl | rfl | rfl
    · cases hx with
      | comma => exact ⟨_, _, rfl, by decide +kernel, fun _ => by decide +kernel⟩
      | line => exact ⟨_, _, rfl, by decide +kernel, fun _ => by decide +kernel⟩
      | comment => exact ⟨_, _, rfl, by decide +kernel, fun hk => absurd rfl (h2 hk).2⟩
    all_goals exact ⟨_, _, rfl, by decide +kernel, fun _ => by decide +kernel⟩
  | @byte c w h3 =>
    refine ⟨c, _, rfl, (blank_facts c h3).2.2.2.2.2.2.1, fun hk => ⟨(blank_facts c h3).2.2.2.2.2.2.2, ?_⟩⟩
    rintro rfl
    exact (h2 hk).1 rfl
  | comment =>
    refine ⟨_, _, rfl, by decide +kernel, fun hk => absurd rfl (h2 hk).2⟩

theorem quoted_strBody {s : Bytes} (h : Quoted s) : StrBody s := by
  induction h with
  | nil => exact .nil
  | plain h1 h2 _ ih => exact .plain h1 h2 ih
  | esc _ ih => exact .esc ih

theorem scalar_first {k : Kind} {ty : Ty} {d t : Bytes} (h : Scalar k ty d t) : ∃ x t', t = x :: t' ∧ x ≠ SLASH := by
  cases h with
  | str => exact ⟨_, _, rfl, by decide⟩
  | null | tru | fls => exact ⟨_, _, rfl, by decide⟩
  | num h => exact ⟨_, _, rfl, by rintro rfl; revert h; decide⟩
  | word h => exact ⟨_, _, rfl, by rintro rfl; revert h; decide⟩

theorem word_facts (c : Byte) : isLetter c = true → has c flAscii = true :=
  forall_byte (p := fun c => isLetter c = true → has c flAscii = true) (by decide +kernel) c

theorem wordByte_facts (c : Byte) : wordByte c = true → asciiStop c = false :=
  forall_byte (p := fun c => wordByte c = true → asciiStop c = false) (by decide +kernel) c

theorem lValue_of_scalar (o : Opts) {k : Kind} {ty : Ty} {d t : Bytes} (h : Scalar k ty d t) {y : Byte} {r : Bytes}
    (hy : numberStop y = true) (hk : k = .word → asciiStop y = true ∧ y ≠ 0) :
    ∃ raw, lValue o (t ++ y :: r) = .ok (raw, d, y :: r) ∧ getType raw d = ty ∧ (raw = .string ∨ raw = .number ∨ raw = .ascii) := by
  cases h with
  | str hs => exact ⟨.string, by simpa using lValue_str o (quoted_strBody hs), rfl, by simp⟩
  | @num c s hc hs =>
    obtain ⟨g1, g2, g3, g4, g5, g6⟩ := num_facts c
      (forall_byte (p := fun c => (isDigit c || c == 0x2B || c == 0x2D) = true → has c (flPlusMinus ||| flDigits) = true) (by decide +kernel) c hc)
    have h1 := forall_byte (p := fun c => (isDigit c || c == 0x2B || c == 0x2D) = true → has c (flPlusMinus ||| flDigits) = true) (by decide +kernel) c hc
    have h2 : ∀ x ∈ s, numberStop x = false := fun x hx =>
      forall_byte (p := fun c => numByte c = true → numberStop c = false) (by decide +kernel) x (hs x hx)
    refine ⟨.number, ?_, rfl, by simp⟩
    simp only [lValue, List.cons_append, lStart, g1, g2, g3, g4, g5, g6, h1, Bool.and_false, Bool.false_and, Bool.false_eq_true,
      if_false, if_true, List.tail_cons, numberEnd_txt h2 hy]
    simp
  | null => exact ⟨.ascii, lValue_word o (c := 110) (cs := b!"ull") (by decide +kernel) (by decide +kernel) (hk rfl).1 (hk rfl).2, by decide, by simp⟩
  | tru => exact ⟨.ascii, lValue_word o (c := 116) (cs := b!"rue") (by decide +kernel) (by decide +kernel) (hk rfl).1 (hk rfl).2, by decide, by simp⟩
  | fls => exact ⟨.ascii, lValue_word o (c := 102) (cs := b!"alse") (by decide +kernel) (by decide +kernel) (hk rfl).1 (hk rfl).2, by decide, by simp⟩
  | @word c s hc hs h1 h2 h3 =>
    refine ⟨.ascii, lValue_word o (word_facts c hc) (fun y hy => wordByte_facts y (hs y hy)) (hk rfl).1 (hk rfl).2, ?_, by simp⟩
    rw [getType_word]; simp only [h1, h2, h3, if_false, or_self]

theorem lValue_at (o : Opts) {g : Bytes} (hg : Skip o.comments g) {k : Kind} {ty : Ty} {d t : Bytes} (h : Scalar k ty d t)
    {w x : Bytes} (hw : Behind o k w x) (hx : isEnd o x) (r : Bytes) :
    ∃ raw, lValue o (g ++ t ++ (w ++ (x ++ r))) = .ok (raw, d, w ++ (x ++ r)) ∧ getType raw d = ty ∧ (raw = .string ∨ raw = .number ∨ raw = .ascii) := by
  obtain ⟨y, r', h1, h2, h3⟩ := behind_stops (r := r) hw hx
  obtain ⟨a, t', h4, h5⟩ := scalar_first h
  rw [h1]
  obtain ⟨raw, e1, e2⟩ := lValue_of_scalar o h (r := r') h2 h3
  refine ⟨raw, ?_, e2⟩
  rw [List.append_assoc, ← e1, h4, List.cons_append, lValue_skips o hg h5]

/-! ### Brackets -/

theorem open_skips (o : Opts) {e : Bool} {st : List Ty} {g r : Bytes} (hg : Skip o.comments g) {ty : Ty}
    (hty : ty = .arrayStart ∨ ty = .objectStart) :
    lNext o ⟨false, e, st, g ++ bracketOf ty ++ r⟩ = .ok (⟨false, false, ty :: st, r⟩, ⟨[], .ascii, bracketOf ty, ty⟩) := by
  rw [lNext_fin]
  unfold lPop lName
  rcases hty with rfl | rfl
  · have := lValue_skips o hg (x := LBRACK) (by decide) r
    rw [(lValue_open o r).1] at this
    simp only [bracketOf]
    rw [show g ++ b!"[" ++ r = g ++ LBRACK :: r by simp [LBRACK], this]
    simp [isEmpty_app, lFin, anonTok, LBRACK]
  · have := lValue_skips o hg (x := LBRACE) (by decide) r
    rw [(lValue_open o r).2.2.1] at this
    simp only [bracketOf]
    rw [show g ++ b!"{" ++ r = g ++ LBRACE :: r by simp [LBRACE], this]
    simp [isEmpty_app, lFin, anonTok, LBRACE]

theorem close_skips (o : Opts) {e : Bool} (he : EOk o e) {st : List Ty} {g r : Bytes} (hg : Skip o.comments g) :
    lNext o ⟨false, e, .arrayStart :: st, g ++ RBRACK :: r⟩ = .ok (⟨true, e, st, r⟩, ⟨[], .ascii, b!"]", .arrayEnd⟩) ∧
    lNext o ⟨false, e, .objectStart :: st, g ++ RBRACE :: r⟩ = .ok (⟨true, e, st, r⟩, ⟨[], .ascii, b!"}", .objectEnd⟩) := by
  have hx : (e && !o.superfluousComma) = false := by
    cases e
    · rfl
    · simp [he rfl]
  constructor
  · unfold lNext lPop lName
    simp only [isEmpty_app, Bool.false_eq_true, if_false]
    rw [lValue_skips o hg (by decide)]
    simp only [lValue_open, anonTok, hx, Bool.false_eq_true, if_false]
  · unfold lNext lPop lName
    simp only [isEmpty_app, Bool.false_eq_true, if_false]
    rw [lValue_skips o hg (by decide)]
    simp only [lValue_open, anonTok, hx, Bool.false_eq_true, if_false]

theorem sim_sep (o : Opts) {e c : Bool} {ct : Ty} {st : List Ty} {w x r : Bytes} (hw : Blank o w) (hx : Sep o c x) :
    Sim o ⟨true, e, ct :: st, w ++ (x ++ r)⟩ ⟨false, e || c, ct :: st, r⟩ := by
  unfold Sim lNext lPop
  have hne : (w ++ (x ++ r)).isEmpty = false := by cases hx <;> simp
  simp only [hne, Bool.false_eq_true, if_false, if_true]
  rw [lTokEnd_blank o hw, lTokEnd_sep o hx]
  cases r with
  | nil => simp [lName]
  | cons a r => simp

theorem sim_end' (o : Opts) {e : Bool} {ct : Ty} {st : List Ty} {w r : Bytes} {p : Byte}
    (hw : Blank o w) (hp : p = RBRACK ∨ p = RBRACE) :
    Sim o ⟨true, e, ct :: st, w ++ p :: r⟩ ⟨false, e, ct :: st, p :: r⟩ := by
  unfold Sim lNext lPop
  simp only [isEmpty_app, Bool.false_eq_true, if_false, if_true]
  rw [lTokEnd_blank o hw]
  have : lTokEnd o (p :: r) 0 = .ok (false, p :: r) := by
    rcases hp with rfl | rfl <;> simp [lTokEnd, show (RBRACK == SLASH) = false from rfl, show (RBRACE == SLASH) = false from rfl,
      show RBRACK ≠ COMMA by decide, show RBRACE ≠ COMMA by decide]
  rw [this]
  simp

/-! ### Containers -/

/-- What is left of a container once its opening bracket has been returned. -/
def NestedRun (o : Opts) (nm : Bytes) (nty : Ty) (t : Bytes) (ks : List Tok) : Prop :=
  ∃ ty t' ks', (ty = .arrayStart ∨ ty = .objectStart) ∧ t = bracketOf ty ++ t' ∧ ks = ⟨nm, nty, bracketOf ty, ty⟩ :: ks' ∧
    ∀ st tail, ∃ e', EOk o e' ∧ Run o ⟨false, false, ty :: st, t' ++ tail⟩ ks' ⟨true, e', st, tail⟩

theorem nested_bare (o : Opts) {t : Bytes} {ks : List Tok} (h : NestedRun o [] .ascii t ks)
    {e : Bool} {st : List Ty} {g tail : Bytes} (hg : Skip o.comments g) :
    ∃ e', EOk o e' ∧ Run o ⟨false, e, st, g ++ t ++ tail⟩ ks ⟨true, e', st, tail⟩ := by
  obtain ⟨ty, t', ks', hty, rfl, rfl, hr⟩ := h
  obtain ⟨e', h1, h2⟩ := hr st tail
  refine ⟨e', h1, .cons ?_ h2⟩
  have := open_skips o (e := e) (st := st) (r := t' ++ tail) hg hty
  simpa using this

/-- The name of a member, and the step to its value. -/
theorem named_step (o : Opts) {e : Bool} {st : List Ty} {g tn w s n : Bytes} {kn : Kind} {nty : Ty}
    (hg : Skip o.comments g) (hname : Name o kn nty n tn) (hw : Behind o kn w []) :
    lNext o ⟨false, e, .objectStart :: st, g ++ tn ++ (w ++ COLON :: s)⟩ = lFin (lData o ⟨false, false, .objectStart :: st, s⟩ n nty) := by
  obtain ⟨raw, h1, h2, h3⟩ := lValue_at o hg hname.1 (behind_closed hw (x := [COLON]) (by simp)) (by simp [isEnd]) s
  rw [List.singleton_append] at h1
  rw [lNext_fin]
  congr 1
  unfold lPop lName
  have hne : (g ++ tn ++ (w ++ COLON :: s)).isEmpty = false := by
    rw [← List.append_assoc]; exact isEmpty_app
  have hd : lDelimiter o ⟨false, e, .objectStart :: st, w ++ COLON :: s⟩ n nty = lData o ⟨false, false, .objectStart :: st, s⟩ n nty := by
    unfold lDelimiter
    simp only [isEmpty_app, Bool.false_eq_true, if_false]
    rw [lDelim_blank o _ hw.1]
    have : lDelim o .objectStart (COLON :: s) 0 = .ok (true, s) := by
      simp [lDelim, show (COLON == SLASH) = false from rfl]
    rw [this]
    have hok : ¬ (nty ≠ .string ∧ (o.ascii = false ∨ nty ≠ .ascii)) := by
      rcases hname.2 with h | ⟨h, h'⟩ <;> simp [h]
      exact h'
    simp only [hok, if_false]
  simp only [hne, Bool.false_eq_true, if_false, h1]
  rw [← hd, ← h2]
  rcases h3 with rfl | rfl | rfl <;> rfl

theorem lData_eq (o : Opts) {st : List Ty} {s n : Bytes} {nty : Ty} (hs : s.isEmpty = false) :
    lData o ⟨false, false, .objectStart :: st, s⟩ n nty =
      match lValue o s with
      | .error e => .error e
      | .ok (ty, d, r) =>
        if getType ty d = .ascii ∧ o.ascii = false then .error .illegalDataValue
        else .ok (⟨!(ty == .objectStart || ty == .arrayStart), false, .objectStart :: st, r⟩, ⟨n, nty, d, getType ty d⟩) := by
  unfold lData
  simp only [hs, Bool.false_eq_true, if_false]
  cases lValue o s <;> rfl

/-- Every lenient container is read. -/
theorem nested_run (o : Opts) {nm : Bytes} {nty : Ty} {t : Bytes} {ks : List Tok} (h : Nested o nm nty t ks) :
    NestedRun o nm nty t ks := by
  refine Nested.rec (o := o)
    (motive_1 := fun nm nty t ks _ => NestedRun o nm nty t ks)
    (motive_2 := fun k t ls _ => ls ≠ [] ∧ ∀ e st w r,
      (∀ c x, Behind o k w x → Sep o c x → ∃ c' e', ((c && decide (k = .nested)) = false → EOk o e') ∧
        Run o ⟨false, e, .arrayStart :: st, t ++ (w ++ (x ++ r))⟩ ls c' ∧ Sim o c' ⟨false, e', .arrayStart :: st, r⟩) ∧
      (Behind o k w [] → ∃ c' e', EOk o e' ∧ Run o ⟨false, e, .arrayStart :: st, t ++ (w ++ RBRACK :: r)⟩ ls c' ∧
        Sim o c' ⟨false, e', .arrayStart :: st, RBRACK :: r⟩))
    (motive_3 := fun b p ks _ => ∀ st r, ∃ c' e', (b = false → EOk o e') ∧ Run o ⟨false, false, .arrayStart :: st, p ++ r⟩ ks c' ∧
      Sim o c' ⟨false, e', .arrayStart :: st, r⟩)
    (motive_4 := fun b ks _ => ∀ st tail, ∃ e', EOk o e' ∧ Run o ⟨false, false, .arrayStart :: st, b ++ RBRACK :: tail⟩
      (ks ++ [⟨[], .ascii, b!"]", .arrayEnd⟩]) ⟨true, e', st, tail⟩)
    (motive_5 := fun k t ls _ => ls ≠ [] ∧ ∀ e st w x r, Behind o k w x → ((∃ c, Sep o c x) ∨ x = [RBRACE]) →
      ∃ e', EOk o e' ∧ Run o ⟨false, e, .objectStart :: st, t ++ (w ++ (x ++ r))⟩ ls ⟨true, e', .objectStart :: st, w ++ (x ++ r)⟩)
    (motive_6 := fun b p ks _ => ∀ st r, ∃ c' e', (b = false → EOk o e') ∧ Run o ⟨false, false, .objectStart :: st, p ++ r⟩ ks c' ∧
      Sim o c' ⟨false, e', .objectStart :: st, r⟩)
    (motive_7 := fun b ks _ => ∀ st tail, ∃ e', EOk o e' ∧ Run o ⟨false, false, .objectStart :: st, b ++ RBRACE :: tail⟩ ks ⟨true, e', st, tail⟩)
    ?_ ?_ ?_ ?_ ?_ ?_ ?_ ?_ ?_ ?_ ?_ ?_ ?_ ?_ ?_ ?_ h
  · intro nm nty b ks _ ih
    refine ⟨.arrayStart, b ++ b!"]", _, .inl rfl, by simp [bracketOf], rfl, fun st tail => ?_⟩
    simpa [RBRACK] using ih st tail
  · intro nm nty b ks _ ih
    refine ⟨.objectStart, b ++ b!"}", _, .inr rfl, by simp [bracketOf], rfl, fun st tail => ?_⟩
    simpa [RBRACE] using ih st tail
  · intro g k ty d t hg hsc
    refine ⟨by simp, fun e st w r => ?_⟩
    have hb : ty.isBracket = false := by cases hsc <;> rfl
    have key : ∀ x r', Behind o k w x → isEnd o x → lDelim o .arrayStart (x ++ r) 0 = .ok (false, r') →
        lNext o ⟨false, e, .arrayStart :: st, g ++ t ++ (w ++ (x ++ r))⟩ = .ok (⟨false, false, .arrayStart :: st, r'⟩, ⟨[], .ascii, d, ty⟩) := by
      intro x r' hw hx hd
      obtain ⟨raw, h1, h2, h3⟩ := lValue_at o hg hsc hw hx r
      obtain ⟨y, r1, hy, -⟩ := behind_stops (r := r) hw hx
      rw [lNext_fin]
      unfold lPop lName
      have hne : (g ++ t ++ (w ++ (x ++ r))).isEmpty = false := by rw [hy]; exact isEmpty_app
      have hl : lDelimiter o ⟨false, e, .arrayStart :: st, w ++ (x ++ r)⟩ d ty = .ok (⟨false, false, .arrayStart :: st, r'⟩, ⟨[], .ascii, d, ty⟩) := by
        unfold lDelimiter
        have : (w ++ (x ++ r)).isEmpty = false := by rw [hy]; rfl
        simp only [this, Bool.false_eq_true, if_false]
        rw [lDelim_blank o _ hw.1, hd]
        rfl
      simp only [hne, Bool.false_eq_true, if_false, h1]
      rw [← lFin_scalar (c := ⟨false, false, .arrayStart :: st, r'⟩) (k := ⟨[], .ascii, d, ty⟩) hb, ← hl, ← h2]
      rcases h3 with rfl | rfl | rfl <;> rfl
    constructor
    · intro c x hw hx
      exact ⟨_, false, fun _ => eok_false o, .cons (key x r hw (.inl ⟨c, hx⟩) (lDelim_sep o hx r)) .nil, rfl⟩
    · intro hw
      have := key [RBRACK] (RBRACK :: r) (behind_closed hw (.inl rfl)) (by simp [isEnd])
        (by simp [lDelim, show (RBRACK == SLASH) = false from rfl, show RBRACK ≠ COLON by decide, show RBRACK ≠ COMMA by decide, show RBRACK ≠ LF by decide])
      exact ⟨_, false, eok_false o, .cons this .nil, rfl⟩
  · intro g t ks hg _ ih
    refine ⟨by obtain ⟨_, _, _, _, _, rfl, _⟩ := ih; simp, fun e st w r => ⟨fun c x hw hx => ?_, fun hw => ?_⟩⟩
    · obtain ⟨e', h1, h2⟩ := nested_bare o ih (e := e) (st := .arrayStart :: st) (tail := w ++ (x ++ r)) hg
      refine ⟨_, e' || c, fun hc => ?_, h2, sim_sep o hw.1 hx⟩
      have : c = false := by simpa using hc
      simpa [this] using h1
    · obtain ⟨e', h1, h2⟩ := nested_bare o ih (e := e) (st := .arrayStart :: st) (tail := w ++ RBRACK :: r) hg
      exact ⟨_, e', h1, h2, sim_end' o hw.1 (.inl rfl)⟩
  · intro st r
    exact ⟨_, _, fun _ => eok_false o, .nil, rfl⟩
  · intro b p ks k t ls w c x _ _ hw hx ih ih' st r
    obtain ⟨c1, e1, h0, h1, h2⟩ := ih st (t ++ (w ++ (x ++ r)))
    obtain ⟨c2, e2, h5, h3, h4⟩ := (ih'.2 e1 st w r).1 c x hw hx
    exact ⟨c2, e2, h5, Run.then (by simpa using h1) h2 ih'.1 h3, h4⟩
  · intro b p ks k t ls w _ _ hw ih ih' st tail
    obtain ⟨c1, e1, h0, h1, h2⟩ := ih st (t ++ (w ++ RBRACK :: tail))
    obtain ⟨c2, e', h5, h3, h4⟩ := (ih'.2 e1 st w tail).2 hw
    refine ⟨e', h5, ?_⟩
    have := Run.then (Run.then h1 h2 ih'.1 h3) h4 (by simp) (.cons (close_skips o h5 (st := st) (r := tail) (g := []) .nil).1 .nil)
    simpa using this
  · intro b p ks g _ hc hg ih st tail
    obtain ⟨c1, e1, h0, h1, h2⟩ := ih st (g ++ RBRACK :: tail)
    have he : EOk o e1 := by
      cases b with
      | false => exact h0 rfl
      | true => exact fun _ => hc rfl
    refine ⟨_, he, ?_⟩
    have := Run.then h1 h2 (by simp) (.cons (close_skips o he (st := st) (r := tail) hg).1 .nil)
    simpa using this
  · intro g kn nty n tn w g' k ty d t hg hname hw hg' hsc hasc
    refine ⟨by simp, fun e st w' x r hw' hx => ⟨false, eok_false o, .cons ?_ .nil⟩⟩
    have hx' : isEnd o x := by rcases hx with hx | rfl <;> [exact .inl hx; simp [isEnd]]
    obtain ⟨raw, h1, h2, h3⟩ := lValue_at o hg' hsc hw' hx' r
    obtain ⟨y, r1, hy, -⟩ := behind_stops (r := r) hw' hx'
    have := named_step o (e := e) (st := st) (s := g' ++ t ++ (w' ++ (x ++ r))) hg hname hw
    have hb : ty.isBracket = false := by cases hsc <;> rfl
    rw [lData_eq o (by rw [hy]; exact isEmpty_app), h1] at this
    have ha : ¬ (ty = .ascii ∧ o.ascii = false) := fun h => by simp [hasc h.1] at h
    simp only [h2, ha, if_false] at this
    rw [lFin_scalar (by exact hb)] at this
    have ht : (!(raw == .objectStart || raw == .arrayStart)) = true := by rcases h3 with rfl | rfl | rfl <;> rfl
    rw [ht] at this
    simpa [COLON] using this
  · intro g kn nty n tn w g' t ks hg hname hw hg' _ ih
    obtain ⟨ty, t', ks', hty, rfl, rfl, hr⟩ := ih
    refine ⟨by simp, fun e st w' x r hw' hx => ?_⟩
    obtain ⟨e', h1, h2⟩ := hr (.objectStart :: st) (w' ++ (x ++ r))
    refine ⟨e', h1, .cons ?_ h2⟩
    have := named_step o (e := e) (st := st) (s := g' ++ bracketOf ty ++ (t' ++ (w' ++ (x ++ r)))) hg hname hw
    rcases hty with rfl | rfl
    · have hv := lValue_skips o hg' (x := LBRACK) (by decide) (t' ++ (w' ++ (x ++ r)))
      rw [(lValue_open o _).1] at hv
      rw [lData_eq o (by simp [bracketOf]), show g' ++ bracketOf .arrayStart ++ (t' ++ (w' ++ (x ++ r))) = g' ++ LBRACK :: (t' ++ (w' ++ (x ++ r))) by simp [bracketOf, LBRACK], hv] at this
      simpa [COLON, LBRACK, bracketOf, lFin, getType] using this
    · have hv := lValue_skips o hg' (x := LBRACE) (by decide) (t' ++ (w' ++ (x ++ r)))
      rw [(lValue_open o _).2.2.1] at hv
      rw [lData_eq o (by simp [bracketOf]), show g' ++ bracketOf .objectStart ++ (t' ++ (w' ++ (x ++ r))) = g' ++ LBRACE :: (t' ++ (w' ++ (x ++ r))) by simp [bracketOf, LBRACE], hv] at this
      simpa [COLON, LBRACE, bracketOf, lFin, getType] using this
  · intro g t ks hg _ ih
    refine ⟨by obtain ⟨_, _, _, _, _, rfl, _⟩ := ih; simp, fun e st w x r hw hx => ?_⟩
    exact nested_bare o ih hg
  · intro st r
    exact ⟨_, _, fun _ => eok_false o, .nil, rfl⟩
  · intro b p ks k t ls w c x _ _ hw hx ih ih' st r
    obtain ⟨c1, e1, h0, h1, h2⟩ := ih st (t ++ (w ++ (x ++ r)))
    obtain ⟨e', h3, h4⟩ := ih'.2 e1 st w x r hw (.inl ⟨c, hx⟩)
    exact ⟨_, e' || c, fun hc => by simpa [hc] using h3, Run.then (by simpa using h1) h2 ih'.1 h4, sim_sep o hw.1 hx⟩
  · intro b p ks k t ls w _ _ hw ih ih' st tail
    obtain ⟨c1, e1, h0, h1, h2⟩ := ih st (t ++ (w ++ RBRACE :: tail))
    obtain ⟨e', h3, h4⟩ := ih'.2 e1 st w [RBRACE] tail (behind_closed hw (.inr (.inl rfl))) (.inr rfl)
    refine ⟨e', h3, ?_⟩
    have := Run.then (Run.then h1 h2 ih'.1 h4) (sim_end' o hw.1 (.inr rfl)) (by simp)
      (.cons (close_skips o h3 (st := st) (r := tail) (g := []) .nil).2 .nil)
    simpa using this
  · intro b p ks g _ hc hg ih st tail
    obtain ⟨c1, e1, h0, h1, h2⟩ := ih st (g ++ RBRACE :: tail)
    have he : EOk o e1 := by
      cases b with
      | false => exact h0 rfl
      | true => exact fun _ => hc rfl
    refine ⟨_, he, ?_⟩
    have := Run.then h1 h2 (by simp) (.cons (close_skips o he (st := st) (r := tail) hg).2 .nil)
    simpa using this
  · intro b p ks g kn nty n tn w g' _ hg hname hw hg' ih st tail
    obtain ⟨c1, e1, h0, h1, h2⟩ := ih st (g ++ tn ++ (w ++ COLON :: (g' ++ RBRACE :: tail)))
    refine ⟨false, eok_false o, ?_⟩
    have := named_step o (e := e1) (st := st) (s := g' ++ RBRACE :: tail) hg hname hw
    rw [lData_eq o isEmpty_app, lValue_skips o hg' (by decide), (lValue_open o tail).2.2.2] at this
    simp only [getType, ne_eq, reduceCtorEq, not_false_eq_true, if_true, false_and, if_false, lFin,
      show (!(Ty.objectEnd == Ty.objectStart || Ty.objectEnd == Ty.arrayStart)) = true from rfl] at this
    have := Run.then h1 h2 (by simp) (.cons this .nil)
    simpa [COLON, RBRACE] using this

theorem stream_run (o : Opts) {p : Bytes} {ks : List Tok} (h : Stream o p ks) (r : Bytes) :
    ∃ c, Run o ⟨false, false, [], p ++ r⟩ ks c ∧ c.rest = r ∧ c.stack = [] := by
  have key : ∀ r, ∃ c e, Run o ⟨false, false, [], p ++ r⟩ ks c ∧ c.rest = r ∧ c.stack = [] ∧ Sim o c ⟨false, e, [], r⟩ := by
    induction h with
    | nil => exact fun r => ⟨_, _, .nil, rfl, rfl, rfl⟩
    | @snoc p ks g t ls _ hg ht ih =>
      intro r
      obtain ⟨c, e, h1, h2, h3, h4⟩ := ih (g ++ t ++ r)
      have hr := nested_run o ht
      obtain ⟨e', h5, h6⟩ := nested_bare o hr (e := e) (st := []) (tail := r) hg
      refine ⟨_, e', by simpa using Run.then h1 h4 (by obtain ⟨_, _, _, _, _, rfl, _⟩ := hr; simp) h6, rfl, rfl, ?_⟩
      unfold Sim lNext lPop
      cases r <;> simp [lName]
  obtain ⟨c, e, h1, h2, h3, -⟩ := key r
  exact ⟨c, h1, h2, h3⟩

/-! ### All tokens -/

theorem collect_runs {buf : Bytes} (n : Nat) {t : Tz} {next : Token} (h : Good t buf) (hs : t.scopes = [])
    (hstop : (Tz.collect n t next).2.1 ≠ .noError) :
    ∃ c' e, Run t.opts (t.light buf) ((Tz.collect n t next).1.map Token.tok) c' ∧ lNext t.opts c' = .error e := by
  induction n generalizing t next with
  | zero => simp [Tz.collect] at hstop
  | succ n ih =>
    have hl := nextToken_light t buf next h (by simp [hs])
    cases hx : lNext t.opts (t.light buf) with
    | error e =>
      rw [hx] at hl
      obtain ⟨h1, h2⟩ := hl
      simp only [Tz.collect, h1, h2, if_false, List.map_nil]
      exact ⟨_, e, .nil, hx⟩
    | ok x =>
      obtain ⟨c1, k⟩ := x
      rw [hx] at hl
      obtain ⟨t', tok, g1, g2, g3, g4, g5, g6⟩ := hl
      simp only [Tz.collect, g1, if_true, List.map_cons] at hstop ⊢
      obtain ⟨c', e, e1, e2⟩ := ih g3 (by rw [g5, hs]; rfl) hstop
      rw [g4, g6.1] at e1
      rw [g6.1] at e2
      exact ⟨c', e, .cons (by rw [g2]; exact hx) e1, e2⟩

theorem tokenize_runs (o : Opts) (buf : Bytes) (hstop : (tokenizeAll o [buf]).2.1 ≠ .noError) :
    ∃ c' e, Run o ⟨false, false, [], buf⟩ (tokenize o buf).1 c' ∧ lNext o c' = .error e := by
  unfold tokenizeAll at hstop
  have hg : Good ({ Tz.new o with bufs := [buf] } : Tz) buf :=
    ⟨rfl, rfl, ⟨rfl, rfl, Nat.zero_le _⟩, by simp [Tz.new], rfl, .inl rfl⟩
  exact collect_runs _ (t := { Tz.new o with bufs := [buf] }) hg rfl hstop

theorem run_split {o : Opts} {c c2 : LC} {ks ls : List Tok} (h : Run o c (ks ++ ls) c2) :
    ∃ c1, Run o c ks c1 ∧ Run o c1 ls c2 := by
  induction ks generalizing c with
  | nil => exact ⟨c, .nil, h⟩
  | cons k ks ih =>
    cases h with
    | cons h1 h2 =>
      obtain ⟨c1, h3, h4⟩ := ih h2
      exact ⟨c1, .cons h1 h3, h4⟩

theorem run_prefix_of_all {o : Opts} {c c1 c2 : LC} {ks ls : List Tok} {e : Err} (h : Run o c ks c1) (h' : Run o c ls c2)
    (he : lNext o c2 = .error e) : ∃ ms, ls = ks ++ ms ∧ Run o c1 ms c2 := by
  induction h generalizing ls with
  | nil => exact ⟨ls, rfl, h'⟩
  | cons h1 _ ih =>
    cases h' with
    | nil => rw [h1] at he; simp at he
    | cons h3 h4 =>
      rw [h1] at h3
      simp only [Except.ok.injEq, Prod.mk.injEq] at h3
      obtain ⟨rfl, rfl⟩ := h3
      obtain ⟨ms, rfl, e2⟩ := ih h4
      exact ⟨ms, rfl, e2⟩

end Lax

end JsonStruct
