import Verif.Lemmas.Prefix
import Verif.Props.Tokenizer

/-
C02, C44, C45 and C46: what the tokenizer makes of well-formed documents, of comments, of
trailing commas and of malformed texts. `tokenize o t` is the list of tokens that repeated
`nextToken` calls return for the text `t` in one buffer, and the error that ends them.
-/

namespace JsonStruct

theorem tokenize_stops (o : Opts) (b : Bytes) : (tokenizeAll o [b]).2.1 ≠ .noError :=
  C08_tokenizing_stops o [b]

theorem tokenize_doc (o : Opts) (hn : o.newLines = false) {v : JVal} {t : Bytes} (hv : v.isContainer = true)
    (h : Doc (lenient o) v t) : tokenize o t = (v.docToks, .needMoreData) := by
  obtain ⟨w', e', h1, h2⟩ := run_doc o hn hv h
  exact tokenize_run o h2 (lNext_blank o hn h1) (tokenize_stops o t)

/-- **C02**. Every RFC 8259 document whose root is an array or an object is tokenized to its own
structure, with any options (new lines as delimiters excepted) and on every build. -/
theorem C02_document_tokenized (o : Opts) (hn : o.newLines = false) (v : JVal) (t : Bytes)
    (hv : v.isContainer = true) (h : Doc rfc v t) : tokenize o t = (v.docToks, .needMoreData) :=
  tokenize_doc o hn hv (doc_mono (rfc_le o) h)

/-- The document ` {"a": [1, true], "b":{}}` satisfies the hypotheses of `C02_document_tokenized`. -/
example : Doc rfc (.obj [(b!"a", .arr [.num b!"1", .bool true]), (b!"b", .obj [])]) b!" {\"a\": [1, true], \"b\":{}}" := by
  have ws0 : rfc.gap [] := by simp [rfc, Ws]
  have ws1 : rfc.gap b!" " := by simp [rfc, Ws, isWs]
  have n1 : rfc.num b!"1" :=
    ⟨[], b!"1", [], [], rfl, .inl rfl, .inr ⟨⟨by simp, by decide⟩, by decide⟩, .inl rfl, .inl rfl⟩
  refine ⟨b!" ", b!"{\"a\": [1, true], \"b\":{}}", [], ws1, ?_, by simp [rfc, Ws], rfl⟩
  exact .obj (.cons (w1 := []) (n := b!"a") (w2 := []) (w3 := b!" ") (w4 := []) ws0
    (.plain (by decide) (by decide) (by decide) .nil) ws0 ws1
    (.arr (.cons (w := []) (w' := []) ws0 (.num n1) ws0 (.one (w := b!" ") (w' := []) ws1 .tru ws0))) ws0
    (.one (w1 := b!" ") (n := b!"b") (w2 := []) (w3 := []) (w4 := []) ws1
      (.plain (by decide) (by decide) (by decide) .nil) ws0 ws0 (.objEmpty (w := []) ws0) ws0))

/-- With `allowNewLineAsTokenDelimiter` a new line in front of a comma is not white space any
more: this is why C02 excludes that option. -/
theorem C02_not_with_newline_delimiters :
    tokenize { newLines := true } b!"[1\n,2]" =
      ([⟨[], .ascii, b!"[", .arrayStart⟩, ⟨[], .ascii, b!"1", .number⟩], .encounteredIllegalChar) := by
  decide +kernel

/-! ### Comments -/

/-- RFC 8259 with line comments in all places for white space, except directly behind one of
the words `null`, `true`, `false`. -/
def rfcCommentsNotBehindWords : Dialect :=
  { rfcComments with after := fun v w => Gap w ∧ (v matches .null | .bool _ → w.head? ≠ some 0x2F) }

/-- **C44** (part). With comments enabled, a document with comments gives the tokens of the
document. Missing: comments directly behind a word, where the claim is false. -/
theorem C44_comments_invisible_partial (o : Opts) (hn : o.newLines = false) (hc : o.comments = true) (v : JVal) (t : Bytes)
    (hv : v.isContainer = true) (h : Doc rfcCommentsNotBehindWords v t) :
    tokenize o t = (v.docToks, .needMoreData) := by
  refine tokenize_doc o hn hv (doc_mono ⟨fun _ => strBody_of_json, fun _ => numTxt_of_json, ?_, ?_, False.elim, fun _ => False.elim⟩ h)
  · intro s (hs : Gap s); simpa [lenient, GapO, hc] using hs
  · rintro v s ⟨h1, h2⟩
    refine ⟨by simpa [lenient, GapO, hc] using h1, fun hw => ?_⟩
    cases v <;> simp_all [JVal.isWord]

/-- `[1 // c` new line `]` is such a document. -/
example : Doc rfcCommentsNotBehindWords (.arr [.num b!"1"]) b!"[1 //c\n]" := by
  refine ⟨[], b!"[1 //c\n]", [], .nil, ?_, ⟨.nil, by simp⟩, rfl⟩
  refine .arr (.one (w := []) (w' := b!" //c\n") (show Gap [] from .nil) (.num (n := b!"1") ?_)
    (show Gap _ ∧ _ from ⟨.ws (by decide) (.comment (body := b!"c") (w := []) (by decide) .nil), by simp⟩))
  exact ⟨[], b!"1", [], [], rfl, .inl rfl, .inr ⟨⟨by simp, by decide⟩, by decide⟩, .inl rfl, .inl rfl⟩

/-- **C44** is false directly behind a word: the slashes are taken into the word. The text is a
document of the dialect with comments, `[true]` with a comment behind the word. -/
theorem C44_false_behind_words :
    Doc rfcComments (.arr [.bool true]) b!"[true//c\n]" ∧
    tokenize { comments := true } b!"[true//c\n]" ≠ ((JVal.arr [.bool true]).docToks, .needMoreData) := by
  refine ⟨⟨[], b!"[true//c\n]", [], .nil, ?_, .nil, rfl⟩, by decide +kernel⟩
  exact .arr (.one (w := []) (w' := b!"//c\n") (show Gap [] from .nil) .tru
    (show Gap b!"//c\n" from .comment (body := b!"c") (w := []) (by decide) .nil))

/-! ### Trailing commas -/

/-- **C45** (second half). With `allowSuperfluousComma` a comma in front of any closing bracket is
ignored. -/
theorem C45_superfluous_comma_ignored (o : Opts) (hn : o.newLines = false) (ho : o.superfluousComma = true) (v : JVal) (t : Bytes)
    (hv : v.isContainer = true) (h : Doc rfcCommas v t) : tokenize o t = (v.docToks, .needMoreData) :=
  tokenize_doc o hn hv (doc_mono (rfcCommas_le o ho) h)

/-- `[{},]` is a document with a trailing comma. -/
example : Doc rfcCommas (.arr [.obj []]) b!"[{},]" := by
  have ws0 : rfcCommas.gap [] := by simp [rfcCommas, rfc, Ws]
  exact ⟨[], b!"[{},]", [], ws0, .arr (.trail (w := []) (w' := []) (w'' := []) trivial ws0 (.objEmpty (w := []) ws0) ws0 ws0), ws0, rfl⟩

/-- **C45** (first half, part). Without the option, a comma between the last member of an object and
the closing brace is reported, and so is a comma between a container at the end of an array
and the closing bracket, in any place of any document. Missing: arrays ending in a scalar,
where the claim is false. -/
theorem C45_superfluous_comma_rejected_partial (o : Opts) (hn : o.newLines = false) (ho : o.superfluousComma = false)
    (st : List Ty) (last : JVal) (p : Bytes) (ks : List Tok) (w rest : Bytes) (h : Prefix rfc st (some last) p ks) (hw : Ws w)
    (hlast : st.head? = some .objectStart ∨ last.isContainer = true) (close : Byte) (hclose : close = 0x5D ∨ close = 0x7D) :
    tokenize o (p ++ (w ++ close :: rest)) = (ks, .expectedDataToken) := by
  have := prefix_error o hn (prefix_mono (rfc_le o) h) (w ++ close :: rest) .expectedDataToken [] _ .nil ?_ (tokenize_stops o _)
  · simpa using this
  · have hf : commaFlag st (some last) = true := by
      rcases hlast with h | h <;> simp [commaFlag, h]
    rw [lNext_fin, hf]
    unfold lPop lName
    rw [lValue_gap o hn w _ (ws_gapO _ hw)]
    rcases hclose with rfl | rfl
    · have := (lValue_open o rest).2.1
      simp only [RBRACK] at this
      simp [isEmpty_app, this, ho, lFin]
    · have := (lValue_open o rest).2.2.2
      simp only [RBRACE] at this
      simp [isEmpty_app, this, ho, lFin]

/-- **C45** is false for arrays that end in a scalar: the comma is accepted although superfluous
commas are not allowed. -/
theorem C45_false_behind_scalars :
    tokenize {} b!"[1,]" = ((JVal.arr [.num b!"1"]).docToks, .needMoreData) := by decide +kernel

/-- A member `"a":1` and the comma behind it, in a nested object. -/
example : Prefix rfc [.objectStart, .arrayStart] (some (.num b!"1")) b!"[{\"a\":1,"
    ([⟨[], .ascii, b!"[", .arrayStart⟩, ⟨[], .ascii, b!"{", .objectStart⟩] ++ (JVal.num b!"1").toks b!"a" .string) := by
  have ws0 : rfc.gap [] := by simp [rfc, Ws]
  exact .member (w1 := []) (n := b!"a") (w2 := []) (w3 := []) (w' := [])
    (.arrObj (w := []) (.rootArr (w := []) ws0) ws0) ws0
    (.plain (by decide) (by decide) (by decide) .nil) ws0 ws0
    (.num ⟨[], b!"1", [], [], rfl, .inl rfl, .inr ⟨⟨by simp, by decide⟩, by decide⟩, .inl rfl, .inl rfl⟩) ws0

/-! ### Malformed texts

**C46**, in parts: at any place of any document, each of the following defects is reported with
the error given. Missing: the defects listed at `C46_false`, which are accepted. `p` is always
a beginning of a document, up to an opening bracket or a comma. -/

/-- A byte that cannot begin a token: none of quote, brackets, digits, sign and letters, and no
white space; nor one of the seven bytes the tokenizer passes over like white space. -/
def cannotStart (c : Byte) : Bool :=
  !(isWs c || isDigit c || (0x41 ≤ c && c ≤ 0x5A) || (0x61 ≤ c && c ≤ 0x7A) ||
    b!"\"[]{}+-".contains c || (b!"/.^_`\\" ++ [0]).contains c)

theorem cannotStart_facts (c : Byte) : cannotStart c = true → (c == SLASH) = false ∧ c ≠ QUOTE ∧ c ≠ LBRACE ∧ c ≠ RBRACE ∧
    c ≠ LBRACK ∧ c ≠ RBRACK ∧ has c (flPlusMinus ||| flDigits) = false ∧ has c flAscii = false ∧ lookup c = 0 :=
  forall_byte (p := fun c => cannotStart c = true → (c == SLASH) = false ∧ c ≠ QUOTE ∧ c ≠ LBRACE ∧ c ≠ RBRACE ∧
    c ≠ LBRACK ∧ c ≠ RBRACK ∧ has c (flPlusMinus ||| flDigits) = false ∧ has c flAscii = false ∧ lookup c = 0) (by decide +kernel) c

/-- `[,`, `[1,,`, `{:`, `[ #`: something that begins no token where an element or member is
to come. -/
theorem C46_illegal_char_partial (o : Opts) (hn : o.newLines = false) (st : List Ty) (l : Option JVal) (p : Bytes) (ks : List Tok)
    (h : Prefix rfc st l p ks) (w rest : Bytes) (hw : Ws w) (c : Byte) (hc : cannotStart c = true) :
    tokenize o (p ++ (w ++ c :: rest)) = (ks, .encounteredIllegalChar) := by
  have := prefix_error o hn (prefix_mono (rfc_le o) h) (w ++ c :: rest) .encounteredIllegalChar [] _ .nil ?_ (tokenize_stops o _)
  · simpa using this
  · rw [lNext_fin]
    unfold lPop lName
    rw [lValue_gap o hn w _ (ws_gapO _ hw)]
    obtain ⟨h1, h2, h3, h4, h5, h6, h7, h8, h9⟩ := cannotStart_facts c hc
    have : lValue o (c :: rest) = .error .encounteredIllegalChar := by
      simp [lValue, lStart, h1, h2, h3, h4, h5, h6, h7, h8, h9]
    simp [isEmpty_app, this, lFin]

example : cannotStart 0x2C = true ∧ cannotStart 0x3A = true ∧ cannotStart 0x23 = true := by decide

/-- `[}`, `{]`: the wrong closing bracket, directly behind the opening one. -/
theorem C46_wrong_bracket_partial (o : Opts) (hn : o.newLines = false) (ct : Ty) (st : List Ty) (p : Bytes) (ks : List Tok)
    (h : Prefix rfc (ct :: st) none p ks) (w rest : Bytes) (hw : Ws w) :
    (ct = .arrayStart → tokenize o (p ++ (w ++ 0x7D :: rest)) = (ks, .unexpectedObjectEnd)) ∧
    (ct = .objectStart → tokenize o (p ++ (w ++ 0x5D :: rest)) = (ks, .unexpectedArrayEnd)) := by
  constructor
  · rintro rfl
    have := prefix_error o hn (prefix_mono (rfc_le o) h) (w ++ 0x7D :: rest) .unexpectedObjectEnd [] _ .nil ?_ (tokenize_stops o _)
    · simpa using this
    · rw [lNext_fin]
      unfold lPop lName
      rw [lValue_gap o hn w _ (ws_gapO _ hw)]
      have := (lValue_open o rest).2.2.2
      simp only [RBRACE] at this
      simp [isEmpty_app, this, lFin, anonTok, commaFlag]
  · rintro rfl
    have := prefix_error o hn (prefix_mono (rfc_le o) h) (w ++ 0x5D :: rest) .unexpectedArrayEnd [] _ .nil ?_ (tokenize_stops o _)
    · simpa using this
    · rw [lNext_fin]
      unfold lPop lName
      rw [lValue_gap o hn w _ (ws_gapO _ hw)]
      have := (lValue_open o rest).2.1
      simp only [RBRACK] at this
      simp [isEmpty_app, this, lFin, anonTok, commaFlag]

/-- `{"a" 1`, `{"a",`, `{"a"}`: a member name that no colon follows. -/
theorem C46_missing_colon_partial (o : Opts) (hn : o.newLines = false) (st : List Ty) (l : Option JVal) (p : Bytes) (ks : List Tok)
    (h : Prefix rfc (.objectStart :: st) l p ks) (w n w2 rest : Bytes) (hw : Ws w) (hs : JsonString n) (hw2 : Ws w2)
    (c : Byte) (hc : isWs c = false ∧ c ≠ 0x3A ∧ c ≠ 0x2F ∧ c ≠ 0) :
    tokenize o (p ++ (w ++ (0x22 :: (n ++ 0x22 :: (w2 ++ c :: rest))))) = (ks, .expectedDelimiter) := by
  have := prefix_error o hn (prefix_mono (rfc_le o) h) (w ++ (0x22 :: (n ++ 0x22 :: (w2 ++ c :: rest)))) .expectedDelimiter [] _ .nil ?_ (tokenize_stops o _)
  · simpa using this
  · rw [lNext_fin]
    unfold lPop lName
    rw [lValue_gap o hn w _ (ws_gapO _ hw), lValue_str o (strBody_of_json hs)]
    simp only [isEmpty_app, Bool.false_eq_true, if_false]
    unfold lDelimiter
    simp only [isEmpty_app, Bool.false_eq_true, if_false]
    rw [lDelim_gap o hn _ w2 _ (ws_gapO _ hw2)]
    obtain ⟨h1, h2, h3, h4⟩ := hc
    have hx : has c flWs = false := by
      have := forall_byte (p := fun c => isWs c = false → c ≠ 0 → has c flWs = false) (by decide +kernel) c
      exact this h1 h4
    have : lDelim o .objectStart (c :: rest) 0 = .error .expectedDelimiter := by
      simp [lDelim, show (c == SLASH) = false by simpa using h3, show c ≠ COLON from h2, hn, hx]
    simp [this, lFin]

/-- `{1:`, `{-2.5 :`: a number as a member name. -/
theorem C46_number_as_name_partial (o : Opts) (hn : o.newLines = false) (st : List Ty) (l : Option JVal) (p : Bytes) (ks : List Tok)
    (h : Prefix rfc (.objectStart :: st) l p ks) (w n w2 rest : Bytes) (hw : Ws w) (hs : JsonNumber n) (hw2 : Ws w2) :
    tokenize o (p ++ (w ++ (n ++ (w2 ++ 0x3A :: rest)))) = (ks, .illegalPropertyName) := by
  have := prefix_error o hn (prefix_mono (rfc_le o) h) (w ++ (n ++ (w2 ++ 0x3A :: rest))) .illegalPropertyName [] _ .nil ?_ (tokenize_stops o _)
  · simpa using this
  · have hval : lValue o (n ++ (w2 ++ 0x3A :: rest)) = .ok (.number, n, w2 ++ 0x3A :: rest) := by
      cases w2 with
      | nil => exact lValue_num o (numTxt_of_json hs) (by decide +kernel)
      | cons x w2 =>
        have := forall_byte (p := fun c => isWs c = true → numberStop c = true) (by decide +kernel) x (hw2 x (by simp))
        exact lValue_num o (numTxt_of_json hs) this
    rw [lNext_fin]
    unfold lPop lName
    rw [lValue_gap o hn w _ (ws_gapO _ hw), hval]
    have hne : (w ++ (n ++ (w2 ++ 0x3A :: rest))).isEmpty = false := by
      rw [← List.append_assoc, ← List.append_assoc]; exact isEmpty_app
    simp only [hne, Bool.false_eq_true, if_false]
    unfold lDelimiter
    simp only [isEmpty_app, Bool.false_eq_true, if_false]
    rw [lDelim_gap o hn _ w2 _ (ws_gapO _ hw2)]
    have : lDelim o .objectStart (0x3A :: rest) 0 = .ok (true, rest) := by
      simp [lDelim, show ((0x3A : UInt8) == SLASH) = false from rfl, show (0x3A : UInt8) = COLON from rfl]
    simp [this, lFin, getType]

/-- A word made of letters and digits. -/
def IsWord (s : Bytes) : Prop :=
  ∃ c cs, s = c :: cs ∧ ((0x41 ≤ c ∧ c ≤ 0x5A) ∨ (0x61 ≤ c ∧ c ≤ 0x7A)) ∧
    ∀ x ∈ cs, isDigit x = true ∨ (0x41 ≤ x ∧ x ≤ 0x5A) ∨ (0x61 ≤ x ∧ x ≤ 0x7A)

theorem lValue_isWord (o : Opts) {s w r : Bytes} {x : Byte} (hs : IsWord s) (hw : Ws w) (hx : asciiStop x = true) (hx0 : x ≠ 0) :
    lValue o (s ++ (w ++ x :: r)) = .ok (.ascii, s, w ++ x :: r) := by
  obtain ⟨c, cs, rfl, hc, hcs⟩ := hs
  have h1 : has c flAscii = true :=
    forall_byte (p := fun c => ((0x41 ≤ c ∧ c ≤ 0x5A) ∨ (0x61 ≤ c ∧ c ≤ 0x7A)) → has c flAscii = true) (by decide +kernel) c hc
  have h2 : ∀ y ∈ cs, asciiStop y = false := fun y hy =>
    forall_byte (p := fun x => (isDigit x = true ∨ (0x41 ≤ x ∧ x ≤ 0x5A) ∨ (0x61 ≤ x ∧ x ≤ 0x7A)) → asciiStop x = false)
      (by decide +kernel) y (hcs y hy)
  cases w with
  | nil => exact lValue_word o h1 h2 hx hx0
  | cons y w =>
    have := forall_byte (p := fun c => isWs c = true → asciiStop c = true ∧ c ≠ 0) (by decide +kernel) y (hw y (by simp))
    exact lValue_word o h1 h2 this.1 this.2

/-- `{a:`, `{true:`: an unquoted member name, unless ascii names are allowed. -/
theorem C46_unquoted_name_partial (o : Opts) (hn : o.newLines = false) (ha : o.ascii = false) (st : List Ty) (l : Option JVal) (p : Bytes) (ks : List Tok)
    (h : Prefix rfc (.objectStart :: st) l p ks) (w n w2 rest : Bytes) (hw : Ws w) (hs : IsWord n) (hw2 : Ws w2) :
    tokenize o (p ++ (w ++ (n ++ (w2 ++ 0x3A :: rest)))) = (ks, .illegalPropertyName) := by
  have := prefix_error o hn (prefix_mono (rfc_le o) h) (w ++ (n ++ (w2 ++ 0x3A :: rest))) .illegalPropertyName [] _ .nil ?_ (tokenize_stops o _)
  · simpa using this
  · have hval := lValue_isWord o (r := rest) hs hw2 (x := 0x3A) (by decide +kernel) (by decide)
    rw [lNext_fin]
    unfold lPop lName
    rw [lValue_gap o hn w _ (ws_gapO _ hw), hval]
    have hne : (w ++ (n ++ (w2 ++ 0x3A :: rest))).isEmpty = false := by
      rw [← List.append_assoc, ← List.append_assoc]; exact isEmpty_app
    simp only [hne, Bool.false_eq_true, if_false]
    unfold lDelimiter
    simp only [isEmpty_app, Bool.false_eq_true, if_false]
    rw [lDelim_gap o hn _ w2 _ (ws_gapO _ hw2)]
    have : lDelim o .objectStart (0x3A :: rest) 0 = .ok (true, rest) := by
      simp [lDelim, show ((0x3A : UInt8) == SLASH) = false from rfl, show (0x3A : UInt8) = COLON from rfl]
    have hgt : getType .ascii n ≠ .string := by
      unfold getType; simp only [ne_eq, not_true_eq_false, if_false]; split_ifs <;> simp
    simp [this, lFin, hgt, ha]

/-- `{"a":foo,`: a bare word other than `null`, `true`, `false` as a member value, unless ascii
values are allowed. -/
theorem C46_bare_word_value_partial (o : Opts) (hn : o.newLines = false) (ha : o.ascii = false) (st : List Ty) (l : Option JVal) (p : Bytes) (ks : List Tok)
    (h : Prefix rfc (.objectStart :: st) l p ks) (w n w2 w3 t w4 rest : Bytes) (hw : Ws w) (hs : JsonString n) (hw2 : Ws w2)
    (hw3 : Ws w3) (ht : IsWord t) (hk : t ≠ b!"null" ∧ t ≠ b!"true" ∧ t ≠ b!"false") (hw4 : Ws w4) (c : Byte) (hc : c = 0x2C ∨ c = 0x7D) :
    tokenize o (p ++ (w ++ (0x22 :: (n ++ 0x22 :: (w2 ++ 0x3A :: (w3 ++ (t ++ (w4 ++ c :: rest)))))))) = (ks, .illegalDataValue) := by
  have := prefix_error o hn (prefix_mono (rfc_le o) h) (w ++ (0x22 :: (n ++ 0x22 :: (w2 ++ 0x3A :: (w3 ++ (t ++ (w4 ++ c :: rest))))))) .illegalDataValue [] _ .nil ?_ (tokenize_stops o _)
  · simpa using this
  · have hval := lValue_isWord o (r := rest) ht hw4 (x := c) (by rcases hc with rfl | rfl <;> decide +kernel) (by rcases hc with rfl | rfl <;> decide)
    have hg : getType .ascii t = .ascii := by
      unfold getType
      simp only [ne_eq, not_true_eq_false, if_false]
      split_ifs with h1 h2 h3 h4 h5
      · rw [List.take_of_length_le (by omega)] at h2; exact absurd h2 hk.1
      · rw [List.take_of_length_le (by omega)] at h3; exact absurd h3 hk.2.1
      · rfl
      · exfalso
        obtain ⟨a, b, c, d, e, rfl⟩ : ∃ a b c d e, t = [a, b, c, d, e] := by
          match t, h4 with
          | [a, b, c, d, e], _ => exact ⟨a, b, c, d, e, rfl⟩
        simp at h5
        simp [h5] at hk
      · rfl
      · rfl
    obtain ⟨c0, cs0, rfl, -, -⟩ := id ht
    have := lPop_named o hn (strBody_of_json hs) (e := commaFlag (.objectStart :: st) l) (st := st) (x := c0) (r := cs0 ++ (w4 ++ c :: rest))
      (ws_gapO _ hw) (ws_gapO _ hw2) (ws_gapO _ hw3)
    simp only [List.cons_append] at hval this ⊢
    rw [this, hval]
    simp [hg, ha, lFin]

/-- `["a" 1`, `[1 2`, `[null x`: an array element that no comma and no bracket follows. -/
theorem C46_missing_comma_array_partial (o : Opts) (hn : o.newLines = false) (st : List Ty) (l : Option JVal) (p : Bytes) (ks : List Tok)
    (h : Prefix rfc (.arrayStart :: st) l p ks) (w t w2 rest : Bytes) (v : JVal) (hw : Ws w) (ht : Text rfc v t)
    (hv : v.isContainer = false) (hw2 : Ws w2) (hne : w2 ≠ [])
    (c : Byte) (hc : isWs c = false ∧ c ≠ 0x2C ∧ c ≠ 0x5D ∧ c ≠ 0x2F ∧ c ≠ 0) :
    tokenize o (p ++ (w ++ (t ++ (w2 ++ c :: rest)))) = (ks, .expectedDelimiter) := by
  have := prefix_error o hn (prefix_mono (rfc_le o) h) (w ++ (t ++ (w2 ++ c :: rest))) .expectedDelimiter [] _ .nil ?_ (tokenize_stops o _)
  · simpa using this
  · obtain ⟨y, w2', rfl⟩ := List.exists_cons_of_ne_nil hne
    have hy := hw2 y (by simp)
    have hyn := forall_byte (p := fun c => isWs c = true → numberStop c = true ∧ asciiStop c = true ∧ c ≠ 0) (by decide +kernel) y hy
    have hval : ∃ ty d, lValue o (t ++ (y :: w2' ++ c :: rest)) = .ok (ty, d, y :: w2' ++ c :: rest) ∧ (ty = .string ∨ ty = .number ∨ ty = .ascii) := by
      cases ht with
      | null => exact ⟨_, _, lValue_word o (c := 110) (cs := b!"ull") (by decide +kernel) (by decide +kernel) hyn.2.1 hyn.2.2, by simp⟩
      | tru => exact ⟨_, _, lValue_word o (c := 116) (cs := b!"rue") (by decide +kernel) (by decide +kernel) hyn.2.1 hyn.2.2, by simp⟩
      | fls => exact ⟨_, _, lValue_word o (c := 102) (cs := b!"alse") (by decide +kernel) (by decide +kernel) hyn.2.1 hyn.2.2, by simp⟩
      | num hn => exact ⟨_, _, lValue_num o (numTxt_of_json hn) hyn.1, by simp⟩
      | str hs => exact ⟨_, _, by simpa using lValue_str o (strBody_of_json hs), by simp⟩
      | arrEmpty | arr | objEmpty | obj => simp [JVal.isContainer] at hv
    obtain ⟨ty, d, hval, hty⟩ := hval
    rw [lNext_fin]
    unfold lPop lName
    rw [lValue_gap o hn w _ (ws_gapO _ hw), hval]
    have hne : (w ++ (t ++ (y :: w2' ++ c :: rest))).isEmpty = false := by
      rw [← List.append_assoc, ← List.append_assoc]; exact isEmpty_app
    simp only [hne, Bool.false_eq_true, if_false]
    obtain ⟨h1, h2, h3, h4, h5⟩ := hc
    have hx : has c flWs = false := by
      have := forall_byte (p := fun c => isWs c = false → c ≠ 0 → has c flWs = false) (by decide +kernel) c
      exact this h1 h5
    have hdl : lDelim o .arrayStart (c :: rest) 0 = .error .expectedDelimiter := by
      by_cases hcol : c = COLON
      · simp [lDelim, hcol, show (COLON == SLASH) = false from rfl]
      · simp [lDelim, show (c == SLASH) = false by simpa using h4, hcol, show c ≠ COMMA from h2, show c ≠ RBRACK from h3, hn, hx]
    have hld : ∀ gt, lDelimiter o ⟨false, commaFlag (.arrayStart :: st) l, .arrayStart :: st, y :: w2' ++ c :: rest⟩ d gt = .error .expectedDelimiter := by
      intro gt
      unfold lDelimiter
      simp only [isEmpty_app, Bool.false_eq_true, if_false]
      rw [lDelim_gap o hn _ (y :: w2') _ (ws_gapO _ hw2), hdl]
    rcases hty with rfl | rfl | rfl <;> simp only [hld] <;> rfl

/-- `{"a":{} "b"`, `{"a":[1] 2`: an array or object as a member value that no comma and no bracket
follows. -/
theorem C46_missing_comma_partial (o : Opts) (hn : o.newLines = false) (st : List Ty) (l : Option JVal) (p : Bytes) (ks : List Tok)
    (h : Prefix rfc (.objectStart :: st) l p ks) (w n w2 w3 t w4 rest : Bytes) (v : JVal) (hw : Ws w) (hs : JsonString n) (hw2 : Ws w2)
    (hw3 : Ws w3) (ht : Text rfc v t) (hv : v.isContainer = true) (hw4 : Ws w4)
    (c : Byte) (hc : isWs c = false ∧ c ≠ 0x2C ∧ c ≠ 0x5D ∧ c ≠ 0x7D ∧ c ≠ 0x2F ∧ c ≠ 0) :
    tokenize o (p ++ (w ++ (0x22 :: (n ++ 0x22 :: (w2 ++ 0x3A :: (w3 ++ (t ++ (w4 ++ c :: rest)))))))) =
      (ks ++ v.toks n .string, .invalidToken) := by
  have hin := inner_text o hn (text_mono (rfc_le o) ht)
  obtain ⟨h1, h2, h3, h4, h5, h6⟩ := hc
  have hx : has c flWs = false := by
    have := forall_byte (p := fun c => isWs c = false → c ≠ 0 → has c flWs = false) (by decide +kernel) c
    exact this h1 h6
  have hlf : c ≠ LF := by rintro rfl; revert h1; decide
  have herr : ∀ e, lNext o ⟨true, e, .objectStart :: st, w4 ++ c :: rest⟩ = .error .invalidToken := by
    intro e
    rw [lNext_fin]
    unfold lPop
    simp only [isEmpty_app, Bool.false_eq_true, if_false, if_true]
    rw [lTokEnd_gap o hn w4 _ (ws_gapO _ hw4)]
    simp [lTokEnd, show (c == SLASH) = false by simpa using h5, show c ≠ COMMA from h2, show c ≠ RBRACK from h3, show c ≠ RBRACE from h4, hlf, hx, lFin]
  cases v with
  | arr vs =>
    obtain ⟨t', rfl, hr⟩ := hin
    obtain ⟨e', -, hr⟩ := hr (.objectStart :: st) (w4 ++ c :: rest)
    refine prefix_error o hn (prefix_mono (rfc_le o) h) _ .invalidToken _ _ ?_ (herr e') (tokenize_stops o _)
    rw [JVal.toks]
    refine .cons ?_ hr
    have := lPop_named o hn (strBody_of_json hs) (e := commaFlag (.objectStart :: st) l) (st := st) (x := LBRACK) (r := t' ++ (w4 ++ c :: rest))
      (ws_gapO _ hw) (ws_gapO _ hw2) (ws_gapO _ hw3)
    simp only [lValue_open] at this
    simpa [lFin, getType] using this
  | obj vs =>
    obtain ⟨t', rfl, hr⟩ := hin
    obtain ⟨e', -, hr⟩ := hr (.objectStart :: st) (w4 ++ c :: rest)
    refine prefix_error o hn (prefix_mono (rfc_le o) h) _ .invalidToken _ _ ?_ (herr e') (tokenize_stops o _)
    rw [JVal.toks]
    refine .cons ?_ hr
    have := lPop_named o hn (strBody_of_json hs) (e := commaFlag (.objectStart :: st) l) (st := st) (x := LBRACE) (r := t' ++ (w4 ++ c :: rest))
      (ws_gapO _ hw) (ws_gapO _ hw2) (ws_gapO _ hw3)
    simp only [lValue_open] at this
    simpa [lFin, getType] using this
  | null | bool | num | str => simp [JVal.isContainer] at hv

/-- **C46** is false: a member without a value, containers as members without names, a bare word
in an array, and bytes like `.` or `_` between the tokens are all accepted. -/
theorem C46_false :
    (tokenize {} b!"{\"a\":}").2 = .needMoreData ∧ (tokenize {} b!"{{}}").2 = .needMoreData ∧
    (tokenize {} b!"{\"a\":1,[2]}").2 = .needMoreData ∧ (tokenize {} b!"[foo]").2 = .needMoreData ∧
    (tokenize {} b!"[._^1,/2]").2 = .needMoreData := by decide +kernel

end JsonStruct
