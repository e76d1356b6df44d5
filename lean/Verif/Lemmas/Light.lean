import Verif.Lemmas.Inv

/- The tokenizer on one buffer, as a function on the bytes still to be read. This is a
proof device: `nextToken_light` shows that the model's `nextToken` computes it. -/

namespace JsonStruct

abbrev LRes := Except Err

/-- `findStart` on the bytes left: the type found and the bytes from its first one on. -/
def lStart (o : Opts) : Bytes → Nat → LRes (Ty × Bytes)
  | [], _ => .error .needMoreData
  | _ :: cs, skip + 1 => lStart o cs skip
  | c :: cs, 0 =>
    if o.comments && c == SLASH && cs.head? == some SLASH then
      match commentEnd o.newLines cs.tail with
      | none => .error .needMoreData
      | some k => lStart o cs (k + 1)
    else if c = QUOTE then .ok (.string, c :: cs)
    else if c = LBRACE then .ok (.objectStart, c :: cs)
    else if c = RBRACE then .ok (.objectEnd, c :: cs)
    else if c = LBRACK then .ok (.arrayStart, c :: cs)
    else if c = RBRACK then .ok (.arrayEnd, c :: cs)
    else if has c (flPlusMinus ||| flDigits) then .ok (.number, c :: cs)
    else if has c flAscii then .ok (.ascii, c :: cs)
    else if lookup c = 0 then .error .encounteredIllegalChar
    else lStart o cs 0

/-- `findDelimiter` on the bytes left: whether a name ended (by a colon), and the bytes
to go on with. -/
def lDelim (o : Opts) (ct : Ty) : Bytes → Nat → LRes (Bool × Bytes)
  | [], _ => .error .needMoreData
  | _ :: cs, skip + 1 => lDelim o ct cs skip
  | c :: cs, 0 =>
    if o.comments && c == SLASH && cs.head? == some SLASH then
      match commentEnd o.newLines cs.tail with
      | none => .error .needMoreData
      | some k => lDelim o ct cs (k + 1)
    else if c = COLON then
      if ct ≠ .objectStart then .error .expectedDelimiter else .ok (true, cs)
    else if c = COMMA ∨ (o.newLines = true ∧ c = LF) then
      if ct ≠ .arrayStart then .error .expectedDelimiter else .ok (false, cs)
    else if c = RBRACK then
      if ct ≠ .arrayStart then .error .expectedDelimiter else .ok (false, c :: cs)
    else if !has c flWs then .error .expectedDelimiter
    else lDelim o ct cs 0

/-- `findTokenEnd` on the bytes left: whether a comma was seen, and the bytes to go on
with. -/
def lTokEnd (o : Opts) : Bytes → Nat → LRes (Bool × Bytes)
  | [], _ => .error .needMoreData
  | _ :: cs, skip + 1 => lTokEnd o cs skip
  | c :: cs, 0 =>
    if o.comments && c == SLASH && cs.head? == some SLASH then
      match commentEnd o.newLines cs.tail with
      | none => .error .needMoreData
      | some k => lTokEnd o cs (k + 1)
    else if c = COMMA then .ok (true, cs)
    else if c = RBRACK ∨ c = RBRACE then .ok (false, c :: cs)
    else if c = LF then
      if o.newLines then .ok (false, cs) else lTokEnd o cs 0
    else if has c flWs then lTokEnd o cs 0
    else .error .invalidToken

/-- `populateFromDataRef` on the bytes left: type, bytes and what follows. -/
def lValue (o : Opts) (s : Bytes) : LRes (Ty × Bytes × Bytes) :=
  match lStart o s 0 with
  | .error e => .error e
  | .ok (ty, r) =>
    match ty with
    | .string =>
      match (strEnd false r.tail).1 with
      | none => .error .needMoreData
      | some k => .ok (ty, r.tail.take (k - 1), r.tail.drop k)
    | .number =>
      match numberEnd r.tail with
      | .more => .error .needMoreData
      | .found k => .ok (ty, r.take (k + 1), r.tail.drop k)
    | .ascii =>
      match asciiEnd r.tail with
      | .more => .error .needMoreData
      | .found k => .ok (ty, r.take (k + 1), r.tail.drop k)
    | _ => .ok (ty, r.take 1, r.tail)

/-- The state between two calls. -/
structure LC where
  te : Bool
  exp : Bool
  stack : List Ty
  rest : Bytes
  deriving DecidableEq, Repr

def anonTok (d : Bytes) (ty : Ty) : Tok := { name := [], nameType := .ascii, value := d, valueType := ty }

/-- From `FindingData` on, with the name already read. -/
def lData (o : Opts) (c : LC) (nm : Bytes) (nty : Ty) : LRes (LC × Tok) :=
  if c.rest.isEmpty then .error .needMoreData
  else match lValue o c.rest with
  | .error e => .error e
  | .ok (ty, d, r) =>
    if getType ty d = .ascii ∧ o.ascii = false then .error .illegalDataValue
    else .ok ({ c with te := !(ty == .objectStart || ty == .arrayStart), rest := r },
      { name := nm, nameType := nty, value := d, valueType := getType ty d })

/-- From `FindingDelimiter` on, with a name or array element already read. -/
def lDelimiter (o : Opts) (c : LC) (nm : Bytes) (nty : Ty) : LRes (LC × Tok) :=
  if c.rest.isEmpty then .error .needMoreData
  else match c.stack with
  | [] => .error .illegalPropertyType
  | ct :: _ =>
    match lDelim o ct c.rest 0 with
    | .error e => .error e
    | .ok (false, r) => .ok ({ c with te := false, exp := false, rest := r }, anonTok nm nty)
    | .ok (true, r) =>
      if nty ≠ .string ∧ (o.ascii = false ∨ nty ≠ .ascii) then .error .illegalPropertyName
      else lData o { c with exp := false, rest := r } nm nty

/-- From `FindingName` on. -/
def lName (o : Opts) (c : LC) : LRes (LC × Tok) :=
  if c.rest.isEmpty then .error .needMoreData
  else match lValue o c.rest with
  | .error e => .error e
  | .ok (ty, d, r) =>
    match ty with
    | .objectEnd | .arrayEnd =>
      if c.exp && !o.superfluousComma then .error .expectedDataToken
      else .ok ({ c with te := true, rest := r }, anonTok d ty)
    | .objectStart | .arrayStart => .ok ({ c with te := false, exp := false, rest := r }, anonTok d ty)
    | _ => lDelimiter o { c with rest := r } d (getType ty d)

/-- One token, brackets not yet matched. -/
def lPop (o : Opts) (c : LC) : LRes (LC × Tok) :=
  if c.rest.isEmpty then .error .needMoreData
  else if c.te then
    match c.stack with
    | [] => lName o { c with te := false }
    | _ :: _ =>
      match lTokEnd o c.rest 0 with
      | .error e => .error e
      | .ok (comma, r) => lName o { c with te := false, exp := c.exp || comma, rest := r }
  else lName o c

/-- One call of `nextToken`. -/
def lNext (o : Opts) (c : LC) : LRes (LC × Tok) :=
  match lPop o c with
  | .error e => .error e
  | .ok (c', k) =>
    match k.valueType with
    | .objectStart => .ok ({ c' with stack := .objectStart :: c'.stack }, k)
    | .arrayStart => .ok ({ c' with stack := .arrayStart :: c'.stack }, k)
    | .objectEnd =>
      match c'.stack with
      | .objectStart :: r => .ok ({ c' with stack := r }, k)
      | _ => .error .unexpectedObjectEnd
    | .arrayEnd =>
      match c'.stack with
      | .arrayStart :: r => .ok ({ c' with stack := r }, k)
      | _ => .error .unexpectedArrayEnd
    | _ => .ok (c', k)

/-! ### Refinement -/

theorem startLoop_light (o : Opts) (s : Bytes) (k p c : Nat) (hc : c ≤ p + k) :
    match lStart o s k with
    | .error e => (startLoop o s k p c).err = e ∧ e ≠ .noError
    | .ok (ty, r) => (startLoop o s k p c).err = .noError ∧ (startLoop o s k p c).type = ty ∧ r ≠ [] ∧
        ∃ j, r = s.drop j ∧ (startLoop o s k p c).cursor + (startLoop o s k p c).ahead = p + j := by
  fun_induction lStart o s k generalizing p c with
  | case1 => simp [startLoop]
  | case2 _ cs skip ih =>
    simp only [startLoop]
    have := ih (p + 1) c (by omega)
    split at this
    · exact this
    · obtain ⟨h1, h2, h3, j, h4, h5⟩ := this
      exact ⟨h1, h2, h3, j + 1, by simpa using h4, by omega⟩
  | case3 c' cs hcm hn => simp [startLoop, hcm, skipComment_eq, hn]
  | case4 c' cs hcm k hk ih =>
    have := ih (p + 1) (p + 2 + k) (by omega)
    simp only [startLoop, hcm, if_true, skipComment_eq, hk]
    split at this
    · exact this
    · obtain ⟨h1, h2, h3, j, h4, h5⟩ := this
      exact ⟨h1, h2, h3, j + 1, by simpa using h4, by omega⟩
  | case13 c' cs h1 h2 h3 h4 h5 h6 h7 h8 h9 ih =>
    simp only [startLoop, h1, h2, h3, h4, h5, h6, h7, h8, h9, if_false]
    have := ih (p + 1) c (by omega)
    simp only [Bool.false_eq_true, if_false] at this ⊢
    split at this
    · exact this
    · obtain ⟨h1, h2, h3, j, h4, h5⟩ := this
      exact ⟨h1, h2, h3, j + 1, by simpa using h4, by omega⟩
  | _ => 
    first
    | (simp [startLoop, *]; done)
    | (simp only [startLoop, *]; refine ⟨by simp, by simp, by simp, 0, by simp, ?_⟩; simp; omega)

theorem delimLoop_light (o : Opts) (ct : Ty) (s : Bytes) (k p c : Nat) (hc : c ≤ p + k) :
    match lDelim o ct s k with
    | .error e => (delimLoop o ct s k p c).err = e ∧ e ≠ .noError
    | .ok (nm, r) => (delimLoop o ct s k p c).err = .noError ∧
        (delimLoop o ct s k p c).state = (if nm then .findingData else .findingName) ∧
        ∃ j, r = s.drop j ∧ j ≤ s.length ∧ (delimLoop o ct s k p c).cursor + (delimLoop o ct s k p c).ahead = p + j := by
  fun_induction lDelim o ct s k generalizing p c with
  | case1 => simp [delimLoop]
  | case2 _ cs skip ih =>
    simp only [delimLoop]
    have := ih (p + 1) c (by omega)
    split at this
    · exact this
    · obtain ⟨h1, h2, j, h4, h5, h6⟩ := this
      exact ⟨h1, h2, j + 1, by simpa using h4, by simpa using h5, by omega⟩
  | case3 c' cs hcm hn => simp [delimLoop, hcm, skipComment_eq, hn]
  | case4 c' cs hcm k hk ih =>
    have := ih (p + 1) (p + 2 + k) (by omega)
    simp only [delimLoop, hcm, if_true, skipComment_eq, hk]
    split at this
    · exact this
    · obtain ⟨h1, h2, j, h4, h5, h6⟩ := this
      exact ⟨h1, h2, j + 1, by simpa using h4, by simpa using h5, by omega⟩
  | case12 c' cs h1 h2 h3 h4 h5 ih =>
    simp only [delimLoop, h1, h2, h3, h4, h5, if_false]
    have := ih (p + 1) c (by omega)
    simp only [Bool.false_eq_true, if_false] at this ⊢
    split at this
    · exact this
    · obtain ⟨h1, h2, j, h4, h5, h6⟩ := this
      exact ⟨h1, h2, j + 1, by simpa using h4, by simpa using h5, by omega⟩
  | _ =>
    first
    | (simp [delimLoop, *]; done)
    | (simp only [delimLoop, *]; refine ⟨by simp, by simp, 1, by simp, by simp, ?_⟩; simp; omega)
    | (simp only [delimLoop, *]; refine ⟨by simp, by simp, 0, by simp, by simp, ?_⟩; simp; omega)

theorem tokenEndLoop_light (o : Opts) (s : Bytes) (k p c : Nat) (hc : c ≤ p + k) :
    match lTokEnd o s k with
    | .error e => (tokenEndLoop o s k p c).err = e ∧ e ≠ .noError
    | .ok (cm, r) => (tokenEndLoop o s k p c).err = .noError ∧
        (tokenEndLoop o s k p c).comma = cm ∧
        ∃ j, r = s.drop j ∧ j ≤ s.length ∧ (tokenEndLoop o s k p c).cursor + (tokenEndLoop o s k p c).ahead = p + j := by
  fun_induction lTokEnd o s k generalizing p c with
  | case1 => simp [tokenEndLoop]
  | case2 _ cs skip ih =>
    simp only [tokenEndLoop]
    have := ih (p + 1) c (by omega)
    split at this
    · exact this
    · obtain ⟨h1, h2, j, h4, h5, h6⟩ := this
      exact ⟨h1, h2, j + 1, by simpa using h4, by simpa using h5, by omega⟩
  | case3 c' cs hcm hn => simp [tokenEndLoop, hcm, skipComment_eq, hn]
  | case4 c' cs hcm k hk ih =>
    have := ih (p + 1) (p + 2 + k) (by omega)
    simp only [tokenEndLoop, hcm, if_true, skipComment_eq, hk]
    split at this
    · exact this
    · obtain ⟨h1, h2, j, h4, h5, h6⟩ := this
      exact ⟨h1, h2, j + 1, by simpa using h4, by simpa using h5, by omega⟩
  | case8 cs h1 h2 h3 h4 ih =>
    have := ih (p + 1) c (by omega)
    simp only [tokenEndLoop, *, if_false, Bool.false_eq_true, if_true] at this ⊢
    split at this
    · exact this
    · obtain ⟨h1, h2, j, h4, h5, h6⟩ := this
      exact ⟨h1, h2, j + 1, by simpa using h4, by simpa using h5, by omega⟩
  | case9 c' cs h1 h2 h3 h4 h5 ih =>
    have := ih (p + 1) c (by omega)
    simp only [tokenEndLoop, *, if_false, Bool.false_eq_true, if_true] at this ⊢
    split at this
    · exact this
    · obtain ⟨h1, h2, j, h4, h5, h6⟩ := this
      exact ⟨h1, h2, j + 1, by simpa using h4, by simpa using h5, by omega⟩
  | _ =>
    first
    | (simp [tokenEndLoop, *]; done)
    | (simp only [tokenEndLoop, *]; refine ⟨by simp, by simp, 1, by simp, by simp, ?_⟩; simp; omega)
    | (simp only [tokenEndLoop, *]; refine ⟨by simp, by simp, 0, by simp, by simp, ?_⟩; simp; omega)

theorem findStart_light (o : Opts) (buf : Bytes) (cur : Nat) :
    match lStart o (buf.drop cur) 0 with
    | .error e => (findStart o buf cur).err = e ∧ e ≠ .noError
    | .ok (ty, r) => (findStart o buf cur).err = .noError ∧ (findStart o buf cur).type = ty ∧ r ≠ [] ∧
        r = buf.drop ((findStart o buf cur).cursor + (findStart o buf cur).ahead) := by
  rw [findStart_eq]
  have := startLoop_light o (buf.drop cur) 0 cur cur (by omega)
  split at this
  · exact this
  · obtain ⟨h1, h2, h3, j, h4, h5⟩ := this
    refine ⟨h1, h2, h3, ?_⟩
    rw [h5, h4, List.drop_drop]

/-- What `populateFrom` leaves behind when it finds a value. -/
structure Found (t : Tz) (buf : Bytes) (p : PopRes) (ty : Ty) (d r : Bytes) : Prop where
  err : p.err = .noError
  type : p.type = ty
  data : slice buf p.ptr p.size = d
  rest : buf.drop p.tz.cursor = r
  cur : p.tz.cursor ≤ buf.length
  frame : ∃ c ds pt, p.tz = { t with cursor := c, dataStart := ds, propType := pt, propState := .foundEnd, isEscaped := false }

theorem populateFrom_light (t : Tz) (buf : Bytes) (ty0 : Ty) (hp : t.propState = .noStartFound)
    (he : t.isEscaped = false) :
    match lValue t.opts (buf.drop t.cursor) with
    | .error e => (t.populateFrom buf ty0).err = e ∧ e ≠ .noError
    | .ok (ty, d, r) => Found t buf (t.populateFrom buf ty0) ty d r := by
  have hs := findStart_light t.opts buf t.cursor
  unfold lValue
  generalize hl : lStart t.opts (buf.drop t.cursor) 0 = l at *
  cases l with
  | error e =>
    simp only at hs ⊢
    refine ⟨?_, hs.2⟩
    simp only [Tz.populateFrom, hp]
    rw [if_pos (by rw [hs.1]; exact hs.2)]
    exact hs.1
  | ok x =>
    obtain ⟨ty, r⟩ := x
    simp only at hs ⊢
    obtain ⟨h1, h2, h3, h4⟩ := hs
    simp only [Tz.populateFrom, hp, h1, ne_eq, not_true_eq_false, if_false, h2]
    generalize (findStart t.opts buf t.cursor).cursor + (findStart t.opts buf t.cursor).ahead = q at *
    have hq : q < buf.length := by
      by_contra hh
      rw [List.drop_eq_nil_of_le (by omega)] at h4
      exact h3 h4
    have htl : r.tail = buf.drop (q + 1) := by rw [h4, List.tail_drop]
    have hbr : ∀ ty : Ty, ty.isBracket = true → ty ≠ .string → Found t buf
        (if ty.isBracket = true then
          (⟨.noError, if ty = Ty.string then q + 1 else q, 1, ty, { t with cursor := q + 1, dataStart := if ty = Ty.string then q + 1 else q, propType := ty, propState := .foundEnd }⟩ : PopRes)
         else Tz.populateEnd { t with cursor := q + 1, dataStart := if ty = Ty.string then q + 1 else q, propType := ty, propState := .findingEnd } buf (if ty = Ty.string then q + 1 else q) ty) ty (r.take 1) r.tail := by
      intro ty hb hne
      rw [if_pos hb]
      simp only [hne, if_false]
      refine ⟨rfl, rfl, ?_, htl.symm, by simp; omega, q + 1, q, ty, ?_⟩
      · rw [h4]; rfl
      · rw [← he]
    have hst := startLoop_ty t.opts (buf.drop t.cursor) 0 t.cursor t.cursor
    rw [← findStart_eq] at hst
    replace hst := hst h1
    rw [h2] at hst
    cases ty with
    | objectStart | objectEnd | arrayStart | arrayEnd => exact hbr _ rfl (by simp)
    | string =>
      simp only [Ty.isBracket, Bool.false_eq_true, if_false, if_true, Tz.populateEnd, he, findStringEnd_eq]
      rw [htl]
      have hk := strEnd_le false (buf.drop (q + 1))
      cases hse : (strEnd false (buf.drop (q + 1))).1 with
      | none => exact ⟨rfl, by simp⟩
      | some k =>
        have hk := hk k hse
        simp only [List.length_drop] at hk
        have hsnd : (strEnd false (buf.drop (q + 1))).2 = false := by
          have h5 := strEnd_strLoop false (buf.drop (q + 1))
          have : (strEnd false (buf.drop (q + 1))).2 = true → (strEnd false (buf.drop (q + 1))).1 = none := by
            generalize buf.drop (q + 1) = s
            generalize false = e
            fun_induction strEnd e s with
            | case1 => simp
            | case2 _ _ ih => simp only [bump]; intro hh; simp [ih hh]
            | case3 _ _ ih => simp only [bump]; intro hh; simp [ih hh]
            | case4 => simp
            | case5 _ _ _ _ _ ih => simp only [bump]; intro hh; simp [ih hh]
            | case6 _ _ _ ih => simp only [bump]; intro hh; simp [ih hh]
          by_contra hcc
          rw [this (by simpa using hcc)] at hse
          simp at hse
        refine ⟨rfl, rfl, ?_, ?_, by simp; omega, q + 1 + k, q + 1, .string, by rw [hsnd]⟩
        · simp only [slice]; congr 1; omega
        · simp [List.drop_drop]
    | number =>
      simp only [Ty.isBracket, Bool.false_eq_true, if_false, Tz.populateEnd, findNumberEnd_eq, reduceCtorEq]
      rw [htl]
      cases hse : numberEnd (buf.drop (q + 1)) with
      | more => exact ⟨rfl, by simp⟩
      | found k =>
        have hk := numberEnd_le _ _ hse
        simp only [List.length_drop] at hk
        refine ⟨rfl, rfl, ?_, ?_, by simp; omega, q + 1 + k, q, .number, by rw [← he]⟩
        · simp only [slice, h4]; congr 1; omega
        · simp [List.drop_drop]
    | ascii =>
      simp only [Ty.isBracket, Bool.false_eq_true, if_false, Tz.populateEnd, findAsciiEnd_eq, reduceCtorEq]
      rw [htl]
      cases hse : asciiEnd (buf.drop (q + 1)) with
      | more => exact ⟨rfl, by simp⟩
      | found k =>
        have hk := asciiEnd_le _ _ hse
        simp only [List.length_drop] at hk
        refine ⟨rfl, rfl, ?_, ?_, by simp; omega, q + 1 + k, q, .ascii, by rw [← he]⟩
        · simp only [slice, h4]; congr 1; omega
        · simp [List.drop_drop]
    | error | bool | null | verbatim => simp [Ty.isBracket] at hst

/-- The light state of a tokenizer standing in a buffer. -/
def Tz.light (t : Tz) (buf : Bytes) : LC :=
  { te := t.tokenState == .findingTokenEnd, exp := t.expecting, stack := t.stack, rest := buf.drop t.cursor }

/-- A tokenizer that is not in the middle of a token. -/
structure Clean (t : Tz) (buf : Bytes) : Prop where
  inter : t.inter.active = false
  esc : t.isEscaped = false
  cur : t.cursor ≤ buf.length

/-- Result of `populateLoop` against the light machine. -/
def LoopRes (t : Tz) (buf : Bytes) (x : LRes (LC × Tok)) (r : Err × Tz × Option Token) : Prop :=
  match x with
  | .error e => r.1 = e ∧ e ≠ .noError ∧ r.2.2 = none
  | .ok (c', k) => ∃ t' tok, r = (.noError, t', some tok) ∧ tok.tok = k ∧ t'.light buf = c' ∧ t.frame t' ∧
      Clean t' buf ∧ (t'.tokenState = .findingName ∨ t'.tokenState = .findingTokenEnd)

theorem drop_isEmpty (buf : Bytes) (c : Nat) : (buf.drop c).isEmpty = !decide (c < buf.length) := by
  rw [Bool.eq_iff_iff]; simp [List.isEmpty_iff]

theorem loop_more (t : Tz) (buf : Bytes) (n : Nat) (tmp : Token) (h : ¬ t.cursor < buf.length) :
    LoopRes t buf (.error .needMoreData) (Tz.populateLoop n t buf tmp) := by
  cases n with
  | zero => exact ⟨rfl, by simp, rfl⟩
  | succ n => simp only [Tz.populateLoop, if_neg h]; exact ⟨rfl, by simp, rfl⟩

theorem loopRes_frame {t t' : Tz} {buf : Bytes} {x : LRes (LC × Tok)} {r : Err × Tz × Option Token}
    (hf : t.frame t') (h : LoopRes t' buf x r) : LoopRes t buf x r := by
  cases x with
  | error e => exact h
  | ok y =>
    obtain ⟨t2, tok, h1, h2, h3, h4, h5⟩ := h
    exact ⟨t2, tok, h1, h2, h3, frame_trans hf h4, h5⟩

theorem lData_light (n : Nat) (t : Tz) (buf : Bytes) (tmp : Token) (h : Clean t buf)
    (hp : t.propState = .noStartFound) (hts : t.tokenState = .findingData) :
    LoopRes t buf (lData t.opts (t.light buf) tmp.name.bytes tmp.nameType) (Tz.populateLoop (n + 1) t buf tmp) := by
  unfold lData
  by_cases hcur : t.cursor < buf.length
  swap
  · rw [if_pos (by simp [Tz.light, drop_isEmpty, hcur])]
    exact loop_more t buf _ tmp hcur
  rw [if_neg (by simp [Tz.light, drop_isEmpty]; omega)]
  simp only [Tz.populateLoop, if_pos hcur, Tz.step, hts]
  unfold Tz.stepData
  have hv := populateFrom_light t buf t.inter.dataType hp h.esc
  generalize t.populateFrom buf t.inter.dataType = p at *
  obtain ⟨pe, pptr, psz, pty, ptz⟩ := p
  change match lValue t.opts (t.light buf).rest with | .error e => _ | .ok (ty, d, r) => _ at hv
  cases hlv : lValue t.opts (t.light buf).rest with
  | error e =>
    rw [hlv] at hv
    simp only at hv ⊢
    obtain ⟨h1, h2⟩ := hv
    subst h1
    by_cases hne : pe = .needMoreData
    · simp only [hne, if_true]; exact ⟨rfl, by simp, rfl⟩
    · simp only [hne, if_false, ne_eq, h2, not_false_eq_true, if_true]; exact ⟨rfl, h2, rfl⟩
  | ok x =>
    obtain ⟨ty, d, r⟩ := x
    rw [hlv] at hv
    obtain ⟨h1, h2, h3, h4, h5, c, ds, pt, h6⟩ := hv
    simp only at h1 h2 h3 h4 h5 h6
    subst h1 h2 h6
    simp only at h4 h5
    simp only [reduceCtorEq, if_false, ne_eq, not_true_eq_false, h.inter, Bool.false_eq_true, h3]
    generalize getType pty d = gt
    by_cases hill : gt = .ascii ∧ t.opts.ascii = false
    · rw [if_pos hill, if_pos hill]; exact ⟨rfl, by simp, rfl⟩
    · rw [if_neg hill, if_neg hill]
      refine ⟨_, _, rfl, rfl, ?_, ?_, ⟨h.inter, rfl, h5⟩, ?_⟩
      · simp only [Tz.light, h4]
        cases pty <;> rfl
      · simp [Tz.frame]
      · simp only; split <;> simp

theorem lDelimiter_light (n : Nat) (t : Tz) (buf : Bytes) (tmp : Token) (h : Clean t buf)
    (hts : t.tokenState = .findingDelimiter) :
    LoopRes t buf (lDelimiter t.opts (t.light buf) tmp.name.bytes tmp.nameType)
      (Tz.populateLoop (n + 2) t buf tmp) := by
  unfold lDelimiter
  by_cases hcur : t.cursor < buf.length
  swap
  · rw [if_pos (by simp [Tz.light, drop_isEmpty, hcur])]
    exact loop_more t buf _ tmp hcur
  rw [if_neg (by simp [Tz.light, drop_isEmpty]; omega)]
  rw [Tz.populateLoop]
  simp only [if_pos hcur, Tz.step, hts]
  unfold Tz.stepDelimiter
  simp only [Tz.light]
  cases hst : t.stack with
  | nil =>
    simp only [findDelimiter, ne_eq, reduceCtorEq, not_false_eq_true, if_true]
    exact ⟨rfl, by simp, rfl⟩
  | cons ct st =>
    simp only
    have hd := delimLoop_light t.opts ct (buf.drop t.cursor) 0 t.cursor t.cursor (by omega)
    rw [← findDelimiter_eq t.opts ct st buf t.cursor] at hd
    generalize findDelimiter t.opts (ct :: st) buf t.cursor = fd at *
    obtain ⟨de, dst, dah, dcur, dcm⟩ := fd
    simp only at hd ⊢
    cases hld : lDelim t.opts ct (buf.drop t.cursor) 0 with
    | error e =>
      rw [hld] at hd
      obtain ⟨g1, g2⟩ := hd
      subst g1
      rw [if_pos g2]
      exact ⟨rfl, g2, rfl⟩
    | ok x =>
      obtain ⟨nm, r1⟩ := x
      rw [hld] at hd
      obtain ⟨g1, g2, j, g3, g4, g5⟩ := hd
      subst g1
      rw [if_neg (by simp)]
      have hj : buf.drop (dcur + dah) = r1 := by rw [g5, g3, List.drop_drop]
      have hj2 : dcur + dah ≤ buf.length := by
        rw [List.length_drop] at g4; omega
      cases nm with
      | false =>
        simp only [Bool.false_eq_true, if_false] at g2
        subst g2
        rw [if_pos rfl]
        refine ⟨_, _, rfl, rfl, ?_, ?_, ?_, Or.inl rfl⟩
        · simp [Tz.light, hj, Tz.resetForNewValue]
        · simp [Tz.frame, Tz.resetForNewValue, hst]
        · exact ⟨h.inter, h.esc, hj2⟩
      | true =>
        simp only [if_true] at g2
        subst g2
        rw [if_neg (by simp)]
        change LoopRes t buf (if tmp.nameType ≠ .string ∧ (t.opts.ascii = false ∨ tmp.nameType ≠ .ascii) then
          .error .illegalPropertyName else lData t.opts { te := t.tokenState == .findingTokenEnd, exp := false, stack := ct :: st, rest := r1 } tmp.name.bytes tmp.nameType) _
        by_cases hill : tmp.nameType ≠ Ty.string ∧ (t.opts.ascii = false ∨ tmp.nameType ≠ Ty.ascii)
        · rw [if_pos hill]
          have aux : ∀ (z : Step) t1, z = Step.ret .illegalPropertyName t1 none → LoopRes t buf (.error .illegalPropertyName)
              (match z with | .ret e t tok => (e, t, tok) | .cont t tmp => Tz.populateLoop (n + 1) t buf tmp) := by
            intro z t1 hz; subst hz; exact ⟨rfl, by simp, rfl⟩
          exact aux _ _ (if_pos hill)
        · rw [if_neg hill]
          have aux : ∀ (z : Step), z = Step.cont { t with cursor := dcur + dah, tokenState := .findingData, expecting := false, propState := .noStartFound, propType := .error, dataStart := 0 } tmp →
              LoopRes t buf (lData t.opts { te := t.tokenState == .findingTokenEnd, exp := false, stack := ct :: st, rest := r1 } tmp.name.bytes tmp.nameType)
              (match z with | .ret e t tok => (e, t, tok) | .cont t tmp => Tz.populateLoop (n + 1) t buf tmp) := by
            intro z hz; subst hz
            have := lData_light n { t with cursor := dcur + dah, tokenState := .findingData, expecting := false, propState := .noStartFound, propType := .error, dataStart := 0 } buf tmp ⟨h.inter, h.esc, hj2⟩ rfl rfl
            simp only [Tz.light, hj, hst] at this
            rw [hts]
            simp only [← hst] at this ⊢
            exact loopRes_frame (by simp [Tz.frame]) this
          exact aux _ ((if_neg hill).trans (by rw [← hst]; rfl))

theorem lName_light (n : Nat) (t : Tz) (buf : Bytes) (h : Clean t buf)
    (hp : t.propState = .noStartFound) (hts : t.tokenState = .findingName) :
    LoopRes t buf (lName t.opts (t.light buf)) (Tz.populateLoop (n + 3) t buf {}) := by
  unfold lName
  by_cases hcur : t.cursor < buf.length
  swap
  · rw [if_pos (by simp [Tz.light, drop_isEmpty, hcur])]
    exact loop_more t buf _ _ hcur
  rw [if_neg (by simp [Tz.light, drop_isEmpty]; omega)]
  rw [Tz.populateLoop]
  simp only [if_pos hcur, Tz.step, hts]
  unfold Tz.stepName
  have hv := populateFrom_light t buf t.inter.nameType hp h.esc
  generalize t.populateFrom buf t.inter.nameType = p at *
  obtain ⟨pe, pptr, psz, pty, ptz⟩ := p
  change match lValue t.opts (t.light buf).rest with | .error e => _ | .ok (ty, d, r) => _ at hv
  cases hlv : lValue t.opts (t.light buf).rest with
  | error e =>
    rw [hlv] at hv
    simp only at hv ⊢
    obtain ⟨h1, h2⟩ := hv
    subst h1
    by_cases hne : pe = .needMoreData
    · subst hne
      by_cases hps : ptz.propState = .noStartFound <;> simp only [hps, ne_eq, not_true_eq_false, not_false_eq_true, if_true, if_false] <;>
        exact ⟨rfl, by simp, rfl⟩
    · simp only [hne, if_false, ne_eq, h2, not_false_eq_true, if_true]; exact ⟨rfl, h2, rfl⟩
  | ok x =>
    obtain ⟨ty, d, r⟩ := x
    rw [hlv] at hv
    obtain ⟨h1, h2, h3, h4, h5, c, ds, pt, h6⟩ := hv
    simp only at h1 h2 h3 h4 h5 h6
    subst h1 h2 h6
    simp only at h4 h5
    simp only [reduceCtorEq, if_false, ne_eq, not_true_eq_false, h.inter, Bool.false_eq_true, h3]
    have hgen : ∀ ty : Ty, LoopRes t buf (lDelimiter t.opts { t.light buf with rest := r } d (getType ty d))
        (Tz.populateLoop (n + 2) (Tz.resetForNewValue { t with cursor := c, dataStart := ds, propType := pt, propState := .foundEnd, isEscaped := false, tokenState := .findingDelimiter }) buf
          { ({} : Token) with name := { loc := .input pptr, bytes := d }, nameType := getType ty d }) := by
      intro ty
      have := lDelimiter_light n (Tz.resetForNewValue { t with cursor := c, dataStart := ds, propType := pt, propState := .foundEnd, isEscaped := false, tokenState := .findingDelimiter }) buf
        { ({} : Token) with name := { loc := .input pptr, bytes := d }, nameType := getType ty d } ⟨h.inter, rfl, h5⟩ rfl
      simp only [Tz.light, Tz.resetForNewValue, h4, hts] at this ⊢
      generalize Tz.populateLoop _ _ _ _ = res at *
      revert this
      change LoopRes _ buf (lDelimiter t.opts { te := false, exp := t.expecting, stack := t.stack, rest := r } _ _) res →
        LoopRes t buf (lDelimiter t.opts { te := false, exp := t.expecting, stack := t.stack, rest := r } _ _) res
      generalize lDelimiter t.opts _ _ _ = y
      cases y <;> exact id
    cases pty with
    | objectEnd | arrayEnd =>
      simp only
      by_cases hill : (t.expecting && !t.opts.superfluousComma) = true
      · rw [if_pos hill, if_pos (by exact hill)]; exact ⟨rfl, by simp, rfl⟩
      · rw [if_neg hill, if_neg (by exact hill)]
        refine ⟨_, _, rfl, rfl, ?_, ?_, ⟨h.inter, rfl, h5⟩, Or.inr rfl⟩
        · simp [Tz.light, h4]
        · simp [Tz.frame]
    | objectStart | arrayStart =>
      simp only
      refine ⟨_, _, rfl, rfl, ?_, ?_, ⟨h.inter, rfl, h5⟩, Or.inl rfl⟩
      · simp [Tz.light, h4]
      · simp [Tz.frame]
    | error | string | ascii | number | bool | null | verbatim => exact hgen _

theorem lPop_light (t : Tz) (buf : Bytes) (h : Clean t buf) (hp : t.propState = .noStartFound)
    (hts : t.tokenState = .findingName ∨ t.tokenState = .findingTokenEnd) :
    LoopRes t buf (lPop t.opts (t.light buf)) (t.populateNext buf) := by
  unfold lPop Tz.populateNext
  by_cases hcur : t.cursor < buf.length
  swap
  · rw [if_pos (by simp [Tz.light, drop_isEmpty, hcur])]
    exact loop_more t buf _ _ hcur
  rw [if_neg (by simp [Tz.light, drop_isEmpty]; omega)]
  rcases hts with hts | hts
  · rw [if_neg (by simp [Tz.light, hts])]
    exact lName_light 1 t buf h hp hts
  · rw [if_pos (by simp [Tz.light, hts])]
    rw [Tz.populateLoop]
    simp only [if_pos hcur, Tz.step, hts]
    unfold Tz.stepTokenEnd
    simp only [show (t.light buf).stack = t.stack from rfl]
    cases hst : t.stack with
    | nil =>
      simp only [findTokenEnd, ne_eq, not_true_eq_false, if_false]
      have := lName_light 0 { t with cursor := t.cursor + 0, expecting := t.expecting || false, tokenState := .findingName } buf ⟨h.inter, h.esc, h.cur⟩ hp rfl
      refine loopRes_frame (t' := { t with cursor := t.cursor + 0, expecting := t.expecting || false, tokenState := .findingName }) (by simp [Tz.frame]) ?_
      simp only [Tz.light, Bool.or_false, Nat.add_zero, hst] at this ⊢
      exact this
    | cons ct st =>
      simp only
      have hd := tokenEndLoop_light t.opts (buf.drop t.cursor) 0 t.cursor t.cursor (by omega)
      rw [← findTokenEnd_eq t.opts ct st buf t.cursor] at hd
      generalize findTokenEnd t.opts (ct :: st) buf t.cursor = fd at *
      obtain ⟨de, dst, dah, dcur, dcm⟩ := fd
      simp only [show (t.light buf).rest = buf.drop t.cursor from rfl] at hd ⊢
      cases hld : lTokEnd t.opts (buf.drop t.cursor) 0 with
      | error e =>
        rw [hld] at hd
        obtain ⟨g1, g2⟩ := hd
        subst g1
        rw [if_pos g2]
        exact ⟨rfl, g2, rfl⟩
      | ok x =>
        obtain ⟨cm, r1⟩ := x
        rw [hld] at hd
        obtain ⟨g1, g2, j, g3, g4, g5⟩ := hd
        subst g1 g2
        rw [if_neg (by simp)]
        have hj : buf.drop (dcur + dah) = r1 := by rw [g5, g3, List.drop_drop]
        have hj2 : dcur + dah ≤ buf.length := by
          rw [List.length_drop] at g4; omega
        have := lName_light 0 { t with cursor := dcur + dah, expecting := t.expecting || dcm, tokenState := .findingName } buf ⟨h.inter, h.esc, hj2⟩ hp rfl
        refine loopRes_frame (t' := { t with cursor := dcur + dah, expecting := t.expecting || dcm, tokenState := .findingName }) (by simp [Tz.frame]) ?_
        simp only [Tz.light, hj, hst] at this ⊢
        exact this

/-- A tokenizer between two calls, standing in its only buffer. -/
structure Good (t : Tz) (buf : Bytes) : Prop where
  bufs : t.bufs = [buf]
  pending : t.pending = []
  clean : Clean t buf
  cont : t.continueAfter = true → t.resetForNewToken = t
  parsed : t.parsed = none
  state : t.tokenState = .findingName ∨ t.tokenState = .findingTokenEnd

/-- Fields a call on one buffer leaves alone. -/
def Tz.keeps (t t' : Tz) : Prop :=
  t'.opts = t.opts ∧ t'.released = t.released ∧ t'.copies = t.copies

/-- One call on the only buffer. -/
theorem nextToken_one (t : Tz) (buf : Bytes) (next : Token) (h : Good t buf)
    (hs : ∀ s r, t.scopes = s :: r → s.depth ≠ 0) : t.nextToken next = (
    let r := t.resetForNewToken.populateNext buf
    if r.1 = .needMoreData then (.needMoreData, { r.2.1.releaseFirst.requestMoreData with continueAfter := true }, next)
    else
      let t := { r.2.1 with continueAfter := r.1 == .needMoreData }
      match r.2.2 with
      | none => (r.1, t, next)
      | some tok => ((t.finish tok).1, (t.finish tok).2, tok)) := by
  unfold Tz.nextToken
  split
  · rename_i s r hh; exact absurd rfl (hs _ _ hh)
  · have hrs : (if t.continueAfter = true then t else t.resetForNewToken) = t.resetForNewToken := by
      split
      · exact (h.cont ‹_›).symm
      · rfl
    simp only [h.parsed, h.bufs, reduceCtorEq, if_false, hrs]
    have hsup : t.resetForNewToken.supply = 1 := by
      simp [Tz.supply, Tz.resetForNewToken, Tz.resetForNewValue, h.bufs, h.pending]
    rw [hsup]
    simp only [Tz.pump, show t.resetForNewToken.bufs = [buf] from h.bufs]
    by_cases he : (t.resetForNewToken.populateNext buf).1 = .needMoreData
    · simp only [if_pos he]; rfl
    · simp only [if_neg he]; rfl

/-- `nextToken` in a good state computes `lNext`. -/
theorem nextToken_light (t : Tz) (buf : Bytes) (next : Token) (h : Good t buf)
    (hs : ∀ s r, t.scopes = s :: r → s.depth ≠ 0) :
    match lNext t.opts (t.light buf) with
    | .error e => (t.nextToken next).1 = e ∧ e ≠ .noError
    | .ok (c', k) => ∃ t' tok, t.nextToken next = (.noError, t', tok) ∧ tok.tok = k ∧ Good t' buf ∧
        t'.light buf = c' ∧ t'.scopes = handleScope t.scopes k.valueType ∧ t.keeps t' := by
  have hnx := nextToken_one t buf next h hs
  have hcl : Clean t.resetForNewToken buf := by
    refine ⟨?_, h.clean.esc, h.clean.cur⟩
    simp [Tz.resetForNewToken, Tz.resetForNewValue, Inter.clear, h.clean.inter]
  have hl := lPop_light t.resetForNewToken buf hcl rfl h.state
  rw [show t.resetForNewToken.opts = t.opts from rfl,
    show t.resetForNewToken.light buf = t.light buf from rfl] at hl
  rw [hnx]
  unfold lNext
  generalize t.resetForNewToken.populateNext buf = r at *
  cases hp : lPop t.opts (t.light buf) with
  | error e =>
    rw [hp] at hl
    obtain ⟨h1, h2, h3⟩ := hl
    simp only
    refine ⟨?_, h2⟩
    split
    · rename_i he; simp only; rw [← h1, he]
    · rw [h3]; exact h1
  | ok x =>
    obtain ⟨c', k⟩ := x
    rw [hp] at hl
    obtain ⟨t', tok, h1, h2, h3, h4, h5, h6⟩ := hl
    subst h1
    simp only [reduceCtorEq, if_false]
    obtain ⟨f1, f2, f3, f4, f5, f6, f7, f8, f9⟩ := h4
    simp only [Tz.resetForNewToken, Tz.resetForNewValue] at f1 f2 f3 f4 f5 f6 f7 f8 f9
    have hkv : k.valueType = tok.valueType := by rw [← h2]; rfl
    rw [hkv]
    have hgood : ∀ (st : List Ty) (sc : List Scope),
        Good { t' with continueAfter := (Err.noError == Err.needMoreData), stack := st, scopes := sc } buf := by
      intro st sc
      exact ⟨by rw [← h.bufs, ← f2], by rw [← h.pending, ← f3], ⟨h5.inter, h5.esc, h5.cur⟩, by simp, by rw [← h.parsed, ← f8], h6⟩
    have hkeep : ∀ (st : List Ty) (sc : List Scope),
        t.keeps { t' with continueAfter := (Err.noError == Err.needMoreData), stack := st, scopes := sc } := by
      intro st sc; exact ⟨f1, f6, f7⟩
    have hstk : c'.stack = t'.stack := by rw [← h3]; rfl
    unfold Tz.finish
    cases hv : tok.valueType <;> simp only [reduceCtorEq, or_false, if_false, if_true, or_true]
    case objectStart | arrayStart =>
      refine ⟨_, _, rfl, h2, hgood _ _, ?_, ?_, hkeep _ _⟩
      · rw [← h3]; rfl
      · simp only [f4, hkv, hv]
    case objectEnd =>
      rw [hstk]
      cases hst : t'.stack with
      | nil => exact ⟨rfl, by simp⟩
      | cons a r =>
        cases a <;> simp only <;> first
          | exact ⟨trivial, by simp⟩
          | (refine ⟨_, _, rfl, h2, hgood _ _, ?_, ?_, hkeep _ _⟩
             · rw [← h3]; rfl
             · simp only [f4, hkv, hv])
    case arrayEnd =>
      rw [hstk]
      cases hst : t'.stack with
      | nil => exact ⟨rfl, by simp⟩
      | cons a r =>
        cases a <;> simp only <;> first
          | exact ⟨trivial, by simp⟩
          | (refine ⟨_, _, rfl, h2, hgood _ _, ?_, ?_, hkeep _ _⟩
             · rw [← h3]; rfl
             · simp only [f4, hkv, hv])
    all_goals
      refine ⟨_, _, rfl, h2, hgood _ _, ?_, ?_, hkeep _ _⟩
      · rw [← h3]; rfl
      · simp only [f4, hkv, hv]

end JsonStruct
