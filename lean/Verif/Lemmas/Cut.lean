import Verif.Lemmas.Doc
import Verif.Spec.Cut

/- The light machine of `Lemmas/Light`, made to stop at the end of a buffer and to go on in the
next one. -/

namespace JsonStruct

set_option linter.unusedSimpArgs false

/-! ### The scanners on a text in two parts -/

theorem strEnd_append (e : Bool) (a b : Bytes) : strEnd e (a ++ b) =
    match strEnd e a with
    | (some k, e') => (some k, e')
    | (none, e') => bump a.length (strEnd e' b) := by
  fun_induction strEnd e a with
  | case1 e => simp [bump]
  | case2 c cs ih =>
    simp only [List.cons_append, strEnd, ih]
    rcases strEnd false cs with ⟨_ | k, e'⟩ <;> simp [bump, Function.comp_def, Nat.add_assoc, Nat.add_comm]
  | case3 cs h ih =>
    simp only [List.cons_append, strEnd, ih, h, if_true]
    rcases strEnd true cs with ⟨_ | k, e'⟩ <;> simp [bump, Function.comp_def, Nat.add_assoc, Nat.add_comm]
  | case4 cs h h' =>
    simp only [List.cons_append, strEnd, h, if_true]
    rfl
  | case5 c cs h h1 h2 ih =>
    simp only [List.cons_append, strEnd, ih, h, h1, h2, if_true, if_false]
    rcases strEnd false cs with ⟨_ | k, e'⟩ <;> simp [bump, Function.comp_def, Nat.add_assoc, Nat.add_comm]
  | case6 c cs h ih =>
    simp only [List.cons_append, strEnd, ih, h, if_true, if_false]
    rcases strEnd false cs with ⟨_ | k, e'⟩ <;> simp [bump, Function.comp_def, Nat.add_assoc, Nat.add_comm]

/-- `found`, shifted. -/
def EndRes.bump (k : Nat) : EndRes → EndRes
  | .found i => .found (k + i)
  | .more => .more

theorem numberEnd_append (a b : Bytes) : numberEnd (a ++ b) =
    match numberEnd a with
    | .found k => .found k
    | .more => (numberEnd b).bump a.length := by
  unfold numberEnd
  rw [List.findIdx_append]
  by_cases h : a.findIdx numberStop < a.length
  · simp only [h, if_true, List.length_append]
    rw [if_pos (by omega)]
  · simp only [h, if_false, List.length_append]
    by_cases h' : b.findIdx numberStop < b.length
    · simp only [h', if_true, EndRes.bump]
      rw [if_pos (by omega), Nat.add_comm]
    · simp only [h', if_false, EndRes.bump]
      rw [if_neg (by omega)]

theorem asciiEndFrom_append (k : Nat) (a b : Bytes) (h0 : 0 ∉ a) : asciiEndFrom k (a ++ b) =
    match asciiEndFrom k a with
    | .found i => .found i
    | .more => asciiEndFrom (k + a.length) b := by
  induction a generalizing k with
  | nil => simp [asciiEndFrom]
  | cons c cs ih =>
    have h1 : c ≠ 0 := fun h => h0 (by simp [h])
    have h2 : 0 ∉ cs := fun h => h0 (by simp [h])
    simp only [List.cons_append, asciiEndFrom, h1, if_false, ih _ h2, List.length_cons]
    have e : k + 1 + cs.length = k + (cs.length + 1) := by omega
    rw [e]
    split
    · split <;> rfl
    · rfl

theorem asciiEndFrom_bump (k : Nat) (s : Bytes) : asciiEndFrom k s = (asciiEnd s).bump k := by
  unfold asciiEnd
  have : ∀ j, asciiEndFrom (k + j) s = (asciiEndFrom j s).bump k := by
    induction s with
    | nil => intro j; rfl
    | cons c cs ih =>
      intro j
      simp only [asciiEndFrom, show k + j + 1 = k + (j + 1) by omega, ih]
      split
      · split
        · rfl
        · split <;> rfl
      · rfl
  exact this 0

theorem asciiEnd_append (a b : Bytes) (h0 : 0 ∉ a) : asciiEnd (a ++ b) =
    match asciiEnd a with
    | .found k => .found k
    | .more => (asciiEnd b).bump a.length := by
  unfold asciiEnd
  rw [asciiEndFrom_append 0 a b h0]
  split
  · rfl
  · rw [Nat.zero_add, asciiEndFrom_bump]; rfl

/-- The text `a` can be read in parts: the part `a` is not left within a comment. -/
def StartOk (o : Opts) (a : Bytes) : Prop := ∀ b, lStart o (a ++ b) 0 =
  match lStart o a 0 with
  | .ok (ty, r) => .ok (ty, r ++ b)
  | .error .needMoreData => lStart o b 0
  | .error e => .error e

def DelimOk (o : Opts) (ct : Ty) (a : Bytes) : Prop := ∀ b, lDelim o ct (a ++ b) 0 =
  match lDelim o ct a 0 with
  | .ok (n, r) => .ok (n, r ++ b)
  | .error .needMoreData => lDelim o ct b 0
  | .error e => .error e

def TokEndOk (o : Opts) (a : Bytes) : Prop := ∀ b, lTokEnd o (a ++ b) 0 =
  match lTokEnd o a 0 with
  | .ok (n, r) => .ok (n, r ++ b)
  | .error .needMoreData => lTokEnd o b 0
  | .error e => .error e

theorem commentEnd_append {nl : Bool} {a : Bytes} {k : Nat} (h : commentEnd nl a = some k) (b : Bytes) :
    commentEnd nl (a ++ b) = some k ∧ k ≤ a.length := by
  unfold commentEnd at *
  simp only at *
  split at h
  · rename_i hi
    rw [List.findIdx_append, if_pos hi, if_pos (by rw [List.length_append]; omega)]
    refine ⟨h, ?_⟩
    simp only [Option.some.injEq] at h
    subst h
    split <;> omega
  · simp at h

theorem slash_facts : SLASH ≠ QUOTE ∧ SLASH ≠ LBRACE ∧ SLASH ≠ RBRACE ∧ SLASH ≠ LBRACK ∧ SLASH ≠ RBRACK ∧ SLASH ≠ COLON ∧
    SLASH ≠ COMMA ∧ SLASH ≠ LF ∧ has SLASH (flPlusMinus ||| flDigits) = false ∧ has SLASH flAscii = false ∧ lookup SLASH ≠ 0 ∧
    has SLASH flWs = false := by decide +kernel

theorem lStart_more {o : Opts} {a : Bytes} {k : Nat} {ty : Ty} {r : Bytes} (h : lStart o a k = .ok (ty, r)) (b : Bytes) :
    lStart o (a ++ b) k = .ok (ty, r ++ b) := by
  induction a generalizing k with
  | nil => simp [lStart] at h
  | cons c cs ih =>
    cases k with
    | succ k => rw [lStart] at h; rw [List.cons_append, lStart]; exact ih h
    | zero =>
      simp only [lStart] at h
      simp only [List.cons_append, lStart]
      rcases cs with _ | ⟨d, cs⟩
      · have hz : (o.comments && c == SLASH && ([] : Bytes).head? == some SLASH) = false := by
          cases o.comments <;> cases c == SLASH <;> rfl
        simp only [hz, Bool.false_eq_true, if_false] at h
        have hc : c ≠ SLASH := by rintro rfl; obtain ⟨f1, f2, f3, f4, f5, f6, f7, f8, f9, f10, f11, f12⟩ := slash_facts; simp [f1, f2, f3, f4, f5, f6, f7, f8, f9, f10, f11, f12, lStart, lDelim, lTokEnd] at h
        have hc' : (c == SLASH) = false := by simpa using hc
        simp only [hc', Bool.and_false, Bool.false_and, Bool.false_eq_true, if_false]
        revert h
        repeat' split
        all_goals intro h
        all_goals first | (simp at h; done) | skip
        all_goals first
          | (simp only [Except.ok.injEq, Prod.mk.injEq] at h; obtain ⟨rfl, rfl⟩ := h; rfl)
          | (simp [lStart] at h; done)
      · by_cases hc : (o.comments && c == SLASH && (d :: cs).head? == some SLASH) = true
        · rw [if_pos hc] at h
          rw [if_pos (by exact hc)]
          simp only [List.tail_cons, List.cons_append] at h ⊢
          rcases hk : commentEnd o.newLines cs with _ | k
          · rw [hk] at h; simp at h
          · rw [hk] at h
            rw [(commentEnd_append hk b).1]
            exact ih h
        · rw [if_neg hc] at h
          rw [if_neg (by exact hc)]
          revert h
          repeat' split
          all_goals intro h
          all_goals first | (simp at h; done) | skip
          all_goals first
            | (simp only [Except.ok.injEq, Prod.mk.injEq] at h; obtain ⟨rfl, rfl⟩ := h; rfl)
            | exact ih h

theorem startOk_ok {o : Opts} {a : Bytes} {ty : Ty} {r : Bytes} (h : lStart o a 0 = .ok (ty, r)) : StartOk o a := by
  intro b; rw [h]; exact lStart_more h b

theorem lDelim_more {o : Opts} {ct : Ty} {a : Bytes} {k : Nat} {n : Bool} {r : Bytes} (h : lDelim o ct a k = .ok (n, r)) (b : Bytes) :
    lDelim o ct (a ++ b) k = .ok (n, r ++ b) := by
  induction a generalizing k with
  | nil => simp [lDelim] at h
  | cons c cs ih =>
    cases k with
    | succ k => rw [lDelim] at h; rw [List.cons_append, lDelim]; exact ih h
    | zero =>
      simp only [lDelim] at h
      simp only [List.cons_append, lDelim]
      rcases cs with _ | ⟨d, cs⟩
      · have hz : (o.comments && c == SLASH && ([] : Bytes).head? == some SLASH) = false := by
          cases o.comments <;> cases c == SLASH <;> rfl
        simp only [hz, Bool.false_eq_true, if_false] at h
        have hc : c ≠ SLASH := by
          rintro rfl; obtain ⟨f1, f2, f3, f4, f5, f6, f7, f8, f9, f10, f11, f12⟩ := slash_facts; simp [f1, f2, f3, f4, f5, f6, f7, f8, f9, f10, f11, f12, lStart, lDelim, lTokEnd] at h
        have hc' : (c == SLASH) = false := by simpa using hc
        simp only [hc', Bool.and_false, Bool.false_and, Bool.false_eq_true, if_false]
        revert h
        repeat' split
        all_goals intro h
        all_goals first | (simp at h; done) | skip
        all_goals first
          | (simp only [Except.ok.injEq, Prod.mk.injEq] at h; obtain ⟨rfl, rfl⟩ := h; rfl)
          | (simp [lDelim] at h; done)
      · by_cases hc : (o.comments && c == SLASH && (d :: cs).head? == some SLASH) = true
        · rw [if_pos hc] at h
          rw [if_pos (by exact hc)]
          simp only [List.tail_cons, List.cons_append] at h ⊢
          rcases hk : commentEnd o.newLines cs with _ | k
          · rw [hk] at h; simp at h
          · rw [hk] at h
            rw [(commentEnd_append hk b).1]
            exact ih h
        · rw [if_neg hc] at h
          rw [if_neg (by exact hc)]
          revert h
          repeat' split
          all_goals intro h
          all_goals first | (simp at h; done) | skip
          all_goals first
            | (simp only [Except.ok.injEq, Prod.mk.injEq] at h; obtain ⟨rfl, rfl⟩ := h; rfl)
            | exact ih h

theorem delimOk_ok {o : Opts} {ct : Ty} {a : Bytes} {n : Bool} {r : Bytes} (h : lDelim o ct a 0 = .ok (n, r)) : DelimOk o ct a := by
  intro b; rw [h]; exact lDelim_more h b

theorem lTokEnd_more {o : Opts} {a : Bytes} {k : Nat} {n : Bool} {r : Bytes} (h : lTokEnd o a k = .ok (n, r)) (b : Bytes) :
    lTokEnd o (a ++ b) k = .ok (n, r ++ b) := by
  induction a generalizing k with
  | nil => simp [lTokEnd] at h
  | cons c cs ih =>
    cases k with
    | succ k => rw [lTokEnd] at h; rw [List.cons_append, lTokEnd]; exact ih h
    | zero =>
      simp only [lTokEnd] at h
      simp only [List.cons_append, lTokEnd]
      rcases cs with _ | ⟨d, cs⟩
      · have hz : (o.comments && c == SLASH && ([] : Bytes).head? == some SLASH) = false := by
          cases o.comments <;> cases c == SLASH <;> rfl
        simp only [hz, Bool.false_eq_true, if_false] at h
        have hc : c ≠ SLASH := by
          rintro rfl; obtain ⟨f1, f2, f3, f4, f5, f6, f7, f8, f9, f10, f11, f12⟩ := slash_facts; simp [f1, f2, f3, f4, f5, f6, f7, f8, f9, f10, f11, f12, lStart, lDelim, lTokEnd] at h
        have hc' : (c == SLASH) = false := by simpa using hc
        simp only [hc', Bool.and_false, Bool.false_and, Bool.false_eq_true, if_false]
        revert h
        repeat' split
        all_goals intro h
        all_goals first | (simp at h; done) | skip
        all_goals first
          | (simp only [Except.ok.injEq, Prod.mk.injEq] at h; obtain ⟨rfl, rfl⟩ := h; rfl)
          | (simp [lTokEnd] at h; done)
      · by_cases hc : (o.comments && c == SLASH && (d :: cs).head? == some SLASH) = true
        · rw [if_pos hc] at h
          rw [if_pos (by exact hc)]
          simp only [List.tail_cons, List.cons_append] at h ⊢
          rcases hk : commentEnd o.newLines cs with _ | k
          · rw [hk] at h; simp at h
          · rw [hk] at h
            rw [(commentEnd_append hk b).1]
            exact ih h
        · rw [if_neg hc] at h
          rw [if_neg (by exact hc)]
          revert h
          repeat' split
          all_goals intro h
          all_goals first | (simp at h; done) | skip
          all_goals first
            | (simp only [Except.ok.injEq, Prod.mk.injEq] at h; obtain ⟨rfl, rfl⟩ := h; rfl)
            | exact ih h

theorem tokEndOk_ok {o : Opts} {a : Bytes} {n : Bool} {r : Bytes} (h : lTokEnd o a 0 = .ok (n, r)) : TokEndOk o a := by
  intro b; rw [h]; exact lTokEnd_more h b

/-! ### Stopping and going on -/

/-- What is known of the containers while a token is being read. -/
structure LX where
  exp : Bool
  stack : List Ty
  deriving DecidableEq, Repr

/-- The machine at the end of a buffer. `saved`: the name is in the intermediate token. -/
inductive Susp
  | tokEnd (x : LX)
  | name (x : LX)
  | inName (x : LX) (ty : Ty) (acc : Bytes) (esc : Bool)
  | delim (x : LX) (nm : Bytes) (nty : Ty) (saved : Bool)
  | data (x : LX) (nm : Bytes) (nty : Ty) (saved : Bool)
  | inData (x : LX) (nm : Bytes) (nty : Ty) (ty : Ty) (acc : Bytes) (esc : Bool)
  deriving DecidableEq, Repr

inductive SRes
  | done (c : LC) (k : Tok)
  | err (e : Err)
  | more (s : Susp)
  deriving DecidableEq, Repr

/-- How many bytes belong to a value begun earlier, and how many to pass over; or the
escape flag at the end of the buffer. -/
def valEnd (ty : Ty) (esc : Bool) (s : Bytes) : (Nat × Nat) ⊕ Bool :=
  match ty with
  | .string =>
    match strEnd esc s with
    | (some k, _) => .inl (k - 1, k)
    | (none, e) => .inr e
  | .number => match numberEnd s with | .found k => .inl (k, k) | .more => .inr false
  | _ => match asciiEnd s with | .found k => .inl (k, k) | .more => .inr false

/-- A value begins: the byte that already belongs to it. -/
def lead (ty : Ty) (r : Bytes) : Bytes := if ty = .string then [] else r.take 1

def dataDone (o : Opts) (x : LX) (nm : Bytes) (nty ty : Ty) (d r : Bytes) : SRes :=
  if getType ty d = .ascii ∧ o.ascii = false then .err .illegalDataValue
  else .done ⟨!(ty == .objectStart || ty == .arrayStart), x.exp, x.stack, r⟩ ⟨nm, nty, d, getType ty d⟩

def sDataEnd (o : Opts) (x : LX) (nm : Bytes) (nty ty : Ty) (acc : Bytes) (esc : Bool) (s : Bytes) : SRes :=
  match valEnd ty esc s with
  | .inr e => .more (.inData x nm nty ty (acc ++ s) e)
  | .inl (k, j) => dataDone o x nm nty ty (acc ++ s.take k) (s.drop j)

def sData (o : Opts) (x : LX) (nm : Bytes) (nty : Ty) (saved : Bool) (s : Bytes) : SRes :=
  if s.isEmpty then .more (.data x nm nty saved)
  else match lStart o s 0 with
    | .error .needMoreData => .more (.data x nm nty true)
    | .error e => .err e
    | .ok (ty, r) =>
      if ty.isBracket then dataDone o x nm nty ty (r.take 1) r.tail
      else sDataEnd o x nm nty ty (lead ty r) false r.tail

def sDelim (o : Opts) (x : LX) (nm : Bytes) (nty : Ty) (saved : Bool) (s : Bytes) : SRes :=
  if s.isEmpty then .more (.delim x nm nty saved)
  else match x.stack with
    | [] => .err .illegalPropertyType
    | ct :: _ =>
      match lDelim o ct s 0 with
      | .error .needMoreData => .more (.delim x nm nty true)
      | .error e => .err e
      | .ok (false, r) => .done ⟨false, false, x.stack, r⟩ (anonTok nm nty)
      | .ok (true, r) =>
        if nty ≠ .string ∧ (o.ascii = false ∨ nty ≠ .ascii) then .err .illegalPropertyName
        else sData o { x with exp := false } nm nty saved r

def sNameEnd (o : Opts) (x : LX) (ty : Ty) (acc : Bytes) (esc : Bool) (saved : Bool) (s : Bytes) : SRes :=
  match valEnd ty esc s with
  | .inr e => .more (.inName x ty (acc ++ s) e)
  | .inl (k, j) => sDelim o x (acc ++ s.take k) (getType ty (acc ++ s.take k)) saved (s.drop j)

def sName (o : Opts) (x : LX) (s : Bytes) : SRes :=
  if s.isEmpty then .more (.name x)
  else match lStart o s 0 with
    | .error .needMoreData => .more (.name x)
    | .error e => .err e
    | .ok (ty, r) =>
      match ty with
      | .objectEnd | .arrayEnd =>
        if x.exp && !o.superfluousComma then .err .expectedDataToken
        else .done ⟨true, x.exp, x.stack, r.tail⟩ (anonTok (r.take 1) ty)
      | .objectStart | .arrayStart => .done ⟨false, false, x.stack, r.tail⟩ (anonTok (r.take 1) ty)
      | ty => sNameEnd o x ty (lead ty r) false false r.tail

def sTokEnd (o : Opts) (x : LX) (s : Bytes) : SRes :=
  if s.isEmpty then .more (.tokEnd x)
  else match x.stack with
    | [] => sName o x s
    | _ :: _ =>
      match lTokEnd o s 0 with
      | .error .needMoreData => .more (.tokEnd x)
      | .error e => .err e
      | .ok (comma, r) => sName o { x with exp := x.exp || comma } r

/-- Go on in the next buffer. -/
def Susp.resume (o : Opts) : Susp → Bytes → SRes
  | .tokEnd x, s => sTokEnd o x s
  | .name x, s => sName o x s
  | .inName x ty acc esc, s => sNameEnd o x ty acc esc true s
  | .delim x nm nty saved, s => sDelim o x nm nty saved s
  | .data x nm nty saved, s => sData o x nm nty saved s
  | .inData x nm nty ty acc esc, s => sDataEnd o x nm nty ty acc esc s

/-- The end of the buffer as the error it is for a single buffer. -/
def SRes.toL : SRes → LRes (LC × Tok)
  | .done c k => .ok (c, k)
  | .err e => .error e
  | .more _ => .error .needMoreData

def LC.lx (c : LC) : LX := ⟨c.exp, c.stack⟩

/-- At the beginning of a call. -/
def LC.susp (c : LC) : Susp := if c.te then .tokEnd c.lx else .name c.lx

/-! ### One buffer -/

theorem lStart_ok {o : Opts} {s : Bytes} {k : Nat} {ty : Ty} {r : Bytes} (h : lStart o s k = .ok (ty, r)) :
    r ≠ [] ∧ (ty.isBracket = true ∨ ty = .string ∨ ty = .number ∨ ty = .ascii) := by
  fun_induction lStart o s k <;> simp_all
  all_goals (obtain ⟨h1, h2⟩ := h; subst h1 h2; simp [Ty.isBracket])

/-- A value, in the terms of the machine that can stop. -/
theorem lValue_s (o : Opts) (s : Bytes) : lValue o s =
    match lStart o s 0 with
    | .error e => .error e
    | .ok (ty, r) =>
      if ty.isBracket then .ok (ty, r.take 1, r.tail)
      else match valEnd ty false r.tail with
        | .inr _ => .error .needMoreData
        | .inl (k, j) => .ok (ty, lead ty r ++ r.tail.take k, r.tail.drop j) := by
  unfold lValue
  cases hs : lStart o s 0 with
  | error e => rfl
  | ok y =>
    obtain ⟨ty, r⟩ := y
    obtain ⟨h1, h2⟩ := lStart_ok hs
    obtain ⟨c, r, rfl⟩ := List.exists_cons_of_ne_nil h1
    rcases h2 with h2 | rfl | rfl | rfl
    · simp only [h2, if_true]
      cases ty <;> simp_all [Ty.isBracket]
    · simp only [Ty.isBracket, valEnd, lead, List.tail_cons, Bool.false_eq_true, if_false, if_true]
      rcases strEnd false r with ⟨_ | k, e⟩ <;> simp
    · simp only [Ty.isBracket, valEnd, lead, List.tail_cons, Bool.false_eq_true, if_false, reduceCtorEq]
      cases numberEnd r <;> simp
    · simp only [Ty.isBracket, valEnd, lead, List.tail_cons, Bool.false_eq_true, if_false, reduceCtorEq]
      cases asciiEnd r <;> simp

theorem sData_toL (o : Opts) (x : LX) (nm : Bytes) (nty : Ty) (sv : Bool) (s : Bytes) (te : Bool) :
    (sData o x nm nty sv s).toL = lData o ⟨te, x.exp, x.stack, s⟩ nm nty := by
  unfold sData lData
  simp only [lValue_s]
  by_cases he : s.isEmpty = true
  · simp [he, SRes.toL]
  · simp only [he, if_false, Bool.false_eq_true]
    cases hs : lStart o s 0 with
    | error e => cases e <;> rfl
    | ok y =>
      obtain ⟨ty, r⟩ := y
      simp only
      by_cases hb : ty.isBracket = true
      · simp only [hb, if_true, dataDone]
        split <;> rfl
      · simp only [hb, if_false, Bool.false_eq_true, sDataEnd]
        rcases valEnd ty false r.tail with ⟨k, j⟩ | e
        · simp only [dataDone]
          split <;> rfl
        · rfl

theorem sDelim_toL (o : Opts) (x : LX) (nm : Bytes) (nty : Ty) (sv : Bool) (s : Bytes) (te : Bool) :
    (sDelim o x nm nty sv s).toL = lDelimiter o ⟨te, x.exp, x.stack, s⟩ nm nty := by
  unfold sDelim lDelimiter
  by_cases he : s.isEmpty = true
  · simp [he, SRes.toL]
  · simp only [he, if_false, Bool.false_eq_true]
    cases x.stack with
    | nil => rfl
    | cons ct st =>
      simp only
      cases lDelim o ct s 0 with
      | error e => cases e <;> rfl
      | ok y =>
        obtain ⟨_ | _, r⟩ := y
        · rfl
        · simp only
          split
          · rfl
          · exact sData_toL o _ nm nty sv r te

theorem sName_toL (o : Opts) (x : LX) (s : Bytes) (te : Bool) :
    (sName o x s).toL = lName o ⟨te, x.exp, x.stack, s⟩ := by
  unfold sName lName
  simp only [lValue_s]
  by_cases he : s.isEmpty = true
  · simp [he, SRes.toL]
  · simp only [he, if_false, Bool.false_eq_true]
    cases hs : lStart o s 0 with
    | error e => cases e <;> rfl
    | ok y =>
      obtain ⟨ty, r⟩ := y
      obtain ⟨-, h2⟩ := lStart_ok hs
      have key : ∀ ty : Ty, (sNameEnd o x ty (lead ty r) false false r.tail).toL =
          match (match valEnd ty false r.tail with
            | .inr _ => (.error .needMoreData : LRes (Ty × Bytes × Bytes))
            | .inl (k, j) => .ok (ty, lead ty r ++ r.tail.take k, r.tail.drop j)) with
          | .error e => .error e
          | .ok (ty, d, r) => lDelimiter o ⟨te, x.exp, x.stack, r⟩ d (getType ty d) := by
        intro ty
        unfold sNameEnd
        rcases valEnd ty false r.tail with ⟨k, j⟩ | e
        · exact sDelim_toL o x _ _ _ _ te
        · rfl
      cases ty <;> simp only [Ty.isBracket, if_true, Bool.false_eq_true, if_false]
      case objectStart | arrayStart => rfl
      case objectEnd | arrayEnd => split <;> rfl
      all_goals
        rw [key]
        generalize valEnd _ false r.tail = y
        rcases y with ⟨k, j⟩ | e <;> rfl

theorem sTokEnd_toL (o : Opts) (x : LX) (s : Bytes) :
    (sTokEnd o x s).toL = lPop o ⟨true, x.exp, x.stack, s⟩ := by
  unfold sTokEnd lPop
  by_cases he : s.isEmpty = true
  · simp [he, SRes.toL]
  · simp only [he, if_false, Bool.false_eq_true, if_true]
    cases hst : x.stack with
    | nil =>
      simp only
      rw [sName_toL o x s false, hst]
    | cons ct st =>
      simp only
      cases lTokEnd o s 0 with
      | error e => cases e <;> rfl
      | ok y =>
        obtain ⟨cm, r⟩ := y
        simp only
        rw [sName_toL o _ r false]

theorem lPop_susp (o : Opts) (c : LC) : lPop o c = (c.susp.resume o c.rest).toL := by
  obtain ⟨te, exp, st, s⟩ := c
  cases te with
  | true => exact (sTokEnd_toL o ⟨exp, st⟩ s).symm
  | false =>
    unfold lPop LC.susp
    simp only [Bool.false_eq_true, if_false, Susp.resume, LC.lx]
    rw [sName_toL o ⟨exp, st⟩ s false]
    by_cases he : s.isEmpty = true
    · simp [he, lName]
    · simp [he]

/-! ### Two buffers -/

def LC.add (b : Bytes) (c : LC) : LC := { c with rest := c.rest ++ b }

/-- The result on a text in two parts, from what the first part gives. -/
def SRes.on (o : Opts) (b : Bytes) : SRes → LRes (LC × Tok)
  | .done c k => .ok (c.add b, k)
  | .err e => .error e
  | .more s => (s.resume o b).toL

theorem valEnd_append (ty : Ty) (esc : Bool) (a b : Bytes) (h0 : 0 ∉ a) : valEnd ty esc (a ++ b) =
    match valEnd ty esc a with
    | .inl y => .inl y
    | .inr e => match valEnd ty e b with
      | .inl (k, j) => .inl (a.length + k, a.length + j)
      | .inr e => .inr e := by
  have hnum : ∀ (f : Bytes → EndRes), (f (a ++ b) = match f a with
      | .found k => .found k
      | .more => (f b).bump a.length) →
      (match f (a ++ b) with | .found k => (.inl (k, k) : (Nat × Nat) ⊕ Bool) | .more => .inr false) =
      match (match f a with | .found k => (.inl (k, k) : (Nat × Nat) ⊕ Bool) | .more => .inr false) with
      | .inl y => .inl y
      | .inr _ => match (match f b with | .found k => (.inl (k, k) : (Nat × Nat) ⊕ Bool) | .more => .inr false) with
        | .inl (k, j) => .inl (a.length + k, a.length + j)
        | .inr e => .inr e := by
    intro f hf
    rw [hf]
    cases f a with
    | found k => rfl
    | more => cases f b <;> rfl
  have hnum := hnum _ (numberEnd_append a b)
  unfold valEnd
  cases ty with
  | string =>
    simp only
    rw [strEnd_append]
    rcases strEnd esc a with ⟨_ | k, e⟩
    · simp only
      have := strEnd_le e b
      rcases hb : strEnd e b with ⟨_ | k, e'⟩
      · rfl
      · have := this k (by rw [hb])
        simp only [bump, Option.map_some]
        congr 2 <;> omega
    · rfl
  | number => exact hnum
  | _ =>
    simp only
    rw [asciiEnd_append a b h0]
    cases asciiEnd a with
    | found k => rfl
    | more => cases asciiEnd b <;> rfl

theorem dataDone_on (o : Opts) (x : LX) (nm : Bytes) (nty ty : Ty) (d r b : Bytes) :
    (dataDone o x nm nty ty d (r ++ b)).toL = (dataDone o x nm nty ty d r).on o b := by
  unfold dataDone
  split <;> rfl

theorem valEnd_le {ty : Ty} {esc : Bool} {a : Bytes} {k j : Nat} (h : valEnd ty esc a = .inl (k, j)) :
    k ≤ a.length ∧ j ≤ a.length := by
  unfold valEnd at h
  cases ty with
  | string =>
    simp only at h
    have := strEnd_le esc a
    rcases hs : strEnd esc a with ⟨_ | i, e⟩
    · rw [hs] at h; simp at h
    · rw [hs] at h this; have := this i rfl; simp at h; omega
  | number =>
    simp only at h
    cases hs : numberEnd a with
    | more => rw [hs] at h; simp at h
    | found i => have := numberEnd_le _ _ hs; rw [hs] at h; simp at h; omega
  | _ =>
    simp only at h
    cases hs : asciiEnd a with
    | more => rw [hs] at h; simp at h
    | found i => have := asciiEnd_le _ _ hs; rw [hs] at h; simp at h; omega

theorem sDataEnd_append (o : Opts) (x : LX) (nm : Bytes) (nty ty : Ty) (acc : Bytes) (esc : Bool) (a b : Bytes) (h0 : 0 ∉ a) :
    (sDataEnd o x nm nty ty acc esc (a ++ b)).toL = (sDataEnd o x nm nty ty acc esc a).on o b := by
  unfold sDataEnd
  rw [valEnd_append ty esc a b h0]
  rcases hv : valEnd ty esc a with ⟨k, j⟩ | e
  · obtain ⟨h1, h2⟩ := valEnd_le hv
    simp only
    rw [List.take_append_of_le_length h1, List.drop_append_of_le_length h2, dataDone_on]
  · simp only [SRes.on, Susp.resume, sDataEnd]
    rcases hv : valEnd ty e b with ⟨k, j⟩ | e'
    · simp only
      rw [List.take_append, List.drop_append]
      rw [List.drop_of_length_le (by omega : a.length ≤ a.length + j)]
      simp [List.take_of_length_le]
    · simp [SRes.toL]

theorem isEmpty_append_false {a b : Bytes} (h : a.isEmpty = false) : (a ++ b).isEmpty = false := by
  cases a <;> simp_all

theorem lead_append {ty : Ty} {r b : Bytes} (h : r ≠ []) : lead ty (r ++ b) = lead ty r := by
  obtain ⟨c, r, rfl⟩ := List.exists_cons_of_ne_nil h
  simp [lead]

theorem tail_append' {r b : Bytes} (h : r ≠ []) : (r ++ b).tail = r.tail ++ b := by
  obtain ⟨c, r, rfl⟩ := List.exists_cons_of_ne_nil h
  rfl

theorem take_one_append {r b : Bytes} (h : r ≠ []) : (r ++ b).take 1 = r.take 1 := by
  obtain ⟨c, r, rfl⟩ := List.exists_cons_of_ne_nil h
  rfl

theorem lStart_sub {o : Opts} {s : Bytes} {k : Nat} {ty : Ty} {r : Bytes} (h : lStart o s k = .ok (ty, r)) (h0 : 0 ∉ s) :
    0 ∉ r.tail := by
  fun_induction lStart o s k <;> simp_all
  all_goals (obtain ⟨h1, h2⟩ := h; subst h2; simp_all)

theorem lDelim_sub {o : Opts} {ct : Ty} {s : Bytes} {k : Nat} {n : Bool} {r : Bytes} (h : lDelim o ct s k = .ok (n, r)) (h0 : 0 ∉ s) :
    0 ∉ r := by
  fun_induction lDelim o ct s k <;> simp_all
  all_goals (obtain ⟨h1, h2⟩ := h; subst h2; simp_all)

theorem lTokEnd_sub {o : Opts} {s : Bytes} {k : Nat} {n : Bool} {r : Bytes} (h : lTokEnd o s k = .ok (n, r)) (h0 : 0 ∉ s) :
    0 ∉ r := by
  fun_induction lTokEnd o s k <;> simp_all
  all_goals (obtain ⟨h1, h2⟩ := h; subst h2; simp_all)

theorem sData_append (o : Opts) (x : LX) (nm : Bytes) (nty : Ty) (sv : Bool) (a b : Bytes) (h0 : 0 ∉ a) (hw : StartOk o a) :
    (sData o x nm nty sv (a ++ b)).toL = (sData o x nm nty sv a).on o b := by
  cases ha : a.isEmpty with
  | true =>
    obtain rfl : a = [] := by simpa using ha
    simp [sData, SRes.on, Susp.resume]
  | false =>
    rw [sData, sData, isEmpty_append_false ha, ha, hw]
    simp only [Bool.false_eq_true, if_false]
    rcases hs : lStart o a 0 with e | ⟨ty, r⟩
    · cases e <;> simp only [SRes.on, Susp.resume] <;> try rfl
      unfold sData
      cases hb : b.isEmpty with
      | true =>
        obtain rfl : b = [] := by simpa using hb
        rfl
      | false => simp only [Bool.false_eq_true, if_false]
    · obtain ⟨h1, -⟩ := lStart_ok hs
      simp only [tail_append' h1, take_one_append h1, lead_append h1]
      by_cases hb : ty.isBracket = true
      · simp only [hb, if_true, dataDone_on]
      · simp only [hb, if_false, Bool.false_eq_true]
        exact sDataEnd_append o x nm nty ty _ _ _ b (lStart_sub hs h0)

/-- The text can be read in parts from the place behind a name on. -/
def WholeDelim (o : Opts) (x : LX) (a : Bytes) : Prop :=
  ∀ ct st, x.stack = ct :: st → DelimOk o ct a ∧ ∀ r, lDelim o ct a 0 = .ok (true, r) → StartOk o r

theorem sDelim_append (o : Opts) (x : LX) (nm : Bytes) (nty : Ty) (sv : Bool) (a b : Bytes) (h0 : 0 ∉ a) (hw : WholeDelim o x a) :
    (sDelim o x nm nty sv (a ++ b)).toL = (sDelim o x nm nty sv a).on o b := by
  cases ha : a.isEmpty with
  | true =>
    obtain rfl : a = [] := by simpa using ha
    simp [sDelim, SRes.on, Susp.resume]
  | false =>
    rw [sDelim, sDelim, isEmpty_append_false ha, ha]
    simp only [Bool.false_eq_true, if_false]
    cases hst : x.stack with
    | nil => rfl
    | cons ct st =>
      obtain ⟨hw, hw'⟩ := hw ct st hst
      simp only [hw b]
      rcases hs : lDelim o ct a 0 with e | ⟨_ | _, r⟩
      · cases e <;> simp only [SRes.on, Susp.resume] <;> try rfl
        rw [sDelim_toL o x nm nty true b false, ← sDelim_toL o x nm nty sv b false]
        unfold sDelim
        cases hb : b.isEmpty with
        | true =>
          obtain rfl : b = [] := by simpa using hb
          rfl
        | false =>
          simp only [Bool.false_eq_true, if_false, hst]
      · rfl
      · simp only
        split
        · rfl
        · exact sData_append o _ nm nty sv r b (lDelim_sub hs h0) (hw' r hs)

theorem drop_no_nul {s : Bytes} {j : Nat} (h : 0 ∉ s) : 0 ∉ s.drop j := fun h' => h (List.mem_of_mem_drop h')

def WholeNameEnd (o : Opts) (x : LX) (ty : Ty) (esc : Bool) (a : Bytes) : Prop :=
  ∀ k j, valEnd ty esc a = .inl (k, j) → WholeDelim o x (a.drop j)

theorem sNameEnd_append (o : Opts) (x : LX) (ty : Ty) (acc : Bytes) (esc sv : Bool) (a b : Bytes) (h0 : 0 ∉ a)
    (hw : WholeNameEnd o x ty esc a) :
    (sNameEnd o x ty acc esc sv (a ++ b)).toL = (sNameEnd o x ty acc esc sv a).on o b := by
  unfold sNameEnd
  rw [valEnd_append ty esc a b h0]
  rcases hv : valEnd ty esc a with ⟨k, j⟩ | e
  · obtain ⟨h1, h2⟩ := valEnd_le hv
    simp only
    rw [List.take_append_of_le_length h1, List.drop_append_of_le_length h2]
    exact sDelim_append o x _ _ sv _ b (drop_no_nul h0) (hw k j hv)
  · simp only [SRes.on, Susp.resume, sNameEnd]
    rcases hv : valEnd ty e b with ⟨k, j⟩ | e'
    · simp only
      rw [List.take_append, List.drop_append]
      rw [List.drop_of_length_le (by omega : a.length ≤ a.length + j)]
      simp only [List.take_of_length_le (by omega : a.length ≤ a.length + k), Nat.add_sub_cancel_left, List.nil_append, List.append_assoc]
      rw [sDelim_toL o x _ _ sv _ false, sDelim_toL o x _ _ true _ false]
    · simp [SRes.toL]

def WholeName (o : Opts) (x : LX) (a : Bytes) : Prop :=
  StartOk o a ∧ ∀ ty r, lStart o a 0 = .ok (ty, r) → ty.isBracket = false → WholeNameEnd o x ty false r.tail

theorem sName_append (o : Opts) (x : LX) (a b : Bytes) (h0 : 0 ∉ a) (hw : WholeName o x a) :
    (sName o x (a ++ b)).toL = (sName o x a).on o b := by
  cases ha : a.isEmpty with
  | true =>
    obtain rfl : a = [] := by simpa using ha
    simp [sName, SRes.on, Susp.resume]
  | false =>
    obtain ⟨hw, hw'⟩ := hw
    rw [sName, sName, isEmpty_append_false ha, ha, hw]
    simp only [Bool.false_eq_true, if_false]
    rcases hs : lStart o a 0 with e | ⟨ty, r⟩
    · cases e <;> simp only [SRes.on, Susp.resume] <;> try rfl
      unfold sName
      cases hb : b.isEmpty with
      | true =>
        obtain rfl : b = [] := by simpa using hb
        rfl
      | false => simp only [Bool.false_eq_true, if_false]
    · obtain ⟨h1, -⟩ := lStart_ok hs
      simp only [tail_append' h1, take_one_append h1, lead_append h1]
      have key := fun hb => sNameEnd_append o x ty (lead ty r) false false r.tail b (lStart_sub hs h0) (hw' ty r hs hb)
      cases ty <;> first | exact key rfl | skip
      case objectStart | arrayStart => rfl
      case objectEnd | arrayEnd => simp only; split <;> rfl

def WholeTokEnd (o : Opts) (x : LX) (a : Bytes) : Prop :=
  match x.stack with
  | [] => WholeName o x a
  | _ :: _ => TokEndOk o a ∧ ∀ cm r, lTokEnd o a 0 = .ok (cm, r) → WholeName o ⟨x.exp || cm, x.stack⟩ r

theorem sTokEnd_append (o : Opts) (x : LX) (a b : Bytes) (h0 : 0 ∉ a) (hw : WholeTokEnd o x a) :
    (sTokEnd o x (a ++ b)).toL = (sTokEnd o x a).on o b := by
  cases ha : a.isEmpty with
  | true =>
    obtain rfl : a = [] := by simpa using ha
    simp [sTokEnd, SRes.on, Susp.resume]
  | false =>
    rw [sTokEnd, sTokEnd, isEmpty_append_false ha, ha]
    simp only [Bool.false_eq_true, if_false]
    cases hst : x.stack with
    | nil => exact sName_append o x a b h0 (by rw [WholeTokEnd, hst] at hw; exact hw)
    | cons ct st =>
      rw [WholeTokEnd, hst] at hw
      obtain ⟨hw, hw'⟩ := hw
      simp only [hw b]
      rcases hs : lTokEnd o a 0 with e | ⟨cm, r⟩
      · cases e <;> simp only [SRes.on, Susp.resume] <;> try rfl
        unfold sTokEnd
        cases hb : b.isEmpty with
        | true =>
          obtain rfl : b = [] := by simpa using hb
          rfl
        | false =>
          simp only [Bool.false_eq_true, if_false, hst]
      · simp only
        exact sName_append o _ r b (lTokEnd_sub hs h0) (hw' cm r hs)

/-- The part `a` read from the state on is not left within a comment. -/
def Susp.Whole (o : Opts) (a : Bytes) : Susp → Prop
  | .tokEnd x => WholeTokEnd o x a
  | .name x => WholeName o x a
  | .inName x ty _ esc => WholeNameEnd o x ty esc a
  | .delim x _ _ _ => WholeDelim o x a
  | .data _ _ _ _ => StartOk o a
  | .inData _ _ _ _ _ _ => True

/-- Reading a text in two parts. -/
theorem resume_append (o : Opts) (s : Susp) (a b : Bytes) (h0 : 0 ∉ a) (hw : s.Whole o a) :
    (s.resume o (a ++ b)).toL = (s.resume o a).on o b := by
  cases s with
  | tokEnd x => exact sTokEnd_append o x a b h0 hw
  | name x => exact sName_append o x a b h0 hw
  | inName x ty acc esc => exact sNameEnd_append o x ty acc esc true a b h0 hw
  | delim x nm nty sv => exact sDelim_append o x nm nty sv a b h0 hw
  | data x nm nty sv => exact sData_append o x nm nty sv a b h0 hw
  | inData x nm nty ty acc esc => exact sDataEnd_append o x nm nty ty acc esc a b h0

theorem resume_nil (o : Opts) (s : Susp) : (s.resume o []).toL = .error .needMoreData := by
  cases s with
  | inName x ty acc esc =>
    simp only [Susp.resume, sNameEnd]
    cases ty <;> rfl
  | inData x nm nty ty acc esc =>
    simp only [Susp.resume, sDataEnd]
    cases ty <;> rfl
  | _ => rfl

theorem on_nil (o : Opts) (r : SRes) : r.on o [] = r.toL := by
  cases r with
  | done c k => simp [SRes.on, SRes.toL, LC.add]
  | err e => rfl
  | more s => exact resume_nil o s

/-! A token that is complete was not left within a comment. -/

theorem wholeDelim_done {o : Opts} {x : LX} {nm : Bytes} {nty : Ty} {sv : Bool} {a : Bytes} {c : LC} {k : Tok}
    (h : sDelim o x nm nty sv a = .done c k) : WholeDelim o x a := by
  intro ct st hst
  unfold sDelim at h
  split at h
  · simp at h
  · simp only [hst] at h
    rcases hd : lDelim o ct a 0 with e | ⟨n, r⟩
    · rw [hd] at h; cases e <;> simp at h
    · refine ⟨delimOk_ok hd, ?_⟩
      intro r' hr
      simp only [Except.ok.injEq, Prod.mk.injEq] at hr
      obtain ⟨rfl, rfl⟩ := hr
      rw [hd] at h
      simp only at h
      split at h
      · simp at h
      · unfold sData at h
        split at h
        · simp at h
        · rcases hs : lStart o r 0 with e | ⟨ty, r2⟩
          · rw [hs] at h; cases e <;> simp at h
          · exact startOk_ok hs

theorem wholeNameEnd_done {o : Opts} {x : LX} {ty : Ty} {acc : Bytes} {esc sv : Bool} {a : Bytes} {c : LC} {k : Tok}
    (h : sNameEnd o x ty acc esc sv a = .done c k) : WholeNameEnd o x ty esc a := by
  intro i j hv
  unfold sNameEnd at h
  rw [hv] at h
  exact wholeDelim_done h

theorem wholeName_done {o : Opts} {x : LX} {a : Bytes} {c : LC} {k : Tok} (h : sName o x a = .done c k) : WholeName o x a := by
  unfold sName at h
  split at h
  · simp at h
  · rcases hs : lStart o a 0 with e | ⟨ty, r⟩
    · rw [hs] at h; cases e <;> simp at h
    · refine ⟨startOk_ok hs, fun ty' r' hr hb => ?_⟩
      rw [hs] at hr
      simp only [Except.ok.injEq, Prod.mk.injEq] at hr
      obtain ⟨rfl, rfl⟩ := hr
      rw [hs] at h
      cases ty <;> first | exact wholeNameEnd_done h | simp [Ty.isBracket] at hb

theorem whole_done {o : Opts} {s : Susp} {a : Bytes} {c : LC} {k : Tok} (h : s.resume o a = .done c k) : s.Whole o a := by
  cases s with
  | tokEnd x =>
    simp only [Susp.resume, sTokEnd] at h
    simp only [Susp.Whole, WholeTokEnd]
    split at h
    · simp at h
    · rcases hst : x.stack with _ | ⟨ct, st⟩
      · rw [hst] at h; exact wholeName_done h
      · rw [hst] at h
        simp only at h ⊢
        rcases hs : lTokEnd o a 0 with e | ⟨cm, r⟩
        · rw [hs] at h; cases e <;> simp at h
        · refine ⟨tokEndOk_ok hs, fun cm' r' hr => ?_⟩
          simp only [Except.ok.injEq, Prod.mk.injEq] at hr
          obtain ⟨rfl, rfl⟩ := hr
          rw [hs] at h
          simp only at h
          exact wholeName_done h
  | name x => exact wholeName_done h
  | inName x ty acc esc => exact wholeNameEnd_done h
  | delim x nm nty sv => exact wholeDelim_done h
  | data x nm nty sv =>
    simp only [Susp.resume, sData] at h
    split at h
    · simp at h
    · rcases hs : lStart o a 0 with e | ⟨ty, r2⟩
      · rw [hs] at h; cases e <;> simp at h
      · exact startOk_ok hs
  | inData x nm nty ty acc esc => trivial

end JsonStruct
