import Verif.Lemmas.CutModel
import Verif.Lemmas.Lenient

/- The machine of `Lemmas/Cut` and the places of `Spec/Cut`. -/

namespace JsonStruct

set_option linter.unusedSimpArgs false

theorem after_nil (o : Opts) (p : Spot) : p.after o [] = p := rfl
theorem after_cons (o : Opts) (p : Spot) (c : Byte) (s : Bytes) : p.after o (c :: s) = (p.next o c).after o s := rfl
theorem spot_append (o : Opts) (p : Spot) (a b : Bytes) : p.after o (a ++ b) = (p.after o a).after o b := by
  simp [Spot.after, List.foldl_append]

def Spot.isOff (p : Spot) : Prop := p.1 = .off

theorem off_after {o : Opts} {p : Spot} (h : p.isOff) (s : Bytes) : (p.after o s).isOff := by
  induction s generalizing p with
  | nil => exact h
  | cons c s ih =>
    obtain ⟨a, st⟩ := p
    have h : a = .off := h
    subst h
    exact ih (p := (.off, st)) rfl

/-! ### Bytes -/

theorem ws_skips (c : Byte) (h : isWs c = true) :
    c ≠ QUOTE ∧ c ≠ LBRACE ∧ c ≠ RBRACE ∧ c ≠ LBRACK ∧ c ≠ RBRACK ∧ c ≠ COLON ∧ c ≠ COMMA ∧
    has c (flPlusMinus ||| flDigits) = false ∧ has c flAscii = false ∧ lookup c ≠ 0 ∧ has c flWs = true :=
  forall_byte (p := fun c => isWs c = true → c ≠ QUOTE ∧ c ≠ LBRACE ∧ c ≠ RBRACE ∧ c ≠ LBRACK ∧ c ≠ RBRACK ∧ c ≠ COLON ∧ c ≠ COMMA ∧
    has c (flPlusMinus ||| flDigits) = false ∧ has c flAscii = false ∧ lookup c ≠ 0 ∧ has c flWs = true) (by decide +kernel) c h

theorem numberStart_has (c : Byte) (h : numberStart c = true) : has c (flPlusMinus ||| flDigits) = true :=
  forall_byte (p := fun c => numberStart c = true → has c (flPlusMinus ||| flDigits) = true) (by decide +kernel) c h

theorem letter_has (c : Byte) (h : letter c = true) : has c flAscii = true ∧ numberStart c = false :=
  forall_byte (p := fun c => letter c = true → has c flAscii = true ∧ numberStart c = false) (by decide +kernel) c h

theorem numberByte_stop (c : Byte) : numberByte c = !numberStop c :=
  forall_byte (p := fun c => numberByte c = !numberStop c) (by decide +kernel) c

theorem letter_go (c : Byte) (h : letter c = true) : asciiStop c = false :=
  forall_byte (p := fun c => letter c = true → asciiStop c = false) (by decide +kernel) c h

theorem word_end (c : Byte) (h : asciiStop c = false ∨ asciiRange c = true) :
    isWs c = false ∧ c ≠ COMMA ∧ c ≠ COLON ∧ c ≠ RBRACK ∧ c ≠ RBRACE ∧ c ≠ LF :=
  forall_byte (p := fun c => asciiStop c = false ∨ asciiRange c = true →
    isWs c = false ∧ c ≠ COMMA ∧ c ≠ COLON ∧ c ≠ RBRACK ∧ c ≠ RBRACE ∧ c ≠ LF) (by decide +kernel) c h

/-! ### The scanners -/

/-- Behind a value or name: `q` tells strings. -/
def fin (v q : Bool) : Place := if v then .done else .behind q false

theorem place_string (o : Opts) (v e : Bool) (st : List Ty) (s : Bytes) :
    match strEnd e s with
    | (none, e') => Spot.after o (.string v e, st) s = (.string v e', st)
    | (some k, _) => Spot.after o (.string v e, st) s = Spot.after o (fin v true, st) (s.drop k) := by
  fun_induction strEnd e s with
  | case1 e => rfl
  | case2 c cs ih =>
    simp only [bump]
    rcases h : strEnd false cs with ⟨_ | k, e'⟩ <;> rw [h] at ih <;> exact ih
  | case3 cs h ih =>
    simp only [bump]
    rcases h : strEnd true cs with ⟨_ | k, e'⟩ <;> rw [h] at ih <;> exact ih
  | case4 cs h h' =>
    simp only [after_cons]
    rfl
  | case5 c cs h h1 h2 ih =>
    simp only [bump]
    have hn : Spot.next o (.string v false, st) c = (.string v false, st) := by
      simp only [Spot.next, Spot.step]; rw [if_neg h1, if_neg h2]
    rcases h : strEnd false cs with ⟨_ | k, e'⟩ <;> rw [h] at ih <;> (simp only [after_cons, hn]; exact ih)
  | case6 c cs h ih =>
    simp only [bump]
    rw [lookup_str_iff] at h
    have hn : Spot.next o (.string v false, st) c = (.string v false, st) := by
      simp only [Spot.next, Spot.step]; rw [if_neg (fun hh => h (.inr hh)), if_neg (fun hh => h (.inl hh))]
    rcases h : strEnd false cs with ⟨_ | k, e'⟩ <;> rw [h] at ih <;> (simp only [after_cons, hn]; exact ih)

theorem place_number (o : Opts) (v : Bool) (st : List Ty) (s : Bytes) :
    match numberEnd s with
    | .more => Spot.after o (.number v, st) s = (.number v, st)
    | .found k => Spot.after o (.number v, st) s = Spot.after o (fin v false, st) (s.drop k) := by
  induction s with
  | nil => rfl
  | cons c s ih =>
    have hc : numberEnd (c :: s) = if numberStop c then .found 0 else (numberEnd s).bump 1 := by
      unfold numberEnd
      rw [List.findIdx_cons]
      by_cases h : numberStop c = true
      · simp [h]
      · simp only [h, cond_false, List.length_cons, Bool.false_eq_true, if_false]
        by_cases h' : s.findIdx numberStop < s.length
        · simp [h', EndRes.bump, Nat.add_comm]
        · simp [h', EndRes.bump]
    rw [hc]
    by_cases h : numberStop c = true
    · simp only [h, if_true, after_cons, List.drop_zero]
      have : numberByte c = false := by rw [numberByte_stop, h]; rfl
      cases v <;> simp [Spot.next, Spot.step, this, fin]
    · have hb : numberByte c = true := by rw [numberByte_stop]; simp [h]
      have hn : Spot.next o (.number v, st) c = (.number v, st) := by simp only [Spot.next, Spot.step, hb, if_true]
      simp only [h, if_false, Bool.false_eq_true]
      cases hs : numberEnd s with
      | more => rw [hs] at ih; simp only [EndRes.bump, after_cons, hn]; exact ih
      | found k =>
        rw [hs] at ih; simp only [EndRes.bump, after_cons, hn, Nat.add_comm 1 k, List.drop_succ_cons]; exact ih

theorem fin_off {o : Opts} {v : Bool} {st : List Ty} {c : Byte} (h1 : isWs c = false) (h2 : c ≠ COMMA) (h3 : c ≠ COLON) (h4 : c ≠ RBRACK)
    (h5 : c ≠ RBRACE) (h6 : c ≠ LF) (h7 : c ≠ SLASH) : (Spot.next o (fin v false, st) c).isOff := by
  have e1 : endsLine o c = false := by
    have : (c == 0x0A) = false := by simpa using h6
    simp [endsLine, this]
  have e2 : opensComment o c = false := by
    have : (c == 0x2F) = false := by simpa using h7
    simp [opensComment, this]
  have hclose : ∀ st, (Spot.close st c).isOff := by
    intro st
    unfold Spot.close
    split
    · rw [if_neg h5]; rfl
    · rw [if_neg h4]; rfl
    · rfl
  cases v with
  | true =>
    simp only [fin, if_true, Spot.next, Spot.step, Spot.finish, h1, e1, e2, Bool.false_eq_true, if_false]
    rw [if_neg h2]
    exact hclose st
  | false =>
    simp only [fin, Spot.next, Spot.step, Spot.separate, h1, e1, e2, Bool.false_eq_true, if_false]
    split
    · rw [if_neg h3]; rfl
    · rw [if_neg h2]; exact hclose _
    · rfl

theorem place_word (o : Opts) (v : Bool) (st : List Ty) (k : Nat) (s : Bytes) (h0 : 0 ∉ s) :
    match asciiEndFrom k s with
    | .more => Spot.after o (.word v, st) s = (.word v, st) ∨ (Spot.after o (.word v, st) s).isOff
    | .found i => ∃ j, i = k + j ∧ (Spot.after o (.word v, st) s = Spot.after o (fin v false, st) (s.drop j) ∨ (Spot.after o (.word v, st) s).isOff) := by
  induction s generalizing k with
  | nil => exact .inl rfl
  | cons c s ih =>
    have hz : c ≠ 0 := fun h => h0 (by simp [h])
    replace ih := ih (k + 1) (fun h => h0 (by simp [h]))
    simp only [asciiEndFrom, hz, if_false]
    have hgo : asciiStop c = false ∨ asciiRange c = true →
        match asciiEndFrom (k + 1) s with
        | .more => Spot.after o (.word v, st) (c :: s) = (.word v, st) ∨ (Spot.after o (.word v, st) (c :: s)).isOff
        | .found i => ∃ j, i = k + j ∧ (Spot.after o (.word v, st) (c :: s) = Spot.after o (fin v false, st) ((c :: s).drop j) ∨ (Spot.after o (.word v, st) (c :: s)).isOff) := by
      intro hg
      by_cases hl : letter c = true
      · have hn : Spot.next o (.word v, st) c = (.word v, st) := by simp only [Spot.next, Spot.step, hl, if_true]
        simp only [after_cons, hn]
        cases hs : asciiEndFrom (k + 1) s with
        | more => rw [hs] at ih; exact ih
        | found i =>
          rw [hs] at ih
          obtain ⟨j, h1, h2⟩ := ih
          exact ⟨j + 1, by omega, by simpa using h2⟩
      · obtain ⟨h1, h2, h3, h4, h5, h6⟩ := word_end c hg
        have hoff : (Spot.after o (.word v, st) (c :: s)).isOff := by
          rw [after_cons]
          by_cases hs : c = SLASH
          · refine off_after ?_ s
            simp only [Spot.next, Spot.step, hl, Bool.false_eq_true, if_false]
            rw [if_pos hs]
            rfl
          · have hn : Spot.next o (.word v, st) c = Spot.next o (fin v false, st) c := by
              have hs' : c ≠ 0x2F := hs
              cases v <;> simp [Spot.next, Spot.step, hl, fin, hs']
            rw [hn]
            exact off_after (fin_off h1 h2 h3 h4 h5 h6 hs) s
        cases hs : asciiEndFrom (k + 1) s with
        | more => exact .inr hoff
        | found i =>
          rw [hs] at ih
          obtain ⟨j, h1, h2⟩ := ih
          exact ⟨j + 1, by omega, .inr hoff⟩
    by_cases hst : asciiStop c = true
    · simp only [hst, if_true]
      by_cases hr : asciiRange c = true
      · simp only [hr, if_true]
        exact hgo (.inr hr)
      · simp only [hr, if_false, Bool.false_eq_true]
        refine ⟨0, rfl, .inl ?_⟩
        have hl : letter c = false := by
          by_contra hh
          rw [letter_go c (by simpa using hh)] at hst
          simp at hst
        have hs' : c ≠ 0x2F := by rintro rfl; revert hst; decide +kernel
        simp only [List.drop_zero, after_cons]
        congr 1
        cases v <;> simp [Spot.next, Spot.step, hl, fin, hs']
    · simp only [hst, if_false, Bool.false_eq_true]
      exact hgo (.inl (by simpa using hst))

/-- The end of a value or name. -/
def inside (ty : Ty) (v e : Bool) : Place :=
  match ty with | .string => .string v e | .number => .number v | _ => .word v

theorem place_end (o : Opts) (ty : Ty) (hty : ty.isLong) (v e : Bool) (st : List Ty) (s : Bytes) (h0 : 0 ∉ s) :
    match valEnd ty e s with
    | .inr e' => Spot.after o (inside ty v e, st) s = (inside ty v e', st) ∨ (Spot.after o (inside ty v e, st) s).isOff
    | .inl (_, j) => Spot.after o (inside ty v e, st) s = Spot.after o (fin v (ty == .string), st) (s.drop j) ∨
        (Spot.after o (inside ty v e, st) s).isOff := by
  rcases hty with rfl | rfl | rfl
  · simp only [valEnd, inside]
    have := place_string o v e st s
    rcases hs : strEnd e s with ⟨_ | k, e'⟩ <;> rw [hs] at this
    · exact .inl this
    · exact .inl this
  · simp only [valEnd, inside]
    have := place_number o v st s
    cases hs : numberEnd s <;> rw [hs] at this
    · exact .inl this
    · exact .inl this
  · simp only [valEnd, inside]
    have := place_word o v st 0 s h0
    change match asciiEnd s with | .more => _ | .found i => _ at this
    cases hs : asciiEnd s <;> rw [hs] at this
    · obtain ⟨j, h1, h2⟩ := this
      rw [Nat.zero_add] at h1
      subst h1
      exact h2
    · exact this

/-! ### White space and starts -/

theorem ws_no_slash {c : Byte} (h : isWs c = true) : (c == SLASH) = false :=
  forall_byte (p := fun c => isWs c = true → (c == SLASH) = false) (by decide +kernel) c h

theorem lStart_ws {o : Opts} {c : Byte} {s : Bytes} (h : isWs c = true) : lStart o (c :: s) 0 = lStart o s 0 := by
  obtain ⟨h1, h2, h3, h4, h5, h6, h7, h8, h9, h10, h11⟩ := ws_skips c h
  simp only [lStart, ws_no_slash h, Bool.and_false, Bool.false_and, Bool.false_eq_true, if_false, h1, h2, h3, h4, h5, h8, h9, h10]

/-- Outside of the document, or within a comment. -/
def Spot.lost (p : Spot) : Prop :=
  match p.1 with
  | .off | .slash _ | .comment _ => True
  | _ => False

theorem lost_of_off {p : Spot} (h : p.isOff) : p.lost := by
  obtain ⟨p, st⟩ := p
  have h : p = .off := h
  subst h
  trivial

/-- Places that are not within a comment. -/
def Place.plain : Place → Bool
  | .slash _ | .comment _ => false
  | _ => true

theorem next_plain (o : Opts) {p : Place} (h : p.plain = true) (st : List Ty) (c : Byte) :
    Spot.next o (p, st) c = Spot.step o (p, st) c := by
  cases p <;> first | rfl | simp [Place.plain] at h

theorem commentEnd_cons (nl : Bool) (c : Byte) (s : Bytes) :
    commentEnd nl (c :: s) = if c = LF then some (if nl then 0 else 1) else (commentEnd nl s).map (· + 1) := by
  unfold commentEnd
  rw [List.findIdx_cons]
  by_cases h : c = LF
  · subst h
    cases nl <;> simp
  · rw [decide_eq_false h, cond_false, if_neg h]
    simp only [List.length_cons]
    by_cases h' : s.findIdx (fun x => decide (x = LF)) < s.length
    · rw [if_pos h', if_pos (by omega)]
      cases nl <;> rfl
    · rw [if_neg h', if_neg (by omega)]
      rfl

theorem comment_place (o : Opts) {b : Place} (hb : b.plain = true) (st : List Ty) (s : Bytes) :
    match commentEnd o.newLines s with
    | none => Spot.after o (.comment b, st) s = (.comment b, st)
    | some k => Spot.after o (.comment b, st) s = Spot.after o (b, st) (s.drop k) := by
  induction s with
  | nil => rfl
  | cons c s ih =>
    rw [commentEnd_cons]
    by_cases h : c = LF
    · subst h
      simp only [if_true, after_cons]
      cases hn : o.newLines
      · have : Spot.next o (.comment b, st) LF = (b, st) := by simp [Spot.next, hn, LF]
        simp [this]
      · have : Spot.next o (.comment b, st) LF = Spot.step o (b, st) LF := by simp [Spot.next, hn, LF]
        simp [this, after_cons, next_plain o hb]
    · have : Spot.next o (.comment b, st) c = (.comment b, st) := by
        simp only [Spot.next]; rw [if_pos h]
      simp only [h, if_false, after_cons, this]
      rcases hk : commentEnd o.newLines s with _ | k <;> rw [hk] at ih <;> simpa using ih

/-- Bytes that begin nothing. -/
theorem start_off {v : Bool} {st : List Ty} {c : Byte} (h1 : c ≠ QUOTE) (h2 : c ≠ LBRACE) (h4 : c ≠ LBRACK)
    (h6 : has c (flPlusMinus ||| flDigits) = false) (h7 : has c flAscii = false) : (Spot.start v st c).isOff := by
  have hn : numberStart c = false := by
    by_contra hh; rw [numberStart_has c (by simpa using hh)] at h6; simp at h6
  have hl : letter c = false := by
    by_contra hh; rw [(letter_has c (by simpa using hh)).1] at h7; simp at h7
  unfold Spot.start
  rw [if_neg h1, hn, hl]
  simp only [Bool.false_eq_true, if_false]
  rw [if_neg h2, if_neg h4]
  rfl

theorem lStart_nonws (o : Opts) (c : Byte) (hc : ¬ (o.comments = true ∧ c = SLASH)) :
    (∃ ty, ∀ s, lStart o (c :: s) 0 = .ok (ty, c :: s)) ∨
    (∃ e, e ≠ Err.needMoreData ∧ ∀ s, lStart o (c :: s) 0 = .error e) ∨
    (c ≠ QUOTE ∧ c ≠ LBRACE ∧ c ≠ RBRACE ∧ c ≠ LBRACK ∧ c ≠ RBRACK ∧
      has c (flPlusMinus ||| flDigits) = false ∧ has c flAscii = false) := by
  have hz : (o.comments && c == SLASH) = false := by
    cases h1 : o.comments
    · rfl
    · have : c ≠ SLASH := fun h => hc ⟨h1, h⟩
      simpa using this
  simp only [lStart, hz, Bool.false_and, Bool.false_eq_true, if_false]
  by_cases h1 : c = QUOTE
  · exact .inl ⟨_, fun s => by simp only [h1, if_true]; rfl⟩
  by_cases h2 : c = LBRACE
  · exact .inl ⟨_, fun s => by simp only [h1, h2, if_true, if_false]; rfl⟩
  by_cases h3 : c = RBRACE
  · exact .inl ⟨_, fun s => by simp only [h1, h2, h3, if_true, if_false]; rfl⟩
  by_cases h4 : c = LBRACK
  · exact .inl ⟨_, fun s => by simp only [h1, h2, h3, h4, if_true, if_false]; rfl⟩
  by_cases h5 : c = RBRACK
  · exact .inl ⟨_, fun s => by simp only [h1, h2, h3, h4, h5, if_true, if_false]; rfl⟩
  by_cases h6 : has c (flPlusMinus ||| flDigits) = true
  · exact .inl ⟨_, fun s => by simp only [h1, h2, h3, h4, h5, h6, if_true, if_false]; rfl⟩
  by_cases h7 : has c flAscii = true
  · exact .inl ⟨_, fun s => by simp only [h1, h2, h3, h4, h5, h6, h7, if_true, if_false, Bool.false_eq_true]; rfl⟩
  exact .inr (.inr ⟨h1, h2, h3, h4, h5, by simpa using h6, by simpa using h7⟩)

theorem close_off {st : List Ty} {c : Byte} (h1 : c ≠ RBRACE) (h2 : c ≠ RBRACK) : (Spot.close st c).isOff := by
  unfold Spot.close
  split
  · rw [if_neg h1]; rfl
  · rw [if_neg h2]; rfl
  · rfl

/-- Where a value, or an item, may begin; and the same place behind white space. -/
def Place.blank : Place → Place
  | .colon _ => .colon true
  | p => p

def Place.starts : Place → Bool
  | .item | .colon _ => true
  | _ => false

theorem starts_plain {p : Place} (h : p.starts = true) : p.plain = true := by
  cases p <;> first | rfl | simp [Place.starts] at h

theorem starts_blank {p : Place} (h : p.starts = true) : p.blank.starts = true := by
  cases p <;> first | rfl | simp [Place.starts] at h

theorem blank_blank (p : Place) : p.blank.blank = p.blank := by cases p <;> rfl

theorem opens_iff {o : Opts} {c : Byte} : opensComment o c = true ↔ o.comments = true ∧ c = SLASH := by
  simp [opensComment, SLASH, and_comm]

theorem lStart_comment {o : Opts} (hc : o.comments = true) (s : Bytes) : lStart o (SLASH :: SLASH :: s) 0 =
    match commentEnd o.newLines s with
    | none => .error .needMoreData
    | some k => lStart o (s.drop k) 0 := by
  simp only [lStart, hc, Bool.true_and, List.head?_cons, beq_self_eq_true, if_true, List.tail_cons]
  rcases commentEnd o.newLines s with _ | k
  · rfl
  · simp only; rw [Lax.lStart_drop]

theorem start_place (o : Opts) (st : List Ty) (s : Bytes) (b : Place) (hb : b.starts = true) :
    (match lStart o s 0 with
     | .error .needMoreData => ((∃ b', Spot.after o (b, st) s = (b', st) ∧ (s = [] ∧ b' = b ∨ s ≠ [] ∧ b' = b.blank)) ∨
         (Spot.after o (b, st) s).lost)
     | .error _ => True
     | .ok (_, r) => ((∃ b', Spot.after o (b, st) s = Spot.after o (b', st) r ∧ (b' = b ∨ b' = b.blank)) ∨
         (Spot.after o (b, st) s).isOff)) ∧
    (¬ (Spot.after o (b, st) s).lost → StartOk o s) := by
  induction hl : s.length using Nat.strongRecOn generalizing s b with
  | ind n ih =>
  rcases s with _ | ⟨c, s⟩
  · exact ⟨.inl ⟨b, rfl, .inl ⟨rfl, rfl⟩⟩, fun _ x => by simp [lStart]⟩
  -- going on behind white space or a comment
  have go (t : Bytes) (hlen : t.length < n) (hp : Spot.after o (b, st) (c :: s) = Spot.after o (b.blank, st) t)
      (hs : lStart o (c :: s) 0 = lStart o t 0) (hx : ∀ x, lStart o (c :: s ++ x) 0 = lStart o (t ++ x) 0) :
      (match lStart o (c :: s) 0 with
       | .error .needMoreData => ((∃ b', Spot.after o (b, st) (c :: s) = (b', st) ∧ ((c :: s) = [] ∧ b' = b ∨ (c :: s) ≠ [] ∧ b' = b.blank)) ∨
           (Spot.after o (b, st) (c :: s)).lost)
       | .error _ => True
       | .ok (_, r) => ((∃ b', Spot.after o (b, st) (c :: s) = Spot.after o (b', st) r ∧ (b' = b ∨ b' = b.blank)) ∨
           (Spot.after o (b, st) (c :: s)).isOff)) ∧
      (¬ (Spot.after o (b, st) (c :: s)).lost → StartOk o (c :: s)) := by
    obtain ⟨h1, h2⟩ := ih t.length hlen t b.blank (starts_blank hb) rfl
    rw [hp, hs]
    refine ⟨?_, fun h x => by rw [hx, h2 h x, hs]⟩
    revert h1
    rcases lStart o t 0 with e | ⟨ty, r⟩
    · cases e <;> first | exact fun _ => trivial | skip
      rintro (⟨b', g1, g2⟩ | h)
      · refine .inl ⟨b', g1, .inr ⟨by simp, ?_⟩⟩
        rcases g2 with ⟨-, g2⟩ | ⟨-, g2⟩
        · exact g2
        · rw [g2, blank_blank]
      · exact .inr h
    · rintro (⟨b', g1, g2⟩ | h)
      · refine .inl ⟨b', g1, .inr ?_⟩
        rw [blank_blank, or_self] at g2
        exact g2
      · exact .inr h
  -- a place where nothing is claimed
  have off (h : (Spot.after o (b, st) (c :: s)).isOff) :
      (match lStart o (c :: s) 0 with
       | .error .needMoreData => ((∃ b', Spot.after o (b, st) (c :: s) = (b', st) ∧ ((c :: s) = [] ∧ b' = b ∨ (c :: s) ≠ [] ∧ b' = b.blank)) ∨
           (Spot.after o (b, st) (c :: s)).lost)
       | .error _ => True
       | .ok (_, r) => ((∃ b', Spot.after o (b, st) (c :: s) = Spot.after o (b', st) r ∧ (b' = b ∨ b' = b.blank)) ∨
           (Spot.after o (b, st) (c :: s)).isOff)) ∧
      (¬ (Spot.after o (b, st) (c :: s)).lost → StartOk o (c :: s)) := by
    refine ⟨?_, fun h' => absurd (lost_of_off h) h'⟩
    rcases lStart o (c :: s) 0 with e | ⟨ty, r⟩
    · cases e <;> first | trivial | exact .inr (lost_of_off h)
    · exact .inr h
  by_cases hw : isWs c = true
  · have hn : Spot.next o (b, st) c = (b.blank, st) := by
      rw [next_plain o (starts_plain hb)]
      cases b <;> simp [Place.starts] at hb <;> simp only [Spot.step, hw, if_true, Place.blank]
    exact go s (by simp at hl; omega) (by rw [after_cons, hn]) (lStart_ws hw) (fun x => lStart_ws hw)
  · by_cases hc : o.comments = true ∧ c = SLASH
    · obtain ⟨hc, rfl⟩ := hc
      have hn : Spot.next o (b, st) SLASH = (.slash b.blank, st) := by
        rw [next_plain o (starts_plain hb)]
        have ho : opensComment o SLASH = true := opens_iff.2 ⟨hc, rfl⟩
        cases b <;> simp [Place.starts] at hb <;> simp only [Spot.step, hw, ho, if_true, if_false, Place.blank, Bool.false_eq_true]
      rcases s with _ | ⟨d, s⟩
      · have hlost : (Spot.after o (b, st) [SLASH]).lost := by rw [after_cons, hn]; trivial
        have h1 : lStart o [SLASH] 0 = .error .needMoreData := by
          obtain ⟨f1, f2, f3, f4, f5, f6, f7, f8, f9, f10, f11, f12⟩ := slash_facts
          simp [lStart, f1, f2, f3, f4, f5, f9, f10, f11]
        rw [h1]
        exact ⟨.inr hlost, fun h => absurd hlost h⟩
      · by_cases hd : d = SLASH
        · subst hd
          have hp : Spot.after o (b, st) (SLASH :: SLASH :: s) = Spot.after o (.comment b.blank, st) s := by
            rw [after_cons, hn, after_cons]; rfl
          have hcp := comment_place o (starts_plain (starts_blank hb)) st s
          rcases hk : commentEnd o.newLines s with _ | k
          · rw [hk] at hcp
            have hlost : (Spot.after o (b, st) (SLASH :: SLASH :: s)).lost := by rw [hp, hcp]; trivial
            rw [lStart_comment hc, hk]
            exact ⟨.inr hlost, fun h => absurd hlost h⟩
          · rw [hk] at hcp
            refine go (s.drop k) (by simp at hl ⊢; omega) (by rw [hp, hcp]) (by rw [lStart_comment hc, hk]) (fun x => ?_)
            rw [List.cons_append, List.cons_append, lStart_comment hc, (commentEnd_append hk x).1]
            simp only
            rw [List.drop_append_of_le_length (commentEnd_append hk x).2]
        · refine off ?_
          rw [after_cons, hn, after_cons]
          refine off_after ?_ s
          simp only [Spot.next]
          rw [if_neg hd]
          rfl
    · have ho : opensComment o c = false := by
        rw [← Bool.not_eq_true, opens_iff]; exact hc
      rcases lStart_nonws o c hc with ⟨ty, h⟩ | ⟨e, he, h⟩ | ⟨h1, h2, h3, h4, h5, h6, h7⟩
      · refine ⟨?_, fun _ => startOk_ok (h s)⟩
        rw [h]; exact .inl ⟨b, rfl, .inl rfl⟩
      · refine ⟨?_, fun _ x => ?_⟩
        · rw [h]; cases e <;> first | trivial | exact absurd rfl he
        · rw [List.cons_append, h, h]; cases e <;> first | rfl | exact absurd rfl he
      · refine off ?_
        rw [after_cons, next_plain o (starts_plain hb)]
        refine off_after ?_ s
        cases b <;> simp [Place.starts] at hb
        · simp only [Spot.step, hw, ho, Bool.false_eq_true, if_false]
          rw [if_neg (by rintro (h | h); exacts [h3 h, h5 h])]
          exact start_off h1 h2 h4 h6 h7
        · simp only [Spot.step, hw, ho, Bool.false_eq_true, if_false]
          exact start_off h1 h2 h4 h6 h7

theorem start_item (o : Opts) (st : List Ty) (s : Bytes) :
    match lStart o s 0 with
    | .error .needMoreData => Spot.after o (.item, st) s = (.item, st) ∨ (Spot.after o (.item, st) s).lost
    | .error _ => True
    | .ok (_, r) => Spot.after o (.item, st) s = Spot.after o (.item, st) r ∨ (Spot.after o (.item, st) s).isOff := by
  have := (start_place o st s .item rfl).1
  revert this
  rcases lStart o s 0 with e | ⟨ty, r⟩
  · cases e <;> first | exact fun _ => trivial | skip
    rintro (⟨b', h, h'⟩ | h)
    · have : b' = .item := by rcases h' with h' | h' <;> exact h'.2
      subst this
      exact .inl h
    · exact .inr h
  · rintro (⟨b', h, h'⟩ | h)
    · have : b' = .item := by rcases h' with h' | h' <;> exact h'
      subst this
      exact .inl h
    · exact .inr h

theorem start_colon (o : Opts) (a : Bool) (st : List Ty) (s : Bytes) :
    match lStart o s 0 with
    | .error .needMoreData => (∃ a', Spot.after o (.colon a, st) s = (.colon a', st) ∧ (a' = true → a = true ∨ s ≠ [])) ∨
        (Spot.after o (.colon a, st) s).lost
    | .error _ => True
    | .ok (_, r) => (∃ a', Spot.after o (.colon a, st) s = Spot.after o (.colon a', st) r) ∨ (Spot.after o (.colon a, st) s).isOff := by
  have := (start_place o st s (.colon a) rfl).1
  revert this
  rcases lStart o s 0 with e | ⟨ty, r⟩
  · cases e <;> first | exact fun _ => trivial | skip
    rintro (⟨b', h, ⟨-, rfl⟩ | ⟨h', rfl⟩⟩ | h)
    · exact .inl ⟨a, h, .inl⟩
    · exact .inl ⟨true, h, fun _ => .inr h'⟩
    · exact .inr h
  · rintro (⟨b', h, rfl | rfl⟩ | h)
    · exact .inl ⟨a, h⟩
    · exact .inl ⟨true, h⟩
    · exact .inr h

/-- What `lStart` stops at. -/
theorem lStart_head {o : Opts} {s r : Bytes} {ty : Ty} (h : lStart o s 0 = .ok (ty, r)) :
    ∃ c cs, r = c :: cs ∧ (0 ∉ s → 0 ∉ cs) ∧
      ((ty = .string ∧ c = QUOTE) ∨ (ty = .objectStart ∧ c = LBRACE) ∨ (ty = .objectEnd ∧ c = RBRACE) ∨
       (ty = .arrayStart ∧ c = LBRACK) ∨ (ty = .arrayEnd ∧ c = RBRACK) ∨
       (ty = .number ∧ c ≠ QUOTE ∧ c ≠ LBRACE ∧ c ≠ LBRACK ∧ has c (flPlusMinus ||| flDigits) = true) ∨
       (ty = .ascii ∧ c ≠ QUOTE ∧ c ≠ LBRACE ∧ c ≠ LBRACK ∧ has c (flPlusMinus ||| flDigits) = false ∧ has c flAscii = true)) := by
  have key : ∀ k, lStart o s k = .ok (ty, r) →
    ∃ c cs, r = c :: cs ∧ (0 ∉ s → 0 ∉ cs) ∧
      ((ty = .string ∧ c = QUOTE) ∨ (ty = .objectStart ∧ c = LBRACE) ∨ (ty = .objectEnd ∧ c = RBRACE) ∨
       (ty = .arrayStart ∧ c = LBRACK) ∨ (ty = .arrayEnd ∧ c = RBRACK) ∨
       (ty = .number ∧ c ≠ QUOTE ∧ c ≠ LBRACE ∧ c ≠ LBRACK ∧ has c (flPlusMinus ||| flDigits) = true) ∨
       (ty = .ascii ∧ c ≠ QUOTE ∧ c ≠ LBRACE ∧ c ≠ LBRACK ∧ has c (flPlusMinus ||| flDigits) = false ∧ has c flAscii = true)) := by
    clear h
    induction s with
    | nil => intro k h; simp [lStart] at h
    | cons c s ih =>
      intro k h
      have h0 : 0 ∉ c :: s → 0 ∉ s := fun h hh => h (by simp [hh])
      have next (k : Nat) (h : lStart o s k = .ok (ty, r)) := ih k h
      have up {P : Byte → Prop} (h : ∃ c' cs, r = c' :: cs ∧ (0 ∉ s → 0 ∉ cs) ∧ P c') : ∃ c' cs, r = c' :: cs ∧ (0 ∉ c :: s → 0 ∉ cs) ∧ P c' := by
        obtain ⟨c', cs, h1, h2, h3⟩ := h
        exact ⟨c', cs, h1, fun hh => h2 (h0 hh), h3⟩
      cases k with
      | succ k => rw [lStart] at h; exact up (next k h)
      | zero =>
        simp only [lStart] at h
        repeat' split at h
        all_goals first
          | (simp only [Except.ok.injEq, Prod.mk.injEq] at h; obtain ⟨rfl, rfl⟩ := h
             exact ⟨c, s, rfl, h0, by simp_all⟩)
          | (simp at h; done)
          | exact up (next _ h)
  exact key 0 h

/-- The place behind the first byte of a value. -/
theorem start_long {ty : Ty} {c : Byte} {v : Bool} {st : List Ty}
    (h : (ty = .string ∧ c = QUOTE) ∨
       (ty = .number ∧ c ≠ QUOTE ∧ c ≠ LBRACE ∧ c ≠ LBRACK ∧ has c (flPlusMinus ||| flDigits) = true) ∨
       (ty = .ascii ∧ c ≠ QUOTE ∧ c ≠ LBRACE ∧ c ≠ LBRACK ∧ has c (flPlusMinus ||| flDigits) = false ∧ has c flAscii = true)) :
    Spot.start v st c = (inside ty v false, st) ∨ (Spot.start v st c).isOff := by
  rcases h with ⟨rfl, rfl⟩ | ⟨rfl, h1, h2, h3, h4⟩ | ⟨rfl, h1, h2, h3, h4, h5⟩
  · exact .inl rfl
  · have hl : letter c = false :=
      forall_byte (p := fun c => has c (flPlusMinus ||| flDigits) = true → letter c = false) (by decide +kernel) c h4
    unfold Spot.start
    rw [if_neg h1, if_neg h2, if_neg h3, hl]
    cases numberStart c
    · exact .inr rfl
    · exact .inl rfl
  · have hl : numberStart c = false := by
      by_contra hh; rw [numberStart_has c (by simpa using hh)] at h4; simp at h4
    unfold Spot.start
    rw [if_neg h1, if_neg h2, if_neg h3, hl]
    cases letter c
    · exact .inr rfl
    · exact .inl rfl

/-! ### The machine -/

/-- Where the state stands. -/
def LC.spot (c : LC) : Spot := if c.te then Spot.closed c.stack else (.item, c.stack)

/-- The machine stopped at the place `p`. -/
def Susp.At (p : Spot) : Susp → Prop
  | .tokEnd x => p = Spot.closed x.stack
  | .name x => p = (.item, x.stack)
  | .inName x ty _ esc => ty.isLong ∧ (ty ≠ .string → esc = false) ∧ p = (inside ty false esc, x.stack)
  | .delim x _ nty saved => ∃ a, p = (.behind (nty == .string) a, x.stack) ∧ (a = true → saved = true)
  | .data x _ _ saved => x.stack ≠ [] ∧ ∃ a, p = (.colon a, x.stack) ∧ (a = true → saved = true)
  | .inData x _ _ ty _ esc => x.stack ≠ [] ∧ ty.isLong ∧ (ty ≠ .string → esc = false) ∧ p = (inside ty true esc, x.stack)

/-- `q` is the place behind a buffer with the result `r`. -/
def Tracks (o : Opts) (q : Spot) (r : SRes) : Prop :=
  q.lost ∨ match r with
    | .more s => s.At q
    | .err _ => True
    | .done c k => ∀ c' k', lFin (.ok (c, k)) = .ok (c', k') → q = c'.spot.after o c'.rest

theorem Tracks.err (o : Opts) (q : Spot) (e : Err) : Tracks o q (.err e) := .inr trivial

theorem getType_long {ty : Ty} (h : ty.isLong) (d : Bytes) :
    (getType ty d == .string) = (ty == .string) ∧ getType ty d ≠ .objectStart ∧ getType ty d ≠ .objectEnd ∧
    getType ty d ≠ .arrayStart ∧ getType ty d ≠ .arrayEnd := by
  rcases h with rfl | rfl | rfl
  · simp [getType]
  · simp [getType]
  · simp only [getType]; repeat' split
    all_goals (first | (simp; done) | simp_all)

theorem lFin_plain {c : LC} {k : Tok} (h1 : k.valueType ≠ .objectStart) (h2 : k.valueType ≠ .objectEnd)
    (h3 : k.valueType ≠ .arrayStart) (h4 : k.valueType ≠ .arrayEnd) : lFin (.ok (c, k)) = .ok (c, k) := by
  unfold lFin
  simp only [h1, h2, h3, h4]

theorem valEnd_esc {ty : Ty} {esc e : Bool} {s : Bytes} (h : valEnd ty esc s = .inr e) (hs : ty ≠ .string) : e = false := by
  unfold valEnd at h
  split at h
  · exact absurd rfl hs
  · split at h <;> simp at h
    exact h
  · split at h <;> simp at h
    exact h

theorem sDataEnd_at (o : Opts) (x : LX) (nm : Bytes) (nty ty : Ty) (acc : Bytes) (esc : Bool) (s : Bytes) (h0 : 0 ∉ s)
    (hty : ty.isLong) (hx : x.stack ≠ []) :
    Tracks o (Spot.after o (inside ty true esc, x.stack) s) (sDataEnd o x nm nty ty acc esc s) := by
  have := place_end o ty hty true esc x.stack s h0
  unfold sDataEnd
  revert this
  rcases hv : valEnd ty esc s with ⟨k, j⟩ | e
  · rintro (h | h)
    · simp only
      unfold dataDone
      split
      · exact .err _ _ _
      · refine .inr ?_
        intro c' k' hf
        obtain ⟨-, g1, g2, g3, g4⟩ := getType_long hty (acc ++ s.take k)
        rw [lFin_plain g1 g2 g3 g4] at hf
        simp only [Except.ok.injEq, Prod.mk.injEq] at hf
        obtain ⟨rfl, -⟩ := hf
        have ht : (!(ty == .objectStart || ty == .arrayStart)) = true := by rcases hty with rfl | rfl | rfl <;> rfl
        simp only [LC.spot, ht, if_true]
        rw [h]
        simp [Spot.closed, hx, fin]
    · exact .inl (lost_of_off h)
  · rintro (h | h)
    · exact .inr ⟨hx, hty, valEnd_esc hv, h⟩
    · exact .inl (lost_of_off h)

theorem sData_at (o : Opts) (x : LX) (nm : Bytes) (nty : Ty) (saved : Bool) (s : Bytes) (h0 : 0 ∉ s)
    (a : Bool) (ha : a = true → saved = true) (hx : x.stack ≠ []) :
    Tracks o (Spot.after o (.colon a, x.stack) s) (sData o x nm nty saved s) := by
  unfold sData
  by_cases he : s.isEmpty = true
  · simp only [he, if_true]
    rw [List.isEmpty_iff] at he
    subst he
    exact .inr ⟨hx, a, rfl, ha⟩
  · simp only [he, if_false, Bool.false_eq_true]
    have := start_colon o a x.stack s
    cases hs : lStart o s 0 with
    | error e =>
      rw [hs] at this
      cases e <;> first | exact .err _ _ _ | skip
      rcases this with ⟨a', h, -⟩ | h
      · exact .inr ⟨hx, a', h, fun _ => rfl⟩
      · exact .inl h
    | ok y =>
      obtain ⟨ty, r⟩ := y
      rw [hs] at this
      obtain ⟨c, cs, rfl, hz, hh⟩ := lStart_head hs
      rcases this with ⟨a', h⟩ | h
      swap
      · exact .inl (lost_of_off h)
      rw [h, after_cons]
      have hns : isWs c = false := by
        by_contra hw
        rw [Bool.not_eq_false] at hw
        obtain ⟨h1, h2, h3, h4, h5, h6, h7, h8, h9, h10, h11⟩ := ws_skips c hw
        simp_all
      have hno : opensComment o c = false := by
        by_contra hw
        rw [Bool.not_eq_false, opens_iff] at hw
        obtain ⟨f1, f2, f3, f4, f5, f6, f7, f8, f9, f10, f11, f12⟩ := slash_facts
        simp_all
      have hn : Spot.next o (.colon a', x.stack) c = Spot.start true x.stack c := by
        simp only [Spot.next, Spot.step, hns, hno, Bool.false_eq_true, if_false]
      rw [hn]
      simp only [List.tail_cons]
      have long (hb : ty.isBracket = false) (hl : ty.isLong) (hst : Spot.start true x.stack c = (inside ty true false, x.stack) ∨ (Spot.start true x.stack c).isOff) :
          Tracks o ((Spot.start true x.stack c).after o cs)
          (if ty.isBracket = true then dataDone o x nm nty ty (List.take 1 (c :: cs)) cs
           else sDataEnd o x nm nty ty (lead ty (c :: cs)) false cs) := by
        simp only [hb, Bool.false_eq_true, if_false]
        rcases hst with hst | hst
        · rw [hst]
          exact sDataEnd_at o x nm nty ty _ false cs (hz h0) hl hx
        · exact .inl (lost_of_off (off_after hst cs))
      rcases hh with hh | ⟨rfl, rfl⟩ | ⟨rfl, rfl⟩ | ⟨rfl, rfl⟩ | ⟨rfl, rfl⟩ | hh | hh
      · exact long (by rw [hh.1]; rfl) (.inl hh.1) (start_long (.inl hh))
      · refine .inr ?_
        intro c' k' hf
        simp only [lFin, getType, Except.ok.injEq, Prod.mk.injEq] at hf
        obtain ⟨rfl, -⟩ := hf
        rfl
      · exact .inl (lost_of_off (off_after (p := (.off, x.stack)) rfl cs))
      · refine .inr ?_
        intro c' k' hf
        simp only [lFin, getType, Except.ok.injEq, Prod.mk.injEq] at hf
        obtain ⟨rfl, -⟩ := hf
        rfl
      · exact .inl (lost_of_off (off_after (p := (.off, x.stack)) rfl cs))
      · exact long (by rw [hh.1]; rfl) (.inr (.inl hh.1)) (start_long (.inr (.inl hh)))
      · exact long (by rw [hh.1]; rfl) (.inr (.inr hh.1)) (start_long (.inr (.inr hh)))

theorem ws_only (c : Byte) (h : has c flWs = true) (h0 : c ≠ 0) : isWs c = true :=
  forall_byte (p := fun c => has c flWs = true → c ≠ 0 → isWs c = true) (by decide +kernel) c h h0

theorem lDelim_comment {o : Opts} (ct : Ty) (hc : o.comments = true) (s : Bytes) : lDelim o ct (SLASH :: SLASH :: s) 0 =
    match commentEnd o.newLines s with
    | none => .error .needMoreData
    | some k => lDelim o ct (s.drop k) 0 := by
  simp only [lDelim, hc, Bool.true_and, List.head?_cons, beq_self_eq_true, if_true, List.tail_cons]
  rcases commentEnd o.newLines s with _ | k
  · rfl
  · simp only; rw [Lax.lDelim_drop]

theorem lTokEnd_comment {o : Opts} (hc : o.comments = true) (s : Bytes) : lTokEnd o (SLASH :: SLASH :: s) 0 =
    match commentEnd o.newLines s with
    | none => .error .needMoreData
    | some k => lTokEnd o (s.drop k) 0 := by
  simp only [lTokEnd, hc, Bool.true_and, List.head?_cons, beq_self_eq_true, if_true, List.tail_cons]
  rcases commentEnd o.newLines s with _ | k
  · rfl
  · simp only; rw [Lax.lTokEnd_drop]

theorem ends_iff {o : Opts} {c : Byte} : endsLine o c = true ↔ o.newLines = true ∧ c = LF := by
  simp [endsLine, LF, and_comm]

theorem lDelim_nonws (o : Opts) (ct : Ty) (c : Byte) (hz : c ≠ 0) (hc : ¬ (o.comments = true ∧ c = SLASH)) (hw : isWs c = true → o.newLines = true ∧ c = LF) :
    (∃ e, e ≠ Err.needMoreData ∧ ∀ s, lDelim o ct (c :: s) 0 = .error e) ∨
    (c = COLON ∧ ct = .objectStart ∧ ∀ s, lDelim o ct (c :: s) 0 = .ok (true, s)) ∨
    ((c = COMMA ∨ o.newLines = true ∧ c = LF) ∧ ct = .arrayStart ∧ ∀ s, lDelim o ct (c :: s) 0 = .ok (false, s)) ∨
    (c = RBRACK ∧ ct = .arrayStart ∧ ∀ s, lDelim o ct (c :: s) 0 = .ok (false, c :: s)) := by
  have hz' : (o.comments && c == SLASH) = false := by
    cases h1 : o.comments
    · rfl
    · have : c ≠ SLASH := fun h => hc ⟨h1, h⟩
      simpa using this
  simp only [lDelim, hz', Bool.false_and, Bool.false_eq_true, if_false]
  by_cases h1 : c = COLON
  · by_cases h2 : ct = .objectStart
    · exact .inr (.inl ⟨h1, h2, fun s => by rw [if_pos h1, if_neg (by simpa using h2)]⟩)
    · exact .inl ⟨.expectedDelimiter, by simp, fun s => by rw [if_pos h1, if_pos h2]⟩
  by_cases h3 : c = COMMA ∨ (o.newLines = true ∧ c = LF)
  · by_cases h2 : ct = .arrayStart
    · exact .inr (.inr (.inl ⟨h3, h2, fun s => by rw [if_neg h1, if_pos h3, if_neg (by simpa using h2)]⟩))
    · exact .inl ⟨.expectedDelimiter, by simp, fun s => by rw [if_neg h1, if_pos h3, if_pos h2]⟩
  by_cases h4 : c = RBRACK
  · by_cases h2 : ct = .arrayStart
    · exact .inr (.inr (.inr ⟨h4, h2, fun s => by rw [if_neg h1, if_neg h3, if_pos h4, if_neg (by simpa using h2)]⟩))
    · exact .inl ⟨.expectedDelimiter, by simp, fun s => by rw [if_neg h1, if_neg h3, if_pos h4, if_pos h2]⟩
  by_cases h5 : has c flWs = true
  · exact absurd (.inr (hw (ws_only c h5 hz))) h3
  · exact .inl ⟨.expectedDelimiter, by simp, fun s => by rw [if_neg h1, if_neg h3, if_neg h4, if_pos (by simpa using h5)]⟩

theorem lDelim_ws {o : Opts} (ct : Ty) {c : Byte} (hw : isWs c = true) (hn : ¬ (o.newLines = true ∧ c = LF)) (s : Bytes) :
    lDelim o ct (c :: s) 0 = lDelim o ct s 0 := by
  obtain ⟨h1, h2, h3, h4, h5, h6, h7, h8, h9, h10, h11⟩ := ws_skips c hw
  simp only [lDelim, ws_no_slash hw, h5, h6, h7, h11, hn, Bool.and_false, Bool.false_and, Bool.false_eq_true, if_false, or_false, Bool.not_true]

theorem lTokEnd_ws {o : Opts} {c : Byte} (hw : isWs c = true) (hn : ¬ (o.newLines = true ∧ c = LF)) (s : Bytes) :
    lTokEnd o (c :: s) 0 = lTokEnd o s 0 := by
  obtain ⟨h1, h2, h3, h4, h5, h6, h7, h8, h9, h10, h11⟩ := ws_skips c hw
  simp only [lTokEnd, ws_no_slash hw, h3, h5, h7, h11, Bool.and_false, Bool.false_and, Bool.false_eq_true, if_false, or_false, if_true]
  by_cases h : c = LF
  · have : o.newLines = false := by
      cases hl : o.newLines
      · rfl
      · exact absurd ⟨hl, h⟩ hn
    simp [this]
  · simp [h]

theorem lTokEnd_nonws (o : Opts) (c : Byte) (hz : c ≠ 0) (hc : ¬ (o.comments = true ∧ c = SLASH)) (hw : isWs c = true → o.newLines = true ∧ c = LF) :
    (∀ s, lTokEnd o (c :: s) 0 = .error .invalidToken) ∨
    (c = COMMA ∧ ∀ s, lTokEnd o (c :: s) 0 = .ok (true, s)) ∨
    (o.newLines = true ∧ c = LF ∧ ∀ s, lTokEnd o (c :: s) 0 = .ok (false, s)) ∨
    ((c = RBRACK ∨ c = RBRACE) ∧ ∀ s, lTokEnd o (c :: s) 0 = .ok (false, c :: s)) := by
  have hz' : (o.comments && c == SLASH) = false := by
    cases h1 : o.comments
    · rfl
    · have : c ≠ SLASH := fun h => hc ⟨h1, h⟩
      simpa using this
  simp only [lTokEnd, hz', Bool.false_and, Bool.false_eq_true, if_false]
  by_cases h1 : c = COMMA
  · exact .inr (.inl ⟨h1, fun s => by rw [if_pos h1]⟩)
  by_cases h2 : c = RBRACK ∨ c = RBRACE
  · exact .inr (.inr (.inr ⟨h2, fun s => by rw [if_neg h1, if_pos h2]⟩))
  by_cases h3 : c = LF
  · have hn := (hw (by rw [h3]; decide)).1
    exact .inr (.inr (.inl ⟨hn, h3, fun s => by rw [if_neg h1, if_neg h2, if_pos h3, if_pos hn]⟩))
  by_cases h5 : has c flWs = true
  · exact absurd (hw (ws_only c h5 hz)).2 h3
  · exact .inl (fun s => by rw [if_neg h1, if_neg h2, if_neg h3, if_neg h5])

def DelimAt (o : Opts) (q a : Bool) (ct : Ty) (st : List Ty) (s : Bytes) : Prop :=
    (match lDelim o ct s 0 with
    | .error .needMoreData => (∃ a', Spot.after o (.behind q a, ct :: st) s = (.behind q a', ct :: st)) ∨
        (Spot.after o (.behind q a, ct :: st) s).lost
    | .error _ => True
    | .ok (b, r) => 0 ∉ r ∧ (b = true → ct = .objectStart) ∧
       (Spot.after o (.behind q a, ct :: st) s = Spot.after o (if b then .colon false else .item, ct :: st) r ∨
        (Spot.after o (.behind q a, ct :: st) s).isOff)) ∧
    (¬ (Spot.after o (.behind q a, ct :: st) s).lost → DelimOk o ct s)

theorem delim_place (o : Opts) (q a : Bool) (ct : Ty) (st : List Ty) (s : Bytes) (h0 : 0 ∉ s) : DelimAt o q a ct st s := by
  induction hl : s.length using Nat.strongRecOn generalizing s a with
  | ind n ih =>
  rcases s with _ | ⟨c, s⟩
  · exact ⟨.inl ⟨a, rfl⟩, fun _ x => by simp [lDelim]⟩
  have hz : c ≠ 0 := fun h => h0 (by simp [h])
  have h0' : 0 ∉ s := fun h => h0 (by simp [h])
  have go (t : Bytes) (hlen : t.length < n) (ht : 0 ∉ t) (hp : Spot.after o (.behind q a, ct :: st) (c :: s) = Spot.after o (.behind q true, ct :: st) t)
      (hs : lDelim o ct (c :: s) 0 = lDelim o ct t 0) (hx : ∀ x, lDelim o ct (c :: s ++ x) 0 = lDelim o ct (t ++ x) 0) :
      DelimAt o q a ct st (c :: s) := by
    obtain ⟨h1, h2⟩ := ih t.length hlen true t ht rfl
    unfold DelimAt
    rw [hp, hs]
    exact ⟨h1, fun h x => by rw [hx, h2 h x, hs]⟩
  have off (h : (Spot.after o (.behind q a, ct :: st) (c :: s)).isOff) (hr : ∀ b r, lDelim o ct (c :: s) 0 ≠ .ok (b, r)) :
      DelimAt o q a ct st (c :: s) := by
    refine ⟨?_, fun h' => absurd (lost_of_off h) h'⟩
    rcases hd : lDelim o ct (c :: s) 0 with e | ⟨b, r⟩
    · cases e <;> first | trivial | exact .inr (lost_of_off h)
    · exact absurd hd (hr b r)
  by_cases hw : isWs c = true ∧ ¬ (o.newLines = true ∧ c = LF)
  · have he : endsLine o c = false := by rw [← Bool.not_eq_true, ends_iff]; exact hw.2
    have hn : Spot.next o (.behind q a, ct :: st) c = (.behind q true, ct :: st) := by
      simp only [Spot.next, Spot.step, Spot.separate, he, hw.1, if_true, if_false, Bool.false_eq_true]
    exact go s (by simp at hl; omega) h0' (by rw [after_cons, hn]) (lDelim_ws ct hw.1 hw.2 s) (fun x => lDelim_ws ct hw.1 hw.2 _)
  have hw' : isWs c = true → o.newLines = true ∧ c = LF := fun h => by
    by_contra h'
    exact hw ⟨h, h'⟩
  by_cases hc : o.comments = true ∧ c = SLASH
  · obtain ⟨hc, rfl⟩ := hc
    have he : endsLine o SLASH = false := by simp [endsLine, SLASH]
    have hws : isWs SLASH = false := by decide
    have ho : opensComment o SLASH = true := opens_iff.2 ⟨hc, rfl⟩
    have hn : Spot.next o (.behind q a, ct :: st) SLASH = (.slash (.behind q true), ct :: st) := by
      simp only [Spot.next, Spot.step, Spot.separate, he, hws, ho, if_true, if_false, Bool.false_eq_true]
    obtain ⟨f1, f2, f3, f4, f5, f6, f7, f8, f9, f10, f11, f12⟩ := slash_facts
    have herr (s : Bytes) (hs : s.head? ≠ some SLASH) : lDelim o ct (SLASH :: s) 0 = .error .expectedDelimiter := by
      simp only [lDelim]
      rw [if_neg (by simp [hs]), if_neg f6, if_neg (by simp [f7, f8]), if_neg f5, if_pos (by simp [f12])]
    rcases s with _ | ⟨d, s⟩
    · have hlost : (Spot.after o (.behind q a, ct :: st) [SLASH]).lost := by rw [after_cons, hn]; trivial
      unfold DelimAt
      rw [herr [] (by simp)]
      exact ⟨trivial, fun h => absurd hlost h⟩
    · by_cases hd : d = SLASH
      · subst hd
        have hp : Spot.after o (.behind q a, ct :: st) (SLASH :: SLASH :: s) = Spot.after o (.comment (.behind q true), ct :: st) s := by
          rw [after_cons, hn, after_cons]; rfl
        have hcp := comment_place o (b := .behind q true) rfl (ct :: st) s
        rcases hk : commentEnd o.newLines s with _ | k
        · rw [hk] at hcp
          have hlost : (Spot.after o (.behind q a, ct :: st) (SLASH :: SLASH :: s)).lost := by rw [hp, hcp]; trivial
          unfold DelimAt
          rw [lDelim_comment ct hc, hk]
          exact ⟨.inr hlost, fun h => absurd hlost h⟩
        · rw [hk] at hcp
          refine go (s.drop k) (by simp at hl ⊢; omega) (fun h => h0 (by simp [List.mem_of_mem_drop h])) (by rw [hp, hcp]) (by rw [lDelim_comment ct hc, hk]) (fun x => ?_)
          rw [List.cons_append, List.cons_append, lDelim_comment ct hc, (commentEnd_append hk x).1]
          simp only
          rw [List.drop_append_of_le_length (commentEnd_append hk x).2]
      · refine off ?_ (fun b r => by rw [herr _ (by simpa using hd)]; simp)
        rw [after_cons, hn, after_cons]
        refine off_after ?_ s
        simp only [Spot.next]
        rw [if_neg hd]
        rfl
  · have ho : opensComment o c = false := by rw [← Bool.not_eq_true, opens_iff]; exact hc
    have hok {n : Bool} {r : Bytes} (h : lDelim o ct (c :: s) 0 = .ok (n, r)) (h1 : 0 ∉ r) (h2 : n = true → ct = .objectStart)
        (h3 : Spot.after o (.behind q a, ct :: st) (c :: s) = Spot.after o (if n then .colon false else .item, ct :: st) r) :
        DelimAt o q a ct st (c :: s) := by
      unfold DelimAt
      rw [h]
      exact ⟨⟨h1, h2, .inl h3⟩, fun _ => delimOk_ok h⟩
    rcases lDelim_nonws o ct c hz hc hw' with ⟨e, he, h⟩ | ⟨rfl, rfl, h⟩ | ⟨h', rfl, h⟩ | ⟨rfl, rfl, h⟩
    · unfold DelimAt
      rw [h]
      refine ⟨by cases e <;> first | trivial | exact absurd rfl he, fun _ x => ?_⟩
      rw [List.cons_append, h, h]; cases e <;> first | rfl | exact absurd rfl he
    · refine hok (h s) h0' (fun _ => rfl) ?_
      have he : endsLine o COLON = false := by simp [endsLine, COLON]
      have hws : isWs COLON = false := by decide
      rw [after_cons]
      simp only [Spot.next, Spot.step, Spot.separate, he, hws, ho, Bool.false_eq_true, if_false, if_true]
    · refine hok (h s) h0' (by simp) ?_
      rw [after_cons]
      rcases h' with rfl | h'
      · have he : endsLine o COMMA = false := by simp [endsLine, COMMA]
        have hws : isWs COMMA = false := by decide
        simp only [Spot.next, Spot.step, Spot.separate, he, hws, ho, Bool.false_eq_true, if_false, if_true]
      · have he : endsLine o c = true := ends_iff.2 h'
        simp only [Spot.next, Spot.step, Spot.separate, he, if_true, List.head?_cons]
        rfl
    · refine hok (h s) h0 (by simp) ?_
      have he : endsLine o RBRACK = false := by simp [endsLine, RBRACK]
      have hws : isWs RBRACK = false := by decide
      rw [after_cons, after_cons]
      simp only [Spot.next, Spot.step, Spot.separate, he, hws, ho, Bool.false_eq_true, if_false, if_true]
      rfl

def TokEndAt (o : Opts) (st : List Ty) (s : Bytes) : Prop :=
    (match lTokEnd o s 0 with
    | .error .needMoreData => Spot.after o (.done, st) s = (.done, st) ∨ (Spot.after o (.done, st) s).lost
    | .error _ => True
    | .ok (_, r) => 0 ∉ r ∧ Spot.after o (.done, st) s = Spot.after o (.item, st) r) ∧
    (¬ (Spot.after o (.done, st) s).lost → TokEndOk o s)

theorem tokEnd_place (o : Opts) (st : List Ty) (s : Bytes) (h0 : 0 ∉ s) : TokEndAt o st s := by
  induction hl : s.length using Nat.strongRecOn generalizing s with
  | ind n ih =>
  rcases s with _ | ⟨c, s⟩
  · exact ⟨.inl rfl, fun _ x => by simp [lTokEnd]⟩
  have hz : c ≠ 0 := fun h => h0 (by simp [h])
  have h0' : 0 ∉ s := fun h => h0 (by simp [h])
  have go (t : Bytes) (hlen : t.length < n) (ht : 0 ∉ t) (hp : Spot.after o (.done, st) (c :: s) = Spot.after o (.done, st) t)
      (hs : lTokEnd o (c :: s) 0 = lTokEnd o t 0) (hx : ∀ x, lTokEnd o (c :: s ++ x) 0 = lTokEnd o (t ++ x) 0) :
      TokEndAt o st (c :: s) := by
    obtain ⟨h1, h2⟩ := ih t.length hlen t ht rfl
    unfold TokEndAt
    rw [hp, hs]
    exact ⟨h1, fun h x => by rw [hx, h2 h x, hs]⟩
  by_cases hw : isWs c = true ∧ ¬ (o.newLines = true ∧ c = LF)
  · have he : endsLine o c = false := by rw [← Bool.not_eq_true, ends_iff]; exact hw.2
    have hn : Spot.next o (.done, st) c = (.done, st) := by
      simp only [Spot.next, Spot.step, Spot.finish, he, hw.1, if_true, if_false, Bool.false_eq_true]
    exact go s (by simp at hl; omega) h0' (by rw [after_cons, hn]) (lTokEnd_ws hw.1 hw.2 s) (fun x => lTokEnd_ws hw.1 hw.2 _)
  have hw' : isWs c = true → o.newLines = true ∧ c = LF := fun h => by
    by_contra h'
    exact hw ⟨h, h'⟩
  by_cases hc : o.comments = true ∧ c = SLASH
  · obtain ⟨hc, rfl⟩ := hc
    have he : endsLine o SLASH = false := by simp [endsLine, SLASH]
    have hws : isWs SLASH = false := by decide
    have ho : opensComment o SLASH = true := opens_iff.2 ⟨hc, rfl⟩
    have hn : Spot.next o (.done, st) SLASH = (.slash .done, st) := by
      simp only [Spot.next, Spot.step, Spot.finish, he, hws, ho, if_true, if_false, Bool.false_eq_true]
    obtain ⟨f1, f2, f3, f4, f5, f6, f7, f8, f9, f10, f11, f12⟩ := slash_facts
    have herr (s : Bytes) (hs : s.head? ≠ some SLASH) : lTokEnd o (SLASH :: s) 0 = .error .invalidToken := by
      simp only [lTokEnd]
      rw [if_neg (by simp [hs]), if_neg f7, if_neg (by simp [f5, f3]), if_neg f8, if_neg (by simp [f12])]
    rcases s with _ | ⟨d, s⟩
    · have hlost : (Spot.after o (.done, st) [SLASH]).lost := by rw [after_cons, hn]; trivial
      unfold TokEndAt
      rw [herr [] (by simp)]
      exact ⟨trivial, fun h => absurd hlost h⟩
    · by_cases hd : d = SLASH
      · subst hd
        have hp : Spot.after o (.done, st) (SLASH :: SLASH :: s) = Spot.after o (.comment .done, st) s := by
          rw [after_cons, hn, after_cons]; rfl
        have hcp := comment_place o (b := .done) rfl st s
        rcases hk : commentEnd o.newLines s with _ | k
        · rw [hk] at hcp
          have hlost : (Spot.after o (.done, st) (SLASH :: SLASH :: s)).lost := by rw [hp, hcp]; trivial
          unfold TokEndAt
          rw [lTokEnd_comment hc, hk]
          exact ⟨.inr hlost, fun h => absurd hlost h⟩
        · rw [hk] at hcp
          refine go (s.drop k) (by simp at hl ⊢; omega) (fun h => h0 (by simp [List.mem_of_mem_drop h])) (by rw [hp, hcp]) (by rw [lTokEnd_comment hc, hk]) (fun x => ?_)
          rw [List.cons_append, List.cons_append, lTokEnd_comment hc, (commentEnd_append hk x).1]
          simp only
          rw [List.drop_append_of_le_length (commentEnd_append hk x).2]
      · have hoff : (Spot.after o (.done, st) (SLASH :: d :: s)).isOff := by
          rw [after_cons, hn, after_cons]
          refine off_after ?_ s
          simp only [Spot.next]
          rw [if_neg hd]
          rfl
        unfold TokEndAt
        rw [herr _ (by simpa using hd)]
        exact ⟨trivial, fun h => absurd (lost_of_off hoff) h⟩
  · have ho : opensComment o c = false := by rw [← Bool.not_eq_true, opens_iff]; exact hc
    have hok {n : Bool} {r : Bytes} (h : lTokEnd o (c :: s) 0 = .ok (n, r)) (h1 : 0 ∉ r)
        (h3 : Spot.after o (.done, st) (c :: s) = Spot.after o (.item, st) r) : TokEndAt o st (c :: s) := by
      unfold TokEndAt
      rw [h]
      exact ⟨⟨h1, h3⟩, fun _ => tokEndOk_ok h⟩
    rcases lTokEnd_nonws o c hz hc hw' with h | ⟨rfl, h⟩ | ⟨h1, h2, h⟩ | ⟨h1, h⟩
    · unfold TokEndAt
      rw [h]
      exact ⟨trivial, fun _ x => by rw [List.cons_append, h, h]⟩
    · refine hok (h s) h0' ?_
      have he : endsLine o COMMA = false := by simp [endsLine, COMMA]
      have hws : isWs COMMA = false := by decide
      rw [after_cons]
      simp only [Spot.next, Spot.step, Spot.finish, he, hws, ho, Bool.false_eq_true, if_false, if_true]
    · refine hok (h s) h0' ?_
      rw [after_cons]
      simp only [Spot.next, Spot.step, Spot.finish, ends_iff.2 ⟨h1, h2⟩, if_true]
    · refine hok (h s) h0 ?_
      have he : endsLine o c = false := by rcases h1 with rfl | rfl <;> simp [endsLine, RBRACK, RBRACE]
      have hws : isWs c = false := by rcases h1 with rfl | rfl <;> decide
      rw [after_cons, after_cons]
      simp only [Spot.next, Spot.step, Spot.finish, he, hws, ho, Bool.false_eq_true, if_false]
      rw [if_neg (by rcases h1 with rfl | rfl <;> decide), if_pos h1.symm]

theorem sDelim_at (o : Opts) (x : LX) (nm : Bytes) (nty : Ty) (saved : Bool)
    (s : Bytes) (h0 : 0 ∉ s) (hty : nty ≠ .objectStart ∧ nty ≠ .objectEnd ∧ nty ≠ .arrayStart ∧ nty ≠ .arrayEnd)
    (a : Bool) (ha : a = true → saved = true) :
    Tracks o (Spot.after o (.behind (nty == .string) a, x.stack) s) (sDelim o x nm nty saved s) := by
  unfold sDelim
  by_cases he : s.isEmpty = true
  · simp only [he, if_true]
    rw [List.isEmpty_iff] at he
    subst he
    exact .inr ⟨a, rfl, ha⟩
  · simp only [he, if_false, Bool.false_eq_true]
    obtain ⟨xe, xs⟩ := x
    rcases xs with _ | ⟨ct, st⟩
    · exact .err _ _ _
    · simp only
      have := (delim_place o (nty == .string) a ct st s h0).1
      cases hs : lDelim o ct s 0 with
      | error e =>
        rw [hs] at this
        cases e <;> first | exact .err _ _ _ | skip
        rcases this with ⟨a', h⟩ | h
        · exact .inr ⟨a', h, fun _ => rfl⟩
        · exact .inl h
      | ok y =>
        obtain ⟨b, r⟩ := y
        rw [hs] at this
        obtain ⟨hz, hb, h | h⟩ := this
        swap
        · exact .inl (lost_of_off h)
        rw [h]
        cases b
        · refine .inr ?_
          intro c' k' hf
          rw [lFin_plain hty.1 hty.2.1 hty.2.2.1 hty.2.2.2] at hf
          simp only [Except.ok.injEq, Prod.mk.injEq] at hf
          obtain ⟨rfl, -⟩ := hf
          rfl
        · simp only [if_true]
          split
          · exact .err _ _ _
          · exact sData_at o ⟨false, ct :: st⟩ nm nty saved r hz false (by simp) (by simp)

theorem sNameEnd_at (o : Opts) (x : LX) (ty : Ty) (acc : Bytes) (esc saved : Bool)
    (s : Bytes) (h0 : 0 ∉ s) (hty : ty.isLong) :
    Tracks o (Spot.after o (inside ty false esc, x.stack) s) (sNameEnd o x ty acc esc saved s) := by
  have := place_end o ty hty false esc x.stack s h0
  unfold sNameEnd
  revert this
  rcases hv : valEnd ty esc s with ⟨k, j⟩ | e
  · rintro (h | h)
    · simp only
      rw [h]
      obtain ⟨g0, g1⟩ := getType_long hty (acc ++ s.take k)
      have := sDelim_at o x (acc ++ s.take k) (getType ty (acc ++ s.take k)) saved (s.drop j)
        (fun hh => h0 (List.mem_of_mem_drop hh)) ⟨g1.1, g1.2.1, g1.2.2.1, g1.2.2.2⟩ false (by simp)
      rw [g0] at this
      exact this
    · exact .inl (lost_of_off h)
  · rintro (h | h)
    · exact .inr ⟨hty, valEnd_esc hv, h⟩
    · exact .inl (lost_of_off h)

theorem sName_at (o : Opts) (x : LX) (s : Bytes) (h0 : 0 ∉ s) :
    Tracks o (Spot.after o (.item, x.stack) s) (sName o x s) := by
  unfold sName
  by_cases he : s.isEmpty = true
  · simp only [he, if_true]
    rw [List.isEmpty_iff] at he
    subst he
    exact .inr rfl
  · simp only [he, if_false, Bool.false_eq_true]
    have := start_item o x.stack s
    cases hs : lStart o s 0 with
    | error e =>
      rw [hs] at this
      cases e <;> first | exact .err _ _ _ | skip
      rcases this with h | h
      · exact .inr h
      · exact .inl h
    | ok y =>
      obtain ⟨ty, r⟩ := y
      rw [hs] at this
      obtain ⟨c, cs, rfl, hz, hh⟩ := lStart_head hs
      rcases this with h | h
      swap
      · exact .inl (lost_of_off h)
      rw [h, after_cons]
      have hns : isWs c = false := by
        by_contra hw
        rw [Bool.not_eq_false] at hw
        obtain ⟨h1, h2, h3, h4, h5, h6, h7, h8, h9, h10, h11⟩ := ws_skips c hw
        simp_all
      have hno : opensComment o c = false := by
        by_contra hw
        rw [Bool.not_eq_false, opens_iff] at hw
        obtain ⟨f1, f2, f3, f4, f5, f6, f7, f8, f9, f10, f11, f12⟩ := slash_facts
        simp_all
      simp only [List.tail_cons]
      have long (hl : ty.isLong) (hbr : c ≠ RBRACE ∧ c ≠ RBRACK) (hst : Spot.start false x.stack c = (inside ty false false, x.stack) ∨ (Spot.start false x.stack c).isOff) :
          Tracks o ((Spot.next o (.item, x.stack) c).after o cs) (sNameEnd o x ty (lead ty (c :: cs)) false false cs) := by
        have hn' : Spot.next o (.item, x.stack) c = Spot.start false x.stack c := by
          simp only [Spot.next, Spot.step, hns, hno, Bool.false_eq_true, if_false]
          rw [if_neg (by rintro (h | h); exacts [hbr.1 h, hbr.2 h])]
        rw [hn']
        rcases hst with hst | hst
        · rw [hst]
          exact sNameEnd_at o x ty _ false false cs (hz h0) hl
        · exact .inl (lost_of_off (off_after hst cs))
      have nobr (c : Byte) (h : has c (flPlusMinus ||| flDigits) = true ∨ has c flAscii = true) : c ≠ RBRACE ∧ c ≠ RBRACK :=
        forall_byte (p := fun c => has c (flPlusMinus ||| flDigits) = true ∨ has c flAscii = true → c ≠ RBRACE ∧ c ≠ RBRACK) (by decide +kernel) c h
      obtain ⟨xe, xs⟩ := x
      rcases hh with hh | ⟨rfl, rfl⟩ | ⟨rfl, rfl⟩ | ⟨rfl, rfl⟩ | ⟨rfl, rfl⟩ | hh | hh
      · have := long (.inl hh.1) (by rw [hh.2]; decide) (start_long (.inl hh))
        obtain ⟨rfl, -⟩ := hh
        exact this
      · refine .inr ?_
        intro c' k' hf
        simp only [lFin, anonTok, Except.ok.injEq, Prod.mk.injEq] at hf
        obtain ⟨rfl, -⟩ := hf
        simp only [Spot.next, Spot.step, hns, hno, Bool.false_eq_true, if_false]
        rfl
      · simp only
        split
        · exact .err _ _ _
        · refine .inr ?_
          intro c' k' hf
          simp only [lFin, anonTok] at hf
          split at hf
          · simp only [Except.ok.injEq, Prod.mk.injEq] at hf
            obtain ⟨rfl, -⟩ := hf
            simp only [Spot.next, Spot.step, hns, hno, Bool.false_eq_true, if_false]
            rfl
          · simp at hf
      · refine .inr ?_
        intro c' k' hf
        simp only [lFin, anonTok, Except.ok.injEq, Prod.mk.injEq] at hf
        obtain ⟨rfl, -⟩ := hf
        simp only [Spot.next, Spot.step, hns, hno, Bool.false_eq_true, if_false]
        rfl
      · simp only
        split
        · exact .err _ _ _
        · refine .inr ?_
          intro c' k' hf
          simp only [lFin, anonTok] at hf
          split at hf
          · simp only [Except.ok.injEq, Prod.mk.injEq] at hf
            obtain ⟨rfl, -⟩ := hf
            simp only [Spot.next, Spot.step, hns, hno, Bool.false_eq_true, if_false]
            rfl
          · simp at hf
      · have := long (.inr (.inl hh.1)) (nobr c (.inl hh.2.2.2.2)) (start_long (.inr (.inl hh)))
        obtain ⟨rfl, -⟩ := hh
        exact this
      · have := long (.inr (.inr hh.1)) (nobr c (.inr hh.2.2.2.2.2)) (start_long (.inr (.inr hh)))
        obtain ⟨rfl, -⟩ := hh
        exact this

theorem sTokEnd_at (o : Opts) (x : LX) (s : Bytes) (h0 : 0 ∉ s) :
    Tracks o (Spot.after o (Spot.closed x.stack) s) (sTokEnd o x s) := by
  unfold sTokEnd
  by_cases he : s.isEmpty = true
  · simp only [he, if_true]
    rw [List.isEmpty_iff] at he
    subst he
    exact .inr rfl
  · simp only [he, if_false, Bool.false_eq_true]
    obtain ⟨xe, xs⟩ := x
    rcases xs with _ | ⟨ct, st⟩
    · exact sName_at o ⟨xe, []⟩ s h0
    · have := (tokEnd_place o (ct :: st) s h0).1
      have hcl : Spot.closed (ct :: st) = (.done, ct :: st) := by simp [Spot.closed]
      simp only [hcl]
      cases hs : lTokEnd o s 0 with
      | error e =>
        rw [hs] at this
        cases e <;> first | exact .err _ _ _ | skip
        rcases this with this | this
        swap
        · exact .inl this
        refine .inr ?_
        change _ = Spot.closed _
        rw [hcl]
        exact this
      | ok y =>
        obtain ⟨b, r⟩ := y
        rw [hs] at this
        rw [this.2]
        exact sName_at o ⟨xe || b, ct :: st⟩ r this.1

/-- A name the machine keeps is no bracket. -/
def Susp.Plain : Susp → Prop
  | .delim _ _ nty _ => nty ≠ .objectStart ∧ nty ≠ .objectEnd ∧ nty ≠ .arrayStart ∧ nty ≠ .arrayEnd
  | _ => True

/-- Going on in the next buffer keeps track of the place. -/
theorem resume_at (o : Opts) (s : Susp) (a : Bytes) (h0 : 0 ∉ a) (p : Spot)
    (hp : s.Plain) (h : s.At p) : Tracks o (p.after o a) (s.resume o a) := by
  cases s with
  | tokEnd x => simp only [Susp.At] at h; subst h; exact sTokEnd_at o x a h0
  | name x => simp only [Susp.At] at h; subst h; exact sName_at o x a h0
  | inName x ty acc esc =>
    obtain ⟨h1, -, rfl⟩ := h
    exact sNameEnd_at o x ty acc esc true a h0 h1
  | delim x nm nty sv =>
    obtain ⟨b, rfl, h⟩ := h
    exact sDelim_at o x nm nty sv a h0 hp b h
  | data x nm nty sv =>
    obtain ⟨h1, b, rfl, h⟩ := h
    exact sData_at o x nm nty sv a h0 b h h1
  | inData x nm nty ty acc esc =>
    obtain ⟨h1, h2, -, rfl⟩ := h
    exact sDataEnd_at o x nm nty ty acc esc a h0 h2 h1

theorem wholeDelim_at (o : Opts) (x : LX) (q a : Bool) (s : Bytes) (h0 : 0 ∉ s)
    (h : ¬ (Spot.after o (.behind q a, x.stack) s).lost) : WholeDelim o x s := by
  intro ct st hx
  rw [hx] at h
  obtain ⟨h1, h2⟩ := delim_place o q a ct st s h0
  refine ⟨h2 h, fun r hr => ?_⟩
  rw [hr] at h1
  obtain ⟨-, -, h3 | h3⟩ := h1
  · rw [h3] at h
    exact (start_place o (ct :: st) r (.colon false) rfl).2 h
  · exact absurd (lost_of_off h3) h

theorem wholeNameEnd_at (o : Opts) (x : LX) (ty : Ty) (esc : Bool) (s : Bytes) (h0 : 0 ∉ s) (hty : ty.isLong)
    (h : ¬ (Spot.after o (inside ty false esc, x.stack) s).lost) : WholeNameEnd o x ty esc s := by
  intro k j hv
  have := place_end o ty hty false esc x.stack s h0
  rw [hv] at this
  rcases this with h1 | h1
  · rw [h1] at h
    exact wholeDelim_at o x _ _ _ (drop_no_nul h0) h
  · exact absurd (lost_of_off h1) h

theorem wholeName_at (o : Opts) (x : LX) (s : Bytes) (h0 : 0 ∉ s)
    (h : ¬ (Spot.after o (.item, x.stack) s).lost) : WholeName o x s := by
  refine ⟨(start_place o x.stack s .item rfl).2 h, fun ty r hr hb => ?_⟩
  have := start_item o x.stack s
  rw [hr] at this
  obtain ⟨c, cs, rfl, hz, hh⟩ := lStart_head hr
  rcases this with h1 | h1
  swap
  · exact absurd (lost_of_off h1) h
  rw [h1, after_cons] at h
  have hns : isWs c = false := by
    by_contra hw
    rw [Bool.not_eq_false] at hw
    obtain ⟨h1, h2, h3, h4, h5, h6, h7, h8, h9, h10, h11⟩ := ws_skips c hw
    simp_all
  have hno : opensComment o c = false := by
    by_contra hw
    rw [Bool.not_eq_false, opens_iff] at hw
    obtain ⟨f1, f2, f3, f4, f5, f6, f7, f8, f9, f10, f11, f12⟩ := slash_facts
    simp_all
  have nobr (c : Byte) (h : has c (flPlusMinus ||| flDigits) = true ∨ has c flAscii = true) : c ≠ RBRACE ∧ c ≠ RBRACK :=
    forall_byte (p := fun c => has c (flPlusMinus ||| flDigits) = true ∨ has c flAscii = true → c ≠ RBRACE ∧ c ≠ RBRACK) (by decide +kernel) c h
  have long (hl : ty.isLong) (hbr : c ≠ RBRACE ∧ c ≠ RBRACK) (hst : Spot.start false x.stack c = (inside ty false false, x.stack) ∨ (Spot.start false x.stack c).isOff) :
      WholeNameEnd o x ty false cs := by
    have hn' : Spot.next o (.item, x.stack) c = Spot.start false x.stack c := by
      simp only [Spot.next, Spot.step, hns, hno, Bool.false_eq_true, if_false]
      rw [if_neg (by rintro (h | h); exacts [hbr.1 h, hbr.2 h])]
    rw [hn'] at h
    rcases hst with hst | hst
    · rw [hst] at h
      exact wholeNameEnd_at o x ty false cs (hz h0) hl h
    · exact absurd (lost_of_off (off_after hst cs)) h
  rcases hh with hh | ⟨rfl, rfl⟩ | ⟨rfl, rfl⟩ | ⟨rfl, rfl⟩ | ⟨rfl, rfl⟩ | hh | hh
  · exact long (.inl hh.1) (by rw [hh.2]; decide) (start_long (.inl hh))
  · simp [Ty.isBracket] at hb
  · simp [Ty.isBracket] at hb
  · simp [Ty.isBracket] at hb
  · simp [Ty.isBracket] at hb
  · exact long (.inr (.inl hh.1)) (nobr c (.inl hh.2.2.2.2)) (start_long (.inr (.inl hh)))
  · exact long (.inr (.inr hh.1)) (nobr c (.inr hh.2.2.2.2.2)) (start_long (.inr (.inr hh)))

/-- A buffer that does not end within a comment can be read by itself. -/
theorem whole_at (o : Opts) (s : Susp) (a : Bytes) (h0 : 0 ∉ a) (p : Spot) (h : s.At p)
    (hl : ¬ (p.after o a).lost) : s.Whole o a := by
  cases s with
  | tokEnd x =>
    simp only [Susp.At] at h; subst h
    obtain ⟨xe, xs⟩ := x
    simp only [Susp.Whole, WholeTokEnd]
    rcases xs with _ | ⟨ct, st⟩
    · exact wholeName_at o ⟨xe, []⟩ a h0 hl
    · have hcl : Spot.closed (ct :: st) = (.done, ct :: st) := by simp [Spot.closed]
      simp only [hcl] at hl
      obtain ⟨h1, h2⟩ := tokEnd_place o (ct :: st) a h0
      refine ⟨h2 hl, fun cm r hr => ?_⟩
      rw [hr] at h1
      rw [h1.2] at hl
      exact wholeName_at o ⟨xe || cm, ct :: st⟩ r h1.1 hl
  | name x => simp only [Susp.At] at h; subst h; exact wholeName_at o x a h0 hl
  | inName x ty acc esc =>
    obtain ⟨h1, -, rfl⟩ := h
    exact wholeNameEnd_at o x ty esc a h0 h1 hl
  | delim x nm nty sv =>
    obtain ⟨b, rfl, h⟩ := h
    exact wholeDelim_at o x _ b a h0 hl
  | data x nm nty sv =>
    obtain ⟨h1, b, rfl, h⟩ := h
    exact (start_place o x.stack a (.colon b) rfl).2 hl
  | inData x nm nty ty acc esc => trivial

/-- At a safe place the next buffer can be taken. -/
theorem At.fine {o : Opts} {s : Susp} {p : Spot} (h : s.At p) (hs : p.safe (o.simd != .scalar) = true) : s.Fine o := by
  have esc {ty : Ty} {v esc : Bool} {st : List Ty} (hl : ty.isLong) (he : ty ≠ .string → esc = false)
      (hs : Spot.safe (o.simd != .scalar) (inside ty v esc, st) = true) : esc = false ∨ o.simd = .scalar := by
    rcases hl with rfl | rfl | rfl
    · simp only [inside, Spot.safe] at hs
      cases esc
      · exact .inl rfl
      · exact .inr (by simpa using hs)
    · exact .inl (he (by simp))
    · exact .inl (he (by simp))
  cases s with
  | tokEnd x => trivial
  | name x => trivial
  | inName x ty acc e =>
    obtain ⟨h1, h2, rfl⟩ := h
    exact esc h1 h2 hs
  | delim x nm nty sv =>
    obtain ⟨a, rfl, h⟩ := h
    obtain ⟨xe, xs⟩ := x
    simp only at hs
    rcases xs with _ | ⟨ct, st⟩
    · simp [Spot.safe] at hs
    · cases ct <;> simp [Spot.safe] at hs
      exact ⟨h hs.2, hs.1, st, rfl⟩
  | data x nm nty sv =>
    obtain ⟨h1, a, rfl, h⟩ := h
    exact h (by simpa [Spot.safe] using hs)
  | inData x nm nty ty acc e =>
    obtain ⟨h0, h1, h2, rfl⟩ := h
    exact esc h1 h2 hs

theorem fine_plain {o : Opts} {s : Susp} (h : s.Fine o) : s.Plain := by
  cases s <;> first | trivial | (obtain ⟨-, rfl, -⟩ := h; simp [Susp.Plain])

theorem safe_not_lost {v : Bool} {p : Spot} (h : p.safe v = true) : ¬ p.lost := by
  obtain ⟨p, st⟩ := p
  cases p <;> first | (simp [Spot.safe] at h; done) | exact fun h => h

end JsonStruct
