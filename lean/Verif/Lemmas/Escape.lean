import Verif.Model.Escape
import Verif.Spec.Unicode
import Verif.Lemmas.Doc

/- Decoding and encoding of string escapes. -/

namespace JsonStruct

set_option linter.unusedSimpArgs false

/-! ### Encoding -/

theorem findFirstEscapeOut_eq (m : Simd) (s : Bytes) : findFirstEscapeOut m s = s.findIdx isEscOut := by
  cases m with
  | scalar => rfl
  | neon => rfl
  | avx2 => exact scanTo_eq (by decide) (firstSet_finds _ _ (by decide)) s
  | sse2 => exact scanTo_eq (by decide) (firstSet_finds _ _ (by decide)) s
  | sse42 => exact scanTo_eq (by decide) (firstSet_finds _ _ (by decide)) s

theorem escapeByte_plain (c : Byte) : isEscOut c = false → escapeByte c = [c] :=
  forall_byte (p := fun c => isEscOut c = false → escapeByte c = [c]) (by decide +kernel) c

theorem flatMap_plain {s : Bytes} (h : ∀ c ∈ s, isEscOut c = false) : s.flatMap escapeByte = s := by
  induction s with
  | nil => rfl
  | cons c s ih =>
    simp [List.flatMap_cons, escapeByte_plain c (h c (by simp)), ih (fun x hx => h x (by simp [hx]))]

theorem escapeByte_ne (c : Byte) : escapeByte c ≠ [] :=
  forall_byte (p := fun c => escapeByte c ≠ []) (by decide +kernel) c

theorem findIdx_split (p : Byte → Bool) (s : Bytes) : s.findIdx p = s.length ∧ (∀ c ∈ s, p c = false) ∨
    ∃ a c b, s = a ++ c :: b ∧ s.findIdx p = a.length ∧ (∀ x ∈ a, p x = false) ∧ p c = true := by
  induction s with
  | nil => left; simp
  | cons x s ih =>
    by_cases hx : p x = true
    · right; exact ⟨[], x, s, rfl, by simp [List.findIdx_cons, hx], by simp, hx⟩
    · have hx' : p x = false := by simpa using hx
      rcases ih with ⟨h1, h2⟩ | ⟨a, c, b, h1, h2, h3, h4⟩
      · left; refine ⟨by simp [List.findIdx_cons, hx', h1], ?_⟩
        intro c hc; rcases List.mem_cons.1 hc with rfl | hc
        · exact hx'
        · exact h2 c hc
      · right; refine ⟨x :: a, c, b, by simp [h1], by simp [List.findIdx_cons, hx', h2], ?_, h4⟩
        intro y hy; rcases List.mem_cons.1 hy with rfl | hy
        · exact hx'
        · exact h3 y hy

/-- The loop, from a position where everything before has been written. -/
theorem escapesOutLoop_eq (m : Simd) (d : Bytes) (n i : Nat) (buffer : Bytes) (hn : d.length ≤ n + i) (hi : i ≤ d.length) :
    let r := escapesOutLoop m d n i i buffer
    (r.2 ++ d.drop r.1 = buffer ++ (d.drop i).flatMap escapeByte) ∧ i ≤ r.1 ∧ r.1 ≤ d.length ∧
      (r.2 = buffer ∧ r.1 = i ∨ r.2 ≠ []) := by
  induction n generalizing i buffer with
  | zero =>
    have : i = d.length := by omega
    subst this
    simp [escapesOutLoop]
  | succ n ih =>
    rw [escapesOutLoop]
    by_cases h : i < d.length
    · rw [if_pos h]
      simp only [findFirstEscapeOut_eq]
      rcases findIdx_split isEscOut (d.drop i) with ⟨h1, h2⟩ | ⟨a, c, b, h1, h2, h3, h4⟩
      · rw [h1, if_pos (by simp; omega)]
        refine ⟨?_, Nat.le_refl _, hi, .inl ⟨rfl, rfl⟩⟩
        rw [flatMap_plain h2]
      · have hl : d.length = i + (a.length + 1 + b.length) := by
          have := congrArg List.length h1; simp at this; omega
        rw [h2, if_neg (by omega)]
        have hget : d.getD (i + a.length) 0 = c := by
          have : (d.drop i).getD a.length 0 = c := by rw [h1]; simp
          simpa using this
        have hdrop : d.drop (i + a.length + 1) = b := by
          have : (d.drop i).drop (a.length + 1) = b := by rw [h1]; simp [List.drop_append]
          rw [← this, List.drop_drop]; rfl
        have htake : (d.drop i).take (i + a.length - i) = a := by
          rw [h1]; simp
        rw [hget, htake]
        have hb : (if i < i + a.length then buffer ++ a else buffer) = buffer ++ a := by
          split
          · rfl
          · have : a = [] := by cases a with
              | nil => rfl
              | cons => simp at *
            simp [this]
        rw [hb]
        obtain ⟨e1, e2, e3, e4⟩ := ih (i + a.length + 1) (buffer ++ a ++ escapeByte c) (by omega) (by omega)
        refine ⟨?_, by omega, e3, ?_⟩
        · rw [e1, hdrop, h1]
          simp [List.flatMap_append, List.flatMap_cons, flatMap_plain h3]
        · right
          rcases e4 with ⟨e4, _⟩ | e4
          · rw [e4]; simp [escapeByte_ne]
          · exact e4
    · rw [if_neg h]
      have : i = d.length := by omega
      subst this
      simp

/-- Encoding is byte by byte. -/
theorem escapesOut_eq (m : Simd) (d : Bytes) : escapesOut m d = d.flatMap escapeByte := by
  have h := escapesOutLoop_eq m d d.length 0 [] (by simp) (by simp)
  simp only [escapesOut]
  generalize escapesOutLoop m d d.length 0 0 [] = r at h
  obtain ⟨start, buffer⟩ := r
  obtain ⟨h1, h2, h3, h4⟩ := h
  simp at h1 h2 h3 h4 ⊢
  by_cases hb : buffer = []
  · subst hb
    simp at h4 h1
    subst h4
    simpa using h1
  · simp [hb]
    split
    · exact h1
    · rw [← h1, List.drop_eq_nil_of_le (by omega)]; simp

/-! ### Decoding -/

theorem surrogate_used (cp : Nat) (s : Bytes) : (surrogate cp s).2 = 4 ∨ (surrogate cp s).2 = 10 := by
  unfold surrogate; split
  · split
    · split <;> simp
    · simp
  · simp

theorem hex4_length {s : Bytes} {n : Nat} (h : hex4 s = some n) : 4 ≤ s.length := by
  unfold hex4 at h; split at h
  · simp
  · simp at h

/-- What the loop does at a backslash (or at the end). -/
def inEsc (f : Bytes → Bytes) (r : Bytes) : Bytes :=
  if r.length < 2 then [] else
  if r.getD 1 0 = 117 then
    match hex4 (r.drop 2) with
    | some cp => utf8Bytes (surrogate cp (r.drop 2)).1 ++ f ((r.drop 2).drop (surrogate cp (r.drop 2)).2)
    | none => [BSL, r.getD 1 0] ++ f (r.drop 2)
  else pushBackEscape (r.getD 1 0) ++ f (r.drop 2)

theorem inEsc_congr {f g : Bytes → Bytes} {r : Bytes} (h : ∀ j, 2 ≤ j → 2 ≤ r.length → f (r.drop j) = g (r.drop j)) :
    inEsc f r = inEsc g r := by
  unfold inEsc
  split
  · rfl
  · have h2 : 2 ≤ r.length := by omega
    split
    · split
      · rw [List.drop_drop, h _ (by omega) h2]
      · rw [h _ (by omega) h2]
    · rw [h _ (by omega) h2]

theorem escapesInLoop_step (n : Nat) (s : Bytes) : escapesInLoop (n + 1) s =
    s.take (s.findIdx (· = BSL)) ++ inEsc (escapesInLoop n) (s.drop (s.findIdx (· = BSL))) := by
  rw [escapesInLoop]
  split
  · have : s = [] := List.length_eq_zero_iff.1 ‹_›
    subst this; rfl
  · simp only
    split
    · rename_i h
      rw [h]; simp [inEsc]
    · rfl

theorem escapesInLoop_fuel (n m : Nat) (s : Bytes) (hn : s.length ≤ n) (hm : s.length ≤ m) :
    escapesInLoop n s = escapesInLoop m s := by
  induction n generalizing m s with
  | zero =>
    have : s = [] := List.length_eq_zero_iff.1 (by omega)
    subst this
    cases m <;> simp [escapesInLoop]
  | succ n ih =>
    cases m with
    | zero =>
      have : s = [] := List.length_eq_zero_iff.1 (by omega)
      subst this
      simp [escapesInLoop]
    | succ m =>
      rw [escapesInLoop_step, escapesInLoop_step]
      congr 1
      refine inEsc_congr fun j hj h2 => ih m _ ?_ ?_ <;> (simp at h2 ⊢; omega)

theorem escapesIn_nil : escapesIn [] = [] := rfl

theorem escapesIn_loop {n : Nat} {s : Bytes} (h : s.length ≤ n) : escapesInLoop n s = escapesIn s :=
  escapesInLoop_fuel _ _ _ h (Nat.le_refl _)

theorem escapesIn_step (s : Bytes) : escapesIn s =
    s.take (s.findIdx (· = BSL)) ++ inEsc escapesIn (s.drop (s.findIdx (· = BSL))) := by
  rw [← escapesIn_loop (Nat.le_succ s.length), escapesInLoop_step]
  congr 1
  refine inEsc_congr fun j hj h2 => escapesIn_loop ?_
  simp

theorem escapesIn_plain {c : Byte} {s : Bytes} (h : c ≠ BSL) : escapesIn (c :: s) = c :: escapesIn s := by
  rw [escapesIn_step, escapesIn_step s]
  simp [List.findIdx_cons, h]

theorem escapesIn_esc {c : Byte} {s : Bytes} (h : c ≠ 117) :
    escapesIn (BSL :: c :: s) = pushBackEscape c ++ escapesIn s := by
  rw [escapesIn_step]
  simp [List.findIdx_cons, h, inEsc]; omega

theorem escapesIn_u {s : Bytes} : escapesIn (BSL :: 117 :: s) = match hex4 s with
    | some cp => utf8Bytes (surrogate cp s).1 ++ escapesIn (s.drop (surrogate cp s).2)
    | none => BSL :: 117 :: escapesIn s := by
  rw [escapesIn_step]
  simp [List.findIdx_cons, inEsc]; omega

theorem escapesIn_single : escapesIn [BSL] = [] := by decide +kernel

theorem escapesIn_escapeByte (c : Byte) (s : Bytes) : escapesIn (escapeByte c ++ s) = c :: escapesIn s := by
  have key : ∀ c : Byte, (escapeByte c = [c] ∧ c ≠ BSL) ∨
      ∃ d ∈ ([98, 116, 110, 102, 114, 34, 92] : List Byte), escapeByte c = [BSL, d] ∧ pushBackEscape d = [c] ∧ d ≠ 117 := by
    intro c
    exact forall_byte (p := fun c => (escapeByte c = [c] ∧ c ≠ BSL) ∨
      ∃ d ∈ ([98, 116, 110, 102, 114, 34, 92] : List Byte), escapeByte c = [BSL, d] ∧ pushBackEscape d = [c] ∧ d ≠ 117)
      (by decide +kernel) c
  rcases key c with ⟨h1, h2⟩ | ⟨d, _, h1, h2, h3⟩
  · rw [h1]; exact escapesIn_plain h2
  · rw [h1]; simp only [List.cons_append, List.nil_append]; rw [escapesIn_esc h3, h2]; rfl

theorem quotable_escapeByte (c : Byte) {s : Bytes} (hs : Quotable s) : Quotable (escapeByte c ++ s) := by
  have key : ∀ c : Byte, (escapeByte c = [c] ∧ c ≠ QUOTE ∧ c ≠ BSL) ∨
      ∃ d ∈ ([98, 116, 110, 102, 114, 34, 92] : List Byte), escapeByte c = [BSL, d] := by
    intro c
    exact forall_byte (p := fun c => (escapeByte c = [c] ∧ c ≠ QUOTE ∧ c ≠ BSL) ∨
      ∃ d ∈ ([98, 116, 110, 102, 114, 34, 92] : List Byte), escapeByte c = [BSL, d]) (by decide +kernel) c
  rcases key c with ⟨h1, h2, h3⟩ | ⟨d, _, h1⟩
  · rw [h1]; exact .plain h2 h3 hs
  · rw [h1]; exact .esc hs

theorem quotable_flatMap (s : Bytes) : Quotable (s.flatMap escapeByte) := by
  induction s with
  | nil => exact .nil
  | cons c s ih => rw [List.flatMap_cons]; exact quotable_escapeByte c ih

theorem strBody_of_quotable {s : Bytes} (h : Quotable s) : StrBody s := by
  induction h with
  | nil => exact .nil
  | plain h1 h2 _ ih => exact .plain h1 h2 ih
  | esc _ ih => exact .esc ih

theorem strEnd_body_flag {s r : Bytes} (h : StrBody s) : (strEnd false (s ++ QUOTE :: r)).2 = false := by
  induction h with
  | nil => simp [strEnd, lookup_strEnd, show QUOTE ≠ BSL by decide]
  | plain h1 h2 _ ih =>
    rw [List.cons_append, strEnd, if_neg (by rw [lookup_strEnd]; simp [h1, h2])]
    simp [bump, ih]
  | esc _ ih =>
    rw [List.cons_append, strEnd, if_pos (by rw [lookup_strEnd]; simp)]
    simp [strEnd, bump, ih]

/-! ### `\u` -/

theorem hexIs_hexDigit (c : Byte) (v : Nat) (h : HexIs c v) : hexDigit c = some v ∧ v < 16 ∧ c ≠ BSL := by
  have hv : v < 16 := by
    unfold HexIs at h
    rcases Nat.lt_or_ge v 16 with h' | h'
    · exact h'
    · rw [List.getElem?_eq_none (by simpa using h'), List.getElem?_eq_none (by simpa using h')] at h
      simp at h
  have key : ∀ v < 16, ∀ c : Byte, (b!"0123456789abcdef"[v]? = some c ∨ b!"0123456789ABCDEF"[v]? = some c) →
      hexDigit c = some v ∧ c ≠ BSL := by
    intro v hv c
    exact forall_byte (p := fun c => (b!"0123456789abcdef"[v]? = some c ∨ b!"0123456789ABCDEF"[v]? = some c) →
      hexDigit c = some v ∧ c ≠ BSL) (by revert v; decide +kernel) c
  exact ⟨(key v hv c h).1, hv, (key v hv c h).2⟩

theorem hexDigit_bsl : hexDigit BSL = none := by decide

theorem shift_or (a b c d : Nat) (hb : b < 16) (hc : c < 16) (hd : d < 16) :
    (a <<< 12) ||| (b <<< 8) ||| (c <<< 4) ||| d = a * 4096 + b * 256 + c * 16 + d := by
  have e1 : (a <<< 12) ||| (b <<< 8) = a <<< 12 + b <<< 8 := by
    rw [Nat.shiftLeft_add_eq_or_of_lt (by rw [Nat.shiftLeft_eq]; omega)]
  have e2 : (a <<< 12 + b <<< 8) ||| (c <<< 4) = a <<< 12 + b <<< 8 + c <<< 4 := by
    have : a <<< 12 + b <<< 8 = (a * 16 + b) <<< 8 := by simp only [Nat.shiftLeft_eq]; omega
    rw [this, Nat.shiftLeft_add_eq_or_of_lt (by rw [Nat.shiftLeft_eq]; omega)]
  have e3 : (a <<< 12 + b <<< 8 + c <<< 4) ||| d = a <<< 12 + b <<< 8 + c <<< 4 + d := by
    have : a <<< 12 + b <<< 8 + c <<< 4 = (a * 256 + b * 16 + c) <<< 4 := by simp only [Nat.shiftLeft_eq]; omega
    rw [this, Nat.shiftLeft_add_eq_or_of_lt (by omega)]
  rw [e1, e2, e3]; simp only [Nat.shiftLeft_eq]

theorem hex4_of {ds : Bytes} {n : Nat} (h : Hex4 ds n) (r : Bytes) :
    hex4 (ds ++ r) = some n ∧ ds.length = 4 := by
  obtain ⟨a, b, c, d, va, vb, vc, vd, rfl, ha, hb, hc, hd, rfl⟩ := h
  have ha := hexIs_hexDigit _ _ ha
  have hb := hexIs_hexDigit _ _ hb
  have hc := hexIs_hexDigit _ _ hc
  have hd := hexIs_hexDigit _ _ hd
  simp only [hex4, List.cons_append, ha.1, hb.1, hc.1, hd.1]
  exact ⟨by rw [shift_or _ _ _ _ hb.2.1 hc.2.1 hd.2.1], rfl⟩

theorem or80 (x : Nat) : UInt8.ofNat (0x80 ||| (x &&& 0x3f)) = UInt8.ofNat (x % 64 + 128) := by
  have h1 : x &&& 0x3f = x % 64 := Nat.and_two_pow_sub_one_eq_mod x 6
  rw [h1]
  have : ∀ y < 64, (0x80 ||| y) = y + 128 := by decide +kernel
  rw [this _ (Nat.mod_lt _ (by decide))]

theorem utf8_char (c : Char) : utf8Bytes c.toNat = String.utf8EncodeChar c := by
  have hv : c.toNat < 0x110000 := by
    have := c.valid
    have h2 : c.toNat = c.val.toNat := rfl
    rcases this with h | ⟨_, h⟩ <;> omega
  unfold utf8Bytes String.utf8EncodeChar
  have h2 : c.val.toNat = c.toNat := rfl
  simp only [h2, or80]
  generalize c.toNat = v at *
  have s1 : ∀ x, x < 8 → 0xf0 ||| x = x + 240 := by decide +kernel
  have s2 : ∀ x, x < 16 → 0xe0 ||| x = x + 224 := by decide +kernel
  have s3 : ∀ x, x < 32 → 0xc0 ||| x = x + 192 := by decide +kernel
  simp only [Nat.shiftRight_eq_div_pow]
  by_cases h4 : 0x10000 ≤ v
  · rw [if_pos h4, if_neg (by omega), if_neg (by omega), if_neg (by omega), s1 _ (by omega), Nat.mod_eq_of_lt (by omega : v / 262144 < 8)]
  · rw [if_neg h4]
    by_cases h3 : 0x800 ≤ v
    · rw [if_pos h3, if_neg (by omega), if_neg (by omega), if_pos (by omega), s2 _ (by omega), Nat.mod_eq_of_lt (by omega : v / 4096 < 16)]
    · rw [if_neg h3]
      by_cases h1 : 0x80 ≤ v
      · rw [if_pos h1, if_neg (by omega), if_pos (by omega), s3 _ (by omega), Nat.mod_eq_of_lt (by omega : v / 64 < 32)]
      · rw [if_neg h1, if_pos (by omega)]

/-- Not the second half of a surrogate pair. -/
def NoLow (r : Bytes) : Prop := ∀ s lo, r = BSL :: 117 :: s → hex4 s = some lo → ¬ (0xDC00 ≤ lo ∧ lo ≤ 0xDFFF)

theorem hex4_ne_bsl {s : Bytes} {n : Nat} (h : hex4 s = some n) :
    ∃ a b c d t, s = a :: b :: c :: d :: t ∧ a ≠ BSL ∧ b ≠ BSL ∧ c ≠ BSL ∧ d ≠ BSL := by
  unfold hex4 at h; split at h
  · rename_i a b c d t
    split at h
    · rename_i va vb vc vd ha hb hc hd
      refine ⟨a, b, c, d, t, rfl, ?_, ?_, ?_, ?_⟩ <;> (rintro rfl; simp_all [hexDigit_bsl])
    · simp at h
  · simp at h

theorem hex4_none_of_bsl {a r : Bytes} (h : a.length < 4) : hex4 (a ++ BSL :: r) = none := by
  cases hx : hex4 (a ++ BSL :: r) with
  | none => rfl
  | some n =>
    obtain ⟨x, y, z, w, t, he, h1, h2, h3, h4⟩ := hex4_ne_bsl hx
    match a, h with
    | [], _ => simp at he; exact absurd he.1.symm h1
    | [a], _ => simp at he; exact absurd he.2.1.symm h2
    | [a, b], _ => simp at he; exact absurd he.2.2.1.symm h3
    | [a, b, c], _ => simp at he; exact absurd he.2.2.2.1.symm h4

theorem hex4_short {a : Bytes} (h : a.length < 4) : hex4 a = none := by
  cases hx : hex4 a with
  | none => rfl
  | some n => have := hex4_length hx; omega

theorem hex4_append {a : Bytes} (h : 4 ≤ a.length) (r : Bytes) : hex4 (a ++ r) = hex4 a := by
  match a, h with
  | a :: b :: c :: d :: _, _ => rfl

theorem complete_drop_plain {c : Byte} {s : Bytes} (h : c ≠ BSL) (hs : Complete (c :: s)) : Complete s := by
  cases hs with
  | plain _ hs => exact hs
  | esc _ => exact absurd rfl h

theorem complete_drop4 {s : Bytes} {n : Nat} (h : hex4 s = some n) (hs : Complete s) : Complete (s.drop 4) := by
  obtain ⟨a, b, c, d, t, rfl, ha, hb, hc, hd⟩ := hex4_ne_bsl h
  exact complete_drop_plain hd (complete_drop_plain hc (complete_drop_plain hb (complete_drop_plain ha hs)))

theorem surrogate_eq10 {cp : Nat} {s : Bytes} (h : (surrogate cp s).2 = 10) :
    ∃ lo, 10 ≤ s.length ∧ s.getD 4 0 = BSL ∧ s.getD 5 0 = 117 ∧ hex4 (s.drop 6) = some lo := by
  unfold surrogate at h
  split at h
  · rename_i hh
    split at h
    · rename_i lo hlo
      exact ⟨lo, hh.2.2.1, hh.2.2.2.1, hh.2.2.2.2, hlo⟩
    · simp at h
  · simp at h

theorem complete_drop10 {cp n : Nat} {s : Bytes} (h : hex4 s = some n) (hs : Complete s)
    (hu : (surrogate cp s).2 = 10) : Complete (s.drop 10) := by
  obtain ⟨lo, hl, h4, h5, h6⟩ := surrogate_eq10 hu
  have h := complete_drop4 h hs
  obtain ⟨a, b, c, d, e, f, t, rfl⟩ : ∃ a b c d e f t, s = a :: b :: c :: d :: e :: f :: t := by
    match s, hl with
    | a :: b :: c :: d :: e :: f :: t, _ => exact ⟨a, b, c, d, e, f, t, rfl⟩
  simp at h4 h5 h6 h
  subst h4 h5
  cases h with
  | plain hc _ => exact absurd rfl hc
  | esc h => have := complete_drop4 h6 h; simpa using this

/-- Decoding a text that does not end inside an escape is independent of an escape that follows. -/
theorem escapesIn_append_esc {p : Bytes} (hp : Complete p) (r : Bytes) (hr : NoLow (BSL :: r)) :
    escapesIn (p ++ BSL :: r) = escapesIn p ++ escapesIn (BSL :: r) := by
  generalize hn : p.length = n
  induction n using Nat.strongRecOn generalizing p with
  | ind n ih =>
    cases hp with
    | nil => simp [escapesIn_nil]
    | @plain c s hc hs =>
      rw [List.cons_append, escapesIn_plain hc, escapesIn_plain hc, ih s.length (by simp at hn; omega) hs rfl]
      rfl
    | @esc c s hs =>
      simp only [List.length_cons] at hn
      simp only [List.cons_append]
      by_cases hc : c = 117
      · subst hc
        change escapesIn (BSL :: 117 :: (s ++ BSL :: r)) = escapesIn (BSL :: 117 :: s) ++ _
        rw [escapesIn_u, escapesIn_u]
        by_cases h4 : s.length < 4
        · rw [hex4_none_of_bsl h4, hex4_short h4]
          simp only
          rw [ih s.length (by omega) hs rfl]; rfl
        · rw [hex4_append (by omega)]
          cases hx : hex4 s with
          | none => simp only; rw [ih s.length (by omega) hs rfl]; rfl
          | some cp =>
            simp only
            have hsur : surrogate cp (s ++ BSL :: r) = surrogate cp s := by
              by_cases h10 : 10 ≤ s.length
              · have e4 : (s ++ BSL :: r).getD 4 0 = s.getD 4 0 := by
                  rw [List.getD_eq_getElem?_getD, List.getD_eq_getElem?_getD, List.getElem?_append_left (by omega)]
                have e5 : (s ++ BSL :: r).getD 5 0 = s.getD 5 0 := by
                  rw [List.getD_eq_getElem?_getD, List.getD_eq_getElem?_getD, List.getElem?_append_left (by omega)]
                have e6 : hex4 ((s ++ BSL :: r).drop 6) = hex4 (s.drop 6) := by
                  rw [List.drop_append_of_le_length (by omega), hex4_append (by simp; omega)]
                unfold surrogate
                rw [e4, e5, e6]
                simp only [h10, show 10 ≤ (s ++ BSL :: r).length by simp; omega]
              · have e0 : surrogate cp s = (cp, 4) := by
                  unfold surrogate; rw [if_neg (by omega)]
                rw [e0]
                unfold surrogate
                split
                · rename_i hh
                  obtain ⟨a, b, c, d, t, rfl, ha, hb, hc, hd⟩ := hex4_ne_bsl hx
                  have ht := complete_drop4 hx hs
                  simp only [List.drop_succ_cons, List.drop_zero] at ht
                  cases ht with
                  | nil =>
                    split
                    · rename_i lo hlo
                      rw [if_neg]
                      simp only [List.cons_append, List.nil_append, List.drop_succ_cons] at hlo hh
                      cases r with
                      | nil => simp at hh
                      | cons x r =>
                        simp at hh hlo
                        rw [hh.2.2.2] at hr
                        exact hr r lo rfl hlo
                    · rfl
                  | @plain e t he ht =>
                    simp at hh
                    exact absurd hh.2.2.2.1 he
                  | @esc e t ht =>
                    simp only [List.cons_append, List.drop_succ_cons, List.drop_zero]
                    rw [hex4_none_of_bsl (by simp at h10; omega)]
                · rfl
            rw [hsur]
            rcases surrogate_used cp s with hu | hu
            · rw [hu, List.drop_append_of_le_length (by omega),
                ih (s.drop 4).length (by simp; omega) (complete_drop4 hx hs) rfl]
              simp
            · obtain ⟨lo, hl, -⟩ := surrogate_eq10 hu
              rw [hu, List.drop_append_of_le_length (by omega),
                ih (s.drop 10).length (by simp; omega) (complete_drop10 hx hs hu) rfl]
              simp
      · change escapesIn (BSL :: c :: (s ++ BSL :: r)) = escapesIn (BSL :: c :: s) ++ _
        rw [escapesIn_esc hc, escapesIn_esc hc, ih s.length (by omega) hs rfl]
        simp

/-- One `\u` notation at the front. -/
theorem escapesIn_uescape {c : Char} {e : Bytes} (h : UEscape c e) (r : Bytes) :
    (∃ s, e = BSL :: s) ∧ NoLow (e ++ r) ∧ escapesIn (e ++ r) = String.utf8EncodeChar c ++ escapesIn r := by
  have hval : c.toNat < 0xD800 ∨ (0xDFFF < c.toNat ∧ c.toNat < 0x110000) := c.valid
  cases h with
  | @one ds h =>
    obtain ⟨h1, h2⟩ := hex4_of h r
    refine ⟨⟨_, rfl⟩, ?_, ?_⟩
    · intro s lo hs hlo
      simp only [List.cons_append, List.nil_append, List.cons.injEq] at hs
      obtain ⟨_, _, rfl⟩ := hs
      rw [h1] at hlo; cases hlo; omega
    · simp only [List.cons_append, List.nil_append]
      rw [escapesIn_u, h1]
      have : surrogate c.toNat (ds ++ r) = (c.toNat, 4) := by
        unfold surrogate; rw [if_neg (by omega)]
      simp only [this, utf8_char, ← h2, List.drop_left]
  | @pair hi lo hc hhi hlo =>
    obtain ⟨h1, h2⟩ := hex4_of hhi (BSL :: 117 :: (lo ++ r))
    obtain ⟨h3, h4⟩ := hex4_of hlo r
    have e : b!"\\u" ++ hi ++ b!"\\u" ++ lo ++ r = BSL :: 117 :: (hi ++ (BSL :: 117 :: (lo ++ r))) := by simp
    refine ⟨⟨_, rfl⟩, ?_, ?_⟩
    · intro s x hs hx
      rw [e] at hs
      simp only [List.cons.injEq, true_and] at hs
      subst hs
      rw [h1] at hx; cases hx; omega
    · rw [e, escapesIn_u, h1]
      obtain ⟨a, b, c', d, rfl⟩ : ∃ a b c d, hi = [a, b, c, d] := by
        match hi, h2 with
        | [a, b, c, d], _ => exact ⟨a, b, c, d, rfl⟩
      have : surrogate (0xD800 + (c.toNat - 0x10000) / 0x400) ([a, b, c', d] ++ BSL :: 117 :: (lo ++ r)) = (c.toNat, 10) := by
        unfold surrogate
        rw [if_pos (by refine ⟨by omega, by omega, by simp; omega, by simp, by simp⟩)]
        simp only [List.cons_append, List.nil_append, List.drop_succ_cons, List.drop_zero, h3]
        rw [if_pos (by omega), Nat.shiftLeft_eq]
        simp only [Prod.mk.injEq, and_true]
        omega
      simp only [this, utf8_char]
      obtain ⟨a2, b2, c2, d2, rfl⟩ : ∃ a b c d, lo = [a, b, c, d] := by
        match lo, h4 with
        | [a, b, c, d], _ => exact ⟨a, b, c, d, rfl⟩
      simp

end JsonStruct
