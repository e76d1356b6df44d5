import Verif.Lemmas.LenientDoc

/- More bytes behind a text: what was read of the text before does not change. -/

namespace JsonStruct

/-- A comment may go on behind the end: the text ends with a slash, and comments are allowed. -/
def halfSlash (o : Opts) (s : Bytes) : Bool := o.comments && s.getLast? == some SLASH

theorem halfSlash_append {o : Opts} {p s : Bytes} (h : s ≠ []) : halfSlash o (p ++ s) = halfSlash o s := by
  unfold halfSlash
  rw [List.getLast?_append]
  cases hs : s.getLast? with
  | none => rw [List.getLast?_eq_none_iff] at hs; exact absurd hs h
  | some x => rfl

theorem commentEnd_behind {nl : Bool} {s : Bytes} {k : Nat} (h : commentEnd nl s = some k) (q : Bytes) : commentEnd nl (s ++ q) = some k := by
  simp only [commentEnd] at h ⊢
  by_cases hi : s.findIdx (· = LF) < s.length
  · rw [if_pos hi] at h
    rw [List.findIdx_append, if_pos hi, if_pos (by simp; omega)]
    exact h
  · rw [if_neg hi] at h; cases h

theorem numberEnd_behind {s : Bytes} {k : Nat} (h : numberEnd s = .found k) (q : Bytes) : numberEnd (s ++ q) = .found k ∧ k < s.length := by
  simp only [numberEnd] at h ⊢
  by_cases hi : s.findIdx numberStop < s.length
  · rw [if_pos hi] at h
    rw [List.findIdx_append, if_pos hi, if_pos (by simp; omega)]
    cases h
    exact ⟨rfl, hi⟩
  · rw [if_neg hi] at h; cases h

theorem asciiEndFrom_behind {s : Bytes} {j k : Nat} (h : asciiEndFrom j s = .found k) (q : Bytes) :
    asciiEndFrom j (s ++ q) = .found k ∧ k < j + s.length := by
  induction s generalizing j with
  | nil => simp [asciiEndFrom] at h
  | cons c s ih =>
    rw [List.cons_append, asciiEndFrom]
    rw [asciiEndFrom] at h
    split
    · split
      · rename_i h1 h2
        rw [if_pos h1, if_pos h2] at h
        have := ih h
        exact ⟨this.1, by simp only [List.length_cons]; omega⟩
      · rename_i h1 h2
        rw [if_pos h1, if_neg h2] at h
        split
        · rename_i h3; rw [if_pos h3] at h; cases h
        · rename_i h3; rw [if_neg h3] at h; cases h; exact ⟨rfl, by simp⟩
    · rename_i h1
      rw [if_neg h1] at h
      have := ih h
      exact ⟨this.1, by simp only [List.length_cons]; omega⟩

theorem strEnd_behind {e : Bool} {s : Bytes} {k : Nat} (h : (strEnd e s).1 = some k) (q : Bytes) :
    (strEnd e (s ++ q)).1 = some k ∧ 0 < k ∧ k ≤ s.length := by
  induction s generalizing e k with
  | nil => simp [strEnd] at h
  | cons c s ih =>
    have step : ∀ e, (bump 1 (strEnd e s)).1 = some k → (bump 1 (strEnd e (s ++ q))).1 = some k ∧ 0 < k ∧ k ≤ (c :: s).length := by
      intro e h
      simp only [bump, Option.map_eq_some_iff] at h
      obtain ⟨j, hj, rfl⟩ := h
      have := ih hj
      simp only [bump, this.1, Option.map_some, List.length_cons]
      exact ⟨trivial, by omega, by omega⟩
    rw [List.cons_append]
    cases e with
    | true => simp only [strEnd] at h ⊢; exact step _ h
    | false =>
      simp only [strEnd] at h ⊢
      split
      · rename_i h1
        rw [if_pos h1] at h
        split
        · rename_i h2; rw [if_pos h2] at h; exact step _ h
        · rename_i h2
          rw [if_neg h2] at h
          split
          · rename_i h3; rw [if_pos h3] at h; cases h; simp
          · rename_i h3; rw [if_neg h3] at h; exact step _ h
      · rename_i h1; rw [if_neg h1] at h; exact step _ h

/-- The result of a scan with more bytes behind: those are left, or an error stays, unless it is a matter of more bytes. -/
def After (o : Opts) (s : Bytes) (g : α → Bytes) (f : α → α) (x y : LRes α) : Prop :=
  match x with
  | .ok a => y = .ok (f a) ∧ g a <:+ s
  | .error e => e ≠ .needMoreData → halfSlash o s = false → y = .error e

theorem halfSlash_suffix {o : Opts} {s r : Bytes} (h : r <:+ s) (hs : halfSlash o s = false) : halfSlash o r = false := by
  obtain ⟨t, rfl⟩ := h
  by_cases hr : r = []
  · subst hr; simp [halfSlash]
  · rwa [halfSlash_append hr] at hs

theorem After.mono {o : Opts} {s s' : Bytes} {g : α → Bytes} {f : α → α} {x y : LRes α} (h : After o s g f x y) (hs : s <:+ s') :
    After o s' g f x y := by
  cases x with
  | ok a => exact ⟨h.1, h.2.trans hs⟩
  | error e => exact fun h1 h2 => h h1 (halfSlash_suffix hs h2)

theorem After.cons {o : Opts} {c : Byte} {s : Bytes} {g : α → Bytes} {f : α → α} {x y : LRes α} (h : After o s g f x y) :
    After o (c :: s) g f x y := h.mono (List.suffix_cons c s)

theorem slash_cons {c : Byte} {s q : Bytes} {b : Bool} (h : s = [] → b = true → c ≠ SLASH) (hb : b = true) :
    (c == SLASH && (s ++ q).head? == some SLASH) = (c == SLASH && s.head? == some SLASH) := by
  cases s with
  | nil => simp [h rfl hb]
  | cons d s => rfl

theorem slash_between : has SLASH (flPlusMinus ||| flDigits) = false ∧ has SLASH flAscii = false ∧ lookup SLASH ≠ 0 := by decide +kernel

theorem lStart_append (o : Opts) (s q : Bytes) (k : Nat) : After o s Prod.snd (fun x => (x.1, x.2 ++ q)) (lStart o s k) (lStart o (s ++ q) k) := by
  induction s generalizing k with
  | nil => simp [lStart, After]
  | cons c s ih =>
    have ih' : ∀ k, After o (c :: s) Prod.snd (fun x => (x.1, x.2 ++ q)) (lStart o s k) (lStart o (s ++ q) k) := fun k => (ih k).cons
    rw [List.cons_append]
    cases k with
    | succ k => simpa only [lStart] using ih' k
    | zero =>
      by_cases hend : s = [] ∧ c = SLASH
      · obtain ⟨rfl, rfl⟩ := hend
        obtain ⟨f1, f2, f3⟩ := slash_between
        simp [lStart, After, SLASH, QUOTE, LBRACE, RBRACE, LBRACK, RBRACK] at f1 f2 f3 ⊢
        simp [f1, f2, f3]
      · have hsl := slash_cons (c := c) (s := s) (q := q) (b := true) (fun h _ hc => hend ⟨h, hc⟩) rfl
        rw [lStart, lStart, Bool.and_assoc, Bool.and_assoc, hsl]
        split
        · rename_i hc
          simp only [Bool.and_eq_true, beq_iff_eq] at hc
          cases s with
          | nil => simp at hc
          | cons d s =>
            simp only [List.cons_append, List.tail_cons]
            cases hce : commentEnd o.newLines s with
            | none => exact fun h => absurd rfl h
            | some k => rw [commentEnd_behind hce]; exact ih' (k + 1)
        · repeat' split
          all_goals first | exact ⟨rfl, List.suffix_refl _⟩ | exact ⟨rfl, List.suffix_cons _ _⟩ | exact ih' 0 | exact fun _ _ => rfl

theorem lDelim_append (o : Opts) (ct : Ty) (s q : Bytes) (k : Nat) : After o s Prod.snd (fun x => (x.1, x.2 ++ q)) (lDelim o ct s k) (lDelim o ct (s ++ q) k) := by
  induction s generalizing k with
  | nil => simp [lDelim, After]
  | cons c s ih =>
    have ih' : ∀ k, After o (c :: s) Prod.snd (fun x => (x.1, x.2 ++ q)) (lDelim o ct s k) (lDelim o ct (s ++ q) k) := fun k => (ih k).cons
    rw [List.cons_append]
    cases k with
    | succ k => simpa only [lDelim] using ih' k
    | zero =>
      by_cases hend : s = [] ∧ c = SLASH
      · obtain ⟨rfl, rfl⟩ := hend
        have f1 : has SLASH flWs = false := by decide +kernel
        cases ho : o.comments with
        | true =>
          simp [lDelim, SLASH, COLON, COMMA, LF, RBRACK] at f1 ⊢
          simp [f1, After, halfSlash, ho, SLASH]
        | false =>
          simp [lDelim, SLASH, COLON, COMMA, LF, RBRACK, ho] at f1 ⊢
          simp [f1, After]
      · have hsl := slash_cons (c := c) (s := s) (q := q) (b := true) (fun h _ hc => hend ⟨h, hc⟩) rfl
        rw [lDelim, lDelim, Bool.and_assoc, Bool.and_assoc, hsl]
        split
        · rename_i hc
          simp only [Bool.and_eq_true, beq_iff_eq] at hc
          cases s with
          | nil => simp at hc
          | cons d s =>
            simp only [List.cons_append, List.tail_cons]
            cases hce : commentEnd o.newLines s with
            | none => exact fun h => absurd rfl h
            | some k => rw [commentEnd_behind hce]; exact ih' (k + 1)
        · repeat' split
          all_goals first | exact ⟨rfl, List.suffix_refl _⟩ | exact ⟨rfl, List.suffix_cons _ _⟩ | exact ih' 0 | exact fun _ _ => rfl

theorem lTokEnd_append (o : Opts) (s q : Bytes) (k : Nat) : After o s Prod.snd (fun x => (x.1, x.2 ++ q)) (lTokEnd o s k) (lTokEnd o (s ++ q) k) := by
  induction s generalizing k with
  | nil => simp [lTokEnd, After]
  | cons c s ih =>
    have ih' : ∀ k, After o (c :: s) Prod.snd (fun x => (x.1, x.2 ++ q)) (lTokEnd o s k) (lTokEnd o (s ++ q) k) := fun k => (ih k).cons
    rw [List.cons_append]
    cases k with
    | succ k => simpa only [lTokEnd] using ih' k
    | zero =>
      by_cases hend : s = [] ∧ c = SLASH
      · obtain ⟨rfl, rfl⟩ := hend
        have f1 : has SLASH flWs = false := by decide +kernel
        cases ho : o.comments with
        | true =>
          simp [lTokEnd, SLASH, COMMA, LF, RBRACK, RBRACE] at f1 ⊢
          simp [f1, After, halfSlash, ho, SLASH]
        | false =>
          simp [lTokEnd, SLASH, COMMA, LF, RBRACK, RBRACE, ho] at f1 ⊢
          simp [f1, After]
      · have hsl := slash_cons (c := c) (s := s) (q := q) (b := true) (fun h _ hc => hend ⟨h, hc⟩) rfl
        rw [lTokEnd, lTokEnd, Bool.and_assoc, Bool.and_assoc, hsl]
        split
        · rename_i hc
          simp only [Bool.and_eq_true, beq_iff_eq] at hc
          cases s with
          | nil => simp at hc
          | cons d s =>
            simp only [List.cons_append, List.tail_cons]
            cases hce : commentEnd o.newLines s with
            | none => exact fun h => absurd rfl h
            | some k => rw [commentEnd_behind hce]; exact ih' (k + 1)
        · repeat' split
          all_goals first | exact ⟨rfl, List.suffix_refl _⟩ | exact ⟨rfl, List.suffix_cons _ _⟩ | exact ih' 0 | exact fun _ _ => rfl

theorem lStart_ne {o : Opts} {s : Bytes} {k : Nat} {ty : Ty} {r : Bytes} (h : lStart o s k = .ok (ty, r)) : r ≠ [] := by
  induction s generalizing k with
  | nil => simp [lStart] at h
  | cons c s ih =>
    cases k with
    | succ k => rw [lStart] at h; exact ih h
    | zero =>
      rw [lStart] at h
      split at h
      · split at h
        · cases h
        · exact ih h
      · split_ifs at h <;> first | (cases h; simp) | exact ih h

theorem lValue_append (o : Opts) (s q : Bytes) : After o s (fun x => x.2.2) (fun x => (x.1, x.2.1, x.2.2 ++ q)) (lValue o s) (lValue o (s ++ q)) := by
  have h := lStart_append o s q 0
  unfold lValue
  cases hx : lStart o s 0 with
  | error e =>
    rw [hx] at h
    intro h1 h2
    rw [h h1 h2]
  | ok x =>
    obtain ⟨ty, r⟩ := x
    rw [hx] at h
    obtain ⟨h1, h2⟩ := h
    have hne : r ≠ [] := lStart_ne hx
    obtain ⟨c, r, rfl⟩ := List.exists_cons_of_ne_nil hne
    have hr : r <:+ s := (List.suffix_cons c r).trans h2
    rw [h1]
    simp only [List.cons_append, List.tail_cons]
    cases ty with
    | string =>
      simp only
      cases he : (strEnd false r).1 with
      | none => exact fun h => absurd rfl h
      | some k =>
        obtain ⟨g1, g2, g3⟩ := strEnd_behind he q
        rw [g1]
        refine ⟨?_, (List.drop_suffix k r).trans hr⟩
        simp only [List.take_append_of_le_length (show k - 1 ≤ r.length by omega), List.drop_append_of_le_length g3]
    | number =>
      simp only
      cases he : numberEnd r with
      | more => exact fun h => absurd rfl h
      | found k =>
        obtain ⟨g1, g3⟩ := numberEnd_behind he q
        rw [g1]
        refine ⟨?_, (List.drop_suffix k r).trans hr⟩
        simp only [List.take_succ_cons, List.take_append_of_le_length (show k ≤ r.length by omega), List.drop_append_of_le_length (show k ≤ r.length by omega)]
    | ascii =>
      simp only
      cases he : asciiEnd r with
      | more => exact fun h => absurd rfl h
      | found k =>
        obtain ⟨g1, g3⟩ := asciiEndFrom_behind he q
        rw [show asciiEnd (r ++ q) = .found k from g1]
        refine ⟨?_, (List.drop_suffix k r).trans hr⟩
        simp only [List.take_succ_cons, List.take_append_of_le_length (show k ≤ r.length by omega), List.drop_append_of_le_length (show k ≤ r.length by omega)]
    | _ => exact ⟨by simp, hr⟩

/-- The state with more bytes behind. -/
def LC.more (c : LC) (q : Bytes) : LC := { c with rest := c.rest ++ q }

abbrev AfterC (o : Opts) (s q : Bytes) (x y : LRes (LC × Tok)) : Prop := After o s (fun x => x.1.rest) (fun x => (x.1.more q, x.2)) x y

theorem more_isEmpty {s q : Bytes} (h : ¬ s.isEmpty = true) : (s ++ q).isEmpty = false := by
  cases s with
  | nil => simp at h
  | cons => rfl

theorem lData_append (o : Opts) (c : LC) (q : Bytes) (nm : Bytes) (nty : Ty) : AfterC o c.rest q (lData o c nm nty) (lData o (c.more q) nm nty) := by
  have h := lValue_append o c.rest q
  unfold lData
  split
  · exact fun h => absurd rfl h
  · rename_i hne
    rw [show (c.more q).rest = c.rest ++ q from rfl, if_neg (by rw [more_isEmpty hne]; simp)]
    cases hx : lValue o c.rest with
    | error e =>
      rw [hx] at h
      intro h1 h2
      rw [h h1 h2]
    | ok x =>
      obtain ⟨ty, d, r⟩ := x
      rw [hx] at h
      rw [h.1]
      simp only
      split
      · exact fun _ _ => rfl
      · exact ⟨rfl, h.2⟩

theorem lDelimiter_append (o : Opts) (c : LC) (q : Bytes) (nm : Bytes) (nty : Ty) : AfterC o c.rest q (lDelimiter o c nm nty) (lDelimiter o (c.more q) nm nty) := by
  unfold lDelimiter
  split
  · exact fun h => absurd rfl h
  · rename_i hne
    rw [show (c.more q).rest = c.rest ++ q from rfl, if_neg (by rw [more_isEmpty hne]; simp), show (c.more q).stack = c.stack from rfl]
    split
    · exact fun _ _ => rfl
    · rename_i ct st hst
      have h := lDelim_append o ct c.rest q 0
      cases hx : lDelim o ct c.rest 0 with
      | error e =>
        rw [hx] at h
        intro h1 h2
        rw [h h1 h2]
      | ok x =>
        obtain ⟨b, r⟩ := x
        rw [hx] at h
        rw [h.1]
        cases b with
        | false => exact ⟨rfl, h.2⟩
        | true =>
          simp only
          split
          · exact fun _ _ => rfl
          · exact (lData_append o { c with exp := false, rest := r } q nm nty).mono h.2

theorem lName_append (o : Opts) (c : LC) (q : Bytes) : AfterC o c.rest q (lName o c) (lName o (c.more q)) := by
  have h := lValue_append o c.rest q
  unfold lName
  split
  · exact fun h => absurd rfl h
  · rename_i hne
    rw [show (c.more q).rest = c.rest ++ q from rfl, if_neg (by rw [more_isEmpty hne]; simp)]
    cases hx : lValue o c.rest with
    | error e =>
      rw [hx] at h
      intro h1 h2
      rw [h h1 h2]
    | ok x =>
      obtain ⟨ty, d, r⟩ := x
      rw [hx] at h
      rw [h.1]
      cases ty with
      | objectEnd | arrayEnd =>
        simp only [show (c.more q).exp = c.exp from rfl]
        split
        · exact fun _ _ => rfl
        · exact ⟨rfl, h.2⟩
      | objectStart | arrayStart => exact ⟨rfl, h.2⟩
      | _ => exact (lDelimiter_append o { c with rest := r } q d _).mono h.2

theorem lPop_append (o : Opts) (c : LC) (q : Bytes) : AfterC o c.rest q (lPop o c) (lPop o (c.more q)) := by
  unfold lPop
  split
  · exact fun h => absurd rfl h
  · rename_i hne
    rw [show (c.more q).rest = c.rest ++ q from rfl, if_neg (c := (c.rest ++ q).isEmpty = true) (by rw [more_isEmpty hne]; simp), show (c.more q).te = c.te from rfl,
      show (c.more q).stack = c.stack from rfl]
    split
    · split
      · exact lName_append o { c with te := false } q
      · have h := lTokEnd_append o c.rest q 0
        cases hx : lTokEnd o c.rest 0 with
        | error e =>
          rw [hx] at h
          intro h1 h2
          rw [h h1 h2]
        | ok x =>
          obtain ⟨b, r⟩ := x
          rw [hx] at h
          rw [h.1]
          exact (lName_append o { c with te := false, exp := c.exp || b, rest := r } q).mono h.2
    · exact lName_append o c q

theorem lNext_append (o : Opts) (c : LC) (q : Bytes) : AfterC o c.rest q (lNext o c) (lNext o (c.more q)) := by
  have h := lPop_append o c q
  unfold lNext
  cases hx : lPop o c with
  | error e =>
    rw [hx] at h
    intro h1 h2
    rw [h h1 h2]
  | ok x =>
    obtain ⟨c1, k⟩ := x
    rw [hx] at h
    rw [h.1]
    simp only [show (c1.more q).stack = c1.stack from rfl]
    repeat' split
    all_goals first | exact ⟨rfl, h.2⟩ | exact fun _ _ => rfl

theorem run_more {o : Opts} {c c' : LC} {ks : List Tok} (h : Run o c ks c') (q : Bytes) : Run o (c.more q) ks (c'.more q) := by
  induction h with
  | nil => exact .nil
  | @cons c k c1 ks c2 h1 _ ih =>
    have := lNext_append o c q
    rw [h1] at this
    exact .cons this.1 ih

theorem run_suffix {o : Opts} {c c' : LC} {ks : List Tok} (h : Run o c ks c') : c'.rest <:+ c.rest := by
  induction h with
  | nil => exact List.suffix_refl _
  | @cons c k c1 ks c2 h1 _ ih =>
    have := lNext_append o c []
    rw [h1] at this
    exact ih.trans this.2

end JsonStruct
