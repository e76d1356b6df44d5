import Verif.Spec.Raw
import Verif.Spec.History
import Verif.Lemmas.Success
import Verif.Lemmas.Deliver

/- Where bracket tokens lie, and what is recorded while tokens are read. -/

namespace JsonStruct

/-! ### Bracket tokens -/

/-- An idle intermediate token holds no data. -/
def Inter.Idle (i : Inter) : Prop := i.active = false → i.data = [] ∧ i.dataTypeSet = false

/-- The intermediate token of a tokenizer that is reading a token. -/
structure Tz.Tidy (t : Tz) : Prop where
  idle : t.inter.Idle
  name : (t.tokenState = .findingName ∨ t.tokenState = .findingTokenEnd) → t.propState = .noStartFound → t.inter.active = false
  data : (t.tokenState ≠ .findingData ∨ t.propState = .noStartFound) → t.inter.data = [] ∧ t.inter.dataTypeSet = false

/-- The same between two calls. -/
structure Tz.Neat (t : Tz) : Prop where
  idle : t.inter.Idle
  cont : t.continueAfter = true → t.Tidy

/-- A bracket token is the byte in front of the cursor. -/
def BracketAt (buf : Bytes) (t : Tz) (k : Token) : Prop :=
  k.valueType.isBracket = true → 1 ≤ t.cursor ∧ buf[t.cursor - 1]? = some (bracketByte k.valueType) ∧
    k.value.bytes = [bracketByte k.valueType] ∧ (k.value.loc = .input (t.cursor - 1) ∨ (k.value.loc = .own ∧ t.inter.active = true))

theorem cons_at {a : Byte} {cs : Bytes} {x p : Nat} {y : Byte} (h : p + 1 ≤ x ∧ cs[x - (p + 1)]? = some y) :
    p ≤ x ∧ (a :: cs)[x - p]? = some y := by
  refine ⟨by omega, ?_⟩
  rw [show x - p = (x - (p + 1)) + 1 from by omega, List.getElem?_cons_succ]
  exact h.2

theorem at_here {x : Byte} {cs : Bytes} {pos cur : Nat} (h : cur ≤ pos + 0) :
    pos ≤ cur + (pos - cur) ∧ (x :: cs)[cur + (pos - cur) - pos]? = some x := by
  refine ⟨by omega, ?_⟩
  rw [show cur + (pos - cur) - pos = 0 from by omega]; rfl

theorem startLoop_byte (o : Opts) (s : Bytes) (k p c : Nat) (h : (startLoop o s k p c).err = .noError) (hc : c ≤ p + k)
    (hb : (startLoop o s k p c).type.isBracket = true) :
    p ≤ (startLoop o s k p c).cursor + (startLoop o s k p c).ahead ∧
    s[(startLoop o s k p c).cursor + (startLoop o s k p c).ahead - p]? = some (bracketByte (startLoop o s k p c).type) := by
  fun_induction startLoop o s k p c with
  | case1 => simp at h
  | case2 a s k p c ih => exact cons_at (ih h (by omega) hb)
  | case3 => simp at h
  | case4 ch cs p c hcom k hsk ih => exact cons_at (ih h (by omega) hb)
  | case13 ch cs p c _ _ _ _ _ _ _ _ _ ih => exact cons_at (ih h (by omega) hb)
  | case12 => simp at h
  | case5 | case10 | case11 => simp [Ty.isBracket] at hb
  | case6 | case7 | case8 | case9 => exact at_here hc

theorem populateEnd_type (t : Tz) (buf : Bytes) (ptr : Nat) (ty : Ty) (h : (t.populateEnd buf ptr ty).err = .noError) :
    (t.populateEnd buf ptr ty).type = ty ∧ ty.isBracket = false := by
  unfold Tz.populateEnd at h ⊢
  cases ty <;> simp only at h ⊢
  case string => split at h <;> simp_all [Ty.isBracket]
  case number => split at h <;> simp_all [Ty.isBracket]
  case ascii => split at h <;> simp_all [Ty.isBracket]
  all_goals simp at h

theorem populateEnd_state (t : Tz) (buf : Bytes) (ptr : Nat) (ty : Ty) (h : t.propState ≠ .noStartFound) :
    (t.populateEnd buf ptr ty).tz.propState ≠ .noStartFound := by
  unfold Tz.populateEnd
  cases ty <;> simp only
  case string => split <;> simp_all
  case number => split <;> simp_all
  case ascii => split <;> simp_all
  all_goals exact h

structure PopRaw (t : Tz) (buf : Bytes) (ty : Ty) (p : PopRes) : Prop where
  bracket : p.err = .noError → p.type.isBracket = true → t.propState = .noStartFound ∧ p.size = 1 ∧ p.ptr + 1 = p.tz.cursor ∧
    buf[p.ptr]? = some (bracketByte p.type)
  resumed : p.err = .noError → t.propState ≠ .noStartFound → p.type = ty ∧ ty.isBracket = false
  state : p.tz.propState = .noStartFound → t.propState = .noStartFound

theorem populateFrom_raw (t : Tz) (buf : Bytes) (ty : Ty) (h : BufOk t buf) : PopRaw t buf ty (t.populateFrom buf ty) := by
  have hcur := h.cur
  unfold Tz.populateFrom
  cases hps : t.propState with
  | foundEnd => exact absurd hps h.pe
  | findingEnd =>
    simp only
    refine ⟨fun e hb => ?_, fun e _ => populateEnd_type _ _ _ _ e, fun hh => ?_⟩
    · obtain ⟨h1, h2⟩ := populateEnd_type _ _ _ _ e
      rw [h1, h2] at hb; cases hb
    · exact absurd hh (populateEnd_state _ _ _ _ (by simp [hps]))
  | noStartFound =>
    simp only
    rw [findStart_eq]
    obtain ⟨p1, p2, p3⟩ := startLoop_pos t.opts (buf.drop t.cursor) 0 t.cursor t.cursor (by omega) (by omega)
    have hby := startLoop_byte t.opts (buf.drop t.cursor) 0 t.cursor t.cursor
    generalize startLoop t.opts (buf.drop t.cursor) 0 t.cursor t.cursor = r at *
    by_cases he : r.err = .noError
    · simp only [he, ne_eq, not_true_eq_false, if_false]
      by_cases hb : r.type.isBracket = true
      · have hstr : r.type ≠ .string := by intro h; simp [h, Ty.isBracket] at hb
        simp only [hb, if_true, hstr, if_false]
        refine ⟨fun _ _ => ⟨hps, rfl, rfl, ?_⟩, fun _ hh => absurd hps hh, fun _ => hps⟩
        obtain ⟨q1, q2⟩ := hby he (by omega) hb
        rw [List.getElem?_drop, show t.cursor + (r.cursor + r.ahead - t.cursor) = r.cursor + r.ahead from by omega] at q2
        exact q2
      · simp only [hb, if_false, Bool.false_eq_true]
        refine ⟨fun e hb' => ?_, fun _ hh => absurd hps hh, fun _ => hps⟩
        obtain ⟨h1, h2⟩ := populateEnd_type _ _ _ _ e
        rw [h1, h2] at hb'; cases hb'
    · simp only [ne_eq, he, not_false_eq_true, if_true]
      exact ⟨fun e => absurd e he, fun e => absurd e he, fun _ => hps⟩

theorem getType_bracket {ty : Ty} {b : Bytes} (h : (getType ty b).isBracket = true) : getType ty b = ty := by
  by_cases ha : ty = .ascii
  · subst ha
    exfalso
    unfold getType at h
    simp only [ne_eq, not_true_eq_false, if_false] at h
    repeat' split at h
    all_goals simp [Ty.isBracket] at h
  · simp [getType, ha]

/-- Outcome of one step for the intermediate token and for bracket tokens. -/
def StepRaw (buf : Bytes) : Step → Prop
  | .ret e t' tok => t'.inter.Idle ∧ (e = .needMoreData → t'.Tidy) ∧ (e = .noError → ∀ k, tok = some k → BracketAt buf t' k)
  | .cont t' tmp => t'.Tidy ∧ tmp.nameType.isBracket = false

theorem bracket_slice {buf : Bytes} {p : Nat} {x : Byte} (h : buf[p]? = some x) : slice buf p 1 = [x] := by
  unfold slice
  rw [List.getElem?_eq_some_iff] at h
  obtain ⟨h1, h2⟩ := h
  rw [List.drop_eq_getElem_cons h1, h2]; rfl

theorem stepName_raw (t : Tz) (buf : Bytes) (h : BufOk t buf) (hts : t.tokenState = .findingName) (ht : t.Tidy) (tmp : Token) :
    StepRaw buf (t.stepName buf tmp) := by
  have hp := populateFrom_ok t buf t.inter.nameType h
  have hr := populateFrom_raw t buf t.inter.nameType h
  unfold Tz.stepName
  generalize t.populateFrom buf t.inter.nameType = p at *
  obtain ⟨same, le, cur, ok, bad, more, notub⟩ := hp
  have hts' : p.tz.tokenState = .findingName := by rw [same.tokenState]; exact hts
  have hi := same.inter
  have hd := ht.data (.inl (by simp [hts]))
  simp only
  by_cases hm : p.err = .needMoreData
  · simp only [hm, if_true]
    split
    · rename_i hne
      refine ⟨?_, fun _ => ⟨?_, fun _ hh => absurd hh hne, fun _ => ?_⟩, by simp⟩
      · intro ha; simp only at ha; split at ha <;> simp at ha
      · intro ha; simp only at ha; split at ha <;> simp at ha
      · simp only; split <;> (simp only; rw [hi]; exact hd)
    · rename_i hne
      simp only [ne_eq, not_not] at hne
      refine ⟨by rw [hi]; exact ht.idle, fun _ => ⟨by rw [hi]; exact ht.idle, fun _ _ => ?_, fun _ => by rw [hi]; exact hd⟩, by simp⟩
      rw [hi]; exact ht.name (.inl hts) (hr.state hne)
  by_cases he : p.err = .noError
  swap
  · simp only [hm, he, if_false, ne_eq, not_false_eq_true, if_true]
    exact ⟨by rw [hi]; exact ht.idle, fun e => absurd e hm, fun e => absurd e he⟩
  simp only [he, if_false, ne_eq, not_true_eq_false, reduceCtorEq]
  by_cases hact : t.inter.active = true
  · have hps : t.propState ≠ .noStartFound := by
      intro hh; rw [ht.name (.inl hts) hh] at hact; cases hact
    obtain ⟨r1, r2⟩ := hr.resumed he hps
    have hact' : p.tz.inter.active = true := by rw [hi]; exact hact
    simp only [hact', if_true]
    rw [hi]
    rw [show t.inter.nameType = t.inter.nameType from rfl] at *
    generalize t.inter.nameType = nty at *
    cases nty <;> simp only [Ty.isBracket, reduceCtorEq] at r2 ⊢
    all_goals
      refine ⟨⟨(fun ha => by simp [Tz.resetForNewValue, hact] at ha), (fun hh => by simp [Tz.resetForNewValue] at hh), fun _ => by simpa [Tz.resetForNewValue] using hd⟩, ?_⟩
      simp only
      cases hb : (getType _ _).isBracket with
      | false => rfl
      | true => have := getType_bracket hb; rw [this] at hb; simp [Ty.isBracket] at hb
  · have hact' : p.tz.inter.active = false := by rw [hi]; simpa using hact
    simp only [hact', if_false, Bool.false_eq_true]
    have hbr := hr.bracket he
    obtain ⟨pe, pp, psz, pty, ptz⟩ := p
    simp only at *
    have hat : ∀ (ts : TokState) (e : Bool), pty.isBracket = true → BracketAt buf { ptz with tokenState := ts, expecting := e } (anonymous { loc := .input pp, bytes := slice buf pp psz } pty) := by
      intro ts e hb _
      obtain ⟨q1, q2, q3, q4⟩ := hbr hb
      subst q2
      have : ptz.cursor - 1 = pp := by omega
      simp only [anonymous, this]
      exact ⟨by omega, q4, bracket_slice q4, Or.inl trivial⟩
    have hid : ptz.inter.Idle := by rw [hi]; exact ht.idle
    have key : ∀ ty, ty.isBracket = false → StepRaw buf (.cont (Tz.resetForNewValue { ptz with tokenState := .findingDelimiter })
        { tmp with name := { loc := .input pp, bytes := slice buf pp psz }, nameType := getType ty (slice buf pp psz) }) := by
      intro ty hty
      refine ⟨⟨hid, fun hh => by simp [Tz.resetForNewValue] at hh, fun _ => by simpa [Tz.resetForNewValue, hi] using hd⟩, ?_⟩
      simp only
      cases hb : (getType _ _).isBracket with
      | false => rfl
      | true => have := getType_bracket hb; rw [this] at hb; rw [hb] at hty; cases hty
    cases pty <;> simp only
    case objectEnd | arrayEnd =>
      split
      · exact ⟨hid, by simp, by simp⟩
      · exact ⟨hid, by simp, fun _ k hk => by cases hk; exact hat _ _ rfl⟩
    case objectStart | arrayStart => exact ⟨hid, by simp, fun _ k hk => by cases hk; exact hat _ _ rfl⟩
    all_goals exact key _ rfl

theorem saveName_facts (i : Inter) (tmp : Token) : (i.saveName tmp).active = true ∧ (i.saveName tmp).data = i.data ∧
    (i.saveName tmp).dataTypeSet = i.dataTypeSet := by
  unfold Inter.saveName; split <;> simp_all

theorem stepDelimiter_raw (t : Tz) (buf : Bytes) (hts : t.tokenState = .findingDelimiter) (ht : t.Tidy) (tmp : Token)
    (hb : tmp.nameType.isBracket = false) : StepRaw buf (t.stepDelimiter buf tmp) := by
  have hst := findDelimiter_state t.opts t.stack buf t.cursor
  have hd := ht.data (.inl (by simp [hts]))
  unfold Tz.stepDelimiter
  generalize findDelimiter t.opts t.stack buf t.cursor = r at *
  simp only
  obtain ⟨s1, s2, s3⟩ := saveName_facts t.inter tmp
  split
  · rename_i he
    refine ⟨fun ha => ?_, fun _ => ⟨fun ha => ?_, fun hh => ?_, fun _ => ?_⟩, fun e => absurd e he⟩
    · simp only [s1, reduceCtorEq] at ha
    · simp only [s1, reduceCtorEq] at ha
    · simp [hts] at hh
    · simp only; rw [s2, s3]; exact hd
  · rename_i he
    simp only [ne_eq, not_not] at he
    split
    · refine ⟨ht.idle, by simp, fun _ k hk => ?_⟩
      cases hk
      intro hh; simp only [anonymous, hb, reduceCtorEq] at hh
    · rename_i hne
      split
      · exact ⟨ht.idle, by simp, by simp⟩
      · refine ⟨⟨ht.idle, fun hh => ?_, fun _ => hd⟩, hb⟩
        rcases hst he with h | h
        · exact absurd h hne
        · simp [Tz.resetForNewValue, h] at hh

theorem stepTokenEnd_raw (t : Tz) (buf : Bytes) (h : BufOk t buf) (hts : t.tokenState = .findingTokenEnd) (ht : t.Tidy) (tmp : Token)
    (hb : tmp.nameType.isBracket = false) : StepRaw buf (t.stepTokenEnd buf tmp) := by
  have hps : t.propState = .noStartFound := by
    cases hp : t.propState with
    | noStartFound => rfl
    | foundEnd => exact absurd hp h.pe
    | findingEnd => have := h.ds hp; simp [hts] at this
  have hd := ht.data (.inr hps)
  have hn := ht.name (.inr hts) hps
  unfold Tz.stepTokenEnd
  generalize findTokenEnd t.opts t.stack buf t.cursor = r at *
  simp only
  split
  · rename_i he
    exact ⟨ht.idle, fun _ => ⟨ht.idle, fun _ _ => hn, fun _ => hd⟩, fun e => absurd e he⟩
  · exact ⟨⟨ht.idle, fun _ _ => hn, fun _ => hd⟩, hb⟩

theorem stepData_raw (t : Tz) (buf : Bytes) (h : BufOk t buf) (hts : t.tokenState = .findingData) (ht : t.Tidy) (tmp : Token) :
    StepRaw buf (t.stepData buf tmp) := by
  have hp := populateFrom_ok t buf t.inter.dataType h
  have hr := populateFrom_raw t buf t.inter.dataType h
  unfold Tz.stepData
  generalize t.populateFrom buf t.inter.dataType = p at *
  obtain ⟨same, le, cur, ok, bad, more, notub⟩ := hp
  have hts' : p.tz.tokenState = .findingData := by rw [same.tokenState]; exact hts
  have hi := same.inter
  have hid := ht.idle
  obtain ⟨s1, s2, s3⟩ := saveName_facts t.inter tmp
  simp only
  by_cases hm : p.err = .needMoreData
  · simp only [hm, if_true]
    by_cases hne : p.tz.propState = .noStartFound
    · have hd := ht.data (.inr (hr.state hne))
      simp only [hne, ne_eq, not_true_eq_false, if_false, hi]
      refine ⟨fun ha => ?_, fun _ => ⟨fun ha => ?_, fun hh => ?_, fun _ => ?_⟩, by simp⟩
      · simp only [s1, reduceCtorEq] at ha
      · simp only [s1, reduceCtorEq] at ha
      · simp [hts'] at hh
      · simp only; rw [s2, s3]; exact hd
    · simp only [hne, ne_eq, not_false_eq_true, if_true, hi]
      refine ⟨fun ha => ?_, fun _ => ⟨fun ha => ?_, fun hh => ?_, fun hh => ?_⟩, by simp⟩
      · simp only at ha; split at ha <;> simp [s1] at ha
      · simp only at ha; split at ha <;> simp [s1] at ha
      · simp [hts'] at hh
      · simp [hts', hne] at hh
  by_cases he : p.err = .noError
  swap
  · simp only [hm, he, if_false, ne_eq, not_false_eq_true, if_true]
    exact ⟨by rw [hi]; exact hid, fun e => absurd e hm, fun e => absurd e he⟩
  simp only [he, if_false, ne_eq, not_true_eq_false, reduceCtorEq]
  have hbr := hr.bracket he
  have hres := hr.resumed he
  clear ok bad more hr
  obtain ⟨pe, pp, psz, pty, ptz⟩ := p
  simp only at *
  rw [show ptz.inter = t.inter from hi]
  by_cases hact : t.inter.active = true
  · simp only [hact, if_true]
    by_cases hps : t.propState = .noStartFound
    · obtain ⟨d1, d2⟩ := ht.data (.inr hps)
      simp only [d2, if_false, Bool.false_eq_true, d1, List.nil_append, hact, if_true]
      split
      · exact ⟨fun ha => by simp [hact] at ha, by simp, by simp⟩
      · refine ⟨fun ha => by simp [hact] at ha, by simp, fun _ k hk => ?_⟩
        cases hk
        intro hb
        simp only at hb
        have hg := getType_bracket hb
        rw [hg] at hb
        obtain ⟨q1, q2, q3, q4⟩ := hbr hb
        subst q2
        have : ptz.cursor - 1 = pp := by omega
        simp only [hg, this]
        exact ⟨by omega, q4, bracket_slice q4, Or.inr ⟨trivial, trivial⟩⟩
    · obtain ⟨r1, r2⟩ := hres hps
      subst r1
      by_cases hset : t.inter.dataTypeSet = true
      all_goals
        simp only [hset, hact, if_true, if_false, Bool.false_eq_true]
        split
        · exact ⟨fun ha => by simp [hact] at ha, by simp, by simp⟩
        · refine ⟨fun ha => by simp [hact] at ha, by simp, fun _ k hk => ?_⟩
          cases hk
          intro hb
          simp only at hb
          have hg := getType_bracket hb
          rw [hg, r2] at hb; cases hb
  · have hact' : t.inter.active = false := by simpa using hact
    simp only [hact', if_false, Bool.false_eq_true, hi]
    split
    · exact ⟨by rw [hi]; exact hid, by simp, by simp⟩
    · refine ⟨hid, by simp, fun _ k hk => ?_⟩
      cases hk
      intro hb
      simp only at hb
      have hg := getType_bracket hb
      rw [hg] at hb
      obtain ⟨q1, q2, q3, q4⟩ := hbr hb
      subst q2
      have : ptz.cursor - 1 = pp := by omega
      simp only [hg, this]
      exact ⟨by omega, q4, bracket_slice q4, Or.inl trivial⟩

theorem step_raw (t : Tz) (buf : Bytes) (h : BufOk t buf) (ht : t.Tidy) (tmp : Token) (hb : tmp.nameType.isBracket = false) :
    StepRaw buf (t.step buf tmp) := by
  unfold Tz.step
  cases hts : t.tokenState with
  | findingName => exact stepName_raw t buf h hts ht tmp
  | findingDelimiter => exact stepDelimiter_raw t buf hts ht tmp hb
  | findingData => exact stepData_raw t buf h hts ht tmp
  | findingTokenEnd => exact stepTokenEnd_raw t buf h hts ht tmp hb

theorem populateLoop_raw (n : Nat) (t : Tz) (buf : Bytes) (h : BufOk t buf) (ht : t.Tidy) (tmp : Token)
    (hn : RefIn buf t.inter tmp.name) (hv : tmp.value = {}) (hb : tmp.nameType.isBracket = false) :
    StepRaw buf (.ret (Tz.populateLoop n t buf tmp).1 (Tz.populateLoop n t buf tmp).2.1 (Tz.populateLoop n t buf tmp).2.2) := by
  induction n generalizing t tmp with
  | zero =>
    simp only [Tz.populateLoop]
    exact ⟨ht.idle, fun _ => ht, by simp⟩
  | succ n ih =>
    simp only [Tz.populateLoop]
    split
    · have hs := step_ok t buf h tmp hn hv
      have hr := step_raw t buf h ht tmp hb
      generalize t.step buf tmp = st at *
      cases st with
      | ret e t' tok => exact hr
      | cont t' tmp' =>
        obtain ⟨a1, a2, a3, a4, a5, a6⟩ := hs
        exact ih t' a3 hr.1 tmp' a5 a6 hr.2
    · exact ⟨ht.idle, fun _ => ht, by simp⟩

theorem populateNext_raw (t : Tz) (buf : Bytes) (h : BufOk t buf) (ht : t.Tidy) :
    StepRaw buf (.ret (t.populateNext buf).1 (t.populateNext buf).2.1 (t.populateNext buf).2.2) :=
  populateLoop_raw 4 t buf h ht {} (refIn_empty _ _) rfl rfl

/-! ### Positions and recordings -/

theorem between_append {s : Bytes} {p q r : Nat} (h : p ≤ q) (h' : q ≤ r) : between s p q ++ between s q r = between s p r := by
  unfold between
  rw [show r - p = (q - p) + (r - q) from by omega, List.take_add, List.drop_drop, show p + (q - p) = q from by omega]

theorem between_in {s x y z : Bytes} (h : s = x ++ (y ++ z)) {a b : Nat} (hab : a ≤ b) (hb : b ≤ y.length) :
    between s (x.length + a) (x.length + b) = (y.drop a).take (b - a) := by
  subst h
  unfold between
  rw [show x.length + b - (x.length + a) = b - a from by omega, List.drop_append, List.drop_append]
  simp only [show x.length + a - x.length = a from by omega, List.drop_of_length_le (show x.length ≤ x.length + a from by omega), List.nil_append]
  rw [List.take_append_of_le_length (by rw [List.length_drop]; omega)]

/-- Length of the buffers released. -/
def Tz.before (t : Tz) : Nat := t.released.flatten.length

/-- A recording that was begun at position `p` with `old` in the string. -/
structure RecOk (t : Tz) (old : Bytes) (p : Nat) (e : Nat × Nat × Bytes) : Prop where
  le : p ≤ t.before + e.2.1
  idx : e.2.1 ≤ t.cursor
  acc : e.2.2 = old ++ between t.whole p (t.before + e.2.1)

structure Tz.Moves (t t' : Tz) : Prop where
  whole : t'.whole = t.whole
  pos : t.position ≤ t'.position
  copies : ∃ f, t'.copies = t.copies.map f ∧ ∀ e, (f e).1 = e.1 ∧ ∀ old p, RecOk t old p e → RecOk t' old p (f e)
  rel : ∃ more, t'.released = t.released ++ more

theorem Tz.Moves.refl (t : Tz) : t.Moves t := ⟨rfl, Nat.le_refl _, ⟨id, by simp, fun _ => ⟨rfl, fun _ _ h => h⟩⟩, ⟨[], by simp⟩⟩

theorem Tz.Moves.trans {a b c : Tz} (h : a.Moves b) (g : b.Moves c) : a.Moves c := by
  obtain ⟨f1, h1, h2⟩ := h.copies
  obtain ⟨f2, g1, g2⟩ := g.copies
  obtain ⟨m1, k1⟩ := h.rel
  obtain ⟨m2, k2⟩ := g.rel
  refine ⟨g.whole.trans h.whole, Nat.le_trans h.pos g.pos, ⟨f2 ∘ f1, by rw [g1, h1, List.map_map], fun e => ⟨?_, fun old p hr => ?_⟩⟩,
    ⟨m1 ++ m2, by rw [k2, k1, List.append_assoc]⟩⟩
  · exact ((g2 _).1).trans (h2 e).1
  · exact (g2 _).2 old p ((h2 e).2 old p hr)

/-- A change that touches no buffer. -/
theorem moves_cursor {t t' : Tz} (h1 : t'.bufs = t.bufs) (h2 : t'.pending = t.pending) (h3 : t'.released = t.released)
    (h4 : t'.copies = t.copies) (h5 : t.cursor ≤ t'.cursor) : t.Moves t' := by
  have hw : t'.whole = t.whole := by simp [Tz.whole, h1, h2, h3]
  have hb : t'.before = t.before := by simp [Tz.before, h3]
  refine ⟨hw, by simp only [Tz.position, h3]; omega, ⟨id, by simp [h4], fun e => ⟨rfl, fun old p hr => ⟨?_, Nat.le_trans hr.idx h5, ?_⟩⟩⟩, ⟨[], by simp [h3]⟩⟩
  · rw [hb]; exact hr.le
  · rw [hb, hw]; exact hr.acc

theorem moves_request (t : Tz) : t.Moves t.requestMoreData := by
  unfold Tz.requestMoreData
  split
  · exact .refl t
  · rename_i bs rest hp
    have hw : Tz.whole { t with bufs := t.bufs ++ bs, pending := rest } = t.whole := by simp [Tz.whole, hp]
    exact ⟨hw, Nat.le_refl _, ⟨id, by simp, fun e => ⟨rfl, fun old p hr => ⟨hr.le, hr.idx, by rw [hw]; exact hr.acc⟩⟩⟩, ⟨[], by simp⟩⟩

theorem moves_release (t : Tz) (h : ∀ b rest, t.bufs = b :: rest → t.cursor ≤ b.length) : t.Moves t.releaseFirst := by
  unfold Tz.releaseFirst
  split
  · exact .refl t
  · rename_i b rest hb
    have hc := h b rest hb
    have hw : ∀ cs, Tz.whole { t with copies := cs, cursor := 0, dataStart := 0, bufs := rest, released := t.released ++ [b] } = t.whole := by
      intro cs; simp [Tz.whole, hb]
    refine ⟨hw _, ?_, ⟨_, rfl, fun e => ⟨rfl, fun old p hr => ⟨?_, Nat.le_refl _, ?_⟩⟩⟩, ⟨[b], rfl⟩⟩
    · simp only [Tz.position, List.flatten_append, List.length_append, List.flatten_singleton]; omega
    · have := hr.le; have := hr.idx
      simp only [Tz.before, List.flatten_append, List.length_append, List.flatten_singleton] at *; omega
    · have h1 := hr.le
      have h2 := hr.idx
      rw [hw]
      simp only [hr.acc, Tz.before, List.flatten_append, List.length_append, List.flatten_singleton, Nat.add_zero, List.append_assoc]
      congr 1
      rw [← between_append (s := t.whole) (p := p) (q := t.released.flatten.length + e.2.1) (r := t.released.flatten.length + b.length) h1 (by omega)]
      congr 1
      rw [between_in (s := t.whole) (x := t.released.flatten) (y := b) (z := rest.flatten ++ t.pending.flatten.flatten) (by simp [Tz.whole, hb]) (by omega) (Nat.le_refl _)]
      rw [List.take_of_length_le (by rw [List.length_drop]; omega)]

/-- Outcome of a search for a token. -/
structure PumpRaw (t : Tz) (e : Err) (t' : Tz) (tok : Option Token) : Prop where
  moves : t.Moves t'
  idle : t'.inter.Idle
  tidy : e = .needMoreData → t'.Tidy
  at_ : e = .noError → ∀ k, tok = some k → ∃ b rest, t'.bufs = b :: rest ∧ BracketAt b t' k

theorem pump_raw (n : Nat) (t : Tz) (h : t.Ok) (hp : t.propState ≠ .foundEnd) (ht : t.Tidy) :
    PumpRaw t (Tz.pump n t).1 (Tz.pump n t).2.1 (Tz.pump n t).2.2 := by
  induction n generalizing t with
  | zero => exact ⟨.refl t, ht.idle, fun _ => ht, by simp [Tz.pump]⟩
  | succ n ih =>
    simp only [Tz.pump]
    cases hb : t.bufs with
    | nil => exact ⟨.refl t, ht.idle, fun _ => ht, by simp⟩
    | cons b rest =>
      simp only
      have hbo : BufOk t b := ⟨h.cur b rest hb, h.fe, hp, h.ds⟩
      have hl := populateNext_ok t b hbo
      have hr := populateNext_raw t b hbo ht
      generalize t.populateNext b = r at *
      obtain ⟨e, t', tok⟩ := r
      simp only at hl hr ⊢
      obtain ⟨a1, a2, a3, a4, a5, a6, a7, a8, a9⟩ := hl
      obtain ⟨f1, f2, f3, f4, f5, f6, f7, f8, f9⟩ := a1
      have hm : t.Moves t' := moves_cursor f2 f3 f6 f7 a2
      split
      · rename_i he
        have hok : t'.releaseFirst.requestMoreData.Ok ∧ t'.releaseFirst.requestMoreData.propState ≠ .foundEnd ∧
            t'.releaseFirst.requestMoreData.Tidy := by
          have h8 := a8 he
          have ht' := hr.2.1 he
          simp only [Tz.releaseFirst, f2, hb, Tz.requestMoreData]
          split
          · exact ⟨⟨by simp, by simp, by simp, fun _ => h8, a9⟩, h8, ⟨ht'.idle, ht'.name, ht'.data⟩⟩
          · exact ⟨⟨by simp, by simp, by simp, fun _ => h8, a9⟩, h8, ⟨ht'.idle, ht'.name, ht'.data⟩⟩
        have hm2 := moves_release t' (fun b' r' hb' => by
          rw [f2, hb] at hb'; simp only [List.cons.injEq] at hb'; rw [← hb'.1]; exact a3)
        have := ih _ hok.1 hok.2.1 hok.2.2
        exact ⟨(hm.trans (hm2.trans (moves_request _))).trans this.moves, this.idle, this.tidy, this.at_⟩
      · exact ⟨hm, hr.1, hr.2.1, fun he k hk => ⟨b, rest, by rw [f2, hb], hr.2.2 he k hk⟩⟩

/-- Outcome of a call. -/
structure NextRaw (t : Tz) (e : Err) (t' : Tz) (tok : Token) : Prop where
  moves : t.Moves t'
  neat : t'.Neat
  at_ : e = .noError → ∃ b rest, t'.bufs = b :: rest ∧ BracketAt b t' tok

theorem tidy_reset {t : Tz} (h : t.inter.Idle) : t.resetForNewToken.Tidy := by
  have : t.resetForNewToken.inter.active = false ∧ t.resetForNewToken.inter.data = [] ∧ t.resetForNewToken.inter.dataTypeSet = false := by
    simp only [Tz.resetForNewToken, Tz.resetForNewValue, Inter.clear]
    split
    · exact ⟨rfl, rfl, rfl⟩
    · rename_i ha
      have ha : t.inter.active = false := by simpa using ha
      exact ⟨ha, h ha⟩
  exact ⟨fun _ => this.2, fun _ _ => this.1, fun _ => this.2⟩

theorem nextToken_raw (t : Tz) (next : Token) (h : t.Ok) (hn : t.Neat) (hp : t.parsed = none) :
    NextRaw t (t.nextToken next).1 (t.nextToken next).2.1 (t.nextToken next).2.2 := by
  rw [nextToken_core]
  unfold Tz.core Tz.coreIn
  split
  · exact ⟨.refl t, hn, by simp⟩
  · simp only [hp]
    generalize ht1 : (if t.bufs = [] then t.requestMoreData else t) = t1
    have f1 : t1.Ok ∧ t1.Neat ∧ t.Moves t1 := by
      rw [← ht1]; split
      · rename_i hb
        refine ⟨ok_request t h hb, ?_, moves_request t⟩
        unfold Tz.requestMoreData; split
        · exact hn
        · exact ⟨hn.idle, fun hc => ⟨hn.idle, (hn.cont hc).name, (hn.cont hc).data⟩⟩
      · exact ⟨h, hn, .refl t⟩
    obtain ⟨o1, n1, m1⟩ := f1
    split
    · exact ⟨m1, n1, by simp⟩
    · generalize ht2 : (if t1.continueAfter = true then t1 else t1.resetForNewToken) = t2
      have f2 : t2.Ok ∧ t2.Tidy ∧ t1.Moves t2 ∧ t2.propState ≠ .foundEnd := by
        rw [← ht2]; split
        · rename_i hc
          exact ⟨o1, n1.cont hc, .refl _, o1.pe hc⟩
        · exact ⟨ok_reset t1 o1, tidy_reset n1.idle, moves_cursor rfl rfl rfl rfl (Nat.le_refl _), by simp [Tz.resetForNewToken, Tz.resetForNewValue]⟩
      obtain ⟨o2, d2, m2, ne2⟩ := f2
      have hpk := pump_raw t2.supply t2 o2 ne2 d2
      have hpo := pump_ok t2.supply t2 o2 ne2
      generalize Tz.pump t2.supply t2 = r at *
      obtain ⟨e, t3, tok⟩ := r
      simp only at hpk hpo ⊢
      have hm := (m1.trans m2).trans hpk.moves
      have n3 : ∀ st sc, Tz.Neat { t3 with continueAfter := e == .needMoreData, stack := st, scopes := sc } := fun st sc =>
        ⟨hpk.idle, fun hc => have hd := hpk.tidy (by simpa using hc); ⟨hpk.idle, hd.name, hd.data⟩⟩
      have m3 : ∀ st sc, t3.Moves { t3 with continueAfter := e == .needMoreData, stack := st, scopes := sc } := fun st sc =>
        moves_cursor rfl rfl rfl rfl (Nat.le_refl _)
      cases tok with
      | none =>
        refine ⟨hm.trans (m3 t3.stack t3.scopes), n3 t3.stack t3.scopes, fun he => ?_⟩
        obtain ⟨k, hk, _⟩ := hpo.ok he; simp at hk
      | some tok =>
        simp only [Option.getD_some]
        have hne : e = .noError := by
          by_contra he; obtain ⟨hk, _⟩ := hpo.bad he; simp at hk
        have hfin := finish_ok { t3 with continueAfter := e == .needMoreData } tok
        generalize Tz.finish { t3 with continueAfter := e == .needMoreData } tok = f at *
        obtain ⟨ef, tf⟩ := f
        simp only at hfin ⊢
        have hs := hfin.same
        generalize tf.stack = st at hs
        generalize tf.scopes = sc at hs
        subst hs
        exact ⟨hm.trans (m3 st sc), n3 st sc, fun _ => hpk.at_ hne tok rfl⟩

theorem neat_new (o : Opts) : (Tz.new o).Neat := ⟨fun _ => ⟨rfl, rfl⟩, fun h => by simp [Tz.new] at h⟩

/-! ### The loop -/

theorem opens_cases {k : RawKind} {ty opn cls : Ty} (h : k.brackets ty = some (opn, cls)) :
    ty = opn ∧ ((opn = .arrayStart ∧ cls = .arrayEnd) ∨ (opn = .objectStart ∧ cls = .objectEnd)) := by
  cases k <;> cases ty <;> simp [RawKind.brackets] at h <;> (obtain ⟨rfl, rfl⟩ := h; simp)

theorem bracketStep_frame {xs ys st rest : List Ty} {opn ty : Ty} (hs : st = xs ++ opn :: rest) (h : bracketStep st ty = some ys) :
    (∃ xs', ys = xs' ++ opn :: rest ∧ bracketStep (xs ++ [opn]) ty = some (xs' ++ [opn])) ∨
    (xs = [] ∧ ys = rest ∧ bracketStep [opn] ty = some []) := by
  subst hs
  unfold bracketStep at h ⊢
  cases ty <;> simp only at h ⊢
  case objectStart | arrayStart => cases h; exact .inl ⟨_ :: xs, rfl, rfl⟩
  case objectEnd | arrayEnd =>
    cases xs with
    | nil =>
      simp only [List.nil_append] at h ⊢
      split at h
      · rename_i heq
        cases heq; cases h
        exact .inr ⟨trivial, rfl, rfl⟩
      · simp at h
    | cons x xs =>
      simp only [List.cons_append] at h ⊢
      split at h
      · rename_i heq
        cases heq; cases h
        exact .inl ⟨xs, rfl, rfl⟩
      · simp at h
  all_goals cases h; exact .inl ⟨xs, rfl, rfl⟩

/-- The counter of the loop is the number of brackets of its kind that are open. -/
theorem level_step {opn cls ty : Ty} (hk : (opn = .arrayStart ∧ cls = .arrayEnd) ∨ (opn = .objectStart ∧ cls = .objectEnd))
    {xs xs' : List Ty} (h : bracketStep (xs ++ [opn]) ty = some (xs' ++ [opn])) :
    (if ty = opn then xs.count opn + 1 + 1 else if ty = cls then xs.count opn + 1 - 1 else xs.count opn + 1) = xs'.count opn + 1 := by
  have app : ∀ {a b : List Ty}, a ++ [opn] = b ++ [opn] → a = b := fun h => List.append_cancel_right h
  cases ty
  case objectStart | arrayStart =>
    simp only [bracketStep, Option.some.injEq, ← List.cons_append] at h
    have := app h; subst this
    rcases hk with ⟨rfl, rfl⟩ | ⟨rfl, rfl⟩ <;> simp
  case objectEnd | arrayEnd =>
    simp only [bracketStep] at h
    split at h
    · rename_i heq
      cases xs with
      | nil => simp at heq h; obtain ⟨rfl, rfl⟩ := heq; simp at h
      | cons x xs =>
        simp only [List.cons_append, List.cons.injEq] at heq
        obtain ⟨rfl, rfl⟩ := heq
        simp only [Option.some.injEq] at h
        have := app h; subst this
        rcases hk with ⟨rfl, rfl⟩ | ⟨rfl, rfl⟩ <;> simp
    · simp at h
  all_goals
    simp only [bracketStep, Option.some.injEq] at h
    have := app h; subst this
    rcases hk with ⟨rfl, rfl⟩ | ⟨rfl, rfl⟩ <;> simp

theorem close_step {opn cls ty : Ty} (hk : (opn = .arrayStart ∧ cls = .arrayEnd) ∨ (opn = .objectStart ∧ cls = .objectEnd))
    (h : bracketStep [opn] ty = some []) : ty = cls := by
  rcases hk with ⟨rfl, rfl⟩ | ⟨rfl, rfl⟩ <;> cases ty <;> simp [bracketStep] at h ⊢

/-- What is known behind the loop. -/
structure Closed (opn cls : Ty) (xs rest : List Ty) (c c' : Ctx) : Prop where
  reads : ∃ ks, Reads c.tz c.token ks c'.tz c'.token ∧ (ks.map Tok.valueType).foldlM bracketStep (xs ++ [opn]) = some [] ∧
    ∀ ys zs, ks.map Tok.valueType = ys ++ zs → zs ≠ [] → ys.foldlM bracketStep (xs ++ [opn]) ≠ some []
  stack : c'.tz.stack = rest
  type : c'.token.valueType = cls
  at_ : ∃ b r, c'.tz.bufs = b :: r ∧ BracketAt b c'.tz c'.token

theorem rawLoop_run {opn cls : Ty} (hk : (opn = .arrayStart ∧ cls = .arrayEnd) ∨ (opn = .objectStart ∧ cls = .objectEnd)) (rest : List Ty) :
    ∀ (m : Nat) (xs : List Ty) (c : Ctx), c.Sane → c.tz.Neat → c.left < m → c.tz.stack = xs ++ opn :: rest →
      ∃ r : Err × Ctx, (∀ n, c.left < n → rawLoop opn cls n (xs.count opn + 1) c = some r) ∧ r.1 ≠ .ub ∧ c.tz.Moves r.2.tz ∧ r.2.Sane ∧
        r.2.tz.Neat ∧ (r.1 = .noError → Closed opn cls xs rest c r.2) := by
  intro m
  induction m with
  | zero => intro xs c _ _ hm; omega
  | succ m ih =>
    intro xs c hs hn hm hst
    have ho := nextToken_ok c.tz c.token hs.1 hs.2
    have hr := nextToken_raw c.tz c.token hs.1 hn hs.2
    have hs1 : c.next.Sane := next_sane hs
    have hn1 : c.next.tz.Neat := hr.neat
    have hm1 : c.tz.Moves c.next.tz := hr.moves
    by_cases he : c.next.error = .noError
    · have hlt := next_left hs he
      have hbs : bracketStep c.tz.stack c.next.token.valueType = some c.next.tz.stack := ho.stack he
      have hat : ∃ b r, c.next.tz.bufs = b :: r ∧ BracketAt b c.next.tz c.next.token := hr.at_ he
      have hcall : c.tz.nextToken c.token = (.noError, c.next.tz, c.next.token) := by rw [← he]; rfl
      rcases bracketStep_frame hst hbs with ⟨xs', h1, h2⟩ | ⟨h0, h1, h2⟩
      · obtain ⟨r, g1, g2, g3, g4, g5, g6⟩ := ih xs' c.next hs1 hn1 (by omega) h1
        refine ⟨r, fun n hnn => ?_, g2, hm1.trans g3, g4, g5, fun hr => ?_⟩
        · cases n with
          | zero => omega
          | succ n =>
            rw [rawLoop]
            simp only [Nat.add_one_ne_zero, if_false, he, ne_eq, not_true_eq_false]
            rw [level_step hk h2]
            exact g1 n (by omega)
        · obtain ⟨⟨ks, k1, k2, k3⟩, k4, k5, k6⟩ := g6 hr
          refine ⟨⟨c.next.token.tok :: ks, .call hcall k1, ?_, ?_⟩, k4, k5, k6⟩
          · rw [List.map_cons, List.foldlM_cons]
            simp only [Token.tok, h2]
            exact k2
          · intro ys zs hy hz
            cases ys with
            | nil => simp [List.foldlM]
            | cons y ys =>
              simp only [List.map_cons, List.cons_append, List.cons.injEq] at hy
              obtain ⟨rfl, hy⟩ := hy
              rw [List.foldlM_cons]
              simp only [Token.tok, h2]
              exact k3 ys zs hy hz
      · refine ⟨(.noError, c.next), fun n hnn => ?_, by simp, hm1, hs1, hn1, fun _ => ⟨⟨[c.next.token.tok], .call hcall .nil, ?_, ?_⟩, h1, close_step hk h2, hat⟩⟩
        · obtain ⟨n, rfl⟩ : ∃ k, n = k + 2 := ⟨n - 2, by omega⟩
          have hty := close_step hk h2
          subst h0
          rw [rawLoop]
          simp only [Nat.add_one_ne_zero, if_false, he, ne_eq, not_true_eq_false, List.count_nil]
          rw [if_neg (by rw [hty]; rcases hk with ⟨rfl, rfl⟩ | ⟨rfl, rfl⟩ <;> simp), if_pos hty]
          simp [rawLoop]
        · subst h0
          simp only [List.map_cons, List.map_nil, List.foldlM_cons, List.nil_append, Token.tok, h2]
          rfl
        · intro ys zs hy hz
          cases ys with
          | nil => simp [List.foldlM]
          | cons y ys =>
            simp only [List.map_cons, List.map_nil, List.cons_append, List.cons.injEq] at hy
            have := hy.2
            simp only [List.nil_eq, List.append_eq_nil_iff] at this
            exact absurd this.2 hz
    · refine ⟨(c.next.error, c.next), fun n hnn => ?_, ho.notub, hm1, hs1, hn1, fun h => absurd h he⟩
      cases n with
      | zero => omega
      | succ n =>
        rw [rawLoop]
        simp only [Nat.add_one_ne_zero, if_false, he, ne_eq, not_false_eq_true, if_true]

/-! ### The handlers -/

theorem find_last {α : Type} {p : α → Bool} {xs : List α} {e : α} (h : ∀ x ∈ xs, p x = false) (he : p e = true) :
    (xs ++ [e]).find? p = some e := by
  rw [List.find?_append, List.find?_eq_none.mpr (by simpa using h)]
  simp [he]

theorem erase_last {α : Type} {p : α → Bool} {xs : List α} {e : α} (h : ∀ x ∈ xs, p x = false) (he : p e = true) :
    (xs ++ [e]).eraseP p = xs := by
  rw [List.eraseP_append_right _ (by simpa using h)]
  simp [he]

/-- What is recorded up to the cursor. -/
theorem recorded {t : Tz} (h : t.Ok) {old : Bytes} {p : Nat} {e : Nat × Nat × Bytes} (hr : RecOk t old p e) {xs : List (Nat × Nat × Bytes)}
    (hc : t.copies = xs ++ [e]) (hx : ∀ x ∈ xs, x.1 ≠ e.1) :
    t.copyIncludingValue e.1 = some (old ++ between t.whole p t.position, { t with copies := xs }) := by
  have h1 : t.copies.find? (fun x => x.1 == e.1) = some e := by
    rw [hc]; exact find_last (by simpa using hx) (by simp)
  have h2 : t.copies.eraseP (fun x => x.1 == e.1) = xs := by
    rw [hc]; exact erase_last (by simpa using hx) (by simp)
  unfold Tz.copyIncludingValue
  obtain ⟨id, idx, acc⟩ := e
  simp only at h1 h2
  have hle := hr.le
  have hidx := hr.idx
  have hacc := hr.acc
  simp only at hle hidx hacc
  rw [h1, h2]
  cases hb : t.bufs with
  | nil =>
    have := h.cur0 hb
    have h0 : idx = 0 := by omega
    simp only [Option.some.injEq, Prod.mk.injEq, and_true]
    rw [hacc]; simp [Tz.position, Tz.before, this, h0]
  | cons b rest =>
    have := h.cur b rest hb
    simp only [Option.some.injEq, Prod.mk.injEq, and_true]
    rw [hacc, List.append_assoc]
    congr 1
    rw [show t.position = t.before + t.cursor from rfl, ← between_append (s := t.whole) (p := p) (q := t.before + idx) (r := t.before + t.cursor) hle (by omega)]
    congr 1
    rw [Tz.before, between_in (s := t.whole) (x := t.released.flatten) (y := b) (z := rest.flatten ++ t.pending.flatten.flatten) (by simp [Tz.whole, hb]) (by omega) (by omega)]

/-- The entry that begins a recording. -/
theorem recording {t : Tz} {k : Token} {addr : Nat} {old : Bytes} (h : t.Ok) {b : Bytes} {rest : List Bytes} (hb : t.bufs = b :: rest) (hat : BracketAt b t k)
    (hk : k.valueType.isBracket = true) (hp : t.parsed = none) :
    t.recordable k = true ∧ ∃ e, t.copyFromValue k addr old = { t with copies := t.copies ++ [e] } ∧ e.1 = addr ∧
      RecOk { t with copies := t.copies ++ [e] } old (t.position - 1) e := by
  obtain ⟨h1, h2, h3, h4⟩ := hat hk
  have hcur := h.cur b rest hb
  have hlt : t.cursor - 1 < b.length := by omega
  rcases h4 with h4 | ⟨h4, -⟩
  · refine ⟨by simp [Tz.recordable, hp, h4, hb, hlt], ⟨addr, t.cursor - 1, old⟩, by simp [Tz.copyFromValue, h4], rfl, ⟨?_, ?_, ?_⟩⟩
    · simp only [Tz.position, Tz.before]; omega
    · simp only; omega
    · simp only [Tz.position, Tz.before, between]
      rw [show t.released.flatten.length + (t.cursor - 1) - (t.released.flatten.length + t.cursor - 1) = 0 from by omega]
      simp
  · refine ⟨by simp [Tz.recordable, hp, h4], ⟨addr, t.cursor, old ++ k.value.bytes⟩, by simp [Tz.copyFromValue, h4], rfl, ⟨?_, ?_, ?_⟩⟩
    · simp only [Tz.position, Tz.before]; omega
    · exact Nat.le_refl _
    · have hw : Tz.whole { t with copies := t.copies ++ [(addr, t.cursor, old ++ k.value.bytes)] } = t.whole := rfl
      simp only [Tz.position, Tz.before, hw]
      rw [show t.released.flatten.length + t.cursor - 1 = t.released.flatten.length + (t.cursor - 1) from by omega,
        between_in (s := t.whole) (x := t.released.flatten) (y := b) (z := rest.flatten ++ t.pending.flatten.flatten) (by simp [Tz.whole, hb]) (by omega) (by omega),
        show t.cursor - (t.cursor - 1) = 1 from by omega, h3]
      congr 1
      exact (bracket_slice h2).symm

theorem bracket_byte_at {t : Tz} {k : Token} {b : Bytes} {rest : List Bytes} (h : t.Ok) (hb : t.bufs = b :: rest) (hat : BracketAt b t k)
    (hk : k.valueType.isBracket = true) : 1 ≤ t.position ∧ t.whole[t.position - 1]? = some (bracketByte k.valueType) := by
  obtain ⟨h1, h2, h3, h4⟩ := hat hk
  have hcur := h.cur b rest hb
  refine ⟨by simp only [Tz.position]; omega, ?_⟩
  simp only [Tz.whole, Tz.position, hb, List.flatten_cons]
  rw [List.getElem?_append_right (by omega), List.append_assoc, List.getElem?_append_left (by omega), ← h2]
  congr 1; omega

theorem opn_bracket {opn cls : Ty} (hk : (opn = .arrayStart ∧ cls = .arrayEnd) ∨ (opn = .objectStart ∧ cls = .objectEnd)) :
    opn.isBracket = true ∧ cls.isBracket = true := by
  rcases hk with ⟨rfl, rfl⟩ | ⟨rfl, rfl⟩ <;> exact ⟨rfl, rfl⟩

structure RawSpec (k : RawKind) (addr : Nat) (old : Bytes) (c : Ctx) (opn cls : Ty) (rest : List Ty) (e : Err) (data : Bytes) (c' : Ctx) : Prop where
  notub : e ≠ .ub
  whole : c'.tz.whole = c.tz.whole
  data : k ≠ .array ∨ e = .noError → data = old ++ between c.tz.whole (c.tz.position - 1) c'.tz.position
  copies : k ≠ .array ∨ e = .noError → c'.tz.copies.map Prod.fst = c.tz.copies.map Prod.fst
  left : k = .array → e ≠ .noError → c'.tz.copies.map Prod.fst = c.tz.copies.map Prod.fst ++ [addr]
  pos : c.tz.position ≤ c'.tz.position
  closed : e = .noError → ∃ cs, Closed opn cls [] rest { c with tz := c.tz.copyFromValue c.token addr old } { c' with tz := { c'.tz with copies := cs } }
  sane : c'.Sane
  neat : c'.tz.Neat

theorem rawTo_spec (k : RawKind) (addr : Nat) (old : Bytes) {c : Ctx} {opn cls : Ty} {rest : List Ty} (hs : c.Sane) (hn : c.tz.Neat)
    {b : Bytes} {bs : List Bytes} (hb : c.tz.bufs = b :: bs) (hat : BracketAt b c.tz c.token) (hk : k.brackets c.token.valueType = some (opn, cls))
    (hst : c.tz.stack = opn :: rest) (hfree : ∀ e ∈ c.tz.copies, e.1 ≠ addr) :
    ∃ e data c', (∀ n, c.left < n → rawTo k addr n old c = some (e, data, c')) ∧ RawSpec k addr old c opn cls rest e data c' := by
  obtain ⟨hty, hkk⟩ := opens_cases hk
  have hbr : c.token.valueType.isBracket = true := by rw [hty]; exact (opn_bracket hkk).1
  obtain ⟨hrec, ent, hcopy, hid, hent⟩ := recording (addr := addr) (old := old) hs.1 hb hat hbr hs.2
  have hs0 : Ctx.Sane { c with tz := c.tz.copyFromValue c.token addr old } := by
    rw [hcopy]; exact ⟨⟨hs.1.cur, hs.1.cur0, hs.1.fe, hs.1.pe, hs.1.ds⟩, hs.2⟩
  have hn0 : Tz.Neat (c.tz.copyFromValue c.token addr old) := by
    rw [hcopy]; exact ⟨hn.idle, fun hc => ⟨hn.idle, (hn.cont hc).name, (hn.cont hc).data⟩⟩
  have hl0 : Ctx.left { c with tz := c.tz.copyFromValue c.token addr old } = c.left := by rw [hcopy]; rfl
  obtain ⟨⟨e, c1⟩, g1, g2, g3, g4, g5, g6⟩ := rawLoop_run hkk rest (c.left + 1) [] { c with tz := c.tz.copyFromValue c.token addr old } hs0 hn0
    (by omega) (by rw [hcopy]; exact hst)
  simp only at g1 g2 g3 g4 g5 g6
  rw [hl0] at g1
  simp only [List.count_nil, Nat.zero_add] at g1
  have g3' := g3
  rw [hcopy] at g3
  obtain ⟨f, hf1, hf2⟩ := g3.copies
  have hw : c1.tz.whole = c.tz.whole := g3.whole
  have hpos : c.tz.position ≤ c1.tz.position := g3.pos
  simp only [List.map_append, List.map_cons, List.map_nil] at hf1
  have hfe := hf2 ent
  have hx : ∀ x ∈ c.tz.copies.map f, x.1 ≠ (f ent).1 := by
    intro x hx
    rw [List.mem_map] at hx
    obtain ⟨y, hy, rfl⟩ := hx
    rw [(hf2 y).1, hfe.1, hid]; exact hfree y hy
  have hinc := recorded g4.1 (hfe.2 old _ hent) hf1 hx
  have hfst : (c.tz.copies.map f).map Prod.fst = c.tz.copies.map Prod.fst := by
    rw [List.map_map]; exact List.map_congr_left (fun x _ => (hf2 x).1)
  rw [hfe.1, hid, hw] at hinc
  by_cases hcase : k = .array ∧ e ≠ .noError
  · refine ⟨e, ((c1.tz.copies.find? (fun x => x.1 == addr)).map (·.2.2)).getD old, c1, fun n hnn => ?_, ⟨g2, hw, ?_, ?_, ?_, hpos, ?_, g4, g5⟩⟩
    · unfold rawTo
      rw [hk]; dsimp only
      rw [hrec, if_neg (by simp), g1 n hnn, Option.bind_some]; dsimp only
      rw [if_pos hcase]
    · rintro (h | h)
      · exact absurd hcase.1 h
      · exact absurd h hcase.2
    · rintro (h | h)
      · exact absurd hcase.1 h
      · exact absurd h hcase.2
    · intro _ _
      rw [hf1, List.map_append, hfst]
      simp [hfe.1, hid]
    · intro h; exact absurd h hcase.2
  · refine ⟨e, _, { c1 with tz := { c1.tz with copies := c.tz.copies.map f } }, fun n hnn => ?_, ⟨g2, hw, fun _ => rfl, fun _ => hfst, ?_, hpos, ?_, ?_, ?_⟩⟩
    · simp only [rawTo, hk, hrec, Bool.true_eq_false, if_false, g1 n hnn, Option.bind_some, if_neg hcase, hinc]
      rfl
    · intro h1 h2; exact absurd ⟨h1, h2⟩ hcase
    · intro he
      exact ⟨c1.tz.copies, g6 he⟩
    · exact ⟨⟨g4.1.cur, g4.1.cur0, g4.1.fe, g4.1.pe, g4.1.ds⟩, g4.2⟩
    · exact ⟨g5.idle, fun hc => ⟨g5.idle, (g5.cont hc).name, (g5.cont hc).data⟩⟩

/-- The `Ref` forms: the same bytes, or undefined. -/
theorem rawRefTo_spec (k : RawKind) (old : Bytes) {c : Ctx} {opn cls : Ty} {rest : List Ty} (hs : c.Sane) (hn : c.tz.Neat)
    {b : Bytes} {bs : List Bytes} (hb : c.tz.bufs = b :: bs) (hat : BracketAt b c.tz c.token) (hk : k.brackets c.token.valueType = some (opn, cls))
    (hst : c.tz.stack = opn :: rest) :
    ∃ e data c', (∀ n, c.left < n → rawRefTo k n old c = some (e, data, c')) ∧ c'.tz.whole = c.tz.whole ∧ c.tz.position ≤ c'.tz.position ∧ c'.Sane ∧ c'.tz.Neat ∧
      (e = .noError → data = between c.tz.whole (c.tz.position - 1) c'.tz.position ∧ Closed opn cls [] rest c c') ∧
      (e = .ub → Closed opn cls [] rest c c' ∧ (c'.tz.released ≠ c.tz.released ∨ c.tz.inter.active = true ∨ c'.tz.inter.active = true)) := by
  obtain ⟨hty, hkk⟩ := opens_cases hk
  obtain ⟨hbo, hbc⟩ := opn_bracket hkk
  have hbr : c.token.valueType.isBracket = true := by rw [hty]; exact hbo
  obtain ⟨⟨e, c1⟩, g1, g2, g3, g4, g5, g6⟩ := rawLoop_run hkk rest (c.left + 1) [] c hs hn (by omega) hst
  simp only [List.count_nil, Nat.zero_add] at g1 g2 g3 g4 g5 g6
  obtain ⟨a1, a2, a3, a4⟩ := hat hbr
  by_cases he : e = .noError
  swap
  · refine ⟨e, old, c1, fun n hnn => ?_, g3.whole, g3.pos, g4, g5, fun h => absurd h he, fun h => absurd h g2⟩
    simp [rawRefTo, hk, g1 n hnn, he]
  have hcl := g6 he
  obtain ⟨b1, r1, hb1, hat1⟩ := hcl.at_
  obtain ⟨z1, z2, z3, z4⟩ := hat1 (by rw [hcl.type]; exact hbc)
  have base : ∀ n, c.left < n → rawRefTo k n old c = (match c.token.value.loc, c1.token.value.loc, c1.tz.bufs with
        | .input a, .input b, buf :: _ =>
          if c1.tz.released.length = c.tz.released.length then
            some (.noError, slice buf a (b + c1.token.value.bytes.length - a), c1)
          else some (.ub, old, c1)
        | _, _, _ => some (.ub, old, c1)) := by
    intro n hnn
    unfold rawRefTo
    rw [hk]; dsimp only
    rw [g1 n hnn, Option.bind_some]; dsimp only
    rw [if_neg (by simp [he])]
    generalize c.token.value.loc = x, c1.token.value.loc = y, c1.tz.bufs = z
    cases x <;> cases y <;> cases z <;> rfl
  rcases a4 with a4 | ⟨a4, a5⟩
  swap
  · refine ⟨.ub, old, c1, fun n hnn => ?_, g3.whole, g3.pos, g4, g5, (fun h => by cases h), fun _ => ⟨hcl, .inr (.inl a5)⟩⟩
    rw [base n hnn, a4]
  rcases z4 with z4 | ⟨z4, z5⟩
  swap
  · refine ⟨.ub, old, c1, fun n hnn => ?_, g3.whole, g3.pos, g4, g5, (fun h => by cases h), fun _ => ⟨hcl, .inr (.inr z5)⟩⟩
    rw [base n hnn, a4, z4]
  obtain ⟨more, hmore⟩ := g3.rel
  by_cases hl : c1.tz.released.length = c.tz.released.length
  · refine ⟨.noError, slice b1 (c.tz.cursor - 1) (c1.tz.cursor - 1 + c1.token.value.bytes.length - (c.tz.cursor - 1)), c1, fun n hnn => ?_, g3.whole, g3.pos, g4, g5, fun _ => ⟨?_, hcl⟩, fun h => by cases h⟩
    · rw [base n hnn, a4, z4, hb1]; simp only [hl, if_true]
    · have hm0 : more = [] := by
        rw [hmore, List.length_append] at hl
        exact List.length_eq_zero_iff.mp (by omega)
      have hrel : c1.tz.released = c.tz.released := by rw [hmore, hm0, List.append_nil]
      have hp := g3.pos
      simp only [Tz.position, hrel] at hp
      have hc1 := g4.1.cur b1 r1 hb1
      rw [← g3.whole]
      simp only [Tz.position, hrel, z3, List.length_singleton]
      rw [show c.tz.released.flatten.length + c.tz.cursor - 1 = c.tz.released.flatten.length + (c.tz.cursor - 1) from by omega,
        between_in (s := c1.tz.whole) (x := c.tz.released.flatten) (y := b1) (z := r1.flatten ++ c1.tz.pending.flatten.flatten) (by simp [Tz.whole, hb1, hrel]) (by omega) (by omega)]
      rw [slice, show c1.tz.cursor - 1 + 1 - (c.tz.cursor - 1) = c1.tz.cursor - (c.tz.cursor - 1) from by omega]
  · refine ⟨.ub, old, c1, fun n hnn => ?_, g3.whole, g3.pos, g4, g5, (fun h => by cases h), fun _ => ⟨hcl, .inl fun h => hl (by rw [h])⟩⟩
    rw [base n hnn, a4, z4, hb1]; simp only [hl, if_false]

/-! ### Recording does not disturb -/

/-- The tokenizer without its recordings. -/
def Tz.bare (t : Tz) : Tz := { t with copies := [] }

theorem populateEnd_bare (t : Tz) (buf : Bytes) (p : Nat) (ty : Ty) :
    t.bare.populateEnd buf p ty = { t.populateEnd buf p ty with tz := (t.populateEnd buf p ty).tz.bare } := by
  unfold Tz.populateEnd
  cases ty <;> simp only [Tz.bare]
  case string => split <;> rfl
  case number => split <;> rfl
  case ascii => split <;> rfl

theorem populateFrom_bare (t : Tz) (buf : Bytes) (ty : Ty) :
    t.bare.populateFrom buf ty = { t.populateFrom buf ty with tz := (t.populateFrom buf ty).tz.bare } := by
  unfold Tz.populateFrom
  rw [show t.bare.propState = t.propState from rfl]
  cases t.propState with
  | foundEnd => rfl
  | findingEnd => exact populateEnd_bare t buf t.cursor ty
  | noStartFound =>
    simp only [show t.bare.opts = t.opts from rfl, show t.bare.cursor = t.cursor from rfl]
    split
    · rfl
    · split
      · rfl
      · exact populateEnd_bare { t with
            cursor := (findStart t.opts buf t.cursor).cursor + (findStart t.opts buf t.cursor).ahead + 1
            dataStart := if (findStart t.opts buf t.cursor).type = .string then
                (findStart t.opts buf t.cursor).cursor + (findStart t.opts buf t.cursor).ahead + 1
              else (findStart t.opts buf t.cursor).cursor + (findStart t.opts buf t.cursor).ahead
            propType := (findStart t.opts buf t.cursor).type
            propState := .findingEnd } buf _ _

def Step.bare : Step → Step
  | .ret e t tok => .ret e t.bare tok
  | .cont t tmp => .cont t.bare tmp

theorem bare_ite (p : Prop) [Decidable p] (a b : Step) : (if p then a else b).bare = if p then a.bare else b.bare := by split <;> rfl

theorem step_bare (t : Tz) (buf : Bytes) (tmp : Token) : t.bare.step buf tmp = (t.step buf tmp).bare := by
  unfold Tz.step
  rw [show t.bare.tokenState = t.tokenState from rfl]
  cases t.tokenState with
  | findingName =>
    simp only [Tz.stepName, show t.bare.inter = t.inter from rfl, populateFrom_bare]
    generalize t.populateFrom buf t.inter.nameType = p
    obtain ⟨e, a, b, ty, tz⟩ := p
    simp only [show tz.bare.inter = tz.inter from rfl, show tz.bare.propState = tz.propState from rfl]
    by_cases h1 : e = .needMoreData
    · simp only [h1, if_true]
      split <;> rfl
    by_cases h2 : e = .noError
    swap
    · simp only [h1, h2, if_false, ne_eq, not_false_eq_true, if_true]; rfl
    simp only [h2, reduceCtorEq, if_false, ne_eq, not_true_eq_false]
    cases ha : tz.inter.active
    · simp only [Bool.false_eq_true, if_false, show tz.bare.inter = tz.inter from rfl, ha]
      cases ty <;> simp only
      case objectEnd | arrayEnd =>
        simp only [show tz.bare.expecting = tz.expecting from rfl, show tz.bare.opts = tz.opts from rfl]
        split <;> rfl
      all_goals rfl
    · simp only [if_true, ha]
      generalize tz.inter.nameType = ty
      cases ty <;> simp only
      case objectEnd | arrayEnd =>
        simp only [show tz.bare.expecting = tz.expecting from rfl, show tz.bare.opts = tz.opts from rfl]
        split <;> rfl
      all_goals rfl
  | findingDelimiter =>
    simp only [Tz.stepDelimiter, show t.bare.opts = t.opts from rfl, show t.bare.stack = t.stack from rfl, show t.bare.cursor = t.cursor from rfl]
    generalize findDelimiter t.opts t.stack buf t.cursor = r
    split
    · rfl
    · split
      · rfl
      · rw [bare_ite]; rfl
  | findingData =>
    simp only [Tz.stepData, show t.bare.inter = t.inter from rfl, populateFrom_bare]
    generalize t.populateFrom buf t.inter.dataType = p
    obtain ⟨e, a, b, ty, tz⟩ := p
    simp only [show tz.bare.inter = tz.inter from rfl, show tz.bare.propState = tz.propState from rfl]
    by_cases h1 : e = .needMoreData
    · simp only [h1, if_true]; rfl
    by_cases h2 : e = .noError
    swap
    · simp only [h1, h2, if_false, ne_eq, not_false_eq_true, if_true]; rfl
    simp only [h2, reduceCtorEq, if_false, ne_eq, not_true_eq_false]
    cases ha : tz.inter.active
    · simp only [Bool.false_eq_true, if_false, show tz.bare.inter = tz.inter from rfl, ha, show tz.bare.opts = tz.opts from rfl]
      split <;> rfl
    · simp only [if_true, show tz.bare.opts = tz.opts from rfl]
      rw [bare_ite]
      cases hs : tz.inter.dataTypeSet <;> simp only [if_true, if_false, Bool.false_eq_true] <;> rfl
  | findingTokenEnd =>
    simp only [Tz.stepTokenEnd, show t.bare.opts = t.opts from rfl, show t.bare.stack = t.stack from rfl, show t.bare.cursor = t.cursor from rfl]
    split <;> rfl

theorem populateLoop_bare (n : Nat) (t : Tz) (buf : Bytes) (tmp : Token) :
    Tz.populateLoop n t.bare buf tmp = ((Tz.populateLoop n t buf tmp).1, (Tz.populateLoop n t buf tmp).2.1.bare, (Tz.populateLoop n t buf tmp).2.2) := by
  induction n generalizing t tmp with
  | zero => rfl
  | succ n ih =>
    simp only [Tz.populateLoop, step_bare, show t.bare.cursor = t.cursor from rfl]
    split
    · cases t.step buf tmp with
      | ret => rfl
      | cont t' tmp' => exact ih t' tmp'
    · rfl

theorem release_bare (t : Tz) : t.bare.releaseFirst = t.releaseFirst.bare := by
  obtain ⟨⟩ := t
  simp only [Tz.bare, Tz.releaseFirst]
  split <;> rfl

theorem request_bare (t : Tz) : t.bare.requestMoreData = t.requestMoreData.bare := by
  obtain ⟨⟩ := t
  simp only [Tz.bare, Tz.requestMoreData]
  split <;> rfl

theorem pump_bare (n : Nat) (t : Tz) : Tz.pump n t.bare = ((Tz.pump n t).1, (Tz.pump n t).2.1.bare, (Tz.pump n t).2.2) := by
  induction n generalizing t with
  | zero => rfl
  | succ n ih =>
    simp only [Tz.pump, show t.bare.bufs = t.bufs from rfl]
    split
    · rfl
    · rename_i b _ _
      simp only [Tz.populateNext, populateLoop_bare]
      by_cases hm : (Tz.populateLoop 4 t b {}).1 = .needMoreData
      · simp only [hm, if_true]; rw [release_bare, request_bare, ih]
      · simp only [hm, if_false]

theorem finish_bare (t : Tz) (tok : Token) : t.bare.finish tok = ((t.finish tok).1, (t.finish tok).2.bare) := by
  simp only [Tz.finish, show t.bare.stack = t.stack from rfl]
  by_cases h1 : tok.valueType = .arrayStart ∨ tok.valueType = .objectStart
  · have h2 : tok.valueType ≠ .arrayEnd := by rcases h1 with h | h <;> simp [h]
    have h3 : tok.valueType ≠ .objectEnd := by rcases h1 with h | h <;> simp [h]
    simp only [h1, h2, h3, if_true, if_false]; rfl
  · simp only [h1, if_false]
    split
    · rw [show t.bare.stack = t.stack from rfl]; split <;> rfl
    · split
      · rw [show t.bare.stack = t.stack from rfl]; split <;> rfl
      · rfl

theorem nextToken_bare (t : Tz) (k : Token) :
    t.bare.nextToken k = ((t.nextToken k).1, (t.nextToken k).2.1.bare, (t.nextToken k).2.2) := by
  unfold Tz.nextToken
  simp only [show t.bare.scopes = t.scopes from rfl, show t.bare.parsed = t.parsed from rfl, show t.bare.bufs = t.bufs from rfl, request_bare]
  split
  · rfl
  · split
    · simp only [Tz.nextParsed, show t.bare.cursor = t.cursor from rfl]
      split
      · rfl
      · split <;> rfl
    · generalize ht1 : (if t.bufs = [] then t.requestMoreData else t) = t1
      rw [show (if t.bufs = [] then t.requestMoreData.bare else t.bare) = t1.bare from by rw [← ht1]; split <;> rfl]
      simp only [show t1.bare.bufs = t1.bufs from rfl, show t1.bare.continueAfter = t1.continueAfter from rfl]
      split
      · rfl
      · generalize ht2 : (if t1.continueAfter = true then t1 else t1.resetForNewToken) = t2
        rw [show (if t1.continueAfter = true then t1.bare else t1.bare.resetForNewToken) = t2.bare from by rw [← ht2]; split <;> rfl]
        simp only [show t2.bare.supply = t2.supply from rfl, pump_bare]
        generalize Tz.pump t2.supply t2 = r
        obtain ⟨e, t3, tok⟩ := r
        cases tok with
        | none => rfl
        | some tok =>
          have := finish_bare { t3 with continueAfter := e == .needMoreData } tok
          have h1 : ∀ f : Err × Tz, Tz.finish { t3.bare with continueAfter := e == .needMoreData } tok = f →
              (f.1, f.2, tok) = ((Tz.finish { t3 with continueAfter := e == .needMoreData } tok).1,
                (Tz.finish { t3 with continueAfter := e == .needMoreData } tok).2.bare, tok) := by
            intro f hf
            rw [← hf, show ({ t3.bare with continueAfter := e == .needMoreData } : Tz) = Tz.bare { t3 with continueAfter := e == .needMoreData } from rfl, this]
          exact h1 _ rfl

theorem reads_bare {t t' : Tz} {k k' : Token} {ks : List Tok} (h : Reads t k ks t' k') : Reads t.bare k ks t'.bare k' := by
  induction h with
  | nil => exact .nil
  | call h _ ih => exact .call (by rw [nextToken_bare, h]) ih

end JsonStruct
