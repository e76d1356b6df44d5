import Verif.Lemmas.Start
import Verif.Spec.Brackets

/- Invariants of `nextToken` for arbitrary bytes, buffers and options. -/

namespace JsonStruct

/-- What holds whenever `populateNextTokenFromDataRef` looks at a buffer. -/
structure BufOk (t : Tz) (buf : Bytes) : Prop where
  cur : t.cursor ≤ buf.length
  fe : t.propState = .findingEnd → t.dataStart = t.cursor
  pe : t.propState ≠ .foundEnd
  ds : t.propState = .findingEnd → t.tokenState = .findingName ∨ t.tokenState = .findingData

theorem asciiEnd_le (s : Bytes) (k : Nat) (h : asciiEnd s = .found k) : k < s.length := by
  rw [asciiEnd, asciiEndFrom_eq] at h
  split at h
  · split at h <;> simp at h; omega
  · simp at h

theorem numberEnd_le (s : Bytes) (k : Nat) (h : numberEnd s = .found k) : k < s.length := by
  simp only [numberEnd] at h
  split at h <;> simp at h; omega

theorem findStringEnd_pos (m : Simd) (e : Bool) (s : Bytes) (k : Nat) (h : (findStringEnd m e s).1 = some k) :
    0 < k ∧ k ≤ s.length := by
  have key : ∀ w first, 0 < w → ∀ p, Finds w first p → (if w ≤ s.length then
        let r := findStringEndVec w first e s
        if r.1 < s.length then (some r.1, r.2) else strEnd e s
      else strEnd e s).1 = some k → 0 < k ∧ k ≤ s.length := by
    intro w first hw p hf h
    split at h
    · simp only [findStringEndVec, strEnd_strLoop] at h
      split at h
      · rename_i hlt
        simp only [Option.some.injEq] at h
        obtain ⟨h1, -, -⟩ := blockScan_spec hw hf s.length s (Nat.le_refl _)
        generalize (blockScan w first s.length s).1 = b at *
        cases hs : (strEnd e (s.drop b)).1 with
        | none => simp [hs] at h hlt; omega
        | some a =>
          have := strEnd_le _ _ _ hs
          simp [hs] at h this; omega
      · exact strEnd_le _ _ _ h
    · exact strEnd_le _ _ _ h
  cases m <;> simp only [findStringEnd] at h
  · exact strEnd_le _ _ _ h
  · exact key _ _ (by decide) _ (firstSet_finds _ _ (by decide)) h
  · exact key _ _ (by decide) _ (firstSet_finds _ _ (by decide)) h
  · exact key _ _ (by decide) _ (firstSet_finds _ _ (by decide)) h
  · exact key _ _ (by decide) _ (firstNeon_finds _) h

/-- What `populateFromDataRef` leaves alone. -/
structure Tz.sameBut (t t' : Tz) : Prop where
  opts : t'.opts = t.opts
  tokenState : t'.tokenState = t.tokenState
  expecting : t'.expecting = t.expecting
  continueAfter : t'.continueAfter = t.continueAfter
  inter : t'.inter = t.inter
  bufs : t'.bufs = t.bufs
  pending : t'.pending = t.pending
  scopes : t'.scopes = t.scopes
  stack : t'.stack = t.stack
  released : t'.released = t.released
  copies : t'.copies = t.copies
  parsed : t'.parsed = t.parsed

structure PopOk (t : Tz) (buf : Bytes) (p : PopRes) : Prop where
  same : t.sameBut p.tz
  le : t.cursor ≤ p.tz.cursor
  cur : p.tz.cursor ≤ buf.length
  ok : p.err = .noError → p.ptr + p.size ≤ p.tz.cursor ∧ p.tz.propState = .foundEnd ∧
    (t.propState = .noStartFound → t.cursor < p.tz.cursor)
  bad : p.err ≠ .noError → p.err ≠ .needMoreData → p.tz.propState = t.propState ∧
    (p.tz.propState = .findingEnd → p.tz = t)
  more : p.err = .needMoreData → p.tz.propState ≠ .foundEnd ∧
    (t.propState = .noStartFound → p.tz.propState = .findingEnd → t.cursor < p.tz.cursor)
  notub : p.err ≠ .ub

theorem populateEnd_ok (t : Tz) (buf : Bytes) (ptr : Nat) (ty : Ty) (h : t.cursor ≤ buf.length)
    (hd : t.dataStart ≤ t.cursor) (hp : ptr = t.dataStart) (hs : t.propState = .findingEnd) :
    let p := t.populateEnd buf ptr ty
    t.sameBut p.tz ∧ t.cursor ≤ p.tz.cursor ∧ p.tz.cursor ≤ buf.length ∧
    (p.err = .noError → p.ptr + p.size ≤ p.tz.cursor ∧ p.tz.propState = .foundEnd) ∧
    (p.err ≠ .noError → p.tz.cursor = t.cursor ∧ p.tz.propState = .findingEnd) ∧
    (p.err ≠ .noError → p.err ≠ .needMoreData → p.tz = t) ∧ p.err ≠ .ub := by
  have hl : (buf.drop t.cursor).length = buf.length - t.cursor := List.length_drop
  unfold Tz.populateEnd
  cases ty <;> simp only
  case string =>
    cases hr : (findStringEnd t.opts.simd t.isEscaped (buf.drop t.cursor)).1 with
    | none => refine ⟨by constructor <;> rfl, ?_⟩; simp [h, hs]
    | some k =>
      have := findStringEnd_pos _ _ _ _ hr
      refine ⟨by constructor <;> rfl, ?_⟩; simp; omega
  case number =>
    rw [findNumberEnd_eq]
    cases hr : numberEnd (buf.drop t.cursor) with
    | more => refine ⟨by constructor <;> rfl, ?_⟩; simp [h, hs]
    | found k =>
      have := numberEnd_le _ _ hr
      refine ⟨by constructor <;> rfl, ?_⟩; simp; omega
  case ascii =>
    rw [findAsciiEnd_eq]
    cases hr : asciiEnd (buf.drop t.cursor) with
    | more => refine ⟨by constructor <;> rfl, ?_⟩; simp [h, hs]
    | found k =>
      have := asciiEnd_le _ _ hr
      refine ⟨by constructor <;> rfl, ?_⟩; simp; omega
  all_goals refine ⟨by constructor <;> rfl, ?_⟩; simp [h, hs]

theorem startLoop_ty (o : Opts) (s : Bytes) (k p c : Nat) (h : (startLoop o s k p c).err = .noError) :
    (startLoop o s k p c).type.isBracket = true ∨ (startLoop o s k p c).type = .string ∨
    (startLoop o s k p c).type = .number ∨ (startLoop o s k p c).type = .ascii := by
  fun_induction startLoop o s k p c <;> simp_all [Ty.isBracket]

theorem startLoop_err (o : Opts) (s : Bytes) (k p c : Nat) :
    (startLoop o s k p c).err = .noError ∨ (startLoop o s k p c).err = .needMoreData ∨
    (startLoop o s k p c).err = .encounteredIllegalChar := by
  fun_induction startLoop o s k p c <;> simp_all

theorem sameBut_trans {a b c : Tz} (h1 : a.sameBut b) (h2 : b.sameBut c) : a.sameBut c := by
  cases h1; cases h2; constructor <;> simp_all

theorem populateFrom_ok (t : Tz) (buf : Bytes) (ty : Ty) (h : BufOk t buf) :
    PopOk t buf (t.populateFrom buf ty) := by
  have hl : (buf.drop t.cursor).length = buf.length - t.cursor := List.length_drop
  have hcur := h.cur
  unfold Tz.populateFrom
  cases hps : t.propState with
  | foundEnd => exact absurd hps h.pe
  | findingEnd =>
    simp only
    obtain ⟨h1, h2, h3, h4, h5, h6, h7⟩ := populateEnd_ok t buf t.cursor ty hcur
      (by rw [h.fe hps]; exact Nat.le_refl _) (h.fe hps).symm hps
    exact ⟨h1, h2, h3, fun e => ⟨(h4 e).1, (h4 e).2, by simp [hps]⟩,
      fun e e' => ⟨by rw [h6 e e'], fun _ => h6 e e'⟩,
      fun e => ⟨by simp [(h5 (by simp [e])).2], by simp [hps]⟩, h7⟩
  | noStartFound =>
    simp only
    rw [findStart_eq]
    obtain ⟨p1, p2, p3⟩ := startLoop_pos t.opts (buf.drop t.cursor) 0 t.cursor t.cursor (by omega) (by omega)
    have hty := startLoop_ty t.opts (buf.drop t.cursor) 0 t.cursor t.cursor
    have her := startLoop_err t.opts (buf.drop t.cursor) 0 t.cursor t.cursor
    generalize startLoop t.opts (buf.drop t.cursor) 0 t.cursor t.cursor = r at *
    by_cases he : r.err = .noError
    · have p3' := p3 he
      simp only [he, ne_eq, not_true_eq_false, if_false]
      by_cases hb : r.type.isBracket = true
      · have hstr : r.type ≠ .string := by intro h; simp [h, Ty.isBracket] at hb
        simp only [hb, if_true, hstr, if_false]
        exact ⟨by constructor <;> rfl, by simp; omega, by simp; omega, by simp; omega, by simp, by simp, by simp⟩
      · simp only [hb, if_false, Bool.false_eq_true]
        generalize hptr : (if r.type = Ty.string then r.cursor + r.ahead + 1 else r.cursor + r.ahead) = ptr
        have hptr' : ptr ≤ r.cursor + r.ahead + 1 := by rw [← hptr]; split <;> omega
        obtain ⟨h1, h2, h3, h4, h5, h6, h7⟩ := populateEnd_ok
          { t with cursor := r.cursor + r.ahead + 1, dataStart := ptr, propType := r.type,
                   propState := .findingEnd } buf ptr r.type
          (by simp; omega) (by simpa using hptr') (by simp) rfl
        simp only at h1 h2 h3 h4 h5 h6 h7
        refine ⟨sameBut_trans (by constructor <;> rfl) h1, by omega, h3,
          fun e => ⟨(h4 e).1, (h4 e).2, fun _ => by omega⟩, ?_, fun e => ⟨?_, fun _ _ => by omega⟩, h7⟩
        · intro e e'
          exfalso
          have hty' := hty he
          simp only [hb, Bool.false_eq_true, false_or] at hty'
          rcases hty' with h | h | h
          · rw [h] at e e'
            simp only [Tz.populateEnd] at e e'
            split at e <;> simp_all
          · rw [h] at e e'
            simp only [Tz.populateEnd] at e e'
            split at e <;> simp_all
          · rw [h] at e e'
            simp only [Tz.populateEnd] at e e'
            split at e <;> simp_all
        · have := (h5 (by simp [e])).2
          simp [this]
    · simp only [ne_eq, he, not_false_eq_true, if_true]
      refine ⟨by constructor <;> rfl, p1, ?_, fun e => absurd e he, fun _ _ => ⟨hps.symm, by simp⟩,
        fun _ => ⟨by simp, by simp⟩, ?_⟩
      · simp; omega
      · rcases her with h | h | h <;> simp [h]

/-- A token has been begun but not delivered. -/
def Tz.pend (t : Tz) : Nat :=
  if t.tokenState = .findingDelimiter ∨ t.tokenState = .findingData ∨ t.propState = .findingEnd then 1 else 0

theorem Tz.pend_le (t : Tz) : t.pend ≤ 1 := by unfold Tz.pend; split <;> omega

/-- A reference is a range of the buffer, or a copy held by the tokenizer, or empty. -/
def RefIn (buf : Bytes) (i : Inter) (d : DataRef) : Prop :=
  match d.loc with
  | .input off => off + d.bytes.length ≤ buf.length ∧ d.bytes = slice buf off d.bytes.length
  | .own => i.active = true ∧ (d.bytes = i.name ∨ d.bytes = i.data)
  | .lit => d.bytes = []

/-- Fields no step of the state machine touches. -/
def Tz.frame (t t' : Tz) : Prop :=
  t'.opts = t.opts ∧ t'.bufs = t.bufs ∧ t'.pending = t.pending ∧ t'.scopes = t.scopes ∧
  t'.stack = t.stack ∧ t'.released = t.released ∧ t'.copies = t.copies ∧ t'.parsed = t.parsed ∧
  t'.continueAfter = t.continueAfter

theorem frame_of_same {t t' : Tz} (h : t.sameBut t') : t.frame t' := by
  cases h; simp_all [Tz.frame]

theorem frame_trans {a b c : Tz} (h1 : a.frame b) (h2 : b.frame c) : a.frame c := by
  unfold Tz.frame at *; simp_all

/-- Outcome of one step. -/
def StepOk (t : Tz) (buf : Bytes) : Step → Prop
  | .ret e t' tok =>
    t.frame t' ∧ t.cursor ≤ t'.cursor ∧ t'.cursor ≤ buf.length ∧ e ≠ .ub ∧
    (e = .noError → ∃ k, tok = some k ∧ RefIn buf t'.inter k.name ∧ RefIn buf t'.inter k.value ∧
      t.cursor + 1 ≤ t'.cursor + t.pend ∧ t'.pend = 0) ∧
    (e ≠ .noError → tok = none ∧ t.cursor + t'.pend ≤ t'.cursor + t.pend) ∧
    (e ≠ .noError → e ≠ .needMoreData → t'.propState = .findingEnd → t'.dataStart = t'.cursor) ∧
    (e = .needMoreData → t'.propState ≠ .foundEnd) ∧
    (t'.propState = .findingEnd → t'.tokenState = .findingName ∨ t'.tokenState = .findingData)
  | .cont t' tmp =>
    t.frame t' ∧ t.cursor ≤ t'.cursor ∧ BufOk t' buf ∧
    t.cursor + t'.pend ≤ t'.cursor + t.pend ∧ RefIn buf t'.inter tmp.name ∧
    tmp.value = {}

theorem refIn_slice (buf : Bytes) (i : Inter) (p n : Nat) (h : p + n ≤ buf.length) :
    RefIn buf i { loc := .input p, bytes := slice buf p n } := by
  simp [RefIn, slice]; omega

theorem refIn_empty (buf : Bytes) (i : Inter) : RefIn buf i {} := by simp [RefIn]

theorem stepName_ok (t : Tz) (buf : Bytes) (h : BufOk t buf) (hts : t.tokenState = .findingName)
    (tmp : Token) (hv : tmp.value = {}) : StepOk t buf (t.stepName buf tmp) := by
  have hp := populateFrom_ok t buf t.inter.nameType h
  unfold Tz.stepName
  generalize t.populateFrom buf t.inter.nameType = p at *
  obtain ⟨same, le, cur, ok, bad, more, notub⟩ := hp
  have hts' : p.tz.tokenState = .findingName := by rw [same.tokenState]; exact hts
  have hf := frame_of_same same
  simp only
  by_cases hm : p.err = .needMoreData
  · have more' := more hm
    simp only [hm, if_true]
    have key : t.cursor + p.tz.pend ≤ p.tz.cursor + t.pend := by
      cases hps : t.propState with
      | foundEnd => exact absurd hps h.pe
      | findingEnd =>
        have : t.pend = 1 := by simp [Tz.pend, hps]
        have := p.tz.pend_le; omega
      | noStartFound =>
        have h2 := more'.2 hps
        cases hps2 : p.tz.propState with
        | foundEnd => exact absurd hps2 more'.1
        | findingEnd => have := h2 hps2; have := p.tz.pend_le; omega
        | noStartFound => have : p.tz.pend = 0 := by simp [Tz.pend, hps2, hts']
                          omega
    split
    · exact ⟨hf, le, cur, by simp, by simp, fun _ => ⟨rfl, key⟩, by simp, fun _ => more'.1, fun _ => Or.inl hts'⟩
    · exact ⟨hf, le, cur, by simp, by simp, fun _ => ⟨rfl, key⟩, by simp, fun _ => more'.1, fun _ => Or.inl hts'⟩
  by_cases he : p.err = .noError
  swap
  · simp only [hm, he, if_false, ne_eq, not_false_eq_true, if_true]
    have bad' := bad he hm
    refine ⟨hf, le, cur, notub, fun e => absurd e he, fun _ => ⟨rfl, ?_⟩, fun _ _ hh => ?_, fun e => absurd e hm, fun _ => Or.inl hts'⟩
    · have : p.tz.pend = t.pend := by simp [Tz.pend, hts, hts', bad'.1]
      omega
    · have := bad'.2 hh
      rw [this] at hh ⊢; exact h.fe hh
  obtain ⟨ok1, ok2, ok3⟩ := ok he
  simp only [he, if_false, ne_eq, not_true_eq_false, reduceCtorEq]
  have hadv : t.cursor + 1 ≤ p.tz.cursor + t.pend := by
    cases hps : t.propState with
    | foundEnd => exact absurd hps h.pe
    | findingEnd => have : t.pend = 1 := by simp [Tz.pend, hps]
                    omega
    | noStartFound => have := ok3 hps; omega
  -- the token name or bracket
  have hsl : ∀ i, RefIn buf i { loc := .input p.ptr, bytes := slice buf p.ptr p.size } :=
    fun i => refIn_slice buf i _ _ (by omega)
  generalize ht' : (if p.tz.inter.active = true then
      { p.tz with inter := { p.tz.inter with name := p.tz.inter.name ++ slice buf p.ptr p.size } } else p.tz) = t'
  have h1 : p.tz.frame t' := by rw [← ht']; split <;> simp [Tz.frame]
  have h2 : t'.cursor = p.tz.cursor := by rw [← ht']; split <;> rfl
  have h3 : t'.propState = .foundEnd := by rw [← ht']; split <;> exact ok2
  have h4 : t'.tokenState = .findingName := by rw [← ht']; split <;> exact hts'
  generalize hdata : (if t'.inter.active = true then ({ loc := .own, bytes := t'.inter.name } : DataRef)
      else { loc := .input p.ptr, bytes := slice buf p.ptr p.size }) = data
  have h5 : RefIn buf t'.inter data := by
    rw [← hdata]; split
    · rename_i hact; simp [RefIn, hact]
    · exact hsl _
  generalize (if t'.inter.active = true then t'.inter.nameType else p.type) = type
  have hf' := frame_trans hf h1
  have p0 : ∀ ts : TokState, (ts = .findingTokenEnd ∨ ts = .findingName) → ∀ e,
      Tz.pend { t' with tokenState := ts, expecting := e } = 0 := by
    intro ts hts e; rcases hts with rfl | rfl <;> simp [Tz.pend, h3]
  cases type <;> simp only
  case objectEnd | arrayEnd =>
    split
    · refine ⟨hf', by omega, by omega, by simp, by simp, fun _ => ⟨rfl, ?_⟩, by simp [h3], by simp, by simp [h3]⟩
      have : t'.pend = 0 := by simp [Tz.pend, h3, h4]
      omega
    · refine ⟨by simpa [Tz.frame] using hf', by simp; omega, by simp; omega, by simp, fun _ => ⟨_, rfl, ?_, ?_, ?_, ?_⟩, by simp, by simp, by simp, by simp [h3]⟩
      · simp [anonymous, RefIn]
      · simpa [anonymous] using h5
      · simp; omega
      · exact p0 _ (Or.inl rfl) _
  case objectStart | arrayStart =>
    refine ⟨by simpa [Tz.frame] using hf', by simp; omega, by simp; omega, by simp, fun _ => ⟨_, rfl, ?_, ?_, ?_, ?_⟩, by simp, by simp, by simp, by simp [h3]⟩
    · simp [anonymous, RefIn]
    · simpa [anonymous] using h5
    · simp; omega
    · exact p0 _ (Or.inr rfl) _
  all_goals
    refine ⟨by simpa [Tz.frame, Tz.resetForNewValue] using hf', by simp [Tz.resetForNewValue]; omega,
      ⟨by simp [Tz.resetForNewValue]; omega, by simp [Tz.resetForNewValue], by simp [Tz.resetForNewValue], by simp [Tz.resetForNewValue]⟩, ?_, ?_, ?_⟩
    · have := Tz.pend_le ({ t' with tokenState := .findingDelimiter }.resetForNewValue)
      simp only [Tz.resetForNewValue] at *; omega
    · simpa [Tz.resetForNewValue] using h5
    · exact hv

theorem delimLoop_err (o : Opts) (ct : Ty) (s : Bytes) (k p c : Nat) :
    let r := delimLoop o ct s k p c
    (r.err = .noError ∧ (r.state = .findingName ∨ r.state = .findingData)) ∨ r.err = .needMoreData ∨
      r.err = .expectedDelimiter := by
  fun_induction delimLoop o ct s k p c <;> simp_all

theorem findDelimiter_pos (o : Opts) (st : List Ty) (buf : Bytes) (cur : Nat) (hc : cur ≤ buf.length) :
    let r := findDelimiter o st buf cur
    cur ≤ r.cursor ∧ r.cursor + r.ahead ≤ buf.length ∧ r.err ≠ .ub ∧
    (r.err = .noError → r.state = .findingName ∨ r.state = .findingData) := by
  cases st with
  | nil => simp [findDelimiter, hc]
  | cons ct st =>
    rw [findDelimiter_eq]
    have h1 := delimLoop_pos o ct (buf.drop cur) 0 cur cur (by omega) (by omega)
    have h2 := delimLoop_err o ct (buf.drop cur) 0 cur cur
    simp only [List.length_drop] at h1 h2 ⊢
    refine ⟨h1.1, by omega, ?_, ?_⟩
    · rcases h2 with h | h | h <;> simp [h]
    · intro he; rcases h2 with h | h | h
      · exact h.2
      · simp [h] at he
      · simp [h] at he

theorem tokenEndLoop_err (o : Opts) (s : Bytes) (k p c : Nat) :
    let r := tokenEndLoop o s k p c
    r.err = .noError ∨ r.err = .needMoreData ∨ r.err = .invalidToken := by
  fun_induction tokenEndLoop o s k p c <;> simp_all

theorem findTokenEnd_pos (o : Opts) (st : List Ty) (buf : Bytes) (cur : Nat) (hc : cur ≤ buf.length) :
    let r := findTokenEnd o st buf cur
    cur ≤ r.cursor ∧ r.cursor + r.ahead ≤ buf.length ∧ r.err ≠ .ub := by
  cases st with
  | nil => simp [findTokenEnd, hc]
  | cons ct st =>
    rw [findTokenEnd_eq]
    have h1 := tokenEndLoop_pos o (buf.drop cur) 0 cur cur (by omega) (by omega)
    have h2 := tokenEndLoop_err o (buf.drop cur) 0 cur cur
    simp only [List.length_drop] at h1 h2 ⊢
    refine ⟨h1.1, by omega, ?_⟩
    rcases h2 with h | h | h <;> simp [h]

theorem saveName_name (i : Inter) (tmp : Token) : (i.saveName tmp).active = true := by
  unfold Inter.saveName; split <;> simp_all

theorem stepDelimiter_ok (t : Tz) (buf : Bytes) (h : BufOk t buf) (hts : t.tokenState = .findingDelimiter)
    (tmp : Token) (hn : RefIn buf t.inter tmp.name) (hv : tmp.value = {}) :
    StepOk t buf (t.stepDelimiter buf tmp) := by
  have hps : t.propState = .noStartFound := by
    cases hp : t.propState with
    | noStartFound => rfl
    | foundEnd => exact absurd hp h.pe
    | findingEnd => have := h.ds hp; simp [hts] at this
  obtain ⟨h1, h2, h3, h4⟩ := findDelimiter_pos t.opts t.stack buf t.cursor h.cur
  unfold Tz.stepDelimiter
  generalize findDelimiter t.opts t.stack buf t.cursor = r at *
  have pt : t.pend = 1 := by simp [Tz.pend, hts]
  simp only
  split
  · rename_i he
    refine ⟨by simp [Tz.frame], h1, by simp; omega, h3, fun e => absurd e he, fun _ => ⟨rfl, ?_⟩, ?_, ?_, ?_⟩
    · have := Tz.pend_le { t with cursor := r.cursor, inter := t.inter.saveName tmp }
      simp only; omega
    · simp [hps]
    · simp [hps]
    · simp [hps]
  · rename_i he
    simp only [ne_eq, not_not] at he
    rcases h4 he with hs | hs
    · simp only [hs, if_true]
      refine ⟨by simp [Tz.frame, Tz.resetForNewValue], by simp [Tz.resetForNewValue]; omega,
        by simp [Tz.resetForNewValue]; omega, by simp,
        fun _ => ⟨_, rfl, by simp [anonymous, RefIn], by simpa [anonymous, Tz.resetForNewValue] using hn, ?_, ?_⟩,
        by simp, by simp, by simp, by simp [Tz.resetForNewValue]⟩
      · simp [Tz.resetForNewValue]; omega
      · simp [Tz.pend, Tz.resetForNewValue]
    · simp only [hs, reduceCtorEq, if_false]
      split
      · refine ⟨by simp [Tz.frame, Tz.resetForNewValue], by simp [Tz.resetForNewValue]; omega,
          by simp [Tz.resetForNewValue]; omega, by simp, by simp, fun _ => ⟨rfl, ?_⟩,
          by simp [Tz.resetForNewValue], by simp, by simp [Tz.resetForNewValue]⟩
        simp [Tz.pend, hts, Tz.resetForNewValue]; omega
      · refine ⟨by simp [Tz.frame, Tz.resetForNewValue], by simp [Tz.resetForNewValue]; omega,
          ⟨by simp [Tz.resetForNewValue]; omega, by simp [Tz.resetForNewValue],
           by simp [Tz.resetForNewValue], by simp [Tz.resetForNewValue]⟩, ?_, hn, hv⟩
        simp [Tz.pend, hts, Tz.resetForNewValue]; omega

theorem stepTokenEnd_ok (t : Tz) (buf : Bytes) (h : BufOk t buf) (hts : t.tokenState = .findingTokenEnd)
    (tmp : Token) (hn : RefIn buf t.inter tmp.name) (hv : tmp.value = {}) :
    StepOk t buf (t.stepTokenEnd buf tmp) := by
  have hps : t.propState = .noStartFound := by
    cases hp : t.propState with
    | noStartFound => rfl
    | foundEnd => exact absurd hp h.pe
    | findingEnd => have := h.ds hp; simp [hts] at this
  obtain ⟨h1, h2, h3⟩ := findTokenEnd_pos t.opts t.stack buf t.cursor h.cur
  unfold Tz.stepTokenEnd
  generalize findTokenEnd t.opts t.stack buf t.cursor = r at *
  simp only
  split
  · rename_i he
    refine ⟨by simp [Tz.frame], h1, by simp; omega, h3, fun e => absurd e he, fun _ => ⟨rfl, ?_⟩, ?_, ?_, ?_⟩
    · simp [Tz.pend, hts, hps]; omega
    · simp [hps]
    · simp [hps]
    · simp [hps]
  · refine ⟨by simp [Tz.frame], by simp; omega, ⟨by simp; omega, by simp [hps], by simp [hps], by simp [hps]⟩, ?_, hn, hv⟩
    simp [Tz.pend, hts, hps]; omega

theorem stepData_ok (t : Tz) (buf : Bytes) (h : BufOk t buf) (hts : t.tokenState = .findingData)
    (tmp : Token) (hn : RefIn buf t.inter tmp.name) :
    StepOk t buf (t.stepData buf tmp) := by
  have hp := populateFrom_ok t buf t.inter.dataType h
  unfold Tz.stepData
  generalize t.populateFrom buf t.inter.dataType = p at *
  obtain ⟨same, le, cur, ok, bad, more, notub⟩ := hp
  have hts' : p.tz.tokenState = .findingData := by rw [same.tokenState]; exact hts
  have hf := frame_of_same same
  have pt : t.pend = 1 := by simp [Tz.pend, hts]
  simp only
  by_cases hm : p.err = .needMoreData
  · have more' := more hm
    simp only [hm, if_true]
    refine ⟨by simpa [Tz.frame] using hf, le, cur, by simp, by simp, fun _ => ⟨rfl, ?_⟩, by simp, fun _ => more'.1,
      fun _ => Or.inr hts'⟩
    simp only
    generalize hq : ({ p.tz with inter := _ } : Tz) = q
    have := q.pend_le
    have : q.cursor = p.tz.cursor := by rw [← hq]
    omega
  by_cases he : p.err = .noError
  swap
  · simp only [hm, he, if_false, ne_eq, not_false_eq_true, if_true]
    have bad' := bad he hm
    refine ⟨hf, le, cur, notub, fun e => absurd e he, fun _ => ⟨rfl, ?_⟩, fun _ _ hh => ?_, fun e => absurd e hm,
      fun _ => Or.inr hts'⟩
    · have := p.tz.pend_le
      omega
    · have := bad'.2 hh
      rw [this] at hh ⊢; exact h.fe hh
  obtain ⟨ok1, ok2, ok3⟩ := ok he
  simp only [he, if_false, ne_eq, not_true_eq_false, reduceCtorEq]
  have hsl : ∀ i, RefIn buf i { loc := .input p.ptr, bytes := slice buf p.ptr p.size } :=
    fun i => refIn_slice buf i _ _ (by omega)
  generalize ht' : (if p.tz.inter.active = true then _ else p.tz : Tz) = t'
  have h1 : p.tz.frame t' := by rw [← ht']; split <;> simp [Tz.frame]
  have h2 : t'.cursor = p.tz.cursor := by rw [← ht']; split <;> rfl
  have h3 : t'.propState = .foundEnd := by rw [← ht']; split <;> exact ok2
  have h4 : t'.inter.active = p.tz.inter.active := by rw [← ht']; split <;> [split <;> rfl; rfl]
  have h4' : t'.inter.active = false → t'.inter = t.inter := by
    intro ha; rw [← same.inter, ← ht']
    rw [h4] at ha; simp [ha]
  have hf' := frame_trans hf h1
  generalize hdata : (if t'.inter.active = true then ({ loc := .own, bytes := t'.inter.data } : DataRef)
      else { loc := .input p.ptr, bytes := slice buf p.ptr p.size }) = data
  have h5 : RefIn buf t'.inter data := by
    rw [← hdata]; split
    · rename_i hact; simp [RefIn, hact]
    · exact hsl _
  generalize hnm : (if t'.inter.active = true then
        { tmp with name := { loc := .own, bytes := t'.inter.name }, nameType := t'.inter.nameType }
      else tmp : Token) = tmp'
  have h6 : RefIn buf t'.inter tmp'.name := by
    rw [← hnm]; split
    · rename_i hact; simp [RefIn, hact]
    · rename_i ha
      simp only [Bool.not_eq_true] at ha
      rw [h4' ha]; exact hn
  generalize (if t'.inter.active = true then t'.inter.dataType else p.type) = type
  split
  · refine ⟨hf', by omega, by omega, by simp, by simp, fun _ => ⟨rfl, ?_⟩, by simp [h3], by simp, by simp [h3]⟩
    have := t'.pend_le; omega
  · refine ⟨by simpa [Tz.frame] using hf', by simp; omega, by simp; omega, by simp,
      fun _ => ⟨_, rfl, h6, h5, ?_, ?_⟩, by simp, by simp, by simp, by simp [h3]⟩
    · simp; omega
    · simp only [Tz.pend, h3]; split <;> simp

theorem step_ok (t : Tz) (buf : Bytes) (h : BufOk t buf) (tmp : Token)
    (hn : RefIn buf t.inter tmp.name) (hv : tmp.value = {}) :
    StepOk t buf (t.step buf tmp) := by
  unfold Tz.step
  cases hts : t.tokenState with
  | findingName => exact stepName_ok t buf h hts tmp hv
  | findingDelimiter => exact stepDelimiter_ok t buf h hts tmp hn hv
  | findingData => exact stepData_ok t buf h hts tmp hn
  | findingTokenEnd => exact stepTokenEnd_ok t buf h hts tmp hn hv

theorem stepOk_trans {t t' : Tz} {buf : Bytes} {tmp : Token} {e : Err} {t'' : Tz} {tok : Option Token}
    (h1 : StepOk t buf (.cont t' tmp)) (h2 : StepOk t' buf (.ret e t'' tok)) :
    StepOk t buf (.ret e t'' tok) := by
  obtain ⟨a1, a2, a3, a4, a5, a6⟩ := h1
  obtain ⟨b1, b2, b3, b4, b5, b6, b7, b8, b9⟩ := h2
  refine ⟨frame_trans a1 b1, by omega, b3, b4, fun e => ?_, fun e => ?_, b7, b8, b9⟩
  · obtain ⟨k, hk, c1, c2, c3, c4⟩ := b5 e
    exact ⟨k, hk, c1, c2, by omega, c4⟩
  · obtain ⟨hk, c1⟩ := b6 e
    exact ⟨hk, by omega⟩

theorem populateLoop_ok (n : Nat) (t : Tz) (buf : Bytes) (h : BufOk t buf) (tmp : Token)
    (hn : RefIn buf t.inter tmp.name) (hv : tmp.value = {}) :
    StepOk t buf (.ret (Tz.populateLoop n t buf tmp).1 (Tz.populateLoop n t buf tmp).2.1
      (Tz.populateLoop n t buf tmp).2.2) := by
  induction n generalizing t tmp with
  | zero =>
    simp only [Tz.populateLoop]
    exact ⟨by simp [Tz.frame], Nat.le_refl _, h.cur, by simp, by simp, by simp, by simp, fun _ => h.pe, h.ds⟩
  | succ n ih =>
    simp only [Tz.populateLoop]
    split
    · have hs := step_ok t buf h tmp hn hv
      generalize t.step buf tmp = st at *
      cases st with
      | ret e t' tok => exact hs
      | cont t' tmp' =>
        obtain ⟨a1, a2, a3, a4, a5, a6⟩ := hs
        exact stepOk_trans ⟨a1, a2, a3, a4, a5, a6⟩ (ih t' a3 tmp' a5 a6)
    · exact ⟨by simp [Tz.frame], Nat.le_refl _, h.cur, by simp, by simp, by simp, by simp, fun _ => h.pe, h.ds⟩

theorem populateNext_ok (t : Tz) (buf : Bytes) (h : BufOk t buf) :
    StepOk t buf (.ret (t.populateNext buf).1 (t.populateNext buf).2.1 (t.populateNext buf).2.2) :=
  populateLoop_ok 4 t buf h {} (refIn_empty _ _) rfl

/-! ### Four iterations are enough -/

def TokState.rank : TokState → Nat
  | .findingTokenEnd => 4 | .findingName => 3 | .findingDelimiter => 2 | .findingData => 1

theorem findDelimiter_state (o : Opts) (st : List Ty) (buf : Bytes) (cur : Nat) :
    (findDelimiter o st buf cur).err = .noError →
    (findDelimiter o st buf cur).state = .findingName ∨ (findDelimiter o st buf cur).state = .findingData := by
  intro he
  cases st with
  | nil => simp [findDelimiter] at he
  | cons ct st =>
    rw [findDelimiter_eq] at he ⊢
    have h2 := delimLoop_err o ct (buf.drop cur) 0 cur cur
    simp only [he, true_and, or_false, reduceCtorEq] at h2
    exact h2

theorem step_rank (t t' : Tz) (buf : Bytes) (tmp tmp' : Token) (h : t.step buf tmp = .cont t' tmp') :
    t'.tokenState.rank < t.tokenState.rank := by
  unfold Tz.step at h
  cases hts : t.tokenState with
  | findingName =>
    simp only [hts, Tz.stepName] at h
    generalize t.populateFrom buf t.inter.nameType = p at h
    split at h
    · split at h <;> simp at h
    · split at h
      · simp at h
      · generalize (if p.tz.inter.active = true then _ else p.tz : Tz) = q at h
        generalize (if q.inter.active = true then q.inter.nameType else p.type) = ty at h
        cases ty <;> simp only [Step.cont.injEq] at h
        case objectEnd | arrayEnd => split at h <;> simp at h
        case objectStart | arrayStart => simp at h
        all_goals rw [← h.1]; simp [TokState.rank, Tz.resetForNewValue]
  | findingDelimiter =>
    simp only [hts, Tz.stepDelimiter] at h
    have herr := findDelimiter_state t.opts t.stack buf t.cursor
    generalize findDelimiter t.opts t.stack buf t.cursor = r at *
    split at h
    · simp at h
    · rename_i he
      simp only [ne_eq, not_not] at he
      split at h
      · simp at h
      · rename_i hst
        split at h
        · simp at h
        · simp only [Step.cont.injEq] at h
          rw [← h.1]
          have := herr he
          simp only [hst, false_or] at this
          simp [TokState.rank, Tz.resetForNewValue, this]
  | findingData =>
    simp only [hts, Tz.stepData] at h
    generalize t.populateFrom buf t.inter.dataType = p at h
    split at h
    · simp at h
    · split at h
      · simp at h
      · generalize (if p.tz.inter.active = true then _ else p.tz : Tz) = q at h
        generalize (if q.inter.active = true then q.inter.dataType else p.type) = ty at h
        generalize getType _ _ = gt at h
        by_cases hc : gt = Ty.ascii ∧ q.opts.ascii = false
        · simp [hc] at h
        · rw [if_neg hc] at h; simp at h
  | findingTokenEnd =>
    simp only [hts, Tz.stepTokenEnd] at h
    split at h
    · simp at h
    · simp only [Step.cont.injEq] at h
      rw [← h.1]; simp [TokState.rank]

theorem populateLoop_fuel (n m : Nat) (t : Tz) (buf : Bytes) (tmp : Token)
    (hn : t.tokenState.rank ≤ n) (hm : t.tokenState.rank ≤ m) :
    Tz.populateLoop n t buf tmp = Tz.populateLoop m t buf tmp := by
  have pos : ∀ s : TokState, 1 ≤ s.rank := by intro s; cases s <;> simp [TokState.rank]
  induction n generalizing t tmp m with
  | zero => have := pos t.tokenState; omega
  | succ n ih =>
    cases m with
    | zero => have := pos t.tokenState; omega
    | succ m =>
      simp only [Tz.populateLoop]
      split <;> [skip; rfl]
      cases hs : t.step buf tmp with
      | ret => rfl
      | cont t' tmp' =>
        have := step_rank t t' buf tmp tmp' hs
        exact ih m t' tmp' (by omega) (by omega)

/-- Four iterations of the loop in `populateNextTokenFromDataRef` always suffice. -/
theorem populateLoop_four (n : Nat) (t : Tz) (buf : Bytes) (tmp : Token) :
    Tz.populateLoop (4 + n) t buf tmp = Tz.populateLoop 4 t buf tmp := by
  have : t.tokenState.rank ≤ 4 := by cases t.tokenState <;> simp [TokState.rank]
  exact populateLoop_fuel _ _ _ _ _ (by omega) this

/-! ### Whole calls -/

/-- Bytes not yet consumed, in registered buffers and in those the callback will add. -/
def Tz.avail (t : Tz) : Nat :=
  (t.bufs.map List.length).sum - t.cursor + (t.pending.map (fun bs => (bs.map List.length).sum)).sum

/-- Invariant between calls. -/
structure Tz.Ok (t : Tz) : Prop where
  cur : ∀ b rest, t.bufs = b :: rest → t.cursor ≤ b.length
  cur0 : t.bufs = [] → t.cursor = 0
  fe : t.propState = .findingEnd → t.dataStart = t.cursor
  pe : t.continueAfter = true → t.propState ≠ .foundEnd
  ds : t.propState = .findingEnd → t.tokenState = .findingName ∨ t.tokenState = .findingData

/-- References of a delivered token, relative to the tokenizer state after the call. -/
def RefOk (t : Tz) (d : DataRef) : Prop := ∃ b rest, t.bufs = b :: rest ∧ RefIn b t.inter d

structure PumpOk (t : Tz) (e : Err) (t' : Tz) (tok : Option Token) : Prop where
  opts : t'.opts = t.opts
  scopes : t'.scopes = t.scopes
  stack : t'.stack = t.stack
  parsed : t'.parsed = t.parsed
  notub : e ≠ .ub
  cur : ∀ b rest, t'.bufs = b :: rest → t'.cursor ≤ b.length
  cur0 : t'.bufs = [] → t'.cursor = 0
  fe : t'.propState = .findingEnd → t'.dataStart = t'.cursor
  ds : t'.propState = .findingEnd → t'.tokenState = .findingName ∨ t'.tokenState = .findingData
  pe : e = .needMoreData → t'.propState ≠ .foundEnd
  ok : e = .noError → ∃ k, tok = some k ∧ RefOk t' k.name ∧ RefOk t' k.value ∧
    t'.avail + 1 ≤ t.avail + t.pend ∧ t'.pend = 0
  bad : e ≠ .noError → tok = none ∧ t'.avail + t'.pend ≤ t.avail + t.pend

theorem releaseFirst_avail (t : Tz) (h : ∀ b rest, t.bufs = b :: rest → t.cursor ≤ b.length) :
    t.releaseFirst.requestMoreData.avail ≤ t.avail := by
  unfold Tz.releaseFirst
  cases hb : t.bufs with
  | nil =>
    simp only [Tz.requestMoreData]
    split
    · exact Nat.le_refl _
    · rename_i bs rest hp
      simp [Tz.avail, hb, hp]
  | cons b rest =>
    have := h b rest hb
    simp only [Tz.requestMoreData]
    split
    · rename_i hp
      simp [Tz.avail, hb, hp]; omega
    · rename_i bs ps hp
      simp [Tz.avail, hb, hp]; omega

theorem pump_ok (n : Nat) (t : Tz) (h : t.Ok) (hp : t.propState ≠ .foundEnd) :
    PumpOk t (Tz.pump n t).1 (Tz.pump n t).2.1 (Tz.pump n t).2.2 := by
  induction n generalizing t with
  | zero =>
    simp only [Tz.pump]
    exact ⟨rfl, rfl, rfl, rfl, by simp, h.cur, h.cur0, h.fe, h.ds, fun _ => hp, by simp, fun _ => ⟨rfl, Nat.le_refl _⟩⟩
  | succ n ih =>
    simp only [Tz.pump]
    cases hb : t.bufs with
    | nil =>
      simp only
      exact ⟨rfl, rfl, rfl, rfl, by simp, h.cur, h.cur0, h.fe, h.ds, fun _ => hp, by simp, fun _ => ⟨rfl, Nat.le_refl _⟩⟩
    | cons b rest =>
      simp only
      have hl := populateNext_ok t b ⟨h.cur b rest hb, h.fe, hp, h.ds⟩
      generalize t.populateNext b = r at *
      obtain ⟨e, t', tok⟩ := r
      simp only at hl ⊢
      obtain ⟨a1, a2, a3, a4, a5, a6, a7, a8, a9⟩ := hl
      obtain ⟨f1, f2, f3, f4, f5, f6, f7, f8, f9⟩ := a1
      have hav : t'.avail + t'.cursor = t.avail + t.cursor := by
        simp only [Tz.avail, f2, f3, hb, List.map_cons, List.sum_cons]; omega
      split
      · rename_i he
        have hok : t'.releaseFirst.requestMoreData.Ok ∧ t'.releaseFirst.requestMoreData.propState ≠ .foundEnd ∧
            t'.releaseFirst.requestMoreData.opts = t.opts ∧ t'.releaseFirst.requestMoreData.scopes = t.scopes ∧
            t'.releaseFirst.requestMoreData.stack = t.stack ∧ t'.releaseFirst.requestMoreData.parsed = t.parsed ∧
            t'.releaseFirst.requestMoreData.pend = t'.pend := by
          have h8 := a8 he
          simp only [Tz.releaseFirst, f2, hb, Tz.requestMoreData]
          split
          · exact ⟨⟨by simp, by simp, by simp, fun _ => h8, a9⟩, h8, f1, f4, f5, f8, rfl⟩
          · exact ⟨⟨by simp, by simp, by simp, fun _ => h8, a9⟩, h8, f1, f4, f5, f8, rfl⟩
        obtain ⟨g1, g2, g3, g4, g5, g6, g7⟩ := hok
        have hav2 := releaseFirst_avail t' (fun b' r' hb' => by
          rw [f2, hb] at hb'; simp only [List.cons.injEq] at hb'; rw [← hb'.1]; exact a3)
        have := ih t'.releaseFirst.requestMoreData g1 g2
        have a6' := a6 (by simp [he])
        refine ⟨this.opts.trans g3, this.scopes.trans g4, this.stack.trans g5, this.parsed.trans g6, this.notub,
          this.cur, this.cur0, this.fe, this.ds, this.pe, fun e => ?_, fun e => ?_⟩
        · obtain ⟨k, hk, c1, c2, c3, c4⟩ := this.ok e
          exact ⟨k, hk, c1, c2, by omega, c4⟩
        · obtain ⟨hk, c1⟩ := this.bad e
          exact ⟨hk, by omega⟩
      · rename_i he
        refine ⟨f1, f4, f5, f8, a4, fun b' r' hb' => ?_, fun hb' => ?_, fun hh => ?_, a9, a8, fun e => ?_, fun e => ?_⟩
        · rw [f2, hb] at hb'; simp only [List.cons.injEq] at hb'; simp only at *; rw [← hb'.1]; exact a3
        · rw [f2, hb] at hb'; simp at hb'
        · by_cases hne : e = .noError
          · obtain ⟨k, _, _, _, _, hpe⟩ := a5 hne
            simp only at hh
            simp [Tz.pend, hh] at hpe
          · exact a7 hne he hh
        · obtain ⟨k, hk, c1, c2, c3, c4⟩ := a5 e
          exact ⟨k, hk, ⟨b, rest, by rw [f2, hb], c1⟩, ⟨b, rest, by rw [f2, hb], c2⟩, by simp only; omega, c4⟩
        · obtain ⟨hk, c1⟩ := a6 e
          exact ⟨hk, by simp only; omega⟩

/-- `pump` never runs out of fuel. -/
theorem pump_fuel (n m : Nat) (t : Tz) (hn : t.supply ≤ n) (hm : t.supply ≤ m) (h : t.Ok)
    (hp : t.propState ≠ .foundEnd) : Tz.pump n t = Tz.pump m t := by
  induction n generalizing t m with
  | zero =>
    have : t.bufs = [] := by
      cases hb : t.bufs with
      | nil => rfl
      | cons b r => simp [Tz.supply, hb] at hn
    cases m <;> simp [Tz.pump, this]
  | succ n ih =>
    cases m with
    | zero =>
      have : t.bufs = [] := by
        cases hb : t.bufs with
        | nil => rfl
        | cons b r => simp [Tz.supply, hb] at hm
      simp [Tz.pump, this]
    | succ m =>
      simp only [Tz.pump]
      cases hb : t.bufs with
      | nil => rfl
      | cons b rest =>
        simp only
        have hl := populateNext_ok t b ⟨h.cur b rest hb, h.fe, hp, h.ds⟩
        generalize t.populateNext b = r at *
        obtain ⟨e, t', tok⟩ := r
        simp only at hl ⊢
        obtain ⟨a1, a2, a3, a4, a5, a6, a7, a8, a9⟩ := hl
        obtain ⟨f1, f2, f3, f4, f5, f6, f7, f8, f9⟩ := a1
        split <;> [skip; rfl]
        rename_i he
        have hsup : t'.releaseFirst.requestMoreData.supply + 1 ≤ t.supply ∧
            t'.releaseFirst.requestMoreData.Ok ∧ t'.releaseFirst.requestMoreData.propState ≠ .foundEnd := by
          have h8 := a8 he
          simp only [Tz.releaseFirst, f2, hb, Tz.requestMoreData]
          split
          · rename_i hpn
            simp only [f3] at hpn
            refine ⟨by simp [Tz.supply, hb, f3, hpn], ⟨by simp, by simp, by simp, fun _ => h8, a9⟩, h8⟩
          · rename_i bs ps hpn
            simp only [f3] at hpn
            refine ⟨by simp [Tz.supply, hb, hpn]; omega, ⟨by simp, by simp, by simp, fun _ => h8, a9⟩, h8⟩
        exact ih m _ (by omega) (by omega) hsup.2.1 hsup.2.2

structure FinishOk (t : Tz) (tok : Token) (e : Err) (t' : Tz) : Prop where
  same : t' = { t with stack := t'.stack, scopes := t'.scopes }
  ok : e = .noError → bracketStep t.stack tok.valueType = some t'.stack
  bad : e ≠ .noError → bracketStep t.stack tok.valueType = none ∧ t' = t ∧
    (e = .unexpectedArrayEnd ∧ tok.valueType = .arrayEnd ∨ e = .unexpectedObjectEnd ∧ tok.valueType = .objectEnd)

theorem finish_ok (t : Tz) (tok : Token) : FinishOk t tok (t.finish tok).1 (t.finish tok).2 := by
  unfold Tz.finish
  cases hv : tok.valueType <;>
    simp only [reduceCtorEq, or_false, if_false, if_true, or_true] <;>
    (try (exact ⟨rfl, by simp [hv, bracketStep], by simp⟩))
  · split
    · rename_i r hs
      exact ⟨rfl, by simp [hv, hs, bracketStep], by simp⟩
    · rename_i hs
      refine ⟨rfl, by simp, fun _ => ⟨?_, rfl, by simp [hv]⟩⟩
      rw [hv]; unfold bracketStep; simp only
  · split
    · rename_i r hs
      exact ⟨rfl, by simp [hv, hs, bracketStep], by simp⟩
    · rename_i hs
      refine ⟨rfl, by simp, fun _ => ⟨?_, rfl, by simp [hv]⟩⟩
      rw [hv]; unfold bracketStep; simp only

structure NextOk (t : Tz) (e : Err) (t' : Tz) (tok : Token) : Prop where
  inv : t'.Ok
  parsed : t'.parsed = none
  opts : t'.opts = t.opts
  notub : e ≠ .ub
  name : e = .noError → RefOk t' tok.name
  value : e = .noError → RefOk t' tok.value
  progress : e = .noError → t'.avail + t'.pend + 1 ≤ t.avail + t.pend
  noIncrease : t'.avail + t'.pend ≤ t.avail + t.pend
  stack : e = .noError → bracketStep t.stack tok.valueType = some t'.stack
  stackErr : e ≠ .noError → t'.stack = t.stack
  mismatch : (e = .unexpectedArrayEnd → tok.valueType = .arrayEnd ∧ bracketStep t.stack .arrayEnd = none) ∧
    (e = .unexpectedObjectEnd → tok.valueType = .objectEnd ∧ bracketStep t.stack .objectEnd = none)

theorem ok_reset (t : Tz) (h : t.Ok) : t.resetForNewToken.Ok :=
  ⟨h.cur, h.cur0, by simp [Tz.resetForNewToken, Tz.resetForNewValue],
    by simp [Tz.resetForNewToken, Tz.resetForNewValue], by simp [Tz.resetForNewToken, Tz.resetForNewValue]⟩

theorem ok_request (t : Tz) (h : t.Ok) (hb : t.bufs = []) : t.requestMoreData.Ok := by
  have h0 := h.cur0 hb
  unfold Tz.requestMoreData
  split
  · exact h
  · refine ⟨fun b r _ => by simp [h0], fun _ => h0, h.fe, h.pe, h.ds⟩

theorem request_avail (t : Tz) (h : t.Ok) (hb : t.bufs = []) : t.requestMoreData.avail = t.avail := by
  have h0 := h.cur0 hb
  unfold Tz.requestMoreData
  split
  · rfl
  · rename_i hp; simp [Tz.avail, hb, hp, h0]

theorem pump_err (n : Nat) (t : Tz) :
    (Tz.pump n t).1 ≠ .unexpectedArrayEnd ∧ (Tz.pump n t).1 ≠ .unexpectedObjectEnd := by
  have key : ∀ t buf tmp n, (Tz.populateLoop n t buf tmp).1 ≠ .unexpectedArrayEnd ∧
      (Tz.populateLoop n t buf tmp).1 ≠ .unexpectedObjectEnd := by
    intro t buf tmp n
    have hpe : ∀ (t : Tz) ty p, (t.populateEnd buf p ty).err ≠ .unexpectedArrayEnd ∧
        (t.populateEnd buf p ty).err ≠ .unexpectedObjectEnd := by
      intro t ty p
      unfold Tz.populateEnd
      cases ty <;> simp only <;> (try split) <;> simp
    have hpf : ∀ (t : Tz) ty, (t.populateFrom buf ty).err ≠ .unexpectedArrayEnd ∧
        (t.populateFrom buf ty).err ≠ .unexpectedObjectEnd := by
      intro t ty
      unfold Tz.populateFrom
      split
      · simp only
        rw [findStart_eq]
        have := startLoop_err t.opts (buf.drop t.cursor) 0 t.cursor t.cursor
        split
        · rcases this with h | h | h <;> simp [h]
        · split
          · simp
          · exact hpe _ _ _
      · exact hpe _ _ _
      · simp
    have hst : ∀ (t : Tz) tmp e t' tok, t.step buf tmp = .ret e t' tok → e ≠ .unexpectedArrayEnd ∧ e ≠ .unexpectedObjectEnd := by
      intro t tmp e t' tok h
      unfold Tz.step at h
      split at h
      · simp only [Tz.stepName] at h
        have hh := hpf t t.inter.nameType
        generalize t.populateFrom buf t.inter.nameType = p at *
        split at h
        · split at h <;> (simp only [Step.ret.injEq] at h; rw [← h.1]; simp)
        · split at h
          · simp only [Step.ret.injEq] at h; rw [← h.1]; exact hh
          · generalize (if p.tz.inter.active = true then _ else p.tz : Tz) = q at h
            generalize (if q.inter.active = true then q.inter.nameType else p.type) = ty at h
            cases ty <;> simp only [Step.ret.injEq, reduceCtorEq] at h
            case objectEnd | arrayEnd =>
              split at h <;> (simp only [Step.ret.injEq] at h; rw [← h.1]; simp)
            all_goals (rw [← h.1]; simp)
      · simp only [Tz.stepDelimiter] at h
        have herr : (findDelimiter t.opts t.stack buf t.cursor).err ≠ .unexpectedArrayEnd ∧
          (findDelimiter t.opts t.stack buf t.cursor).err ≠ .unexpectedObjectEnd := by
          cases t.stack with
          | nil => simp [findDelimiter]
          | cons ct st =>
            rw [findDelimiter_eq]
            rcases delimLoop_err t.opts ct (buf.drop t.cursor) 0 t.cursor t.cursor with h | h | h <;> simp [h]
        generalize findDelimiter t.opts t.stack buf t.cursor = r at *
        split at h
        · simp only [Step.ret.injEq] at h; rw [← h.1]; exact herr
        · split at h
          · simp only [Step.ret.injEq] at h; rw [← h.1]; simp
          · split at h
            · simp only [Step.ret.injEq] at h; rw [← h.1]; simp
            · simp at h
      · simp only [Tz.stepData] at h
        have hh := hpf t t.inter.dataType
        generalize t.populateFrom buf t.inter.dataType = p at *
        split at h
        · simp only [Step.ret.injEq] at h; rw [← h.1]; simp
        · split at h
          · simp only [Step.ret.injEq] at h; rw [← h.1]; exact hh
          · generalize (if p.tz.inter.active = true then _ else p.tz : Tz) = q at h
            generalize (if q.inter.active = true then q.inter.dataType else p.type) = ty at h
            generalize getType _ _ = gt at h
            by_cases hc : gt = Ty.ascii ∧ q.opts.ascii = false
            · rw [if_pos hc] at h; simp only [Step.ret.injEq] at h; rw [← h.1]; simp
            · rw [if_neg hc] at h; simp only [Step.ret.injEq] at h; rw [← h.1]; simp
      · simp only [Tz.stepTokenEnd] at h
        have herr : (findTokenEnd t.opts t.stack buf t.cursor).err ≠ .unexpectedArrayEnd ∧
          (findTokenEnd t.opts t.stack buf t.cursor).err ≠ .unexpectedObjectEnd := by
          cases t.stack with
          | nil => simp [findTokenEnd]
          | cons ct st =>
            rw [findTokenEnd_eq]
            rcases tokenEndLoop_err t.opts (buf.drop t.cursor) 0 t.cursor t.cursor with h | h | h <;> simp [h]
        generalize findTokenEnd t.opts t.stack buf t.cursor = r at *
        split at h
        · simp only [Step.ret.injEq] at h; rw [← h.1]; exact herr
        · simp at h
    induction n generalizing t tmp with
    | zero => simp [Tz.populateLoop]
    | succ n ih =>
      simp only [Tz.populateLoop]
      split
      · cases hs : t.step buf tmp with
        | ret e t' tok => exact hst _ _ _ _ _ hs
        | cont t' tmp' => exact ih t' tmp'
      · simp
  induction n generalizing t with
  | zero => simp [Tz.pump]
  | succ n ih =>
    simp only [Tz.pump]
    split
    · simp
    · split
      · exact ih _
      · exact key _ _ _ _

theorem nextToken_ok (t : Tz) (next : Token) (h : t.Ok) (hp : t.parsed = none) :
    NextOk t (t.nextToken next).1 (t.nextToken next).2.1 (t.nextToken next).2.2 := by
  unfold Tz.nextToken
  split
  · exact ⟨h, hp, rfl, by simp, by simp, by simp, by simp, Nat.le_refl _, by simp, by simp, by simp⟩
  · simp only [hp]
    generalize ht1 : (if t.bufs = [] then t.requestMoreData else t) = t1
    have f1 : t1.Ok ∧ t1.avail = t.avail ∧ t1.pend = t.pend ∧ t1.parsed = none ∧ t1.opts = t.opts ∧
        t1.stack = t.stack := by
      rw [← ht1]; split
      · rename_i hb
        refine ⟨ok_request t h hb, request_avail t h hb, ?_⟩
        unfold Tz.requestMoreData; split <;> simp [Tz.pend, hp]
      · exact ⟨h, rfl, rfl, hp, rfl, rfl⟩
    obtain ⟨o1, av1, pe1, pa1, op1, st1⟩ := f1
    split
    · exact ⟨o1, pa1, op1, by simp, by simp, by simp, by simp, by simp only; omega, by simp, by simp [st1], by simp⟩
    · generalize ht2 : (if t1.continueAfter = true then t1 else t1.resetForNewToken) = t2
      have f2 : t2.Ok ∧ t2.avail = t1.avail ∧ t2.pend ≤ t1.pend ∧ t2.parsed = none ∧ t2.opts = t1.opts ∧
          t2.stack = t1.stack ∧ t2.propState ≠ .foundEnd := by
        rw [← ht2]; split
        · rename_i hc
          exact ⟨o1, rfl, Nat.le_refl _, pa1, rfl, rfl, o1.pe hc⟩
        · refine ⟨ok_reset t1 o1, rfl, ?_, pa1, rfl, rfl, by simp [Tz.resetForNewToken, Tz.resetForNewValue]⟩
          unfold Tz.pend
          simp only [Tz.resetForNewToken, Tz.resetForNewValue, reduceCtorEq, or_false]
          split
          · rename_i hh; rw [if_pos (by rcases hh with h | h <;> simp [h])]; exact Nat.le_refl _
          · omega
      obtain ⟨o2, av2, pe2, pa2, op2, st2, ne2⟩ := f2
      have hpk := pump_ok t2.supply t2 o2 ne2
      have hpe := pump_err t2.supply t2
      generalize Tz.pump t2.supply t2 = r at *
      obtain ⟨e, t3, tok⟩ := r
      simp only at hpk hpe ⊢
      have o3 : Tz.Ok { t3 with continueAfter := e == .needMoreData } :=
        ⟨hpk.cur, hpk.cur0, hpk.fe, fun hc => hpk.pe (by simpa using hc), hpk.ds⟩
      cases tok with
      | none =>
        simp only
        have hne : e ≠ .noError := by
          intro he; obtain ⟨k, hk, _⟩ := hpk.ok he; simp at hk
        have hb := hpk.bad hne
        refine ⟨o3, by simp [hpk.parsed, pa2], by simp [hpk.opts, op2, op1], hpk.notub, fun he => absurd he hne,
          fun he => absurd he hne, fun he => absurd he hne, ?_, fun he => absurd he hne,
          fun _ => by simp [hpk.stack, st2, st1], fun he => absurd he hpe.1, fun he => absurd he hpe.2⟩
        have : t3.avail + t3.pend ≤ t.avail + t.pend := by omega
        simpa [Tz.avail, Tz.pend] using this
      | some tok =>
        simp only
        have hne : e = .noError := by
          by_contra he; obtain ⟨hk, _⟩ := hpk.bad he; simp at hk
        obtain ⟨k, hk, r1, r2, r3, r4⟩ := hpk.ok hne
        simp only [Option.some.injEq] at hk; subst hk
        have hfin := finish_ok { t3 with continueAfter := e == .needMoreData } tok
        generalize Tz.finish { t3 with continueAfter := e == .needMoreData } tok = f at *
        obtain ⟨ef, tf⟩ := f
        simp only at hfin ⊢
        have hb : tf.bufs = t3.bufs := by rw [hfin.same]
        have hc : tf.cursor = t3.cursor := by rw [hfin.same]
        have hd : tf.dataStart = t3.dataStart := by rw [hfin.same]
        have hps : tf.propState = t3.propState := by rw [hfin.same]
        have hts : tf.tokenState = t3.tokenState := by rw [hfin.same]
        have hca : tf.continueAfter = (e == .needMoreData) := by rw [hfin.same]
        have hin : tf.inter = t3.inter := by rw [hfin.same]
        have hpa : tf.parsed = t3.parsed := by rw [hfin.same]
        have hop : tf.opts = t3.opts := by rw [hfin.same]
        have hpn : tf.pending = t3.pending := by rw [hfin.same]
        have hav : tf.avail = t3.avail := by simp [Tz.avail, hb, hc, hpn]
        have hpd : tf.pend = t3.pend := by simp [Tz.pend, hps, hts]
        have hst3 : t3.stack = t.stack := by rw [hpk.stack, st2, st1]
        refine ⟨⟨by rw [hb, hc]; exact hpk.cur, by rw [hb, hc]; exact hpk.cur0, by rw [hps, hd, hc]; exact hpk.fe,
            ?_, by rw [hps, hts]; exact hpk.ds⟩, by rw [hpa, hpk.parsed, pa2], by rw [hop, hpk.opts, op2, op1], ?_,
            fun _ => ?_, fun _ => ?_, fun _ => by omega, by omega, fun he => ?_, fun he => ?_, fun he => ?_, fun he => ?_⟩
        · rw [hps, hca]; intro hh; exact hpk.pe (by simpa using hh)
        · intro he
          have := (hfin.bad (by simp [he])).2.2
          simp [he] at this
        · obtain ⟨b, rest, q1, q2⟩ := r1; exact ⟨b, rest, by rw [hb]; exact q1, by rw [hin]; exact q2⟩
        · obtain ⟨b, rest, q1, q2⟩ := r2; exact ⟨b, rest, by rw [hb]; exact q1, by rw [hin]; exact q2⟩
        · have := hfin.ok he; simp only [hst3] at this; exact this
        · have := (hfin.bad he).2.1; rw [this]; exact hst3
        · have := hfin.bad (by simp [he])
          have h2 := this.2.2
          simp only [he, reduceCtorEq, false_and, true_and, or_false] at h2
          refine ⟨h2, ?_⟩
          have := this.1; simp only [hst3, h2] at this; exact this
        · have := hfin.bad (by simp [he])
          have h2 := this.2.2
          simp only [he, reduceCtorEq, false_and, true_and, false_or] at h2
          refine ⟨h2, ?_⟩
          have := this.1; simp only [hst3, h2] at this; exact this

end JsonStruct
