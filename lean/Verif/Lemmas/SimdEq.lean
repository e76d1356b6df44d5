import Verif.Lemmas.Inv
import Verif.Spec.History

/- The whole tokenizer computes the same with every instruction set, as long as no
escape is carried from one buffer to the next. -/

namespace JsonStruct

/-- The same tokenizer compiled for another instruction set. -/
def Tz.simd (m : Simd) (t : Tz) : Tz := { t with opts := t.opts.withSimd m }

def PopRes.simd (m : Simd) (p : PopRes) : PopRes := { p with tz := p.tz.simd m }

def Step.simd (m : Simd) : Step → Step
  | .ret e t tok => .ret e (t.simd m) tok
  | .cont t tmp => .cont (t.simd m) tmp

theorem populateEnd_simd (m : Simd) (t : Tz) (buf : Bytes) (ptr : Nat) (ty : Ty) (h : t.isEscaped = false) :
    (t.simd m).populateEnd buf ptr ty = (t.populateEnd buf ptr ty).simd m := by
  have h1 : findStringEnd (t.simd m).opts.simd (t.simd m).isEscaped (buf.drop (t.simd m).cursor) =
      findStringEnd t.opts.simd t.isEscaped (buf.drop t.cursor) := by
    change findStringEnd m t.isEscaped (buf.drop t.cursor) = _
    rw [h, findStringEnd_eq, findStringEnd_eq]
  have h2 : findNumberEnd (t.simd m).opts.simd (buf.drop (t.simd m).cursor) =
      findNumberEnd t.opts.simd (buf.drop t.cursor) := by
    change findNumberEnd m (buf.drop t.cursor) = _
    rw [findNumberEnd_eq, findNumberEnd_eq]
  have h3 : findAsciiEnd (t.simd m).opts.simd (buf.drop (t.simd m).cursor) =
      findAsciiEnd t.opts.simd (buf.drop t.cursor) := by
    change findAsciiEnd m (buf.drop t.cursor) = _
    rw [findAsciiEnd_eq, findAsciiEnd_eq]
  unfold Tz.populateEnd
  cases ty <;> simp only [h1, h2, h3] <;> first | rfl | (split <;> rfl)

theorem populateFrom_simd (m : Simd) (t : Tz) (buf : Bytes) (ty : Ty) (h : t.isEscaped = false) :
    (t.simd m).populateFrom buf ty = (t.populateFrom buf ty).simd m := by
  unfold Tz.populateFrom
  have hf : findStart (t.simd m).opts buf t.cursor = findStart t.opts buf t.cursor := findStart_simd _ _ _ _
  have hc : (t.simd m).cursor = t.cursor := rfl
  cases hp : t.propState
  · rw [show (t.simd m).propState = .noStartFound from hp]
    simp only [hc, hf]
    generalize findStart t.opts buf t.cursor = r
    split
    · rfl
    · split
      · rfl
      · rw [← populateEnd_simd _ _ _ _ _ (by exact h)]
        rfl
  · rw [show (t.simd m).propState = .findingEnd from hp]
    simp only [hc]
    exact populateEnd_simd _ _ _ _ _ h
  · rw [show (t.simd m).propState = .foundEnd from hp]
    rfl

theorem stepName_simd (m : Simd) (t : Tz) (buf : Bytes) (tmp : Token) (h : t.isEscaped = false) :
    (t.simd m).stepName buf tmp = (t.stepName buf tmp).simd m := by
  unfold Tz.stepName
  rw [show (t.simd m).inter = t.inter from rfl, populateFrom_simd m t buf _ h]
  generalize t.populateFrom buf t.inter.nameType = p
  obtain ⟨e, ptr, sz, ty, q⟩ := p
  simp only [PopRes.simd, Tz.simd]
  by_cases h1 : e = .needMoreData
  · by_cases hh : q.propState = .noStartFound
    · simp [h1, hh, Step.simd, Tz.simd]
    · simp only [h1, hh, ne_eq, not_false_eq_true, if_true]; rfl
  · simp only [h1, if_false]
    by_cases h2 : e = .noError
    · simp only [h2, ne_eq, not_true_eq_false, if_false]
      by_cases h3 : q.inter.active = true
      · by_cases hh : (q.expecting && !q.opts.superfluousComma) = true <;>
          simp only [h3, if_true] <;>
          cases q.inter.nameType <;>
            simp only [Opts.withSimd, hh, if_true, Bool.false_eq_true, if_false] <;> rfl
      · replace h3 : q.inter.active = false := by simpa using h3
        by_cases hh : (q.expecting && !q.opts.superfluousComma) = true <;>
          simp only [h3, Bool.false_eq_true, if_false] <;>
          cases ty <;>
            simp only [Opts.withSimd, hh, if_true, Bool.false_eq_true, if_false] <;> rfl
    · simp [h2, Step.simd, Tz.simd]

theorem stepDelimiter_simd (m : Simd) (t : Tz) (buf : Bytes) (tmp : Token) :
    (t.simd m).stepDelimiter buf tmp = (t.stepDelimiter buf tmp).simd m := by
  unfold Tz.stepDelimiter
  have hf : findDelimiter (t.simd m).opts (t.simd m).stack buf (t.simd m).cursor =
    findDelimiter t.opts t.stack buf t.cursor := findDelimiter_simd _ _ _ _ _
  simp only [hf]
  generalize findDelimiter t.opts t.stack buf t.cursor = r
  split
  · rfl
  · split
    · rfl
    · simp only [Tz.resetForNewValue, Tz.simd, Opts.withSimd]
      by_cases hh : tmp.nameType ≠ Ty.string ∧ (t.opts.ascii = false ∨ tmp.nameType ≠ Ty.ascii)
      · refine (if_pos hh).trans (Eq.trans ?_ (congrArg (Step.simd m) (if_pos hh).symm)); rfl
      · refine (if_neg hh).trans (Eq.trans ?_ (congrArg (Step.simd m) (if_neg hh).symm)); rfl

theorem stepTokenEnd_simd (m : Simd) (t : Tz) (buf : Bytes) (tmp : Token) :
    (t.simd m).stepTokenEnd buf tmp = (t.stepTokenEnd buf tmp).simd m := by
  unfold Tz.stepTokenEnd
  have hf : findTokenEnd (t.simd m).opts (t.simd m).stack buf (t.simd m).cursor =
    findTokenEnd t.opts t.stack buf t.cursor := findTokenEnd_simd _ _ _ _ _
  simp only [hf]
  split <;> rfl

theorem stepData_simd (m : Simd) (t : Tz) (buf : Bytes) (tmp : Token) (h : t.isEscaped = false) :
    (t.simd m).stepData buf tmp = (t.stepData buf tmp).simd m := by
  unfold Tz.stepData
  rw [show (t.simd m).inter = t.inter from rfl, populateFrom_simd m t buf _ h]
  generalize t.populateFrom buf t.inter.dataType = p
  obtain ⟨e, ptr, sz, ty, q⟩ := p
  simp only [PopRes.simd, Tz.simd]
  by_cases h1 : e = .needMoreData
  · simp only [h1, if_true]
    rfl
  · simp only [h1, if_false]
    by_cases h2 : e = .noError
    · simp only [h2, ne_eq, not_true_eq_false, if_false]
      obtain ⟨⟨oa, ob, oc, od, oe⟩, q1, q2, q3, q4, q5, q6, q7, q8, ⟨i1, i2, i3, i4, i5, i6, i7⟩, q10, q11, q12,
        q13, q14, q15, q16⟩ := q
      cases i1 <;> cases i3 <;> simp only [Opts.withSimd, if_true, Bool.false_eq_true, if_false] <;>
        (generalize getType _ _ = gt; cases oa <;> cases gt <;> rfl)
    · simp [h2, Step.simd, Tz.simd]

theorem step_simd (m : Simd) (t : Tz) (buf : Bytes) (tmp : Token) (h : t.isEscaped = false) :
    (t.simd m).step buf tmp = (t.step buf tmp).simd m := by
  unfold Tz.step
  rw [show (t.simd m).tokenState = t.tokenState from rfl]
  split
  · exact stepName_simd m t buf tmp h
  · exact stepDelimiter_simd m t buf tmp
  · exact stepData_simd m t buf tmp h
  · exact stepTokenEnd_simd m t buf tmp

/-- A string scan leaves an escape pending only at the end of a buffer whose last byte is
a backslash. -/
theorem strEnd_pending (e : Bool) (s : Bytes) (h : (strEnd e s).2 = true) :
    (strEnd e s).1 = none ∧ (s.getLast? = some BSL ∨ (s = [] ∧ e = true)) := by
  fun_induction strEnd e s with
  | case1 e => simpa using h
  | case2 c cs ih =>
    simp only [bump] at h ⊢
    obtain ⟨h1, h2⟩ := ih h
    rcases h2 with h2 | h2
    · rw [h1]; refine ⟨rfl, Or.inl ?_⟩
      cases cs <;> simp_all [List.getLast?_cons_cons]
    · simp at h2
  | case3 cs _ ih =>
    simp only [bump] at h ⊢
    obtain ⟨h1, h2⟩ := ih h
    rw [h1]; refine ⟨rfl, Or.inl ?_⟩
    rcases h2 with h2 | h2
    · cases cs <;> simp_all [List.getLast?_cons_cons]
    · simp_all
  | case4 => simp at h
  | case5 c cs _ _ _ ih =>
    simp only [bump] at h ⊢
    obtain ⟨h1, h2⟩ := ih h
    rcases h2 with h2 | h2
    · rw [h1]; refine ⟨rfl, Or.inl ?_⟩
      cases cs <;> simp_all [List.getLast?_cons_cons]
    · simp at h2
  | case6 c cs _ ih =>
    simp only [bump] at h ⊢
    obtain ⟨h1, h2⟩ := ih h
    rcases h2 with h2 | h2
    · rw [h1]; refine ⟨rfl, Or.inl ?_⟩
      cases cs <;> simp_all [List.getLast?_cons_cons]
    · simp at h2

theorem getLast_drop (b : Bytes) (k : Nat) (c : UInt8) (h : (b.drop k).getLast? = some c) :
    b.getLast? = some c := by
  rw [List.getLast?_drop] at h
  split at h <;> simp_all

theorem populateEnd_esc (t : Tz) (buf : Bytes) (ptr : Nat) (ty : Ty) (h : t.isEscaped = false)
    (hb : buf.getLast? ≠ some BSL) : (t.populateEnd buf ptr ty).tz.isEscaped = false := by
  unfold Tz.populateEnd
  cases ty <;> simp only [h, findStringEnd_eq]
  case string =>
    have key : (strEnd false (buf.drop t.cursor)).2 = false := by
      by_contra hc
      have := strEnd_pending false (buf.drop t.cursor) (by simpa using hc)
      rcases this.2 with h2 | h2
      · exact hb (getLast_drop _ _ _ h2)
      · simp at h2
    split <;> exact key
  all_goals first | exact h | ((repeat' split) <;> first | exact h | rfl)

theorem populateFrom_esc (t : Tz) (buf : Bytes) (ty : Ty) (h : t.isEscaped = false)
    (hb : buf.getLast? ≠ some BSL) : (t.populateFrom buf ty).tz.isEscaped = false := by
  unfold Tz.populateFrom
  split
  · simp only
    split
    · exact h
    · split
      · exact h
      · exact populateEnd_esc _ _ _ _ h hb
  · exact populateEnd_esc _ _ _ _ h hb
  · exact h

def Step.tz : Step → Tz
  | .ret _ t _ => t
  | .cont t _ => t

theorem step_esc (t : Tz) (buf : Bytes) (tmp : Token) (h : t.isEscaped = false)
    (hb : buf.getLast? ≠ some BSL) : (t.step buf tmp).tz.isEscaped = false := by
  unfold Tz.step
  split
  · unfold Tz.stepName
    have hp := populateFrom_esc t buf t.inter.nameType h hb
    generalize t.populateFrom buf t.inter.nameType = p at *
    obtain ⟨e, ptr, sz, ty, q⟩ := p
    simp only at hp ⊢
    split
    · split <;> exact hp
    · split
      · exact hp
      · by_cases h3 : q.inter.active = true
        · simp only [h3, if_true]
          cases q.inter.nameType <;> simp only [Tz.resetForNewValue] <;> (repeat' split) <;> exact hp
        · replace h3 : q.inter.active = false := by simpa using h3
          simp only [h3, Bool.false_eq_true, if_false]
          cases ty <;> simp only [Tz.resetForNewValue] <;> (repeat' split) <;> exact hp
  · unfold Tz.stepDelimiter
    simp only
    split
    · exact h
    · split
      · exact h
      · split <;> exact h
  · unfold Tz.stepData
    have hp := populateFrom_esc t buf t.inter.dataType h hb
    generalize t.populateFrom buf t.inter.dataType = p at *
    obtain ⟨e, ptr, sz, ty, q⟩ := p
    simp only at hp ⊢
    split
    · exact hp
    · split
      · exact hp
      · by_cases h3 : q.inter.active = true
        · simp only [h3, if_true]
          generalize getType _ _ = gt
          split <;> exact hp
        · replace h3 : q.inter.active = false := by simpa using h3
          simp only [h3, Bool.false_eq_true, if_false]
          split <;> exact hp
  · unfold Tz.stepTokenEnd
    simp only
    split <;> exact h

theorem populateLoop_simd (n : Nat) (m : Simd) (t : Tz) (buf : Bytes) (tmp : Token) (h : t.isEscaped = false)
    (hb : buf.getLast? ≠ some BSL) :
    (Tz.populateLoop n (t.simd m) buf tmp =
      ((Tz.populateLoop n t buf tmp).1, (Tz.populateLoop n t buf tmp).2.1.simd m, (Tz.populateLoop n t buf tmp).2.2)) ∧
    (Tz.populateLoop n t buf tmp).2.1.isEscaped = false := by
  induction n generalizing t tmp with
  | zero => exact ⟨rfl, h⟩
  | succ n ih =>
    simp only [Tz.populateLoop, show (t.simd m).cursor = t.cursor from rfl]
    split
    · rw [step_simd m t buf tmp h]
      have he := step_esc t buf tmp h hb
      cases hs : t.step buf tmp with
      | ret e t' tok => rw [hs] at he; exact ⟨rfl, he⟩
      | cont t' tmp' => rw [hs] at he; exact ih t' tmp' he
    · exact ⟨rfl, h⟩

/-- No buffer held or to come ends with a backslash. -/
def Tz.noBsl (t : Tz) : Prop :=
  t.isEscaped = false ∧ (∀ b ∈ t.bufs, b.getLast? ≠ some BSL) ∧ ∀ bs ∈ t.pending, ∀ b ∈ bs, b.getLast? ≠ some BSL

theorem noBsl_request (t : Tz) (h : t.noBsl) : t.requestMoreData.noBsl := by
  obtain ⟨h1, h2, h3⟩ := h
  unfold Tz.requestMoreData
  split
  · exact ⟨h1, h2, h3⟩
  · rename_i bs rest hp
    rw [hp] at h3
    refine ⟨h1, fun b hb => ?_, fun cs hc => h3 cs (by simp [hc])⟩
    simp only [List.mem_append] at hb
    rcases hb with hb | hb
    · exact h2 b hb
    · exact h3 bs (by simp) b hb

theorem request_simd (m : Simd) (t : Tz) : (t.simd m).requestMoreData = t.requestMoreData.simd m := by
  unfold Tz.requestMoreData
  rw [show (t.simd m).pending = t.pending from rfl]
  split <;> rfl

theorem release_simd (m : Simd) (t : Tz) : (t.simd m).releaseFirst = t.releaseFirst.simd m := by
  unfold Tz.releaseFirst
  rw [show (t.simd m).bufs = t.bufs from rfl]
  split <;> rfl

theorem noBsl_release (t : Tz) (h : t.noBsl) : t.releaseFirst.noBsl := by
  obtain ⟨h1, h2, h3⟩ := h
  unfold Tz.releaseFirst
  split
  · exact ⟨h1, h2, h3⟩
  · rename_i b rest hb
    rw [hb] at h2
    exact ⟨h1, fun b' hb' => h2 b' (by simp [hb']), h3⟩

theorem populateNext_frame (t : Tz) (buf : Bytes) (h : BufOk t buf) :
    (t.populateNext buf).2.1.bufs = t.bufs ∧ (t.populateNext buf).2.1.pending = t.pending := by
  have := (populateNext_ok t buf h).1
  exact ⟨this.2.1, this.2.2.1⟩

theorem pump_simd (n : Nat) (m : Simd) (t : Tz) (h : t.noBsl) (hok : t.Ok) (hp : t.propState ≠ .foundEnd) :
    (Tz.pump n (t.simd m) = ((Tz.pump n t).1, (Tz.pump n t).2.1.simd m, (Tz.pump n t).2.2)) ∧
    (Tz.pump n t).2.1.noBsl := by
  induction n generalizing t with
  | zero => exact ⟨rfl, h⟩
  | succ n ih =>
    simp only [Tz.pump, show (t.simd m).bufs = t.bufs from rfl]
    cases hb : t.bufs with
    | nil => exact ⟨rfl, h⟩
    | cons b rest =>
      simp only
      have hbo : BufOk t b := ⟨hok.cur b rest hb, hok.fe, hp, hok.ds⟩
      have hs := populateLoop_simd 4 m t b {} h.1 (h.2.1 b (by simp [hb]))
      have hl := populateNext_ok t b hbo
      change Tz.populateNext (t.simd m) b = _ ∧ _ at hs
      rw [hs.1]
      have hs2 := hs.2
      change (t.populateNext b).2.1.isEscaped = false at hs2
      change _ ∧ _ at hl
      have hfr := populateNext_frame t b hbo
      have hnb : (t.populateNext b).2.1.noBsl := ⟨hs2, by rw [hfr.1]; exact h.2.1, by rw [hfr.2]; exact h.2.2⟩
      change _ ∧ (if (t.populateNext b).1 = .needMoreData then _ else t.populateNext b).2.1.noBsl
      change (if (t.populateNext b).1 = .needMoreData then _ else _) = ((if (t.populateNext b).1 = .needMoreData then _ else t.populateNext b).1, _) ∧ _
      simp only [show Tz.populateLoop 4 t b {} = t.populateNext b from rfl]
      generalize t.populateNext b = r at *
      obtain ⟨e, t', tok⟩ := r
      simp only at hs2 hfr hnb hl ⊢
      obtain ⟨a1, a2, a3, a4, a5, a6, a7, a8, a9⟩ := hl
      split
      · rename_i he
        rw [release_simd, request_simd]
        have h8 := a8 he
        have hok' : t'.releaseFirst.requestMoreData.Ok ∧ t'.releaseFirst.requestMoreData.propState ≠ .foundEnd := by
          simp only [Tz.releaseFirst, hfr.1, hb, Tz.requestMoreData]
          split
          · exact ⟨⟨by simp, by simp, by simp, fun _ => h8, a9⟩, h8⟩
          · exact ⟨⟨by simp, by simp, by simp, fun _ => h8, a9⟩, h8⟩
        exact ih _ (noBsl_request _ (noBsl_release _ hnb)) hok'.1 hok'.2
      · exact ⟨rfl, hnb⟩

theorem finish_simd (m : Simd) (t : Tz) (tok : Token) :
    (t.simd m).finish tok = ((t.finish tok).1, (t.finish tok).2.simd m) := by
  unfold Tz.finish
  cases tok.valueType <;> simp only [reduceCtorEq, or_false, if_false, if_true, or_true] <;>
    first | rfl | skip
  all_goals (rw [show (t.simd m).stack = t.stack from rfl]; split <;> rfl)

theorem nextToken_simd (m : Simd) (t : Tz) (next : Token) (h : t.noBsl) (hok : t.Ok) (hp : t.parsed = none) :
    ((t.simd m).nextToken next =
      ((t.nextToken next).1, (t.nextToken next).2.1.simd m, (t.nextToken next).2.2)) ∧
    (t.nextToken next).2.1.noBsl := by
  unfold Tz.nextToken
  rw [show (t.simd m).scopes = t.scopes from rfl, show (t.simd m).parsed = t.parsed from rfl]
  split
  · exact ⟨rfl, h⟩
  · simp only [hp]
    rw [show (t.simd m).bufs = t.bufs from rfl, request_simd]
    generalize ht1 : (if t.bufs = [] then t.requestMoreData else t) = t1
    have e1 : (if t.bufs = [] then t.requestMoreData.simd m else t.simd m) = t1.simd m := by
      rw [← ht1]; split <;> rfl
    rw [e1]
    have f1 : t1.noBsl ∧ t1.Ok ∧ t1.parsed = none := by
      rw [← ht1]; split
      · rename_i hb
        refine ⟨noBsl_request t h, ok_request t hok hb, ?_⟩
        unfold Tz.requestMoreData; split <;> simp [hp]
      · exact ⟨h, hok, hp⟩
    rw [show (t1.simd m).bufs = t1.bufs from rfl]
    split
    · exact ⟨rfl, f1.1⟩
    · generalize ht2 : (if t1.continueAfter = true then t1 else t1.resetForNewToken) = t2
      have e2 : (if (t1.simd m).continueAfter = true then t1.simd m else (t1.simd m).resetForNewToken) = t2.simd m := by
        rw [← ht2]; rw [show (t1.simd m).continueAfter = t1.continueAfter from rfl]; split <;> rfl
      rw [e2]
      have f2 : t2.noBsl ∧ t2.Ok ∧ t2.propState ≠ .foundEnd := by
        rw [← ht2]; split
        · rename_i hc; exact ⟨f1.1, f1.2.1, f1.2.1.pe hc⟩
        · exact ⟨f1.1, ok_reset t1 f1.2.1, by simp [Tz.resetForNewToken, Tz.resetForNewValue]⟩
      have hps := pump_simd t2.supply m t2 f2.1 f2.2.1 f2.2.2
      rw [show (t2.simd m).supply = t2.supply from rfl, hps.1]
      have hnb := hps.2
      generalize Tz.pump t2.supply t2 = r at *
      obtain ⟨e, t3, tok⟩ := r
      simp only at hnb ⊢
      cases tok with
      | none => exact ⟨rfl, hnb⟩
      | some tok =>
        simp only
        have := finish_simd m { t3 with continueAfter := e == .needMoreData } tok
        change Tz.finish { t3.simd m with continueAfter := e == .needMoreData } tok = _ at this
        rw [this]
        refine ⟨rfl, ?_⟩
        have hf := (finish_ok { t3 with continueAfter := e == .needMoreData } tok).same
        generalize Tz.finish { t3 with continueAfter := e == .needMoreData } tok = f at *
        rw [hf]
        exact hnb

/-! ### The last buffer may end with a backslash -/

theorem populateEnd_esc_found (t : Tz) (buf : Bytes) (ptr : Nat) (ty : Ty) (h : t.isEscaped = false)
    (he : (t.populateEnd buf ptr ty).err ≠ .needMoreData) : (t.populateEnd buf ptr ty).tz.isEscaped = false := by
  unfold Tz.populateEnd at *
  cases ty <;> simp only [h, findStringEnd_eq] at he ⊢
  case string =>
    have key : (strEnd false (buf.drop t.cursor)).1 ≠ none → (strEnd false (buf.drop t.cursor)).2 = false := by
      intro hn
      by_contra hc
      exact hn (strEnd_pending false (buf.drop t.cursor) (by simpa using hc)).1
    generalize hr : (strEnd false (buf.drop t.cursor)).1 = r at *
    cases r with
    | none => simp at he
    | some k => exact key (by simp)
  all_goals first | exact h | ((repeat' split) <;> first | exact h | rfl)

theorem populateFrom_esc_found (t : Tz) (buf : Bytes) (ty : Ty) (h : t.isEscaped = false)
    (he : (t.populateFrom buf ty).err ≠ .needMoreData) : (t.populateFrom buf ty).tz.isEscaped = false := by
  unfold Tz.populateFrom at *
  split at he
  · simp only at he ⊢
    split at he
    · rename_i hr; rw [if_pos hr]; exact h
    · rename_i hr; rw [if_neg hr]
      split at he
      · rename_i hb; rw [if_pos hb]; exact h
      · rename_i hb; rw [if_neg hb]; exact populateEnd_esc_found _ _ _ _ h he
  · exact populateEnd_esc_found _ _ _ _ h he
  · exact h

theorem step_esc_found (t : Tz) (buf : Bytes) (tmp : Token) (h : t.isEscaped = false) :
    (t.step buf tmp).tz.isEscaped = false ∨ ∃ t', t.step buf tmp = .ret .needMoreData t' none := by
  unfold Tz.step
  split
  · unfold Tz.stepName
    have hp := populateFrom_esc_found t buf t.inter.nameType h
    generalize t.populateFrom buf t.inter.nameType = p at *
    obtain ⟨e, ptr, sz, ty, q⟩ := p
    simp only at hp ⊢
    split
    · right; split <;> exact ⟨_, rfl⟩
    · rename_i hne
      replace hp := hp hne
      left
      split
      · exact hp
      · by_cases h3 : q.inter.active = true
        · simp only [h3, if_true]
          cases q.inter.nameType <;> simp only [Tz.resetForNewValue] <;> (repeat' split) <;> exact hp
        · replace h3 : q.inter.active = false := by simpa using h3
          simp only [h3, Bool.false_eq_true, if_false]
          cases ty <;> simp only [Tz.resetForNewValue] <;> (repeat' split) <;> exact hp
  · left
    unfold Tz.stepDelimiter
    simp only
    split
    · exact h
    · split
      · exact h
      · split <;> exact h
  · unfold Tz.stepData
    have hp := populateFrom_esc_found t buf t.inter.dataType h
    generalize t.populateFrom buf t.inter.dataType = p at *
    obtain ⟨e, ptr, sz, ty, q⟩ := p
    simp only at hp ⊢
    split
    · right; exact ⟨_, rfl⟩
    · rename_i hne
      replace hp := hp hne
      left
      split
      · exact hp
      · by_cases h3 : q.inter.active = true
        · simp only [h3, if_true]
          generalize getType _ _ = gt
          split <;> exact hp
        · replace h3 : q.inter.active = false := by simpa using h3
          simp only [h3, Bool.false_eq_true, if_false]
          split <;> exact hp
  · left
    unfold Tz.stepTokenEnd
    simp only
    split <;> exact h

theorem populateLoop_simd_any (n : Nat) (m : Simd) (t : Tz) (buf : Bytes) (tmp : Token) (h : t.isEscaped = false) :
    (Tz.populateLoop n (t.simd m) buf tmp =
      ((Tz.populateLoop n t buf tmp).1, (Tz.populateLoop n t buf tmp).2.1.simd m, (Tz.populateLoop n t buf tmp).2.2)) ∧
    ((Tz.populateLoop n t buf tmp).1 ≠ .needMoreData → (Tz.populateLoop n t buf tmp).2.1.isEscaped = false) := by
  induction n generalizing t tmp with
  | zero => exact ⟨rfl, fun _ => h⟩
  | succ n ih =>
    simp only [Tz.populateLoop, show (t.simd m).cursor = t.cursor from rfl]
    split
    · rw [step_simd m t buf tmp h]
      have he := step_esc_found t buf tmp h
      cases hs : t.step buf tmp with
      | ret e t' tok =>
        rw [hs] at he
        refine ⟨rfl, fun hne => ?_⟩
        rcases he with he | ⟨t2, he⟩
        · exact he
        · simp only [Step.ret.injEq] at he; exact absurd he.1 hne
      | cont t' tmp' =>
        rw [hs] at he
        rcases he with he | ⟨t2, he⟩
        · exact ih t' tmp' he
        · simp at he
    · exact ⟨rfl, fun _ => h⟩

/-- No buffer but the last ends with a backslash, and no more buffers come. -/
def Tz.noBsl' (t : Tz) : Prop :=
  t.isEscaped = false ∧ (∀ b ∈ t.bufs.dropLast, b.getLast? ≠ some BSL) ∧ t.pending = []

theorem pump_simd' (n : Nat) (m : Simd) (t : Tz) (h : t.noBsl') (hok : t.Ok) (hp : t.propState ≠ .foundEnd) :
    (Tz.pump n (t.simd m) = ((Tz.pump n t).1, (Tz.pump n t).2.1.simd m, (Tz.pump n t).2.2)) ∧
    ((Tz.pump n t).1 ≠ .needMoreData → (Tz.pump n t).2.1.noBsl') := by
  induction n generalizing t with
  | zero => exact ⟨rfl, fun _ => h⟩
  | succ n ih =>
    simp only [Tz.pump, show (t.simd m).bufs = t.bufs from rfl]
    cases hb : t.bufs with
    | nil => exact ⟨rfl, fun _ => h⟩
    | cons b rest =>
      simp only
      have hbo : BufOk t b := ⟨hok.cur b rest hb, hok.fe, hp, hok.ds⟩
      have hs := populateLoop_simd_any 4 m t b {} h.1
      have hl := populateNext_ok t b hbo
      have hesc := fun (hr : rest ≠ []) => populateLoop_simd 4 m t b {} h.1 (h.2.1 b (by
        rw [hb]; cases rest with
        | nil => exact absurd rfl hr
        | cons x y => simp [List.dropLast]))
      have hs1 := hs.1
      have hs2 := hs.2
      change Tz.populateNext (t.simd m) b = _ at hs1
      rw [hs1]
      clear hs hs1
      change (rest ≠ [] → _) at hesc
      replace hesc := fun hr => (hesc hr).2
      change rest ≠ [] → (t.populateNext b).2.1.isEscaped = false at hesc
      change (t.populateNext b).1 ≠ .needMoreData → (t.populateNext b).2.1.isEscaped = false at hs2
      have hfr := populateNext_frame t b hbo
      simp only [show Tz.populateLoop 4 t b {} = t.populateNext b from rfl]
      change _ ∧ _ at hl
      generalize t.populateNext b = r at *
      obtain ⟨e, t', tok⟩ := r
      simp only at hs2 hfr hesc hl ⊢
      obtain ⟨a1, a2, a3, a4, a5, a6, a7, a8, a9⟩ := hl
      split
      · rename_i he
        rw [release_simd, request_simd]
        have h8 := a8 he
        have hpn : t'.pending = [] := by rw [hfr.2, h.2.2]
        have hrel : t'.releaseFirst.requestMoreData = t'.releaseFirst := by
          simp [Tz.releaseFirst, hfr.1, hb, Tz.requestMoreData, hpn]
        rw [hrel]
        have hok' : t'.releaseFirst.Ok ∧ t'.releaseFirst.propState ≠ .foundEnd ∧ t'.releaseFirst.bufs = rest ∧
            t'.releaseFirst.pending = [] ∧ t'.releaseFirst.isEscaped = t'.isEscaped := by
          simp only [Tz.releaseFirst, hfr.1, hb]
          exact ⟨⟨by simp, by simp, by simp, fun _ => h8, a9⟩, h8, trivial, hpn, trivial⟩
        cases hr : rest with
        | nil =>
          have hnil := hok'.2.2.1
          rw [hr] at hnil
          have h1 : ∀ k, Tz.pump k t'.releaseFirst = (.needMoreData, t'.releaseFirst, none) := by
            intro k; cases k <;> simp [Tz.pump, hnil]
          have h2 : ∀ k, Tz.pump k (t'.releaseFirst.simd m) = (.needMoreData, t'.releaseFirst.simd m, none) := by
            intro k; cases k <;> simp [Tz.pump, show (t'.releaseFirst.simd m).bufs = [] from hnil]
          rw [h1, h2]
          exact ⟨rfl, by simp⟩
        | cons x y =>
          refine ih _ ⟨?_, ?_, hok'.2.2.2.1⟩ hok'.1 hok'.2.1
          · rw [hok'.2.2.2.2]; exact hesc (by simp [hr])
          · rw [hok'.2.2.1]
            intro b' hb'
            refine h.2.1 b' ?_
            rw [hb, hr]; rw [hr] at hb'
            simp only [List.dropLast, List.mem_cons]; exact Or.inr hb'
      · rename_i he
        exact ⟨rfl, fun _ => ⟨hs2 he, by rw [hfr.1]; exact h.2.1, by rw [hfr.2]; exact h.2.2⟩⟩

theorem nextToken_simd' (m : Simd) (t : Tz) (next : Token) (h : t.noBsl') (hok : t.Ok) (hp : t.parsed = none) :
    ((t.simd m).nextToken next =
      ((t.nextToken next).1, (t.nextToken next).2.1.simd m, (t.nextToken next).2.2)) ∧
    ((t.nextToken next).1 = .noError → (t.nextToken next).2.1.noBsl') := by
  unfold Tz.nextToken
  rw [show (t.simd m).scopes = t.scopes from rfl, show (t.simd m).parsed = t.parsed from rfl]
  split
  · exact ⟨rfl, fun _ => h⟩
  · simp only [hp]
    have hrq : t.requestMoreData = t := by simp [Tz.requestMoreData, h.2.2]
    rw [show (t.simd m).bufs = t.bufs from rfl, request_simd, hrq, ite_self, ite_self,
      show (t.simd m).bufs = t.bufs from rfl]
    split
    · exact ⟨rfl, fun _ => h⟩
    · generalize ht2 : (if t.continueAfter = true then t else t.resetForNewToken) = t2
      have e2 : (if (t.simd m).continueAfter = true then t.simd m else (t.simd m).resetForNewToken) = t2.simd m := by
        rw [← ht2]; rw [show (t.simd m).continueAfter = t.continueAfter from rfl]; split <;> rfl
      rw [e2]
      have f2 : t2.noBsl' ∧ t2.Ok ∧ t2.propState ≠ .foundEnd := by
        rw [← ht2]; split
        · rename_i hc; exact ⟨h, hok, hok.pe hc⟩
        · exact ⟨h, ok_reset t hok, by simp [Tz.resetForNewToken, Tz.resetForNewValue]⟩
      have hps := pump_simd' t2.supply m t2 f2.1 f2.2.1 f2.2.2
      rw [show (t2.simd m).supply = t2.supply from rfl, hps.1]
      have hnb := hps.2
      have hpk := pump_ok t2.supply t2 f2.2.1 f2.2.2
      generalize Tz.pump t2.supply t2 = r at *
      obtain ⟨e, t3, tok⟩ := r
      simp only at hnb hpk ⊢
      cases tok with
      | none =>
        refine ⟨rfl, fun he => ?_⟩
        obtain ⟨k, hk, _⟩ := hpk.ok he
        simp at hk
      | some tok =>
        simp only
        have hne : e = .noError := by
          by_contra he; obtain ⟨hk, _⟩ := hpk.bad he; simp at hk
        have := finish_simd m { t3 with continueAfter := e == .needMoreData } tok
        change Tz.finish { t3.simd m with continueAfter := e == .needMoreData } tok = _ at this
        rw [this]
        refine ⟨rfl, fun _ => ?_⟩
        have hf := (finish_ok { t3 with continueAfter := e == .needMoreData } tok).same
        generalize Tz.finish { t3 with continueAfter := e == .needMoreData } tok = f at *
        rw [hf]
        exact hnb (by simp [hne])

end JsonStruct
