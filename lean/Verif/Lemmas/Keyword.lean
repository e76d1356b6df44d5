import Verif.Lemmas.Inv
import Verif.Spec.History

/- Keywords: which types a delivered token may have, over arbitrary histories. -/

set_option linter.unusedSimpArgs false

namespace JsonStruct

/-- The type fits the text as far as keywords are concerned. -/
def KeyOk (ty : Ty) (b : Bytes) : Prop :=
  (ty = .bool → b = b!"true" ∨ b = b!"false") ∧ (ty = .null → b = b!"null") ∧
  (ty = .ascii → b ≠ b!"true" ∧ b ≠ b!"false" ∧ b ≠ b!"null")

def RawTy (ty : Ty) : Prop := ty ≠ .bool ∧ ty ≠ .null

theorem getType_key (ty : Ty) (b : Bytes) (h : RawTy ty) : KeyOk (getType ty b) b := by
  unfold getType KeyOk
  by_cases hty : ty = .ascii
  · subst hty
    simp only [ne_eq, not_true, if_false]
    by_cases h4 : b.length = 4
    · rw [if_pos h4]
      have ht : b.take 4 = b := List.take_of_length_le (by omega)
      rw [ht]
      split
      · rename_i he; simp [he]
      · split
        · rename_i he; simp [he]
        · rename_i h1 h2
          refine ⟨by simp, by simp, fun _ => ⟨h2, ?_, h1⟩⟩
          rintro rfl; simp at h4
    · rw [if_neg h4]
      by_cases h5 : b.length = 5
      · rw [if_pos h5]
        match b, h5 with
        | [x0, x1, x2, x3, x4], _ =>
          simp only [List.take_succ_cons, List.take_zero, List.getD_cons_succ, List.getD_cons_zero, List.cons.injEq, and_true]
          split
          · rename_i he; simp [he]
          · rename_i he
            refine ⟨by simp, by simp, fun _ => ⟨by simp, ?_, by simp⟩⟩
            intro hh; exact he (by simp_all)
      · rw [if_neg h5]
        refine ⟨by simp, by simp, fun _ => ⟨fun hb => ?_, fun hb => ?_, fun hb => ?_⟩⟩
        · exact h4 (by rw [hb]; rfl)
        · exact h5 (by rw [hb]; rfl)
        · exact h4 (by rw [hb]; rfl)
  · rw [if_pos hty]
    exact ⟨fun h' => absurd h' h.1, fun h' => absurd h' h.2, fun h' => absurd h' hty⟩

/-- What the types saved in the intermediate token may be. -/
structure KeyInv (t : Tz) : Prop where
  data : RawTy t.inter.dataType
  inactive : t.inter.active = false → RawTy t.inter.nameType
  name : t.tokenState = .findingName ∨ t.tokenState = .findingTokenEnd → RawTy t.inter.nameType

theorem populateEnd_key (t : Tz) (buf : Bytes) (p : Nat) (ty : Ty) :
    (t.populateEnd buf p ty).type = ty ∧ (t.populateEnd buf p ty).tz.inter = t.inter ∧
    (t.populateEnd buf p ty).tz.tokenState = t.tokenState := by
  unfold Tz.populateEnd
  cases ty <;> simp only <;> (try split) <;> simp

theorem populateFrom_key (t : Tz) (buf : Bytes) (ty : Ty) (h : RawTy ty) :
    RawTy (t.populateFrom buf ty).type ∧ (t.populateFrom buf ty).tz.inter = t.inter ∧
    (t.populateFrom buf ty).tz.tokenState = t.tokenState := by
  unfold Tz.populateFrom
  split
  · simp only
    rw [findStart_eq]
    have hs := startLoop_ty t.opts (buf.drop t.cursor) 0 t.cursor t.cursor
    generalize startLoop t.opts (buf.drop t.cursor) 0 t.cursor t.cursor = r at *
    split
    · simp [RawTy]
    · rename_i he
      have he : r.err = .noError := by simpa using he
      have hr : RawTy r.type := by
        rcases hs he with h | h | h | h
        · unfold RawTy; cases hr : r.type <;> simp_all [Ty.isBracket]
        all_goals simp [RawTy, h]
      split
      · simp [hr]
      · have := populateEnd_key
          { t with cursor := r.cursor + r.ahead + 1, dataStart := if r.type = .string then r.cursor + r.ahead + 1 else r.cursor + r.ahead,
                   propType := r.type, propState := .findingEnd } buf
          (if r.type = .string then r.cursor + r.ahead + 1 else r.cursor + r.ahead) r.type
        rw [this.1]; exact ⟨hr, this.2⟩
  · have := populateEnd_key t buf t.cursor ty
    rw [this.1]; exact ⟨h, this.2⟩
  · exact ⟨h, rfl, rfl⟩

/-- What one step guarantees. -/
def StepKey : Step → Prop
  | .ret e t tok => (e = .needMoreData → KeyInv t) ∧ (∀ k, tok = some k → KeyOk k.valueType k.value.bytes) ∧
      RawTy t.inter.dataType ∧ (t.inter.active = false → RawTy t.inter.nameType)
  | .cont t tmp => KeyInv t ∧ KeyOk tmp.nameType tmp.name.bytes

theorem rawError : RawTy .error := by simp [RawTy]

theorem keyOk_of_ne {ty : Ty} {b : Bytes} (h1 : ty ≠ .bool) (h2 : ty ≠ .null) (h3 : ty ≠ .ascii) : KeyOk ty b :=
  ⟨fun h => absurd h h1, fun h => absurd h h2, fun h => absurd h h3⟩

theorem stepName_key (t : Tz) (buf : Bytes) (tmp : Token) (h : KeyInv t) (hs : t.tokenState = .findingName) :
    StepKey (t.stepName buf tmp) := by
  have hn := h.name (.inl hs)
  simp only [Tz.stepName]
  obtain ⟨h1, h2, h3⟩ := populateFrom_key t buf t.inter.nameType hn
  generalize t.populateFrom buf t.inter.nameType = p at *
  split
  · split
    · simp only [StepKey]
      by_cases hns : p.tz.inter.nameTypeSet = true
      · simp only [hns, if_true]
        refine ⟨fun _ => ⟨by simpa [h2] using h.data, by simp, fun _ => by simpa [h2] using hn⟩, by simp, by simpa [h2] using h.data, by simp⟩
      · simp only [hns, if_false, Bool.false_eq_true]
        exact ⟨fun _ => ⟨by simpa [h2] using h.data, by simp, fun _ => h1⟩, by simp, by simpa [h2] using h.data, by simp⟩
    · exact ⟨fun _ => ⟨by rw [h2]; exact h.data, by rw [h2]; exact fun _ => hn, by rw [h2]; exact fun _ => hn⟩, by simp,
        by rw [h2]; exact h.data, by rw [h2]; exact fun _ => hn⟩
  · split
    · rename_i hne _
      exact ⟨fun he => absurd he hne, by simp, by rw [h2]; exact h.data, by rw [h2]; exact fun _ => hn⟩
    · generalize hq : (if p.tz.inter.active = true then _ else p.tz : Tz) = q
      have hqi : q.inter.dataType = t.inter.dataType ∧ q.inter.nameType = t.inter.nameType ∧ q.inter.active = t.inter.active := by
        rw [← hq]; split <;> simp [h2]
      have hty : RawTy (if q.inter.active = true then q.inter.nameType else p.type) := by
        split
        · rw [hqi.2.1]; exact hn
        · exact h1
      have hd : RawTy q.inter.dataType := by rw [hqi.1]; exact h.data
      have hnn : RawTy q.inter.nameType := by rw [hqi.2.1]; exact hn
      generalize (if q.inter.active = true then q.inter.nameType else p.type) = ty at *
      cases hh : ty
      case objectEnd | arrayEnd =>
        simp only
        split
        · exact ⟨by simp, by simp, hd, fun _ => hnn⟩
        · exact ⟨by simp, by rintro k ⟨rfl⟩; exact keyOk_of_ne (by simp [anonymous]) (by simp [anonymous]) (by simp [anonymous]), hd, fun _ => hnn⟩
      case objectStart | arrayStart =>
        exact ⟨by simp, by rintro k ⟨rfl⟩; exact keyOk_of_ne (by simp [anonymous]) (by simp [anonymous]) (by simp [anonymous]), hd, fun _ => hnn⟩
      all_goals
        simp only [StepKey, Tz.resetForNewValue]
        refine ⟨⟨hd, fun _ => hnn, by simp⟩, ?_⟩
        rw [hh] at hty
        exact getType_key _ _ hty

theorem saveName_key (i : Inter) (tmp : Token) : (i.saveName tmp).dataType = i.dataType ∧ (i.saveName tmp).active = true := by
  unfold Inter.saveName; split <;> simp_all

theorem findDelimiter_state' (o : Opts) (st : List Ty) (buf : Bytes) (cur : Nat) :
    (findDelimiter o st buf cur).err = .noError →
    (findDelimiter o st buf cur).state = .findingName ∨ (findDelimiter o st buf cur).state = .findingData := by
  exact findDelimiter_state o st buf cur

theorem stepDelimiter_key (t : Tz) (buf : Bytes) (tmp : Token) (h : KeyInv t) (hs : t.tokenState = .findingDelimiter)
    (ht : KeyOk tmp.nameType tmp.name.bytes) : StepKey (t.stepDelimiter buf tmp) := by
  simp only [Tz.stepDelimiter]
  have hst := findDelimiter_state' t.opts t.stack buf t.cursor
  generalize findDelimiter t.opts t.stack buf t.cursor = r at *
  have hsk := saveName_key t.inter tmp
  split
  · exact ⟨fun _ => ⟨by simpa [hsk.1] using h.data, by simp [hsk.2], by simp [hs]⟩, by simp, by simpa [hsk.1] using h.data, by simp [hsk.2]⟩
  · rename_i he
    split
    · exact ⟨by simp, by rintro k ⟨rfl⟩; exact ht, h.data, h.inactive⟩
    · rename_i hne
      split
      · exact ⟨by simp, by simp, h.data, h.inactive⟩
      · refine ⟨⟨h.data, h.inactive, ?_⟩, ht⟩
        have := hst (by simpa using he)
        simp only [hne, false_or] at this
        simp [Tz.resetForNewValue, this]

theorem stepTokenEnd_key (t : Tz) (buf : Bytes) (tmp : Token) (h : KeyInv t) (hs : t.tokenState = .findingTokenEnd)
    (ht : KeyOk tmp.nameType tmp.name.bytes) : StepKey (t.stepTokenEnd buf tmp) := by
  have hn := h.name (.inr hs)
  simp only [Tz.stepTokenEnd]
  generalize findTokenEnd t.opts t.stack buf t.cursor = r at *
  split
  · exact ⟨fun _ => ⟨h.data, h.inactive, fun _ => hn⟩, by simp, h.data, h.inactive⟩
  · exact ⟨⟨h.data, h.inactive, fun _ => hn⟩, ht⟩

theorem stepData_key (t : Tz) (buf : Bytes) (tmp : Token) (h : KeyInv t) (hs : t.tokenState = .findingData) :
    StepKey (t.stepData buf tmp) := by
  simp only [Tz.stepData]
  obtain ⟨h1, h2, h3⟩ := populateFrom_key t buf t.inter.dataType h.data
  generalize t.populateFrom buf t.inter.dataType = p at *
  have hsk := saveName_key p.tz.inter tmp
  have hpd : RawTy p.tz.inter.dataType := by rw [h2]; exact h.data
  have hpi : p.tz.inter.active = false → RawTy p.tz.inter.nameType := by rw [h2]; exact h.inactive
  split
  · generalize hi : (if p.tz.propState ≠ .noStartFound then _ else p.tz.inter.saveName tmp : Inter) = i
    have hii : RawTy i.dataType ∧ i.active = true := by
      rw [← hi]
      split
      · split
        · simp [hsk, hpd]
        · simp [hsk, h1]
      · simp [hsk, hpd]
    exact ⟨fun _ => ⟨hii.1, by simp [hii.2], by simp [h3, hs]⟩, by simp, hii.1, by simp [hii.2]⟩
  · split
    · rename_i hne _
      exact ⟨fun he => absurd he hne, by simp, hpd, hpi⟩
    · generalize hq : (if p.tz.inter.active = true then _ else p.tz : Tz) = q
      have hqi : RawTy q.inter.dataType ∧ (q.inter.active = false → RawTy q.inter.nameType) := by
        rw [← hq]
        split
        · rename_i ha
          simp only
          split
          · exact ⟨hpd, by simp [ha]⟩
          · exact ⟨h1, by simp [ha]⟩
        · exact ⟨hpd, hpi⟩
      have hty : RawTy (if q.inter.active = true then q.inter.dataType else p.type) := by
        split
        · exact hqi.1
        · exact h1
      generalize (if q.inter.active = true then q.inter.dataType else p.type) = ty at *
      generalize (if q.inter.active = true then ({ loc := .own, bytes := q.inter.data } : DataRef) else _) = d
      have hk := getType_key ty d.bytes hty
      generalize getType ty d.bytes = gt at *
      by_cases hc : gt = .ascii ∧ q.opts.ascii = false
      · rw [if_pos hc]; exact ⟨by simp, by simp, hqi⟩
      · rw [if_neg hc]
        exact ⟨by simp, by rintro k ⟨rfl⟩; exact hk, hqi⟩

theorem step_key (t : Tz) (buf : Bytes) (tmp : Token) (h : KeyInv t) (ht : KeyOk tmp.nameType tmp.name.bytes) :
    StepKey (t.step buf tmp) := by
  unfold Tz.step
  split
  · rename_i hs; exact stepName_key t buf tmp h hs
  · rename_i hs; exact stepDelimiter_key t buf tmp h hs ht
  · rename_i hs; exact stepData_key t buf tmp h hs
  · rename_i hs; exact stepTokenEnd_key t buf tmp h hs ht

theorem populateLoop_key (n : Nat) (t : Tz) (buf : Bytes) (tmp : Token) (h : KeyInv t) (ht : KeyOk tmp.nameType tmp.name.bytes) :
    StepKey (.ret (Tz.populateLoop n t buf tmp).1 (Tz.populateLoop n t buf tmp).2.1 (Tz.populateLoop n t buf tmp).2.2) := by
  induction n generalizing t tmp with
  | zero => exact ⟨fun _ => h, by simp [Tz.populateLoop], h.data, h.inactive⟩
  | succ n ih =>
    simp only [Tz.populateLoop]
    split
    · have := step_key t buf tmp h ht
      cases hs : t.step buf tmp with
      | ret e t' tok => rw [hs] at this; exact this
      | cont t' tmp' => rw [hs] at this; exact ih t' tmp' this.1 this.2
    · exact ⟨fun _ => h, by simp, h.data, h.inactive⟩

theorem keyInv_release (t : Tz) (h : KeyInv t) : KeyInv t.releaseFirst.requestMoreData := by
  have h1 : KeyInv t.releaseFirst := by
    unfold Tz.releaseFirst; split
    · exact h
    · exact ⟨h.data, h.inactive, h.name⟩
  unfold Tz.requestMoreData; split
  · exact h1
  · exact ⟨h1.data, h1.inactive, h1.name⟩

theorem pump_key (n : Nat) (t : Tz) (h : KeyInv t) :
    StepKey (.ret (Tz.pump n t).1 (Tz.pump n t).2.1 (Tz.pump n t).2.2) := by
  induction n generalizing t with
  | zero => exact ⟨fun _ => h, by simp [Tz.pump], h.data, h.inactive⟩
  | succ n ih =>
    simp only [Tz.pump]
    split
    · exact ⟨fun _ => h, by simp, h.data, h.inactive⟩
    · rename_i b _ _
      have := populateLoop_key 4 t b {} h (keyOk_of_ne (by simp) (by simp) (by simp))
      unfold Tz.populateNext
      generalize Tz.populateLoop 4 t b {} = r at *
      split
      · rename_i he; exact ih _ (keyInv_release _ (this.1 he))
      · exact this

/-- The invariant between calls. -/
structure KeyWorld (t : Tz) : Prop where
  data : RawTy t.inter.dataType
  inactive : t.inter.active = false → RawTy t.inter.nameType
  name : t.continueAfter = true → t.tokenState = .findingName ∨ t.tokenState = .findingTokenEnd → RawTy t.inter.nameType
  parsed : t.parsed = none

theorem clear_key (i : Inter) (h : RawTy i.dataType) (h' : i.active = false → RawTy i.nameType) :
    RawTy i.clear.dataType ∧ RawTy i.clear.nameType := by
  unfold Inter.clear; split
  · simp [RawTy]
  · rename_i hh; exact ⟨h, h' (by simpa using hh)⟩

theorem nextToken_key (t : Tz) (next : Token) (h : KeyWorld t) (hok : t.Ok) :
    KeyWorld (t.nextToken next).2.1 ∧
    ((t.nextToken next).1 = .noError → KeyOk (t.nextToken next).2.2.valueType (t.nextToken next).2.2.value.bytes) := by
  have hpar := (nextToken_ok t next hok h.parsed).parsed
  revert hpar
  unfold Tz.nextToken
  split
  · intro _; exact ⟨h, by simp⟩
  · simp only [h.parsed]
    generalize ht1 : (if t.bufs = [] then t.requestMoreData else t) = t1
    have o1 : t1.Ok := by
      rw [← ht1]; split
      · rename_i hb; exact ok_request t hok hb
      · exact hok
    have h1 : KeyWorld t1 := by
      rw [← ht1]; split
      · unfold Tz.requestMoreData; split
        · exact h
        · exact ⟨h.data, h.inactive, h.name, h.parsed⟩
      · exact h
    split
    · intro _; exact ⟨h1, by simp⟩
    · generalize ht2 : (if t1.continueAfter = true then t1 else t1.resetForNewToken) = t2
      have h2 : KeyInv t2 := by
        rw [← ht2]; split
        · rename_i hc; exact ⟨h1.data, h1.inactive, h1.name hc⟩
        · have := clear_key t1.inter h1.data h1.inactive
          exact ⟨this.1, fun _ => this.2, fun _ => this.2⟩
      have o2 : t2.Ok ∧ t2.propState ≠ .foundEnd := by
        rw [← ht2]; split
        · rename_i hc; exact ⟨o1, o1.pe hc⟩
        · exact ⟨ok_reset t1 o1, by simp [Tz.resetForNewToken, Tz.resetForNewValue]⟩
      have hp := pump_key t2.supply t2 h2
      have hsome := (pump_ok t2.supply t2 o2.1 o2.2).ok
      generalize Tz.pump t2.supply t2 = r at *
      obtain ⟨e, t3, tok⟩ := r
      simp only at hp ⊢
      intro hpar
      obtain ⟨p1, p2, p3, p4⟩ := hp
      cases tok with
      | none =>
        simp only at hpar ⊢
        refine ⟨⟨p3, p4, ?_, hpar⟩, ?_⟩
        · intro hc
          have he : e = .needMoreData := by simpa using hc
          exact (p1 he).name
        · intro he
          obtain ⟨k, hk, _⟩ := hsome he; simp at hk
      | some tok =>
        simp only at hpar ⊢
        have hf : ∀ t : Tz, (t.finish tok).2.inter = t.inter ∧ (t.finish tok).2.continueAfter = t.continueAfter ∧
            (t.finish tok).2.tokenState = t.tokenState := by
          intro t
          unfold Tz.finish
          split <;> simp only <;> split <;> (try split) <;> (try split) <;> simp
        have := hf { t3 with continueAfter := e == .needMoreData }
        refine ⟨⟨?_, ?_, ?_, hpar⟩, fun _ => p2 tok rfl⟩
        · rw [this.1]; exact p3
        · rw [this.1]; exact p4
        · rw [this.1, this.2.1, this.2.2]
          intro hc
          have he : e = .needMoreData := by simpa using hc
          exact (p1 he).name

end JsonStruct
