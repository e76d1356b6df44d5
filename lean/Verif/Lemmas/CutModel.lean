import Verif.Lemmas.Cut

/- The tokenizer, from a buffer to the next one, computes the machine of `Lemmas/Cut`. -/

namespace JsonStruct

set_option linter.unusedSimpArgs false

/-! ### One name or value -/

/-- What reading a value in one buffer gives. -/
inductive Part
  | nothing
  | more (ty : Ty) (add : Bytes) (esc : Bool)
  | err (e : Err)
  | ok (ty : Ty) (d r : Bytes)

/-- Reading a value: from its start, or from inside (with its type and the escape flag). -/
def lPart (o : Opts) (mid : Option (Ty × Bool)) (s : Bytes) : Part :=
  match mid with
  | none =>
    match lStart o s 0 with
    | .error .needMoreData => .nothing
    | .error e => .err e
    | .ok (ty, r) =>
      if ty.isBracket then .ok ty (r.take 1) r.tail
      else match valEnd ty false r.tail with
        | .inr e => .more ty (lead ty r ++ r.tail) e
        | .inl (k, j) => .ok ty (lead ty r ++ r.tail.take k) (r.tail.drop j)
  | some (ty, esc) =>
    match valEnd ty esc s with
    | .inr e => .more ty s e
    | .inl (k, j) => .ok ty (s.take k) (s.drop j)

def Ty.isLong (ty : Ty) : Prop := ty = .string ∨ ty = .number ∨ ty = .ascii

/-- Being inside a value. -/
def Inside (t : Tz) (ty0 : Ty) : Option (Ty × Bool) → Prop
  | none => t.propState = .noStartFound ∧ t.isEscaped = false
  | some (ty, esc) => t.propState = .findingEnd ∧ t.isEscaped = esc ∧ ty0 = ty ∧ ty.isLong ∧
      (ty ≠ .string → esc = false) ∧ (esc = false ∨ t.opts.simd = .scalar) ∧ t.cursor = 0 ∧ t.dataStart = 0

/-- Outcome of `populateFrom`. -/
def PartRes (t : Tz) (buf : Bytes) (p : PopRes) : Part → Prop
  | .nothing => p.err = .needMoreData ∧ ∃ c, p.tz = { t with cursor := c }
  | .more ty add e => p.err = .needMoreData ∧ p.type = ty ∧ ty.isLong ∧ (ty ≠ .string → e = false) ∧
      untilNul buf p.ptr (buf.length - p.tz.dataStart) = add ∧
      ∃ c ds pt, p.tz = { t with cursor := c, dataStart := ds, propType := pt, propState := .findingEnd, isEscaped := e }
  | .err e => p.err = e ∧ e ≠ .noError ∧ e ≠ .needMoreData
  | .ok ty d r => p.err = .noError ∧ p.type = ty ∧ slice buf p.ptr p.size = d ∧ buf.drop p.tz.cursor = r ∧
      p.tz.cursor ≤ buf.length ∧
      ∃ c ds pt, p.tz = { t with cursor := c, dataStart := ds, propType := pt, propState := .foundEnd, isEscaped := false }

theorem strEnd_found {e : Bool} {s : Bytes} (h : (strEnd e s).1 ≠ none) : (strEnd e s).2 = false := by
  fun_induction strEnd e s with
  | case1 => simp at h
  | case2 _ _ ih => simp only [bump] at h ⊢; exact ih (by simpa using h)
  | case3 _ _ ih => simp only [bump] at h ⊢; exact ih (by simpa using h)
  | case4 => simp
  | case5 _ _ _ _ _ ih => simp only [bump] at h ⊢; exact ih (by simpa using h)
  | case6 _ _ _ ih => simp only [bump] at h ⊢; exact ih (by simpa using h)

theorem findStringEnd_eq' (m : Simd) (e : Bool) (s : Bytes) (h : e = false ∨ m = .scalar) :
    findStringEnd m e s = strEnd e s := by
  rcases h with rfl | rfl
  · exact findStringEnd_eq m s
  · rfl

theorem populateEnd_s (t : Tz) (buf : Bytes) (ptr : Nat) (ty : Ty) (hty : ty.isLong) (hns : ty ≠ .string → t.isEscaped = false)
    (hsi : t.isEscaped = false ∨ t.opts.simd = .scalar) (hc : t.cursor ≤ buf.length) (hds : t.dataStart ≤ t.cursor) :
    match valEnd ty t.isEscaped (buf.drop t.cursor) with
    | .inr e => t.populateEnd buf ptr ty = ⟨.needMoreData, ptr, 0, ty, { t with isEscaped := e }⟩ ∧ (ty ≠ .string → e = false)
    | .inl (k, j) => t.populateEnd buf ptr ty = ⟨.noError, ptr, t.cursor - t.dataStart + k, ty,
        { t with isEscaped := false, cursor := t.cursor + j, propState := .foundEnd }⟩ ∧ t.cursor + j ≤ buf.length := by
  rcases hty with rfl | rfl | rfl
  · simp only [valEnd, Tz.populateEnd, findStringEnd_eq' _ _ _ hsi]
    have h1 := strEnd_le t.isEscaped (buf.drop t.cursor)
    have h2 := @strEnd_found t.isEscaped (buf.drop t.cursor)
    generalize strEnd t.isEscaped (buf.drop t.cursor) = y at *
    rcases y with ⟨_ | k, e⟩
    · exact ⟨rfl, by simp⟩
    · have h1 := h1 k rfl
      have h2 : e = false := h2 (by simp)
      subst h2
      have hl : (buf.drop t.cursor).length = buf.length - t.cursor := List.length_drop
      refine ⟨?_, by omega⟩
      simp only [PopRes.mk.injEq, true_and, and_true]
      omega
  · have hne := hns (by simp)
    simp only [valEnd, Tz.populateEnd, findNumberEnd_eq]
    cases hse : numberEnd (buf.drop t.cursor) with
    | more => exact ⟨by rw [← hne], by simp⟩
    | found k =>
      have hk := numberEnd_le _ _ hse
      rw [List.length_drop] at hk
      refine ⟨?_, by omega⟩
      simp only [PopRes.mk.injEq, true_and, and_true, ← hne]
      omega
  · have hne := hns (by simp)
    simp only [valEnd, Tz.populateEnd, findAsciiEnd_eq]
    cases hse : asciiEnd (buf.drop t.cursor) with
    | more => exact ⟨by rw [← hne], by simp⟩
    | found k =>
      have hk := asciiEnd_le _ _ hse
      rw [List.length_drop] at hk
      refine ⟨?_, by omega⟩
      simp only [PopRes.mk.injEq, true_and, and_true, ← hne]
      omega

theorem untilNul_all {buf : Bytes} {q : Nat} (h0 : 0 ∉ buf) : untilNul buf q (buf.length - q) = buf.drop q := by
  unfold untilNul slice
  rw [List.take_of_length_le (by simp)]
  have h : 0 ∉ buf.drop q := drop_no_nul h0
  generalize buf.drop q = s at h
  induction s with
  | nil => rfl
  | cons c s ih =>
    rw [List.mem_cons, not_or] at h
    rw [List.takeWhile_cons_of_pos (by simpa using Ne.symm h.1), ih h.2]

theorem populateFrom_s (t : Tz) (buf : Bytes) (ty0 : Ty) (mid : Option (Ty × Bool)) (h0 : 0 ∉ buf) (hc : t.cursor ≤ buf.length)
    (hin : Inside t ty0 mid) : PartRes t buf (t.populateFrom buf ty0) (lPart t.opts mid (buf.drop t.cursor)) := by
  cases mid with
  | none =>
    obtain ⟨hp, he⟩ := hin
    have hs := findStart_light t.opts buf t.cursor
    simp only [lPart]
    rcases hl : lStart t.opts (buf.drop t.cursor) 0 with e | ⟨ty, r⟩
    · rw [hl] at hs
      simp only at hs
      have hpf : t.populateFrom buf ty0 = ⟨e, t.cursor, 0, .error, { t with cursor := (findStart t.opts buf t.cursor).cursor }⟩ := by
        simp only [Tz.populateFrom, hp]
        rw [if_pos (by rw [hs.1]; exact hs.2), hs.1]
      rw [hpf]
      by_cases hm : e = .needMoreData
      · subst hm; exact ⟨rfl, _, rfl⟩
      · cases e <;> first | exact absurd rfl hm | exact ⟨rfl, hs.2, hm⟩
    · obtain ⟨-, hlong⟩ := lStart_ok hl
      rw [hl] at hs
      simp only at hs
      obtain ⟨h1, h2, h3, h4⟩ := hs
      simp only [Tz.populateFrom, hp, h1, ne_eq, not_true_eq_false, if_false, h2]
      generalize (findStart t.opts buf t.cursor).cursor + (findStart t.opts buf t.cursor).ahead = q at *
      have hq : q < buf.length := by
        by_contra hh
        rw [List.drop_eq_nil_of_le (by omega)] at h4
        exact h3 h4
      have htl : r.tail = buf.drop (q + 1) := by rw [h4, List.tail_drop]
      by_cases hb : ty.isBracket = true
      · have hne : ty ≠ .string := by rintro rfl; simp [Ty.isBracket] at hb
        simp only [hb, if_true, hne, if_false]
        refine ⟨rfl, rfl, ?_, htl.symm, by simp; omega, q + 1, q, ty, by rw [← he]⟩
        rw [h4]; rfl
      · have hlong : ty.isLong := by
          rcases hlong with h | h
          · exact absurd h hb
          · exact h
        simp only [hb, if_false, Bool.false_eq_true]
        have hpe := populateEnd_s { t with cursor := q + 1, dataStart := if ty = Ty.string then q + 1 else q, propType := ty, propState := .findingEnd }
          buf (if ty = Ty.string then q + 1 else q) ty hlong (fun _ => he) (.inl he) (by simp; omega) (by simp only; split <;> omega)
        simp only [← htl] at hpe
        rw [show valEnd ty t.isEscaped r.tail = valEnd ty false r.tail by rw [he]] at hpe
        have hlead : lead ty r ++ r.tail = buf.drop (if ty = Ty.string then q + 1 else q) := by
          unfold lead
          split
          · rw [htl]; rfl
          · rw [← h4]
            obtain ⟨c, r', rfl⟩ := List.exists_cons_of_ne_nil h3
            rfl
        rcases hv : valEnd ty false r.tail with ⟨k, j⟩ | e
        · rw [hv] at hpe
          obtain ⟨h5, h6⟩ := hpe
          rw [h5]
          refine ⟨rfl, rfl, ?_, ?_, h6, _, _, _, rfl⟩
          · simp only [slice]
            rw [← hlead]
            unfold lead
            split
            · simp
            · obtain ⟨c, r', rfl⟩ := List.exists_cons_of_ne_nil h3
              simp [Nat.add_comm 1 k]
          · simp only; rw [htl, List.drop_drop]
        · rw [hv] at hpe
          obtain ⟨h5, h6⟩ := hpe
          rw [h5]
          refine ⟨rfl, rfl, hlong, h6, ?_, _, _, _, rfl⟩
          simp only [untilNul_all h0]
          exact hlead.symm
  | some y =>
    obtain ⟨ty, esc⟩ := y
    obtain ⟨h1, h2, h3, h4, h5, h6, h7, h8⟩ := hin
    subst h3 h2
    simp only [lPart, Tz.populateFrom, h1]
    have hpe := populateEnd_s t buf t.cursor ty0 h4 h5 h6 hc (by omega)
    rcases hv : valEnd ty0 t.isEscaped (buf.drop t.cursor) with ⟨k, j⟩ | e
    · rw [hv] at hpe
      obtain ⟨g1, g2⟩ := hpe
      rw [g1]
      refine ⟨rfl, rfl, ?_, ?_, g2, _, _, _, rfl⟩
      · simp [slice, h7, h8]
      · simp [List.drop_drop]
    · rw [hv] at hpe
      obtain ⟨g1, g2⟩ := hpe
      rw [g1]
      refine ⟨rfl, rfl, h4, g2, ?_, t.cursor, t.dataStart, t.propType, by rw [← h1]⟩
      simp only [h7, h8]
      exact untilNul_all h0

/-! ### The states between two buffers -/

/-- The name is in the intermediate token, no part of the value is. -/
def Inter.holds (i : Inter) (nm : Bytes) (nty : Ty) : Prop :=
  i.active = true ∧ i.name = nm ∧ i.nameType = nty ∧ i.data = [] ∧ i.dataTypeSet = false

def LX.of (x : LX) (t : Tz) : Prop := t.expecting = x.exp ∧ t.stack = x.stack

/-- The state of the tokenizer at the end of a buffer. -/
def Susp.Corr (t : Tz) : Susp → Prop
  | .tokEnd x => x.of t ∧ t.tokenState = .findingTokenEnd ∧ t.propState = .noStartFound ∧ t.inter = {} ∧ t.isEscaped = false
  | .name x => x.of t ∧ t.tokenState = .findingName ∧ t.propState = .noStartFound ∧ t.inter = {} ∧ t.isEscaped = false
  | .inName x ty acc esc => x.of t ∧ t.tokenState = .findingName ∧ t.propState = .findingEnd ∧ t.isEscaped = esc ∧
      ty.isLong ∧ (ty ≠ .string → esc = false) ∧
      t.inter = { active := true, nameTypeSet := true, nameType := ty, name := acc }
  | .delim x nm nty _ => x.of t ∧ t.tokenState = .findingDelimiter ∧ t.isEscaped = false ∧ t.inter.holds nm nty
  | .data x nm nty _ => x.of t ∧ t.tokenState = .findingData ∧ t.propState = .noStartFound ∧ t.isEscaped = false ∧ t.inter.holds nm nty
  | .inData x nm nty ty acc esc => x.of t ∧ t.tokenState = .findingData ∧ t.propState = .findingEnd ∧ t.isEscaped = esc ∧
      ty.isLong ∧ (ty ≠ .string → esc = false) ∧
      t.inter.active = true ∧ t.inter.name = nm ∧ t.inter.nameType = nty ∧ t.inter.data = acc ∧ t.inter.dataTypeSet = true ∧
      t.inter.dataType = ty

/-- Nothing is lost at the end of the buffer. -/
def Susp.Fine (o : Opts) : Susp → Prop
  | .tokEnd _ | .name _ => True
  | .inName _ _ _ esc | .inData _ _ _ _ _ esc => esc = false ∨ o.simd = .scalar
  | .delim x _ nty saved => saved = true ∧ nty = .string ∧ ∃ st, x.stack = .objectStart :: st
  | .data _ _ _ saved => saved = true

/-- Outcome of `populateLoop`. -/
def SLoop (t : Tz) (buf : Bytes) (x : SRes) (r : Err × Tz × Option Token) : Prop :=
  match x with
  | .err e => r.1 = e ∧ e ≠ .noError ∧ e ≠ .needMoreData ∧ r.2.2 = none
  | .done c k => ∃ t' tok, r = (.noError, t', some tok) ∧ tok.tok = k ∧ t'.light buf = c ∧ t.frame t' ∧
      t'.isEscaped = false ∧ t'.cursor ≤ buf.length ∧ t'.inter.clear = {} ∧
      (t'.tokenState = .findingName ∨ t'.tokenState = .findingTokenEnd)
  | .more s => r.1 = .needMoreData ∧ r.2.2 = none ∧ t.frame r.2.1 ∧ (s.Fine t.opts → s.Corr r.2.1)

theorem sLoop_frame {t t' : Tz} {buf : Bytes} {x : SRes} {r : Err × Tz × Option Token}
    (hf : t.frame t') (h : SLoop t' buf x r) : SLoop t buf x r := by
  cases x with
  | err e => exact h
  | done c k =>
    obtain ⟨t2, tok, h1, h2, h3, h4, h5⟩ := h
    exact ⟨t2, tok, h1, h2, h3, frame_trans hf h4, h5⟩
  | more s =>
    obtain ⟨h1, h2, h3, h4⟩ := h
    exact ⟨h1, h2, frame_trans hf h3, by rw [← hf.1]; exact h4⟩

theorem frame_refl (t : Tz) : t.frame t := by simp [Tz.frame]

/-- Where the name is while the value is looked for. -/
def NameAt (t : Tz) (tmp : Token) (nm : Bytes) (nty : Ty) (saved : Bool) : Prop :=
  (saved = false ∧ t.inter = {} ∧ tmp.name.bytes = nm ∧ tmp.nameType = nty) ∨ (saved = true ∧ t.inter.holds nm nty)

theorem loop_stops (n : Nat) (t : Tz) (buf : Bytes) (tmp : Token) (h : ¬ t.cursor < buf.length) :
    Tz.populateLoop n t buf tmp = (.needMoreData, t, none) := by
  cases n with
  | zero => rfl
  | succ n => simp only [Tz.populateLoop, if_neg h]

/-- After the value is complete. -/
theorem clear_active {i : Inter} (h : i.active = true) : i.clear = {} := by simp [Inter.clear, h]

theorem sData_s (n : Nat) (t : Tz) (buf : Bytes) (tmp : Token) (x : LX) (nm : Bytes) (nty : Ty) (saved : Bool)
    (h0 : 0 ∉ buf) (hc : t.cursor ≤ buf.length) (hx : x.of t) (hts : t.tokenState = .findingData)
    (hp : t.propState = .noStartFound) (he : t.isEscaped = false) (hn : NameAt t tmp nm nty saved) :
    SLoop t buf (sData t.opts x nm nty saved (buf.drop t.cursor)) (Tz.populateLoop (n + 1) t buf tmp) := by
  unfold sData
  by_cases hcur : t.cursor < buf.length
  swap
  · rw [if_pos (by simp [drop_isEmpty, hcur]), loop_stops _ _ _ _ hcur]
    refine ⟨rfl, rfl, frame_refl _, fun hf => ?_⟩
    rcases hn with ⟨h1, -⟩ | ⟨-, h1⟩
    · exact absurd (show saved = true from hf) (by simp [h1])
    · exact ⟨hx, hts, hp, he, h1⟩
  rw [if_neg (by simp [drop_isEmpty]; omega)]
  simp only [Tz.populateLoop, if_pos hcur, Tz.step, hts]
  unfold Tz.stepData
  have hv := populateFrom_s t buf t.inter.dataType none h0 hc ⟨hp, he⟩
  generalize t.populateFrom buf t.inter.dataType = p at *
  obtain ⟨pe, pptr, psz, pty, ptz⟩ := p
  simp only [lPart] at hv
  have hsave : (t.inter.saveName tmp).holds nm nty := by
    rcases hn with ⟨-, h1, h2, h3⟩ | ⟨-, h1⟩
    · simp [h1, Inter.saveName, Inter.holds, h2, h3]
    · simpa [Inter.saveName, h1.1] using h1
  have hdone : ∀ ty d r, PartRes t buf ⟨pe, pptr, psz, pty, ptz⟩ (.ok ty d r) →
      SLoop t buf (dataDone t.opts x nm nty ty d r) (match (
        let p : PopRes := ⟨pe, pptr, psz, pty, ptz⟩
        let t := p.tz
        if p.err = .needMoreData then
          let i := t.inter.saveName tmp
          let i :=
            if t.propState ≠ .noStartFound then
              let add := untilNul buf p.ptr (buf.length - t.dataStart)
              let i := { i with data := i.data ++ add }
              if i.dataTypeSet then i else { i with dataType := p.type, dataTypeSet := true }
            else i
          Step.ret .needMoreData { t with inter := i } none
        else if p.err ≠ .noError then .ret p.err t none
        else
          let d0 : DataRef := { loc := .input p.ptr, bytes := slice buf p.ptr p.size }
          let t :=
            if t.inter.active then
              let i := { t.inter with data := t.inter.data ++ d0.bytes }
              let i := if i.dataTypeSet then i else { i with dataType := p.type, dataTypeSet := true }
              { t with inter := i }
            else t
          let tmp : Token :=
            if t.inter.active then
              { tmp with name := { loc := .own, bytes := t.inter.name }, nameType := t.inter.nameType }
            else tmp
          let data : DataRef := if t.inter.active then { loc := .own, bytes := t.inter.data } else d0
          let type := if t.inter.active then t.inter.dataType else p.type
          let tmp : Token := { tmp with value := data, valueType := getType type data.bytes }
          if tmp.valueType = .ascii ∧ t.opts.ascii = false then .ret .illegalDataValue t none
          else
            let st : TokState :=
              if type = .objectStart ∨ type = .arrayStart then .findingName else .findingTokenEnd
            .ret .noError { t with tokenState := st } (some tmp)) with
        | .ret e t tok => (e, t, tok)
        | .cont t tmp => Tz.populateLoop n t buf tmp) := by
    intro ty d r hok
    obtain ⟨h1, h2, h3, h4, h5, c, ds, pt, h6⟩ := hok
    simp only at h1 h2 h3 h4 h5 h6
    subst h1 h2 h6
    simp only at h4 h5
    simp only [reduceCtorEq, if_false, ne_eq, not_true_eq_false, h3, dataDone]
    rcases hn with ⟨-, g1, g2, g3⟩ | ⟨-, g1, g2, g3, g4, g5⟩
    · simp only [g1, Bool.false_eq_true, if_false]
      generalize hgt : getType pty d = gt
      by_cases hill : gt = .ascii ∧ t.opts.ascii = false
      · rw [if_pos hill, if_pos hill]; exact ⟨rfl, by simp, by simp, rfl⟩
      · rw [if_neg hill, if_neg hill]
        refine ⟨_, _, rfl, ?_, ?_, ?_, rfl, h5, ?_, ?_⟩
        · simp [Token.tok, g2, g3, hgt]
        · simp only [Tz.light, h4, hx.1, hx.2]
          cases pty <;> rfl
        · simp [Tz.frame, ← g1]
        · simp only [Inter.clear, g1]; rfl
        · simp only; split <;> simp
    · simp only [g1, g4, g5, List.nil_append, if_true, Bool.false_eq_true, if_false]
      generalize hgt : getType pty d = gt
      by_cases hill : gt = .ascii ∧ t.opts.ascii = false
      · rw [if_pos hill, if_pos hill]; exact ⟨rfl, by simp, by simp, rfl⟩
      · rw [if_neg hill, if_neg hill]
        refine ⟨_, _, rfl, ?_, ?_, ?_, rfl, h5, ?_, ?_⟩
        · simp [Token.tok, g2, g3, hgt]
        · simp only [Tz.light, h4, hx.1, hx.2]
          cases pty <;> rfl
        · simp [Tz.frame]
        · exact clear_active rfl
        · simp only; split <;> simp
  rcases hl : lStart t.opts (buf.drop t.cursor) 0 with e | ⟨ty, r⟩
  · rw [hl] at hv
    by_cases hm : e = .needMoreData
    · subst hm
      obtain ⟨h1, c, h2⟩ := hv
      simp only at h1 h2
      subst h1 h2
      simp only [if_true, hp, ne_eq, not_true_eq_false, if_false]
      exact ⟨rfl, rfl, by simp [Tz.frame], fun _ => ⟨hx, hts, rfl, he, hsave⟩⟩
    · have hv : PartRes t buf ⟨pe, pptr, psz, pty, ptz⟩ (.err e) := by
        cases e <;> first | exact absurd rfl hm | exact hv
      obtain ⟨h1, h2, h3⟩ := hv
      simp only at h1
      subst h1
      simp only [h2, h3, if_false, ne_eq, not_false_eq_true, if_true]
      cases pe <;> first | exact absurd rfl h3 | exact ⟨rfl, h2, h3, rfl⟩
  · rw [hl] at hv
    simp only at hv ⊢
    by_cases hb : ty.isBracket = true
    · simp only [hb, if_true] at hv ⊢
      exact hdone _ _ _ hv
    · simp only [hb, if_false, Bool.false_eq_true, sDataEnd] at hv ⊢
      rcases hve : valEnd ty false r.tail with ⟨k, j⟩ | e
      · rw [hve] at hv
        exact hdone _ _ _ hv
      · rw [hve] at hv
        obtain ⟨h1, h2, h3, h4, h5, c, ds, pt, h6⟩ := hv
        simp only at h1 h2 h5 h6
        subst h1 h2 h6
        simp only at h5
        obtain ⟨s1, s2, s3, s4, s5⟩ := hsave
        simp only [if_true, ne_eq, reduceCtorEq, not_false_eq_true, h5, s4, s5, Bool.false_eq_true, if_false, List.nil_append]
        refine ⟨rfl, rfl, by simp [Tz.frame], fun _ => ⟨hx, hts, rfl, rfl, h3, h4, s1, s2, s3, rfl, rfl, rfl⟩⟩

theorem valEnd_nil {ty : Ty} {esc : Bool} (h : ty ≠ .string → esc = false) : valEnd ty esc [] = .inr esc := by
  cases ty <;> simp [valEnd, strEnd, numberEnd, asciiEnd, asciiEndFrom] <;> exact h (by simp)

theorem sDataEnd_s (n : Nat) (t : Tz) (buf : Bytes) (tmp : Token) (x : LX) (nm : Bytes) (nty ty : Ty) (acc : Bytes) (esc : Bool)
    (h0 : 0 ∉ buf) (hc : t.cursor = 0) (hds : t.dataStart = 0) (hf : esc = false ∨ t.opts.simd = .scalar)
    (h : (Susp.inData x nm nty ty acc esc).Corr t) :
    SLoop t buf (sDataEnd t.opts x nm nty ty acc esc buf) (Tz.populateLoop (n + 1) t buf tmp) := by
  have hcorr := h
  obtain ⟨hx, hts, hp, he, hlong, hesc, i1, i2, i3, i4, i5, i6⟩ := h
  unfold sDataEnd
  by_cases hcur : t.cursor < buf.length
  swap
  · obtain rfl : buf = [] := by cases buf with | nil => rfl | cons => simp [hc] at hcur
    rw [loop_stops _ _ _ _ hcur, valEnd_nil hesc]
    refine ⟨rfl, rfl, frame_refl _, fun _ => ?_⟩
    simpa using hcorr
  simp only [Tz.populateLoop, if_pos hcur, Tz.step, hts]
  unfold Tz.stepData
  have hv := populateFrom_s t buf t.inter.dataType (some (ty, esc)) h0 (by omega) ⟨hp, he, i6, hlong, hesc, hf, hc, hds⟩
  generalize t.populateFrom buf t.inter.dataType = p at *
  obtain ⟨pe, pptr, psz, pty, ptz⟩ := p
  simp only [lPart, hc, List.drop_zero] at hv
  rcases hve : valEnd ty esc buf with ⟨k, j⟩ | e
  · rw [hve] at hv
    obtain ⟨h1, h2, h3, h4, h5, c, ds, pt, h6⟩ := hv
    simp only at h1 h2 h3 h4 h5 h6
    subst h1 h2 h6
    simp only at h4 h5
    simp only [reduceCtorEq, if_false, ne_eq, not_true_eq_false, h3, dataDone, i1, i4, i5, i6, if_true]
    generalize hgt : getType pty (acc ++ List.take k buf) = gt
    by_cases hill : gt = .ascii ∧ t.opts.ascii = false
    · rw [if_pos hill, if_pos hill]; exact ⟨rfl, by simp, by simp, rfl⟩
    · rw [if_neg hill, if_neg hill]
      refine ⟨_, _, rfl, ?_, ?_, ?_, rfl, h5, ?_, ?_⟩
      · simp [Token.tok, i2, i3, hgt]
      · simp only [Tz.light, h4, hx.1, hx.2]
        cases pty <;> rfl
      · simp [Tz.frame]
      · exact clear_active rfl
      · simp only; split <;> simp
  · rw [hve] at hv
    obtain ⟨h1, h2, h3, h4, h5, c, ds, pt, h6⟩ := hv
    simp only at h1 h2 h5 h6
    subst h1 h2 h6
    simp only at h5
    have hsv : t.inter.saveName tmp = t.inter := by simp [Inter.saveName, i1]
    simp only [if_true, ne_eq, reduceCtorEq, not_false_eq_true, h5, hsv, i5]
    exact ⟨rfl, rfl, by simp [Tz.frame], fun _ => ⟨hx, hts, rfl, rfl, h3, h4, i1, i2, i3, by rw [← i4], rfl, i6⟩⟩

/-- Where the name is while the delimiter is looked for. -/
def NameHere (t : Tz) (tmp : Token) (x : LX) (nm : Bytes) (nty : Ty) (saved : Bool) : Prop :=
  (saved = false ∧ t.inter = {} ∧ tmp.name.bytes = nm ∧ tmp.nameType = nty) ∨
  (saved = true ∧ tmp.name.bytes = nm ∧ tmp.nameType = nty ∧ ∃ raw, t.inter.holds nm raw ∧ getType raw nm = nty) ∨
  (saved = true ∧ t.inter.holds nm nty ∧ tmp = {} ∧ nty = .string ∧ ∃ st, x.stack = .objectStart :: st)

theorem lDelim_obj {o : Opts} {s r : Bytes} (k : Nat) : lDelim o .objectStart s k ≠ .ok (false, r) := by
  fun_induction lDelim o .objectStart s k <;> simp_all

theorem getType_string {raw : Ty} {d : Bytes} (h : getType raw d = .string) : raw = .string := by
  unfold getType at h
  repeat' split at h
  all_goals simp_all

theorem getType_ascii {raw : Ty} {d : Bytes} (h : getType raw d = .ascii) : raw = .ascii := by
  unfold getType at h
  repeat' split at h
  all_goals simp_all

theorem sDelim_s (n : Nat) (t : Tz) (buf : Bytes) (tmp : Token) (x : LX) (nm : Bytes) (nty : Ty) (saved : Bool)
    (h0 : 0 ∉ buf) (hc : t.cursor ≤ buf.length) (hx : x.of t) (hts : t.tokenState = .findingDelimiter)
    (he : t.isEscaped = false) (hn : NameHere t tmp x nm nty saved) :
    SLoop t buf (sDelim t.opts x nm nty saved (buf.drop t.cursor)) (Tz.populateLoop (n + 2) t buf tmp) := by
  obtain ⟨xe, xs⟩ := x
  obtain ⟨hx1, hx2⟩ := hx
  simp only at hx1 hx2
  subst hx1 hx2
  unfold sDelim
  have hsaved : saved = true → nty = .string → t.inter.holds nm nty := by
    intro h1 h2
    rcases hn with ⟨g, -⟩ | ⟨-, -, -, raw, g1, g2⟩ | ⟨-, g, -⟩
    · simp [g] at h1
    · rw [h2] at g2
      rw [h2, ← getType_string g2]
      exact g1
    · exact g
  by_cases hcur : t.cursor < buf.length
  swap
  · rw [if_pos (by simp [drop_isEmpty, hcur]), loop_stops _ _ _ _ hcur]
    exact ⟨rfl, rfl, frame_refl _, fun hf => ⟨⟨rfl, rfl⟩, hts, he, hsaved hf.1 hf.2.1⟩⟩
  rw [if_neg (by simp [drop_isEmpty]; omega)]
  rw [Tz.populateLoop]
  simp only [if_pos hcur, Tz.step, hts]
  unfold Tz.stepDelimiter
  simp only
  cases hst : t.stack with
  | nil =>
    simp only [findDelimiter, ne_eq, reduceCtorEq, not_false_eq_true, if_true]
    exact ⟨rfl, by simp, by simp, rfl⟩
  | cons ct st =>
    simp only
    have hd := delimLoop_light t.opts ct (buf.drop t.cursor) 0 t.cursor t.cursor (by omega)
    rw [← findDelimiter_eq t.opts ct st buf t.cursor] at hd
    generalize findDelimiter t.opts (ct :: st) buf t.cursor = fd at *
    obtain ⟨de, dst, dah, dcur, dcom⟩ := fd
    simp only at hd ⊢
    rcases hld : lDelim t.opts ct (buf.drop t.cursor) 0 with e | ⟨nmd, r1⟩
    · rw [hld] at hd
      obtain ⟨g1, g2⟩ := hd
      subst g1
      rw [if_pos g2]
      by_cases hm : de = .needMoreData
      · subst hm
        refine ⟨rfl, rfl, by simp [Tz.frame, hst], fun hf => ⟨⟨rfl, rfl⟩, hts, he, ?_⟩⟩
        obtain ⟨-, hf, -⟩ := hf
        rcases hn with ⟨-, h1, h2, h3⟩ | hn
        · simp [h1, Inter.saveName, Inter.holds, h2, h3]
        · have := hsaved (by rcases hn with h | h <;> exact h.1) hf
          simpa [Inter.saveName, this.1] using this
      · cases de <;> first | exact absurd rfl hm | exact ⟨rfl, g2, hm, rfl⟩
    · rw [hld] at hd
      obtain ⟨g1, g2, j, g3, g4, g5⟩ := hd
      subst g1
      rw [if_neg (by simp)]
      have hj : buf.drop (dcur + dah) = r1 := by rw [g5, g3, List.drop_drop]
      have hj2 : dcur + dah ≤ buf.length := by
        have hl : (buf.drop t.cursor).length = buf.length - t.cursor := List.length_drop
        omega
      cases nmd with
      | false =>
        simp only [Bool.false_eq_true, if_false] at g2
        subst g2
        rw [if_pos rfl]
        have hnm : tmp.name.bytes = nm ∧ tmp.nameType = nty := by
          rcases hn with ⟨-, -, h⟩ | ⟨-, h1, h2, -⟩ | ⟨-, -, -, -, st', h⟩
          · exact h
          · exact ⟨h1, h2⟩
          · simp only [hst] at h
            obtain ⟨rfl, -⟩ := List.cons.inj h
            exact absurd hld (lDelim_obj 0)
        have hclear : t.inter.clear = {} := by
          rcases hn with ⟨-, h, -⟩ | ⟨-, -, -, raw, h, -⟩ | ⟨-, h, -⟩
          · rw [h]; rfl
          · exact clear_active h.1
          · exact clear_active h.1
        refine ⟨_, _, rfl, ?_, ?_, ?_, he, hj2, hclear, Or.inl rfl⟩
        · simp [anonymous, anonTok, Token.tok, hnm]
        · simp [Tz.light, hj, Tz.resetForNewValue, hst]
        · simp [Tz.frame, Tz.resetForNewValue, hst]
      | true =>
        simp only [if_true] at g2
        subst g2
        rw [if_neg (by simp)]
        change SLoop t buf (if nty ≠ .string ∧ (t.opts.ascii = false ∨ nty ≠ .ascii) then
          .err .illegalPropertyName else sData t.opts ⟨false, ct :: st⟩ nm nty saved r1) _
        by_cases hill : nty ≠ Ty.string ∧ (t.opts.ascii = false ∨ nty ≠ Ty.ascii)
        · rw [if_pos hill]
          have hty : tmp.nameType = nty := by
            rcases hn with ⟨-, -, -, h⟩ | ⟨-, -, h, -⟩ | ⟨-, -, -, h, -⟩
            · exact h
            · exact h
            · exact absurd h hill.1
          have aux : ∀ (z : Step) t1, z = Step.ret .illegalPropertyName t1 none → SLoop t buf (.err .illegalPropertyName)
              (match z with | .ret e t tok => (e, t, tok) | .cont t tmp => Tz.populateLoop (n + 1) t buf tmp) := by
            intro z t1 hz; subst hz; exact ⟨rfl, by simp, by simp, rfl⟩
          exact aux _ _ (if_pos (by rw [hty]; exact hill))
        · rw [if_neg hill]
          have hill' : ¬ (tmp.nameType ≠ Ty.string ∧ (t.opts.ascii = false ∨ tmp.nameType ≠ Ty.ascii)) := by
            rcases hn with ⟨-, -, -, h⟩ | ⟨-, -, h, -⟩ | ⟨-, -, h, -⟩
            · rw [h]; exact hill
            · rw [h]; exact hill
            · rw [h]; simp
          have hname : NameAt t tmp nm nty saved := by
            rcases hn with h | ⟨h1, -, -, raw, h2, h3⟩ | ⟨h1, h2, -⟩
            · exact .inl h
            · refine .inr ⟨h1, ?_⟩
              have : raw = nty := by
                by_cases hs : nty = .string
                · rw [hs] at h3 ⊢; exact getType_string h3
                · have : nty = .ascii := by
                    by_contra hne; exact hill ⟨hs, .inr hne⟩
                  rw [this] at h3 ⊢; exact getType_ascii h3
              rw [← this]; exact h2
            · exact .inr ⟨h1, h2⟩
          have aux : ∀ (z : Step), z = Step.cont { t with cursor := dcur + dah, tokenState := .findingData, expecting := false, propState := .noStartFound, propType := .error, dataStart := 0 } tmp →
              SLoop t buf (sData t.opts ⟨false, ct :: st⟩ nm nty saved r1)
              (match z with | .ret e t tok => (e, t, tok) | .cont t tmp => Tz.populateLoop (n + 1) t buf tmp) := by
            intro z hz; subst hz
            have := sData_s n { t with cursor := dcur + dah, tokenState := .findingData, expecting := false, propState := .noStartFound, propType := .error, dataStart := 0 } buf tmp
              ⟨false, ct :: st⟩ nm nty saved h0 hj2 ⟨rfl, hst⟩ rfl rfl he hname
            simp only [hj] at this
            exact sLoop_frame (by simp [Tz.frame]) this
          exact aux _ ((if_neg hill').trans (by rw [← hst]; rfl))

theorem sName_s (n : Nat) (t : Tz) (buf : Bytes) (x : LX) (h0 : 0 ∉ buf)
    (hc : t.cursor ≤ buf.length) (h : (Susp.name x).Corr t) :
    SLoop t buf (sName t.opts x (buf.drop t.cursor)) (Tz.populateLoop (n + 3) t buf {}) := by
  obtain ⟨hx, hts, hp, hi, he⟩ := h
  obtain ⟨xe, xs⟩ := x
  obtain ⟨hx1, hx2⟩ := hx
  simp only at hx1 hx2
  subst hx1 hx2
  unfold sName
  by_cases hcur : t.cursor < buf.length
  swap
  · rw [if_pos (by simp [drop_isEmpty, hcur]), loop_stops _ _ _ _ hcur]
    exact ⟨rfl, rfl, frame_refl _, fun _ => ⟨⟨rfl, rfl⟩, hts, hp, hi, he⟩⟩
  rw [if_neg (by simp [drop_isEmpty]; omega)]
  rw [Tz.populateLoop]
  simp only [if_pos hcur, Tz.step, hts]
  unfold Tz.stepName
  have hv := populateFrom_s t buf t.inter.nameType none h0 hc ⟨hp, he⟩
  generalize t.populateFrom buf t.inter.nameType = p at *
  obtain ⟨pe, pptr, psz, pty, ptz⟩ := p
  simp only [lPart] at hv
  rcases hl : lStart t.opts (buf.drop t.cursor) 0 with e | ⟨ty, r⟩
  · rw [hl] at hv
    by_cases hm : e = .needMoreData
    · subst hm
      obtain ⟨h1, c, h2⟩ := hv
      simp only at h1 h2
      subst h1 h2
      simp only [if_true, hp, ne_eq, not_true_eq_false, if_false]
      exact ⟨rfl, rfl, by simp [Tz.frame], fun _ => ⟨⟨rfl, rfl⟩, hts, rfl, hi, he⟩⟩
    · have hv : PartRes t buf ⟨pe, pptr, psz, pty, ptz⟩ (.err e) := by
        cases e <;> first | exact absurd rfl hm | exact hv
      obtain ⟨h1, h2, h3⟩ := hv
      simp only at h1
      subst h1
      simp only [h2, h3, if_false, ne_eq, not_false_eq_true, if_true]
      cases pe <;> first | exact absurd rfl h3 | exact ⟨rfl, h2, h3, rfl⟩
  · obtain ⟨-, hlong⟩ := lStart_ok hl
    rw [hl] at hv
    simp only at hv ⊢
    by_cases hb : ty.isBracket = true
    · simp only [hb, if_true] at hv
      obtain ⟨h1, h2, h3, h4, h5, c, ds, pt, h6⟩ := hv
      simp only at h1 h2 h3 h4 h5 h6
      subst h1 h2 h6
      simp only at h4 h5
      simp only [reduceCtorEq, if_false, ne_eq, not_true_eq_false, hi, Bool.false_eq_true, h3]
      cases pty <;> simp [Ty.isBracket] at hb <;> simp only
      case objectStart | arrayStart =>
        refine ⟨_, _, rfl, rfl, ?_, ?_, rfl, h5, ?_, Or.inl rfl⟩
        · simp [Tz.light, h4]
        · simp [Tz.frame]
        · simp only [hi]; rfl
      case objectEnd | arrayEnd =>
        by_cases hill : (t.expecting && !t.opts.superfluousComma) = true
        · rw [if_pos hill, if_pos hill]; exact ⟨rfl, by simp, by simp, rfl⟩
        · rw [if_neg hill, if_neg hill]
          refine ⟨_, _, rfl, rfl, ?_, ?_, rfl, h5, ?_, Or.inr rfl⟩
          · simp [Tz.light, h4]
          · simp [Tz.frame]
          · simp only [hi]; rfl
    · have hlong : ty.isLong := by
        rcases hlong with h | h
        · exact absurd h hb
        · exact h
      simp only [hb, if_false, Bool.false_eq_true] at hv
      have hgoal : SLoop t buf (sNameEnd t.opts ⟨t.expecting, t.stack⟩ ty (lead ty r) false false r.tail) (match (
          let p : PopRes := ⟨pe, pptr, psz, pty, ptz⟩
          let t := p.tz
          if p.err = .needMoreData then
            if t.propState ≠ .noStartFound then
              let i := t.inter
              let add := untilNul buf p.ptr (buf.length - t.dataStart)
              let i := { i with active := true, name := i.name ++ add }
              let i := if i.nameTypeSet then i else { i with nameType := p.type, nameTypeSet := true }
              Step.ret .needMoreData { t with inter := i } none
            else .ret .needMoreData t none
          else if p.err ≠ .noError then .ret p.err t none
          else
            let d0 : DataRef := { loc := .input p.ptr, bytes := slice buf p.ptr p.size }
            let t := if t.inter.active then { t with inter := { t.inter with name := t.inter.name ++ d0.bytes } } else t
            let data : DataRef := if t.inter.active then { loc := .own, bytes := t.inter.name } else d0
            let type := if t.inter.active then t.inter.nameType else p.type
            match type with
            | .objectEnd | .arrayEnd =>
              if t.expecting && !t.opts.superfluousComma then .ret .expectedDataToken t none
              else .ret .noError { t with tokenState := .findingTokenEnd } (some (anonymous data type))
            | .objectStart | .arrayStart =>
              .ret .noError { t with expecting := false, tokenState := .findingName } (some (anonymous data type))
            | _ =>
              let tmp := { ({} : Token) with name := data, nameType := getType type data.bytes }
              .cont { t with tokenState := .findingDelimiter }.resetForNewValue tmp) with
          | .ret e t tok => (e, t, tok)
          | .cont t tmp => Tz.populateLoop (n + 2) t buf tmp) := by
        unfold sNameEnd
        rcases hve : valEnd ty false r.tail with ⟨k, j⟩ | e
        · rw [hve] at hv
          obtain ⟨h1, h2, h3, h4, h5, c, ds, pt, h6⟩ := hv
          simp only at h1 h2 h3 h4 h5 h6
          subst h1 h2 h6
          simp only at h4 h5
          simp only [reduceCtorEq, if_false, ne_eq, not_true_eq_false, hi, Bool.false_eq_true, h3]
          have key := sDelim_s n (Tz.resetForNewValue { t with cursor := c, dataStart := ds, propType := pt, propState := .foundEnd, isEscaped := false, tokenState := .findingDelimiter }) buf
            { ({} : Token) with name := { loc := .input pptr, bytes := lead pty r ++ r.tail.take k }, nameType := getType pty (lead pty r ++ r.tail.take k) }
            ⟨t.expecting, t.stack⟩ (lead pty r ++ r.tail.take k) (getType pty (lead pty r ++ r.tail.take k)) false h0 h5 ⟨rfl, rfl⟩ rfl rfl
            (.inl ⟨rfl, hi, rfl, rfl⟩)
          simp only [Tz.resetForNewValue, h4, hi] at key
          have key := sLoop_frame (t := t) (by simp [Tz.frame]) key
          rcases hlong with rfl | rfl | rfl
          · exact key
          · exact key
          · exact key
        · rw [hve] at hv
          obtain ⟨h1, h2, h3, h4, h5, c, ds, pt, h6⟩ := hv
          simp only at h1 h2 h5 h6
          subst h1 h2 h6
          simp only at h5
          simp only [if_true, ne_eq, reduceCtorEq, not_false_eq_true, h5, hi, List.nil_append, Bool.false_eq_true, if_false]
          exact ⟨rfl, rfl, by simp [Tz.frame], fun _ => ⟨⟨rfl, rfl⟩, hts, rfl, rfl, h3, h4, rfl⟩⟩
      rcases hlong with rfl | rfl | rfl <;> exact hgoal

theorem sNameEnd_s (n : Nat) (t : Tz) (buf : Bytes) (x : LX) (ty : Ty) (acc : Bytes) (esc : Bool)
    (h0 : 0 ∉ buf) (hc : t.cursor = 0) (hds : t.dataStart = 0) (hf : esc = false ∨ t.opts.simd = .scalar)
    (h : (Susp.inName x ty acc esc).Corr t) :
    SLoop t buf (sNameEnd t.opts x ty acc esc true buf) (Tz.populateLoop (n + 3) t buf {}) := by
  have hcorr := h
  obtain ⟨hx, hts, hp, he, hlong, hesc, hi⟩ := h
  unfold sNameEnd
  by_cases hcur : t.cursor < buf.length
  swap
  · obtain rfl : buf = [] := by cases buf with | nil => rfl | cons => simp [hc] at hcur
    rw [loop_stops _ _ _ _ hcur, valEnd_nil hesc]
    refine ⟨rfl, rfl, frame_refl _, fun _ => ?_⟩
    simpa using hcorr
  rw [Tz.populateLoop]
  simp only [if_pos hcur, Tz.step, hts]
  unfold Tz.stepName
  have hv := populateFrom_s t buf t.inter.nameType (some (ty, esc)) h0 (by omega) ⟨hp, he, by rw [hi], hlong, hesc, hf, hc, hds⟩
  generalize t.populateFrom buf t.inter.nameType = p at *
  obtain ⟨pe, pptr, psz, pty, ptz⟩ := p
  simp only [lPart, hc, List.drop_zero] at hv
  obtain ⟨hx1, hx2⟩ := hx
  rcases hve : valEnd ty esc buf with ⟨k, j⟩ | e
  · rw [hve] at hv
    obtain ⟨h1, h2, h3, h4, h5, c, ds, pt, h6⟩ := hv
    simp only at h1 h2 h3 h4 h5 h6
    subst h1 h2 h6
    simp only at h4 h5
    simp only [reduceCtorEq, if_false, ne_eq, not_true_eq_false, hi, if_true, h3]
    have key := sDelim_s n (Tz.resetForNewValue { t with cursor := c, dataStart := ds, propType := pt, propState := .foundEnd, isEscaped := false, tokenState := .findingDelimiter, inter := { active := true, nameTypeSet := true, nameType := pty, name := acc ++ buf.take k } }) buf
      { ({} : Token) with name := { loc := .own, bytes := acc ++ buf.take k }, nameType := getType pty (acc ++ buf.take k) }
      x (acc ++ buf.take k) (getType pty (acc ++ buf.take k)) true h0 h5 ⟨hx1, hx2⟩ rfl rfl
      (.inr (.inl ⟨rfl, rfl, rfl, pty, ⟨rfl, rfl, rfl, rfl, rfl⟩, rfl⟩))
    simp only [Tz.resetForNewValue, h4] at key
    have key := sLoop_frame (t := t) (by simp [Tz.frame]) key
    rcases hlong with rfl | rfl | rfl
    · exact key
    · exact key
    · exact key
  · rw [hve] at hv
    obtain ⟨h1, h2, h3, h4, h5, c, ds, pt, h6⟩ := hv
    simp only at h1 h2 h5 h6
    subst h1 h2 h6
    simp only at h5
    simp only [if_true, ne_eq, reduceCtorEq, not_false_eq_true, h5, hi]
    exact ⟨rfl, rfl, by simp [Tz.frame], fun _ => ⟨⟨hx1, hx2⟩, hts, rfl, rfl, h3, h4, rfl⟩⟩

theorem tokenEndLoop_comma (o : Opts) (s : Bytes) (k p c : Nat) (h : (tokenEndLoop o s k p c).err ≠ .noError) :
    (tokenEndLoop o s k p c).comma = false := by
  fun_induction tokenEndLoop o s k p c <;> simp_all

theorem sTokEnd_s (n : Nat) (t : Tz) (buf : Bytes) (x : LX) (h0 : 0 ∉ buf)
    (hc : t.cursor ≤ buf.length) (h : (Susp.tokEnd x).Corr t) :
    SLoop t buf (sTokEnd t.opts x (buf.drop t.cursor)) (Tz.populateLoop (n + 4) t buf {}) := by
  obtain ⟨hx, hts, hp, hi, he⟩ := h
  obtain ⟨xe, xs⟩ := x
  obtain ⟨hx1, hx2⟩ := hx
  simp only at hx1 hx2
  subst hx1 hx2
  unfold sTokEnd
  by_cases hcur : t.cursor < buf.length
  swap
  · rw [if_pos (by simp [drop_isEmpty, hcur]), loop_stops _ _ _ _ hcur]
    exact ⟨rfl, rfl, frame_refl _, fun _ => ⟨⟨rfl, rfl⟩, hts, hp, hi, he⟩⟩
  rw [if_neg (by simp [drop_isEmpty]; omega)]
  rw [Tz.populateLoop]
  simp only [if_pos hcur, Tz.step, hts]
  unfold Tz.stepTokenEnd
  simp only
  cases hst : t.stack with
  | nil =>
    simp only [findTokenEnd, ne_eq, not_true_eq_false, if_false]
    have := sName_s n { t with cursor := t.cursor + 0, expecting := t.expecting || false, tokenState := .findingName } buf ⟨t.expecting, t.stack⟩ h0 hc
      ⟨⟨by simp, rfl⟩, rfl, hp, hi, he⟩
    refine sLoop_frame (t' := { t with cursor := t.cursor + 0, expecting := t.expecting || false, tokenState := .findingName }) (by simp [Tz.frame]) ?_
    simp only [Nat.add_zero, hst] at this ⊢
    exact this
  | cons ct st =>
    simp only
    have hd := tokenEndLoop_light t.opts (buf.drop t.cursor) 0 t.cursor t.cursor (by omega)
    have hcomma := tokenEndLoop_comma t.opts (buf.drop t.cursor) 0 t.cursor t.cursor
    rw [← findTokenEnd_eq t.opts ct st buf t.cursor] at hd hcomma
    generalize findTokenEnd t.opts (ct :: st) buf t.cursor = fd at *
    obtain ⟨de, dst, dah, dcur, dcom⟩ := fd
    simp only at hd ⊢
    rcases hld : lTokEnd t.opts (buf.drop t.cursor) 0 with e | ⟨cm, r1⟩
    · rw [hld] at hd
      obtain ⟨g1, g2⟩ := hd
      subst g1
      rw [if_pos g2]
      by_cases hm : de = .needMoreData
      · subst hm
        refine ⟨rfl, rfl, by simp [Tz.frame, hst], fun hf => ⟨⟨?_, rfl⟩, hts, hp, hi, he⟩⟩
        have hcm : dcom = false := hcomma g2
        simp [hcm]
      · cases de <;> first | exact absurd rfl hm | exact ⟨rfl, g2, hm, rfl⟩
    · rw [hld] at hd
      obtain ⟨g1, g2, j, g3, g4, g5⟩ := hd
      subst g1 g2
      rw [if_neg (by simp)]
      have hj : buf.drop (dcur + dah) = r1 := by rw [g5, g3, List.drop_drop]
      have hj2 : dcur + dah ≤ buf.length := by
        have hl : (buf.drop t.cursor).length = buf.length - t.cursor := List.length_drop
        omega
      have := sName_s n { t with cursor := dcur + dah, expecting := t.expecting || dcom, tokenState := .findingName } buf ⟨t.expecting || dcom, t.stack⟩ h0 hj2
        ⟨⟨rfl, rfl⟩, rfl, hp, hi, he⟩
      refine sLoop_frame (t' := { t with cursor := dcur + dah, expecting := t.expecting || dcom, tokenState := .findingName }) (by simp [Tz.frame]) ?_
      simp only [hj, hst] at this ⊢
      exact this

/-- Entering a buffer in a state in which nothing was lost. -/
theorem resume_s (t : Tz) (buf : Bytes) (s : Susp) (h0 : 0 ∉ buf) (hc : t.cursor ≤ buf.length)
    (hmid : (∃ x, s = .tokEnd x ∨ s = .name x) ∨ (t.cursor = 0 ∧ t.dataStart = 0)) (hf : s.Fine t.opts) (h : s.Corr t) :
    SLoop t buf (s.resume t.opts (buf.drop t.cursor)) (t.populateNext buf) := by
  unfold Tz.populateNext
  cases s with
  | tokEnd x => exact sTokEnd_s 0 t buf x h0 hc h
  | name x => exact sName_s 1 t buf x h0 hc h
  | inName x ty acc esc =>
    rcases hmid with ⟨x, h | h⟩ | ⟨h1, h2⟩
    · simp at h
    · simp at h
    rw [h1]
    exact sNameEnd_s 1 t buf x ty acc esc h0 h1 h2 hf h
  | delim x nm nty saved =>
    obtain ⟨g1, g2, g3, g4⟩ := h
    obtain ⟨f1, f2, f3⟩ := hf
    exact sDelim_s 2 t buf {} x nm nty saved h0 hc g1 g2 g3 (.inr (.inr ⟨f1, g4, rfl, f2, f3⟩))
  | data x nm nty saved =>
    obtain ⟨g1, g2, g3, g4, g5⟩ := h
    exact sData_s 3 t buf {} x nm nty saved h0 hc g1 g2 g3 g4 (.inr ⟨hf, g5⟩)
  | inData x nm nty ty acc esc =>
    rcases hmid with ⟨x, h | h⟩ | ⟨h1, h2⟩
    · simp at h
    · simp at h
    rw [h1]
    exact sDataEnd_s 3 t buf {} x nm nty ty acc esc h0 h1 h2 hf h

end JsonStruct
