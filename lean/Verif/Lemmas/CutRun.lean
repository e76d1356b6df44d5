import Verif.Lemmas.CutPlace

/- Calls of the tokenizer on a text in several buffers. -/

namespace JsonStruct

set_option linter.unusedSimpArgs false

/-- The bytes to come, buffer by buffer. -/
def Tz.ahead (t : Tz) : List Bytes :=
  match t.bufs with
  | [] => t.pending.flatten
  | b :: r => b.drop t.cursor :: (r ++ t.pending.flatten)

/-- The cuts between the buffers `l` that follow the place `p` are safe. -/
def CutsAt (o : Opts) (p : Spot) (l : List Bytes) : Prop :=
  ∀ pre post : List Bytes, l = pre ++ post → pre ≠ [] → post ≠ [] → (p.after o pre.flatten).safe (o.simd != .scalar) = true

theorem CutsAt.tail {o : Opts} {p : Spot} {a : Bytes} {l : List Bytes} (h : CutsAt o p (a :: l)) : CutsAt o (p.after o a) l := by
  intro pre post h1 h2 h3
  have := h (a :: pre) post (by rw [h1]; rfl) (by simp) h3
  rwa [List.flatten_cons, spot_append] at this

theorem CutsAt.head {o : Opts} {p : Spot} {a : Bytes} {l : List Bytes} (h : CutsAt o p (a :: l)) (hl : l ≠ []) :
    (p.after o a).safe (o.simd != .scalar) = true := by
  simpa using h [a] l rfl (by simp) hl

theorem cutsAt_one (o : Opts) (p : Spot) (a : Bytes) : CutsAt o p [a] := by
  intro pre post h1 h2 h3
  cases pre with
  | nil => exact absurd rfl h2
  | cons x pre =>
    simp only [List.cons_append, List.cons.injEq] at h1
    have := h1.2.symm
    rw [List.append_eq_nil_iff] at this
    exact absurd this.2 h3

theorem corr_congr {t t' : Tz} {s : Susp} (h : s.Corr t) (h1 : t'.expecting = t.expecting) (h2 : t'.stack = t.stack)
    (h3 : t'.tokenState = t.tokenState) (h4 : t'.propState = t.propState) (h5 : t'.inter = t.inter) (h6 : t'.isEscaped = t.isEscaped) :
    s.Corr t' := by
  cases s <;> simp only [Susp.Corr, LX.of, h1, h2, h3, h4, h5, h6] at * <;> exact h

theorem lFin_add (c : LC) (k : Tok) (b : Bytes) : lFin (.ok (c.add b, k)) =
    match lFin (.ok (c, k)) with
    | .error e => .error e
    | .ok (c', k') => .ok (c'.add b, k') := by
  unfold lFin
  simp only
  cases k.valueType <;> simp only [LC.add] <;> (try rfl) <;> (split <;> rfl)

/-- The fields no buffer changes. -/
def Tz.same (t t' : Tz) : Prop :=
  t'.opts = t.opts ∧ t'.scopes = t.scopes ∧ t'.stack = t.stack ∧ t'.parsed = t.parsed

theorem release_request (t : Tz) (b : Bytes) (rest : List Bytes) (hb : t.bufs = b :: rest) :
    t.releaseFirst.requestMoreData.bufs ++ t.releaseFirst.requestMoreData.pending.flatten = rest ++ t.pending.flatten ∧
    (t.releaseFirst.requestMoreData.bufs = [] → rest = [] ∧ (t.pending = [] ∨ ∃ g ∈ t.pending, g = [])) ∧
    (∀ g ∈ t.releaseFirst.requestMoreData.pending, g ∈ t.pending) ∧
    t.releaseFirst.requestMoreData.cursor = 0 ∧ t.releaseFirst.requestMoreData.dataStart = 0 ∧
    t.same t.releaseFirst.requestMoreData ∧
    t.releaseFirst.requestMoreData.expecting = t.expecting ∧ t.releaseFirst.requestMoreData.tokenState = t.tokenState ∧
    t.releaseFirst.requestMoreData.propState = t.propState ∧ t.releaseFirst.requestMoreData.inter = t.inter ∧
    t.releaseFirst.requestMoreData.isEscaped = t.isEscaped ∧
    t.releaseFirst.requestMoreData.supply + 1 = t.supply := by
  unfold Tz.releaseFirst
  rw [hb]
  simp only
  unfold Tz.requestMoreData
  simp only
  cases hp : t.pending with
  | nil => simp [Tz.same, Tz.supply, hb, hp]
  | cons g gs =>
    simp [Tz.same, Tz.supply, hb, hp]
    refine ⟨?_, ?_⟩
    · rintro h1 h2
      exact ⟨h1, .inl h2⟩
    · exact ⟨fun g h => .inr h, by omega⟩

/-- What `pump` returns for the text ahead. -/
def PumpRes (t : Tz) (s : Susp) (p : Spot) (l : List Bytes) (r : Err × Tz × Option Token) : Prop :=
  match (s.resume t.opts l.flatten).toL with
  | .error e => r.1 = e ∧ e ≠ .noError ∧ r.2.2 = none ∧
      (e = .needMoreData → r.2.1.bufs = [] ∧ r.2.1.pending = [] ∧ r.2.1.cursor = 0 ∧ r.2.1.dataStart = 0 ∧ t.same r.2.1 ∧
        ∃ s' : Susp, (s'.At (p.after t.opts l.flatten) ∨ (p.after t.opts l.flatten).lost) ∧ (s'.Fine t.opts → s'.Corr r.2.1) ∧
          (¬ (p.after t.opts l.flatten).lost → ∀ w, (s.resume t.opts (l.flatten ++ w)).toL = (s'.resume t.opts w).toL))
  | .ok (c, k) => ∃ t' tok b rest, r = (.noError, t', some tok) ∧ tok.tok = k ∧ t'.bufs = b :: rest ∧ t'.cursor ≤ b.length ∧
      c.te = (t'.tokenState == .findingTokenEnd) ∧ c.exp = t'.expecting ∧ c.stack = t'.stack ∧ c.rest = t'.ahead.flatten ∧
      t'.isEscaped = false ∧ t'.inter.clear = {} ∧ (t'.tokenState = .findingName ∨ t'.tokenState = .findingTokenEnd) ∧ t.same t' ∧
      (∀ g ∈ t'.pending, g ∈ t.pending) ∧ (∀ x ∈ t'.bufs ++ t'.pending.flatten, 0 ∉ x) ∧
      ∀ c' k', lFin (.ok (c, k)) = .ok (c', k') → CutsAt t.opts c'.spot t'.ahead

theorem pump_cut (n : Nat) (t : Tz) (s : Susp) (p : Spot) (hn : t.supply ≤ n) (hb : t.bufs ≠ [])
    (hpend : ∀ g ∈ t.pending, g ≠ [])
    (hnul : ∀ x ∈ t.bufs ++ t.pending.flatten, 0 ∉ x) (hcuts : CutsAt t.opts p t.ahead)
    (hat : s.At p) (hf : s.Fine t.opts) (hc : s.Corr t) (hcur : ∀ b r, t.bufs = b :: r → t.cursor ≤ b.length)
    (hmid : (∃ x, s = .tokEnd x ∨ s = .name x) ∨ (t.cursor = 0 ∧ t.dataStart = 0)) :
    PumpRes t s p t.ahead (Tz.pump n t) := by
  induction n generalizing t s p with
  | zero =>
    exfalso
    rcases hbb : t.bufs with _ | ⟨b, r⟩
    · exact hb hbb
    · simp [Tz.supply, hbb] at hn
  | succ n ih =>
    rcases hbb : t.bufs with _ | ⟨b, rest⟩
    · exact absurd hbb hb
    have hah : t.ahead = b.drop t.cursor :: (rest ++ t.pending.flatten) := by unfold Tz.ahead; rw [hbb]
    have hnb : 0 ∉ b := hnul b (by simp [hbb])
    have hna : 0 ∉ b.drop t.cursor := fun h => hnb (List.mem_of_mem_drop h)
    have hloop := resume_s t b s hnb (hcur b rest hbb) hmid hf hc
    rw [hah] at hcuts
    have htr : Tracks t.opts (p.after t.opts (b.drop t.cursor)) (s.resume t.opts (b.drop t.cursor)) :=
      resume_at t.opts s _ hna p (fine_plain hf) hat
    have happ (hl : ¬ (p.after t.opts (b.drop t.cursor)).lost) (w : Bytes) :=
      resume_append t.opts s (b.drop t.cursor) w hna (whole_at t.opts s _ hna p hat hl)
    have happ1 : (s.resume t.opts (b.drop t.cursor ++ (rest ++ t.pending.flatten).flatten)).toL =
        (s.resume t.opts (b.drop t.cursor)).on t.opts (rest ++ t.pending.flatten).flatten := by
      by_cases hl : rest ++ t.pending.flatten = []
      · rw [hl, List.flatten_nil, List.append_nil, on_nil]
      · exact happ (safe_not_lost (hcuts.head hl)) _
    have hpump : Tz.pump (n + 1) t = if (t.populateNext b).1 = .needMoreData
        then Tz.pump n (t.populateNext b).2.1.releaseFirst.requestMoreData else t.populateNext b := by
      simp only [Tz.pump, hbb]
    rw [hpump, hah]
    unfold PumpRes
    rw [List.flatten_cons, happ1]
    cases hx : s.resume t.opts (b.drop t.cursor) with
    | err e =>
      rw [hx] at hloop
      obtain ⟨h1, h2, h3, h4⟩ := hloop
      simp only [SRes.on]
      rw [if_neg (by rw [h1]; exact h3)]
      exact ⟨h1, h2, h4, fun h => absurd h h3⟩
    | done c k =>
      rw [hx] at hloop htr
      obtain ⟨t', tok, h1, h2, h3, h4, h5, h6, h7, h8⟩ := hloop
      obtain ⟨f1, f2, f3, f4, f5, f6, f7, f8, f9⟩ := h4
      simp only [SRes.on]
      rw [h1]
      simp only [reduceCtorEq, if_false]
      have hah' : t'.ahead = b.drop t'.cursor :: (rest ++ t.pending.flatten) := by
        unfold Tz.ahead; rw [f2, hbb, f3]
      refine ⟨t', tok, b, rest, rfl, h2, by rw [f2, hbb], h6, ?_, ?_, ?_, ?_, h5, h7, h8, ⟨f1, f4, f5, f8⟩, by rw [f3]; exact fun _ h => h, ?_, ?_⟩
      · rw [← h3]; rfl
      · rw [← h3]; rfl
      · rw [← h3]; rfl
      · rw [← h3, hah']; simp [LC.add, Tz.light]
      · rw [f2, f3]; exact hnul
      · intro c' k' hfin
        rw [lFin_add] at hfin
        rcases hfc : lFin (.ok (c, k)) with e | ⟨c0, k0⟩
        · rw [hfc] at hfin; simp at hfin
        · rw [hfc] at hfin
          simp only [Except.ok.injEq, Prod.mk.injEq] at hfin
          obtain ⟨rfl, rfl⟩ := hfin
          rw [hah']
          by_cases hl : rest ++ t.pending.flatten = []
          · rw [hl]; exact cutsAt_one _ _ _
          · have hsafe := hcuts.head hl
            rcases htr with hoff | htr
            · exact absurd hoff (safe_not_lost hsafe)
            · have hq := htr c0 k0 hfc
              have hrest : c0.rest = b.drop t'.cursor := by
                have : c0.rest = c.rest := by
                  unfold lFin at hfc
                  simp only at hfc
                  revert hfc
                  repeat' split
                  all_goals intro hfc
                  all_goals first
                    | (simp only [Except.ok.injEq, Prod.mk.injEq] at hfc; obtain ⟨rfl, -⟩ := hfc; rfl)
                    | (simp at hfc; done)
                rw [this, ← h3]; rfl
              intro pre post g1 g2 g3
              cases pre with
              | nil => exact absurd rfl g2
              | cons x pre =>
                simp only [List.cons_append, List.cons.injEq] at g1
                obtain ⟨rfl, g1⟩ := g1
                have := hcuts (b.drop t.cursor :: pre) post (by rw [g1]; rfl) (by simp) g3
                rw [List.flatten_cons, spot_append] at this ⊢
                rw [hq, hrest] at this
                exact this
    | more s' =>
      rw [hx] at hloop htr
      obtain ⟨h1, h2, h3, h4⟩ := hloop
      generalize hr : t.populateNext b = r at *
      obtain ⟨re, t1, rt⟩ := r
      simp only at h1 h2 h3 h4
      subst h1 h2
      obtain ⟨f1, f2, f3, f4, f5, f6, f7, f8, f9⟩ := h3
      simp only [if_true, SRes.on]
      obtain ⟨q1, q2, q3, q4, q5, ⟨q6, q7, q8, q9⟩, q10, q11, q12, q13, q14, q15⟩ := release_request t1 b rest (by rw [f2, hbb])
      rw [f3] at q1 q2 q3
      rw [f1] at q6
      rw [f4] at q7
      have q8' := q8
      rw [f5] at q8
      rw [f8] at q9
      have q15' : t1.supply = t.supply := by simp [Tz.supply, f2, f3]
      have hcorr (h : s'.Fine t.opts) : s'.Corr t1.releaseFirst.requestMoreData :=
        corr_congr (h4 h) q10 q8' q11 q12 q13 q14
      generalize ht2 : t1.releaseFirst.requestMoreData = t2 at *
      by_cases hl : t2.bufs = []
      · obtain ⟨e1, e2⟩ := q2 hl
        have e3 : t.pending = [] := by
          rcases e2 with h | ⟨g, h, rfl⟩
          · exact h
          · exact absurd rfl (hpend _ h)
        have e4 : t2.pending = [] := by
          apply List.eq_nil_iff_forall_not_mem.2
          intro g hg
          have := q3 g hg
          rw [e3] at this
          simp at this
        have hp : Tz.pump n t2 = (.needMoreData, t2, none) := by
          cases n <;> simp [Tz.pump, hl]
        rw [hp, e1, e3]
        have hr0 : (s'.resume t.opts ([] ++ ([] : List (List Bytes)).flatten).flatten).toL = .error .needMoreData :=
          resume_nil t.opts s'
        rw [hr0]
        refine ⟨rfl, by simp, rfl, fun _ => ⟨hl, e4, q4, q5, ⟨q6, q7, q8, q9⟩, s', ?_, hcorr, ?_⟩⟩
        · simp only [List.flatten_nil, List.append_nil]
          rcases htr with h | h
          · exact .inr h
          · exact .inl h
        · intro hl w
          simp only [List.flatten_nil, List.append_nil] at hl ⊢
          rw [happ hl, hx]
          rfl
      · have hl' : rest ++ t.pending.flatten ≠ [] := by
          rw [← q1]
          intro h
          exact hl (List.append_eq_nil_iff.1 h).1
        have hah2 : t2.ahead = rest ++ t.pending.flatten := by
          unfold Tz.ahead
          rcases h : t2.bufs with _ | ⟨b2, r2⟩
          · exact absurd h hl
          · simp only
            rw [q4, List.drop_zero, ← q1, h]
            rfl
        have hsafe := hcuts.head hl'
        have hat' : s'.At (p.after t.opts (b.drop t.cursor)) := by
          rcases htr with h | h
          · exact absurd h (safe_not_lost hsafe)
          · exact h
        have hf' : s'.Fine t.opts := At.fine hat' hsafe
        have := ih t2 s' (p.after t.opts (b.drop t.cursor)) (by omega) hl
          (fun g hg => hpend g (q3 g hg))
          (by rw [q1]; intro x hx; exact hnul x (by rw [hbb]; simp only [List.cons_append, List.mem_cons]; exact .inr hx))
          (by rw [q6, hah2]; exact hcuts.tail) hat' (by rw [q6]; exact hf') (hcorr hf')
          (by intro b' r' _; rw [q4]; exact Nat.zero_le _) (.inr ⟨q4, q5⟩)
        unfold PumpRes at this
        rw [hah2, q6] at this
        have hsame : ∀ x, t2.same x → t.same x := by
          rintro x ⟨a1, a2, a3, a4⟩
          exact ⟨a1.trans q6, a2.trans q7, a3.trans q8, a4.trans q9⟩
        revert this
        rcases (s'.resume t.opts (rest ++ t.pending.flatten).flatten).toL with e | ⟨c, k⟩
        · rintro ⟨g1, g2, g3, g4⟩
          refine ⟨g1, g2, g3, fun he => ?_⟩
          obtain ⟨a1, a2, a3, a4, a5, s2, a6, a7, a8⟩ := g4 he
          refine ⟨a1, a2, a3, a4, hsame _ a5, s2, ?_, a7, ?_⟩
          · rw [spot_append]; exact a6
          · intro hl w
            rw [spot_append] at hl
            rw [List.append_assoc, happ (safe_not_lost hsafe), hx]
            exact a8 hl w
        · rintro ⟨t', tok, b', r', g1, g2, g3, g4, g5, g6, g7, g8, g9, g10, g11, g12, g13, g14, g15⟩
          exact ⟨t', tok, b', r', g1, g2, g3, g4, g5, g6, g7, g8, g9, g10, g11, hsame _ g12, fun g hg => q3 g (g13 g hg), g14, g15⟩

/-- Between two calls: the machine stopped in `s`, at the place `p`. -/
structure Fed (t : Tz) (s : Susp) (p : Spot) : Prop where
  scopes : t.scopes = []
  parsed : t.parsed = none
  pend : ∀ g ∈ t.pending, g ≠ []
  nul : ∀ x ∈ t.bufs ++ t.pending.flatten, 0 ∉ x
  cuts : CutsAt t.opts p t.ahead
  at' : s.At p ∨ p.lost
  corr : s.Fine t.opts → s.Corr (if t.continueAfter then t else t.resetForNewToken)
  cur : ∀ b r, t.bufs = b :: r → t.cursor ≤ b.length
  first : t.bufs = [] → t.cursor = 0
  mid : (∃ x, s = .tokEnd x ∨ s = .name x) ∨ (t.cursor = 0 ∧ t.dataStart = 0)

theorem susp_at (c : LC) : c.susp.At c.spot := by
  unfold LC.susp LC.spot
  cases c.te <;> rfl

theorem susp_fine (o : Opts) (c : LC) : c.susp.Fine o := by
  unfold LC.susp
  cases c.te <;> trivial

theorem susp_mid (c : LC) : ∃ x, c.susp = .tokEnd x ∨ c.susp = .name x := by
  unfold LC.susp
  cases c.te
  · exact ⟨_, .inr rfl⟩
  · exact ⟨_, .inl rfl⟩

theorem susp_corr (t : Tz) (te exp : Bool) (stack : List Ty) (rest : Bytes) (h1 : te = (t.tokenState == .findingTokenEnd)) (h2 : exp = t.expecting) (h3 : stack = t.stack)
    (h4 : t.propState = .noStartFound) (h5 : t.inter = {}) (h6 : t.isEscaped = false)
    (h7 : t.tokenState = .findingName ∨ t.tokenState = .findingTokenEnd) : (LC.susp ⟨te, exp, stack, rest⟩).Corr t := by
  subst h1 h2 h3
  unfold LC.susp
  rcases h7 with h | h
  · simp only [h]
    exact ⟨⟨rfl, rfl⟩, h, h4, h5, h6⟩
  · simp only [h]
    exact ⟨⟨rfl, rfl⟩, h, h4, h5, h6⟩

/-- What `nextToken` returns for the text ahead. -/
def NextRes (t : Tz) (s : Susp) (p : Spot) (r : Err × Tz × Token) : Prop :=
  match lFin (s.resume t.opts t.ahead.flatten).toL with
  | .error e => r.1 = e ∧ e ≠ .noError ∧ (e = .needMoreData → r.2.1.bufs = [] ∧ r.2.1.pending = [] ∧
      r.2.1.opts = t.opts ∧ r.2.1.continueAfter = true ∧
      ∃ s', Fed r.2.1 s' (p.after t.opts t.ahead.flatten) ∧
          (¬ (p.after t.opts t.ahead.flatten).lost → ∀ w, (s.resume t.opts (t.ahead.flatten ++ w)).toL = (s'.resume t.opts w).toL))
  | .ok (c, k) => ∃ t' tok, r = (.noError, t', tok) ∧ tok.tok = k ∧ Fed t' c.susp c.spot ∧ c.rest = t'.ahead.flatten ∧
      t'.ahead ≠ [] ∧ t'.opts = t.opts ∧ (∀ w, lFin (s.resume t.opts (t.ahead.flatten ++ w)).toL = .ok (c.add w, k))

theorem lFin_more {x : LRes (LC × Tok)} (h : lFin x = .error .needMoreData) : x = .error .needMoreData := by
  rcases x with e | ⟨c, k⟩
  · exact h
  · exfalso
    unfold lFin at h
    revert h
    simp only
    repeat' split
    all_goals simp

theorem nul_ahead {t : Tz} (h : ∀ x ∈ t.bufs ++ t.pending.flatten, 0 ∉ x) : 0 ∉ t.ahead.flatten := by
  intro hh
  rw [List.mem_flatten] at hh
  obtain ⟨x, h1, h2⟩ := hh
  unfold Tz.ahead at h1
  rcases hb : t.bufs with _ | ⟨b, r⟩
  · rw [hb] at h1
    exact h x (by rw [hb]; simpa using h1) h2
  · rw [hb] at h1
    simp only [List.mem_cons] at h1
    rcases h1 with rfl | h1
    · exact h b (by rw [hb]; simp) (List.mem_of_mem_drop h2)
    · exact h x (by rw [hb]; simp only [List.cons_append, List.mem_cons]; exact .inr h1) h2

theorem next_fed_bufs (t : Tz) (s : Susp) (p : Spot) (next : Token) (h : Fed t s p) (hat : s.At p) (hb : t.bufs ≠ []) (hf : s.Fine t.opts) :
    NextRes t s p (t.nextToken next) := by
  have hnt : t.nextToken next = (
      let r := Tz.pump t.supply (if t.continueAfter then t else t.resetForNewToken)
      let t' := { r.2.1 with continueAfter := r.1 == .needMoreData }
      match r.2.2 with
      | none => (r.1, t', next)
      | some tok => ((t'.finish tok).1, (t'.finish tok).2, tok)) := by
    unfold Tz.nextToken
    simp only [h.scopes, h.parsed, hb, if_false]
    have : (if t.continueAfter = true then t else t.resetForNewToken).supply = t.supply := by split <;> rfl
    rw [this]
    rfl
  have hp := pump_cut t.supply (if t.continueAfter then t else t.resetForNewToken) s p
    (by split <;> exact Nat.le_refl _) (by split <;> exact hb) 
    (by split <;> exact h.pend) (by split <;> exact h.nul) (by split <;> exact h.cuts) hat (by split <;> exact hf) (h.corr hf)
    (by split <;> exact h.cur) (by
      split
      · exact h.mid
      · rcases h.mid with hm | hm
        · exact .inl hm
        · exact .inr ⟨hm.1, rfl⟩)
  have hah : (if t.continueAfter then t else t.resetForNewToken).ahead = t.ahead := by split <;> rfl
  have hop : (if t.continueAfter then t else t.resetForNewToken).opts = t.opts := by split <;> rfl
  have hpe : (if t.continueAfter then t else t.resetForNewToken).pending = t.pending := by split <;> rfl
  have hsame : ∀ x, (if t.continueAfter then t else t.resetForNewToken).same x → t.same x := by
    intro x; split <;> exact id
  rw [hnt]
  unfold PumpRes at hp
  rw [hah, hop, hpe] at hp
  unfold NextRes
  generalize Tz.pump t.supply (if t.continueAfter then t else t.resetForNewToken) = r at *
  rcases hx : (s.resume t.opts t.ahead.flatten).toL with e | ⟨c, k⟩
  · rw [hx] at hp
    obtain ⟨h1, h2, h3, h4⟩ := hp
    simp only [lFin, h3]
    refine ⟨h1, h2, fun he => ?_⟩
    obtain ⟨a1, a2, a3, a4, a5, s', a6, a7, a8⟩ := h4 he
    obtain ⟨e1, e2, e3, e4⟩ := hsame _ a5
    refine ⟨a1, a2, e1, by rw [h1, he]; rfl, s', ?_, a8⟩
    refine ⟨by simp only; rw [e2]; exact h.scopes,
      by simp only; rw [e4]; exact h.parsed, by simp only; rw [a2]; simp, by simp only; rw [a1, a2]; simp, ?_, a6, ?_,
      by intro b r hbb; simp only at hbb; rw [a1] at hbb; simp at hbb, fun _ => a3, .inr ⟨a3, a4⟩⟩
    · have : Tz.ahead { r.2.1 with continueAfter := (r.1 == Err.needMoreData) } = [] := by
        unfold Tz.ahead; simp [a1, a2]
      rw [this]
      intro pre post g1 g2 g3
      exact absurd (List.append_eq_nil_iff.1 g1.symm).1 g2
    · intro hfin
      simp only at hfin
      rw [e1] at hfin
      simp only [h1, he]
      exact corr_congr (a7 hfin) rfl rfl rfl rfl rfl rfl
  · rw [hx] at hp
    obtain ⟨t', tok, b, rest, g1, g2, g3, g4, g5, g6, g7, g8, g9, g10, g11, g12, g13, g14, g15⟩ := hp
    subst g1
    obtain ⟨e1, e2, e3, e4⟩ := hsame _ g12
    have hkv : k.valueType = tok.valueType := by rw [← g2]; rfl
    have hdone : ∃ c0, s.resume t.opts t.ahead.flatten = .done c0 k ∧ c0 = c := by
      cases hy : s.resume t.opts t.ahead.flatten <;> rw [hy] at hx <;> simp [SRes.toL] at hx
      obtain ⟨rfl, rfl⟩ := hx
      exact ⟨_, rfl, rfl⟩
    obtain ⟨c0, hd, rfl⟩ := hdone
    have happ' (w : Bytes) : lFin (s.resume t.opts (t.ahead.flatten ++ w)).toL =
        match lFin (.ok (c0, k)) with | .error e => .error e | .ok (c', k') => .ok (c'.add w, k') := by
      rw [resume_append t.opts s t.ahead.flatten w (nul_ahead h.nul) (whole_done hd), hd, SRes.on, lFin_add]
    have hfed (st : List Ty) (te exp : Bool) (hte : te = c0.te) (hexp : exp = c0.exp) (hcuts : CutsAt t.opts (LC.spot ⟨te, exp, st, c0.rest⟩) t'.ahead) :
        Fed { t' with continueAfter := (Err.noError == Err.needMoreData), stack := st, scopes := [] } (LC.susp ⟨te, exp, st, c0.rest⟩) (LC.spot ⟨te, exp, st, c0.rest⟩) := by
      refine ⟨rfl,
        by simp only; rw [e4]; exact h.parsed, fun g hg => h.pend g (g13 g hg), g14, by simp only; rw [e1]; exact hcuts, .inl (susp_at _), ?_,
        by intro b' r' hbb; simp only at hbb; rw [g3] at hbb; simp only [List.cons.injEq] at hbb; obtain ⟨rfl, -⟩ := hbb; exact g4,
        by intro hbb; simp only at hbb; rw [g3] at hbb; simp at hbb, .inl (susp_mid _)⟩
      intro _
      refine susp_corr _ te exp st _ (by rw [hte, g5]; rfl) (by rw [hexp, g6]; rfl) rfl rfl (by exact g10) g9 g11
    have hne : t'.ahead ≠ [] := by unfold Tz.ahead; rw [g3]; simp
    obtain ⟨cte, cexp, cst, crest⟩ := c0
    simp only at g5 g6 g7 g8
    have hres := happ'
    simp only [lFin, hkv] at g15 hres ⊢
    simp only [Tz.finish]
    have hsc : t'.scopes = [] := by rw [e2]; exact h.scopes
    cases hv : tok.valueType <;> simp only [hv, hkv, reduceCtorEq, or_self, or_false, or_true, if_true, if_false, hsc, handleScope] at g15 hres ⊢
    all_goals first
      | exact ⟨_, tok, rfl, g2, hfed _ _ _ rfl rfl (g15 _ _ rfl), g8, hne, e1, hres⟩
      | skip
    all_goals
      rcases hst : cst with _ | ⟨⟨⟩, r⟩ <;> simp only [hst] at g15 hres g7 ⊢ <;> simp only [← g7]
      all_goals first
        | exact ⟨_, tok, rfl, g2, hfed _ _ _ rfl rfl (g15 _ _ rfl), g8, hne, e1, hres⟩
        | simp

end JsonStruct
