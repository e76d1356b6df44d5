import Verif.Model.Feed
import Verif.Lemmas.CutRun
import Verif.Props.Tokenizer

namespace JsonStruct

set_option linter.unusedSimpArgs false

theorem next_fed (t : Tz) (s : Susp) (p : Spot) (next : Token) (h : Fed t s p) (ha : s.At p) (hne : t.ahead ≠ []) (hf : s.Fine t.opts) :
    NextRes t s p (t.nextToken next) := by
  by_cases hb : t.bufs = []
  · rcases hp : t.pending with _ | ⟨g, gs⟩
    · exact absurd (by unfold Tz.ahead; simp [hb, hp]) hne
    have hg : g ≠ [] := h.pend g (by simp [hp])
    have hc0 := h.first hb
    have hrq : t.requestMoreData = { t with bufs := g, pending := gs } := by
      unfold Tz.requestMoreData; rw [hp]; simp [hb]
    have hah : t.requestMoreData.ahead = t.ahead := by
      rw [hrq]
      unfold Tz.ahead
      simp only [hb, hp, hc0, List.flatten_cons]
      rcases g with _ | ⟨b, r⟩
      · exact absurd rfl hg
      · simp
    have hnt : t.nextToken next = t.requestMoreData.nextToken next := by
      have h1 : t.requestMoreData.bufs ≠ [] := by rw [hrq]; exact hg
      have h2 : t.requestMoreData.scopes = [] := by rw [hrq]; exact h.scopes
      have h3 : t.requestMoreData.parsed = none := by rw [hrq]; exact h.parsed
      unfold Tz.nextToken
      simp only [h.scopes, h.parsed, hb, h1, h2, h3, if_true, if_false]
    rw [hnt]
    have hfed : Fed t.requestMoreData s p := by
      refine ⟨by rw [hrq]; exact h.scopes, by rw [hrq]; exact h.parsed,
        ?_, ?_, by rw [hah, hrq]; exact h.cuts, h.at', ?_, ?_, ?_, by rw [hrq]; exact h.mid⟩
      · rw [hrq]; intro x hx; exact h.pend x (by rw [hp]; simp only at hx; simp [hx])
      · rw [hrq]
        have := h.nul
        rw [hb, hp] at this
        simpa using this
      · intro hfin
        rw [hrq] at hfin ⊢
        have := h.corr hfin
        simp only at this ⊢
        split
        · rename_i hca; rw [if_pos hca] at this; exact corr_congr this rfl rfl rfl rfl rfl rfl
        · rename_i hca; rw [if_neg hca] at this; exact corr_congr this rfl rfl rfl rfl rfl rfl
      · rw [hrq]; simp only; rw [hc0]; exact fun _ _ _ => Nat.zero_le _
      · rw [hrq]; exact fun hh => absurd hh hg
    have := next_fed_bufs t.requestMoreData s p next hfed ha (by rw [hrq]; exact hg) (by rw [hrq]; exact hf)
    unfold NextRes at *
    rw [hah, show t.requestMoreData.opts = t.opts by rw [hrq]] at this
    exact this
  · exact next_fed_bufs t s p next h ha hb hf

/-- Successive calls of the machine. -/
inductive LRun (o : Opts) : Susp → Bytes → List Tok → Err → Prop
  | stop {s w e} : lFin (s.resume o w).toL = .error e → LRun o s w [] e
  | step {s w c k ks e} : lFin (s.resume o w).toL = .ok (c, k) → LRun o c.susp c.rest ks e → LRun o s w (k :: ks) e

theorem LRun.det {o : Opts} {s : Susp} {w : Bytes} {ks ls : List Tok} {e f : Err} (h : LRun o s w ks e) (g : LRun o s w ls f) :
    ks = ls ∧ e = f := by
  induction h generalizing ls f with
  | stop h =>
    cases g with
    | stop g => rw [h] at g; simp at g; exact ⟨rfl, g⟩
    | step g _ => rw [h] at g; simp at g
  | step h _ ih =>
    cases g with
    | stop g => rw [h] at g; simp at g
    | step g g' =>
      rw [h] at g
      simp only [Except.ok.injEq, Prod.mk.injEq] at g
      obtain ⟨rfl, rfl⟩ := g
      obtain ⟨rfl, rfl⟩ := ih g'
      exact ⟨rfl, rfl⟩

/-- Reading all tokens of the text ahead. -/
theorem collect_fed (n : Nat) (t : Tz) (s : Susp) (p : Spot) (next : Token) (h : Fed t s p) (ha : s.At p) (hne : t.ahead ≠ []) (hf : s.Fine t.opts)
    (hstop : (Tz.collect n t next).2.1 ≠ .noError) :
    let r := Tz.collect n t next
    LRun t.opts s t.ahead.flatten (r.1.map Token.tok) r.2.1 ∧
    (r.2.1 ≠ .needMoreData → ¬ (p.after t.opts t.ahead.flatten).lost → ∀ w, LRun t.opts s (t.ahead.flatten ++ w) (r.1.map Token.tok) r.2.1) ∧
    (r.2.1 = .needMoreData → r.2.2.bufs = [] ∧ r.2.2.pending = [] ∧ r.2.2.opts = t.opts ∧
      ∃ s' q, Fed r.2.2 s' q ∧ ((p.after t.opts t.ahead.flatten).lost ∨ q = p.after t.opts t.ahead.flatten) ∧
      (¬ (p.after t.opts t.ahead.flatten).lost → ∀ w ks e, LRun t.opts s' w ks e → LRun t.opts s (t.ahead.flatten ++ w) (r.1.map Token.tok ++ ks) e)) := by
  induction n generalizing t s p next with
  | zero => simp [Tz.collect] at hstop
  | succ n ih =>
    have hn := next_fed t s p next h ha hne hf
    unfold NextRes at hn
    rcases hx : lFin (s.resume t.opts t.ahead.flatten).toL with e | ⟨c, k⟩
    · rw [hx] at hn
      obtain ⟨h1, h2, h3⟩ := hn
      simp only [Tz.collect, h1, h2, if_false, List.map_nil]
      refine ⟨.stop hx, fun he hl w => .stop ?_, fun he => ?_⟩
      · rw [resume_append t.opts s t.ahead.flatten w (nul_ahead h.nul) (whole_at t.opts s _ (nul_ahead h.nul) p ha hl)]
        cases hy : s.resume t.opts t.ahead.flatten with
        | done c0 k0 =>
          rw [hy] at hx
          rw [SRes.on, lFin_add, show lFin (Except.ok (c0, k0)) = .error e from hx]
        | err e' => rw [hy] at hx; exact hx
        | more s0 => rw [hy] at hx; simp only [SRes.toL, lFin, Except.error.injEq] at hx; exact absurd hx.symm he
      obtain ⟨a1, a2, a3, a4, s', a5, a6⟩ := h3 he
      refine ⟨a1, a2, a3, s', _, a5, .inr rfl, fun hl w ks e hr => ?_⟩
      rw [List.nil_append]
      cases hr with
      | stop g => exact .stop (by rw [a6 hl]; exact g)
      | step g g' => exact .step (by rw [a6 hl]; exact g) g'
    · rw [hx] at hn
      obtain ⟨t', tok, g1, g2, g3, g4, g5, g6, g7⟩ := hn
      simp only [Tz.collect, g1, if_true] at hstop ⊢
      have := ih t' c.susp c.spot tok g3 (susp_at c) g5 (susp_fine _ _) hstop
      simp only [g6] at this
      obtain ⟨b1, b3, b2⟩ := this
      have htr : (p.after t.opts t.ahead.flatten).lost ∨ p.after t.opts t.ahead.flatten = c.spot.after t.opts t'.ahead.flatten := by
        rw [← g4]
        have := resume_at t.opts s t.ahead.flatten (nul_ahead h.nul) p (fine_plain hf) ha
        rcases this with this | this
        · exact .inl this
        · cases hy : s.resume t.opts t.ahead.flatten with
          | done c0 k0 =>
            rw [hy] at this hx
            exact .inr (this c k hx)
          | err e => rw [hy] at hx; simp [SRes.toL, lFin] at hx
          | more s0 => rw [hy] at hx; simp [SRes.toL, lFin] at hx
      have keep (hl : ¬ (p.after t.opts t.ahead.flatten).lost) : ¬ (c.spot.after t.opts t'.ahead.flatten).lost := by
        rcases htr with htr | htr
        · exact absurd htr hl
        · rwa [htr] at hl
      refine ⟨?_, fun he hl w => ?_, fun he => ?_⟩
      · rw [List.map_cons, g2]
        exact .step hx (by rw [g4]; exact b1)
      · rw [List.map_cons, g2]
        refine .step (g7 w) ?_
        have := b3 he (keep hl) w
        rw [← g4] at this
        exact this
      · obtain ⟨a1, a2, a3, s', q, a4, a5, a6⟩ := b2 he
        refine ⟨a1, a2, a3, s', q, a4, ?_, fun hl w ks e hr => ?_⟩
        · rcases htr with htr | htr
          · exact .inl htr
          · rw [htr]; exact a5
        · rw [List.map_cons, g2, List.cons_append]
          refine .step (g7 w) ?_
          have := a6 (keep hl) w ks e hr
          rw [← g4] at this
          exact this

theorem collect_ok (n : Nat) (t : Tz) (next : Token) (h : t.Ok) (hp : t.parsed = none) : (Tz.collect n t next).2.2.Ok := by
  induction n generalizing t next with
  | zero => exact h
  | succ n ih =>
    simp only [Tz.collect]
    have hk := nextToken_ok t next h hp
    split
    · exact ih _ _ hk.inv hk.parsed
    · exact hk.inv

theorem fed_new (o : Opts) (bs : List Bytes) (gs : List (List Bytes))
    (h0 : ∀ x ∈ bs ++ gs.flatten, 0 ∉ x) (hg : ∀ g ∈ gs, g ≠ []) (hs : SafeCuts o (bs ++ gs.flatten)) :
    Fed { Tz.new o with bufs := bs, pending := gs } (.name ⟨false, []⟩) (.item, []) := by
  have hah : Tz.ahead { Tz.new o with bufs := bs, pending := gs } = bs ++ gs.flatten := by
    unfold Tz.ahead
    cases bs <;> simp [Tz.new]
  refine ⟨rfl, rfl, hg, h0, ?_, .inl rfl, fun _ => ⟨⟨rfl, rfl⟩, rfl, rfl, rfl, rfl⟩, fun _ _ _ => Nat.zero_le _, fun _ => rfl, .inl ⟨_, .inr rfl⟩⟩
  rw [hah]
  intro pre post h1 _ h3
  exact hs pre post h1 h3

theorem ahead_new (o : Opts) (bs : List Bytes) (gs : List (List Bytes)) :
    Tz.ahead { Tz.new o with bufs := bs, pending := gs } = bs ++ gs.flatten := by
  unfold Tz.ahead
  cases bs <;> simp [Tz.new]

theorem ok_new (o : Opts) (bs : List Bytes) (gs : List (List Bytes)) : Tz.Ok { Tz.new o with bufs := bs, pending := gs } :=
  ⟨by simp [Tz.new], by simp [Tz.new], by simp [Tz.new], by simp [Tz.new], by simp [Tz.new]⟩

theorem sum_flat (l : List (List Nat)) : l.flatten.sum = (l.map List.sum).sum := by
  induction l with
  | nil => rfl
  | cons a l ih => simp [ih]

/-- What a fresh tokenizer reads from buffers it has and buffers it is to be given. -/
theorem collect_new (o : Opts) (bs : List Bytes) (gs : List (List Bytes))
    (h0 : ∀ x ∈ bs ++ gs.flatten, 0 ∉ x) (hg : ∀ g ∈ gs, g ≠ []) (hs : SafeCuts o (bs ++ gs.flatten))
    (hne : bs ++ gs.flatten ≠ []) (n : Nat) (hlen : (bs ++ gs.flatten).flatten.length < n) :
    let r := Tz.collect n { Tz.new o with bufs := bs, pending := gs } {}
    LRun o (.name ⟨false, []⟩) (bs ++ gs.flatten).flatten (r.1.map Token.tok) r.2.1 := by
  have hfed := fed_new o bs gs h0 hg hs
  have hst := collect_stops n _ {} (ok_new o bs gs) rfl (by
    simp only [Tz.avail, Tz.pend, Tz.new]
    simp only [List.flatten_append, List.length_append, List.length_flatten] at hlen
    simp only [List.length_flatten, List.map_flatten, sum_flat, List.map_map] at hlen
    simpa [Function.comp_def] using hlen)
  have := (collect_fed n _ _ _ {} hfed rfl (by rw [ahead_new]; exact hne) trivial hst).1
  rw [ahead_new] at this
  exact this

theorem safeCuts_one (o : Opts) (b : Bytes) : SafeCuts o [b] := by
  intro pre post h1 h2
  cases pre with
  | nil => rfl
  | cons x pre =>
    simp only [List.cons_append, List.cons.injEq] at h1
    have := h1.2.symm
    rw [List.append_eq_nil_iff] at this
    exact absurd this.2 h2

theorem lrun_tokenize (o : Opts) (b : Bytes) (h0 : 0 ∉ b) :
    LRun o (.name ⟨false, []⟩) b (tokenize o b).1 (tokenize o b).2 := by
  have := collect_new o [b] [] (by simpa using h0) (by simp) (by simpa using safeCuts_one _ b) (by simp) (b.length + 1) (by simp)
  simp only [List.flatten_nil, List.append_nil, List.flatten_cons] at this
  unfold tokenize tokenizeAll
  simp only [List.flatten_cons, List.flatten_nil, List.append_nil]
  exact this

theorem tokenize_nil (o : Opts) : tokenize o [] = ([], .needMoreData) := by
  unfold tokenize tokenizeAll
  simp [Tz.collect, Tz.nextToken, Tz.new, Tz.supply, Tz.pump, Tz.resetForNewToken, Tz.resetForNewValue, Tz.populateNext, Tz.populateLoop,
    Tz.releaseFirst, Tz.requestMoreData]

theorem collect_idle (n : Nat) (t : Tz) (s : Susp) (p : Spot) (h : Fed t s p) (hb : t.bufs = []) (hp : t.pending = []) :
    Tz.collect (n + 1) t {} = ([], .needMoreData, t) := by
  have : t.nextToken {} = (.needMoreData, t, {}) := by
    unfold Tz.nextToken Tz.requestMoreData
    simp [h.scopes, h.parsed, hb, hp]
  simp [Tz.collect, this]

/-- A program adds the buffer `b` and then, one by one, `bs`. -/
theorem feed_fed (n : Nat) (b : Bytes) (bs : List Bytes) (t : Tz) (s : Susp) (p : Spot) (h : Fed t s p) (hok : t.Ok) (hb : t.bufs = [])
    (hp : t.pending = []) (h0 : ∀ x ∈ b :: bs, 0 ∉ x)
    (hs : ∀ pre post, b :: bs = pre ++ post → post ≠ [] → (p.after t.opts pre.flatten).safe (t.opts.simd != .scalar) = true)
    (hn : (b :: bs).flatten.length + 1 < n) :
    let r := Tz.feed n (t.addData b) bs
    LRun t.opts s (b :: bs).flatten (r.1.map Token.tok) r.2 := by
  have hadd (b : Bytes) (bs : List Bytes) (t : Tz) (s : Susp) (p : Spot) (h : Fed t s p) (hok : t.Ok) (hb : t.bufs = [])
      (hp : t.pending = []) (h0 : ∀ x ∈ b :: bs, 0 ∉ x)
      (hs : ∀ pre post, b :: bs = pre ++ post → post ≠ [] → (p.after t.opts pre.flatten).safe (t.opts.simd != .scalar) = true)
      (hn : (b :: bs).flatten.length + 1 < n) :
      Fed (t.addData b) s p ∧ s.At p ∧ (t.addData b).Ok ∧ (t.addData b).ahead = [b] ∧ s.Fine t.opts ∧
      (Tz.collect n (t.addData b) {}).2.1 ≠ .noError := by
    have hc0 := h.first hb
    have hah : (t.addData b).ahead = [b] := by
      unfold Tz.ahead Tz.addData; simp [hb, hp, hc0]
    have hsafe := hs [] (b :: bs) rfl (by simp)
    have ha : s.At p := by
      rcases h.at' with ha | ha
      · exact ha
      · exact absurd ha (safe_not_lost hsafe)
    have hf : s.Fine t.opts := At.fine ha hsafe
    have hok' : (t.addData b).Ok := by
      refine ⟨?_, ?_, hok.fe, hok.pe, hok.ds⟩
      · intro x r _; simp [Tz.addData, hc0]
      · intro hh; simp [Tz.addData] at hh
    refine ⟨⟨h.scopes, h.parsed, h.pend, ?_, by rw [hah]; exact cutsAt_one _ _ _, h.at', ?_, ?_, ?_, h.mid⟩, ha, hok', hah, hf, ?_⟩
    · simp only [Tz.addData, hb, hp]; simpa using h0 b (by simp)
    · intro hfin
      have := h.corr hfin
      have hca : (t.addData b).continueAfter = t.continueAfter := rfl
      rw [hca]
      cases hx : t.continueAfter <;> rw [hx] at this <;> exact corr_congr this rfl rfl rfl rfl rfl rfl
    · intro x r _; simp [Tz.addData, hc0]
    · intro hh; simp [Tz.addData] at hh
    · refine collect_stops n _ {} hok' h.parsed ?_
      have := Tz.pend_le (t.addData b)
      have hav : (t.addData b).avail = b.length := by simp [Tz.avail, Tz.addData, hb, hp, hc0]
      simp only [List.flatten_cons, List.length_append] at hn
      omega
  induction bs generalizing b t s p with
  | nil =>
    obtain ⟨h1, ha, h2, h3, h4, h5⟩ := hadd b [] t s p h hok hb hp h0 hs hn
    have := (collect_fed n _ s p {} h1 ha (by rw [h3]; simp) h4 h5).1
    rw [h3] at this
    exact this
  | cons b2 bs ih =>
    obtain ⟨h1, ha, h2, h3, h4, h5⟩ := hadd b (b2 :: bs) t s p h hok hb hp h0 hs hn
    obtain ⟨c1, c2, c3⟩ := collect_fed n _ s p {} h1 ha (by rw [h3]; simp) h4 h5
    simp only [h3, show (t.addData b).opts = t.opts from rfl] at c2 c3
    simp only [Tz.feed]
    split
    · rename_i he
      obtain ⟨d1, d2, d3, s', q, d4, d5, d6⟩ := c3 he
      have hsafe := hs [b] (b2 :: bs) rfl (by simp)
      have hl : ¬ (p.after t.opts b).lost := safe_not_lost (by simpa using hsafe)
      have hq : q = p.after t.opts b := by
        rcases d5 with d5 | d5
        · exact absurd (by simpa using d5) hl
        · simpa using d5
      subst hq
      have := ih b2 _ s' _ d4 (collect_ok n _ {} h2 h.parsed) d1 d2 (fun x hx => h0 x (by simp only [List.mem_cons] at hx ⊢; exact .inr hx))
        (by
          intro pre post g1 g2
          rw [d3]
          have := hs (b :: pre) post (by rw [g1]; rfl) g2
          rw [List.flatten_cons, spot_append] at this
          exact this) (by simp only [List.flatten_cons, List.length_append] at hn ⊢; omega)
      simp only [d3] at this
      have := d6 (by simpa using hl) _ _ _ this
      simpa using this
    · rename_i he
      have := c2 he (by simpa using safe_not_lost (hs [b] (b2 :: bs) rfl (by simp))) (b2 :: bs).flatten
      simpa using this

end JsonStruct
