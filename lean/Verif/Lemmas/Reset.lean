import Verif.Lemmas.Doc

/- Whole runs of the light machine, and `resetData`. -/

namespace JsonStruct

set_option linter.unusedSimpArgs false

/-- `collect` on the light machine. -/
def lCollect (o : Opts) : Nat → LC → List Tok × Err
  | 0, _ => ([], .noError)
  | n + 1, c =>
    match lNext o c with
    | .error e => ([], e)
    | .ok (c', k) => let r := lCollect o n c'; (k :: r.1, r.2)

theorem collect_light {buf : Bytes} (n : Nat) {t : Tz} {next : Token} (h : Good t buf) (hs : t.scopes = []) :
    ((Tz.collect n t next).1.map Token.tok, (Tz.collect n t next).2.1) = lCollect t.opts n (t.light buf) := by
  induction n generalizing t next with
  | zero => rfl
  | succ n ih =>
    have hl := nextToken_light t buf next h (by simp [hs])
    unfold lCollect
    cases hx : lNext t.opts (t.light buf) with
    | error e =>
      rw [hx] at hl
      obtain ⟨h1, h2⟩ := hl
      simp only [Tz.collect, h1, h2, if_false, List.map_nil, and_self]
    | ok x =>
      obtain ⟨c', k⟩ := x
      rw [hx] at hl
      obtain ⟨t', tok, g1, g2, g3, g4, g5, g6⟩ := hl
      simp only [Tz.collect, g1, if_true, List.map_cons]
      have := ih (next := tok) g3 (by rw [g5, hs]; rfl)
      rw [g6.1, g4] at this
      rw [← this, g2]

theorem tokenize_light (o : Opts) (buf : Bytes) : tokenize o buf = lCollect o (buf.length + 1) ⟨false, false, [], buf⟩ := by
  have hg : Good ({ Tz.new o with bufs := [buf] } : Tz) buf :=
    ⟨rfl, rfl, ⟨rfl, rfl, Nat.zero_le _⟩, by simp [Tz.new], rfl, .inl rfl⟩
  have := collect_light (buf.length + 1) (next := {}) hg rfl
  unfold tokenize tokenizeAll
  simp only [List.flatten_cons, List.flatten_nil, List.append_nil]
  exact this

theorem lCollect_sim (o : Opts) {c c' : LC} (h : Sim o c c') (n : Nat) : lCollect o n c = lCollect o n c' := by
  cases n with
  | zero => rfl
  | succ n => unfold lCollect; rw [h]

/-- Outside all containers the two leftovers of earlier parsing do not matter. -/
theorem sim_root (o : Opts) (te e : Bool) (he : EOk o e) (b : Bytes) : Sim o ⟨te, e, [], b⟩ ⟨false, false, [], b⟩ := by
  have hx : (e && !o.superfluousComma) = false := by
    cases e
    · rfl
    · simp [he rfl]
  have hl : lFin (lName o ⟨false, e, [], b⟩) = lFin (lName o ⟨false, false, [], b⟩) := by
    unfold lName
    by_cases hb : b.isEmpty = true
    · simp only [hb, if_true]
    · simp only [hb, if_false]
      cases lValue o b with
      | error e => rfl
      | ok x =>
        obtain ⟨ty, d, r⟩ := x
        cases ty <;> simp only [hx, Bool.false_and, Bool.false_eq_true, if_false, lDelimiter, lFin, anonTok]
  unfold Sim
  rw [lNext_fin, lNext_fin]
  unfold lPop
  by_cases hb : b.isEmpty = true
  · simp only [hb, if_true]
  · simp only [hb, if_false]
    cases te
    · simp only [Bool.false_eq_true, if_false]; exact hl
    · simp only [Bool.false_eq_true, if_false, if_true]; exact hl

/-- A tokenizer for which `resetData` is a fresh start. -/
structure AtRest (t : Tz) : Prop where
  stack : t.stack = []
  esc : t.isEscaped = false
  scopes : t.scopes = []
  pending : t.pending = []
  state : t.tokenState = .findingName ∨ t.tokenState = .findingTokenEnd
  exp : EOk t.opts t.expecting

theorem inter_clear (i : Inter) : i.clear.active = false := by
  unfold Inter.clear
  cases h : i.active <;> simp [h]

theorem resetData_fresh {t : Tz} (h : AtRest t) (b : Bytes) (n : Nat) (next : Token) :
    ((Tz.collect n (t.resetData b 0) next).1.map Token.tok, (Tz.collect n (t.resetData b 0) next).2.1) =
      lCollect t.opts n ⟨false, false, [], b⟩ := by
  have key : ∀ t' : Tz, t'.opts = t.opts → t'.stack = [] → t'.scopes = [] → t'.expecting = t.expecting → Good t' b → t'.cursor = 0 →
      ∀ next, ((Tz.collect n t' next).1.map Token.tok, (Tz.collect n t' next).2.1) = lCollect t.opts n ⟨false, false, [], b⟩ := by
    intro t' h1 h2 h3 h4 h5 h6 next
    rw [collect_light n h5 h3, h1]
    apply lCollect_sim
    unfold Tz.light
    rw [h2, h4, h6, List.drop_zero]
    exact sim_root t.opts _ _ h.exp b
  refine key (t.resetData b 0) rfl h.stack h.scopes rfl ⟨rfl, h.pending, ⟨inter_clear _, h.esc, Nat.zero_le _⟩, ?_, rfl, h.state⟩ rfl next
  intro _
  simp [Tz.resetData, Tz.resetForNewToken, Tz.resetForNewValue, Inter.clear, inter_clear]
  intro hh
  have := inter_clear t.inter
  unfold Inter.clear at this
  simp [hh] at this

/-- Reading on in blank text outside all containers leaves a tokenizer at rest. -/
theorem atRest_blank {t : Tz} {buf : Bytes} (h : Good t buf) (hn : t.opts.newLines = false) (hr : AtRest t)
    (hb : GapO t.opts.comments (buf.drop t.cursor)) (next : Token) :
    (t.nextToken next).1 = .needMoreData ∧ AtRest (t.nextToken next).2.1 ∧ (t.nextToken next).2.1.opts = t.opts := by
  rw [nextToken_one t buf next h (by simp [hr.scopes])]
  have hst := findStart_light t.opts buf t.cursor
  have hgap : lStart t.opts (buf.drop t.cursor) 0 = .error .needMoreData := by
    have := lStart_gap t.opts hn (buf.drop t.cursor) [] hb
    rw [List.append_nil] at this
    rw [this]; rfl
  rw [hgap] at hst
  have hname : ∀ n (t' : Tz), t'.tokenState = .findingName → t'.propState = .noStartFound → t'.opts = t.opts → t'.cursor = t.cursor → AtRest t' →
      (Tz.populateLoop n t' buf {}).1 = .needMoreData ∧ AtRest (Tz.populateLoop n t' buf {}).2.1 ∧ (Tz.populateLoop n t' buf {}).2.1.opts = t.opts := by
    intro n t' h1 h2 h3 h4 h5
    cases n with
    | zero => exact ⟨rfl, h5, h3⟩
    | succ n =>
      unfold Tz.populateLoop
      split
      · have hp : t'.populateFrom buf t'.inter.nameType = ⟨.needMoreData, t'.cursor, 0, .error, { t' with cursor := (findStart t.opts buf t.cursor).cursor }⟩ := by
          unfold Tz.populateFrom
          simp only [h2, h3, h4, hst.1, ne_eq, reduceCtorEq, not_false_eq_true, if_true]
        simp only [Tz.step, h1, Tz.stepName, hp, if_true, h2, ne_eq, not_true_eq_false, if_false]
        exact ⟨trivial, ⟨h5.stack, h5.esc, h5.scopes, h5.pending, .inl rfl, h5.exp⟩, h3⟩
      · exact ⟨rfl, h5, h3⟩
  have hloop : (t.resetForNewToken.populateNext buf).1 = .needMoreData ∧ AtRest (t.resetForNewToken.populateNext buf).2.1 ∧
      (t.resetForNewToken.populateNext buf).2.1.opts = t.opts := by
    have hr' : AtRest t.resetForNewToken := ⟨hr.stack, hr.esc, hr.scopes, hr.pending, hr.state, hr.exp⟩
    rcases hr.state with hs | hs
    · exact hname 4 _ hs rfl rfl rfl hr'
    · unfold Tz.populateNext Tz.populateLoop
      split
      · have hs' : t.resetForNewToken.tokenState = .findingTokenEnd := hs
        have hk : t.resetForNewToken.stack = [] := hr.stack
        simp only [Tz.step, hs', Tz.stepTokenEnd, hk, findTokenEnd, ne_eq, not_true_eq_false, if_false, Bool.or_false, Nat.add_zero]
        exact hname 3 _ rfl rfl rfl rfl ⟨rfl, hr.esc, hr.scopes, hr.pending, .inl rfl, hr.exp⟩
      · exact ⟨rfl, hr', rfl⟩
  obtain ⟨h1, h2, h3⟩ := hloop
  simp only [h1, if_true]
  generalize (t.resetForNewToken.populateNext buf).2.1 = t2 at *
  have hrel : AtRest t2.releaseFirst ∧ t2.releaseFirst.opts = t.opts := by
    unfold Tz.releaseFirst
    split
    · exact ⟨h2, h3⟩
    · exact ⟨⟨h2.stack, h2.esc, h2.scopes, h2.pending, h2.state, h2.exp⟩, h3⟩
  obtain ⟨h4, h5⟩ := hrel
  have : t2.releaseFirst.requestMoreData = t2.releaseFirst := by
    unfold Tz.requestMoreData; rw [h4.pending]
  rw [this]
  exact ⟨trivial, ⟨h4.stack, h4.esc, h4.scopes, h4.pending, h4.state, h4.exp⟩, h5⟩

/-- With no buffer left nothing changes. -/
theorem atRest_empty {t : Tz} (hb : t.bufs = []) (hr : AtRest t) (hp : t.parsed = none) (next : Token) :
    t.nextToken next = (.needMoreData, t, next) := by
  have : t.requestMoreData = t := by unfold Tz.requestMoreData; rw [hr.pending]
  unfold Tz.nextToken
  simp only [hr.scopes, hp, hb, if_true, this]

theorem collect_atRest {buf : Bytes} (n : Nat) {t : Tz} {next : Token} {ks : List Tok} {w : Bytes} {te e : Bool} (h : Good t buf)
    (hn : t.opts.newLines = false) (hs : t.scopes = []) (hr : Run t.opts (t.light buf) ks ⟨te, e, [], w⟩) (he : EOk t.opts e)
    (hw : GapO t.opts.comments w) (hlen : ks.length ≤ n) :
    AtRest (Tz.collect n t next).2.2 ∧ (Tz.collect n t next).2.2.opts = t.opts := by
  have hnil : ks = [] → AtRest t ∧ GapO t.opts.comments (buf.drop t.cursor) := by
    rintro rfl
    generalize hc : t.light buf = c at hr
    cases hr
    have h1 : t.stack = [] := congrArg LC.stack hc
    have h2 : t.expecting = e := congrArg LC.exp hc
    have h3 : buf.drop t.cursor = w := congrArg LC.rest hc
    exact ⟨⟨h1, h.clean.esc, hs, h.pending, h.state, by rw [h2]; exact he⟩, by rw [h3]; exact hw⟩
  induction n generalizing t next ks with
  | zero =>
    have := hnil (by simpa using hlen)
    exact ⟨this.1, rfl⟩
  | succ n ih =>
    cases ks with
    | nil =>
      have := atRest_blank h hn (hnil rfl).1 (hnil rfl).2 next
      simp only [Tz.collect, this.1, reduceCtorEq, if_false]
      exact this.2
    | cons k ks =>
      have hl := nextToken_light t buf next h (by simp [hs])
      cases hr with
      | cons h1 h2 =>
      rw [h1] at hl
      obtain ⟨t', tok, g1, g2, g3, g4, g5, g6⟩ := hl
      simp only [Tz.collect, g1, if_true]
      rw [← g4] at h2
      rw [← g6.1] at h2 he hw hn ⊢
      refine ih g3 hn (by rw [g5, hs]; rfl) h2 he hw (by simpa using hlen) ?_
      rintro rfl
      generalize hc : t'.light buf = c at h2
      cases h2
      have h1 : t'.stack = [] := congrArg LC.stack hc
      have h2 : t'.expecting = e := congrArg LC.exp hc
      have h3 : buf.drop t'.cursor = w := congrArg LC.rest hc
      exact ⟨⟨h1, g3.clean.esc, by rw [g5, hs]; rfl, g3.pending, g3.state, by rw [h2]; exact he⟩, by rw [h3]; exact hw⟩

end JsonStruct
