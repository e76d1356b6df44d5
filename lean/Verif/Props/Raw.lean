import Verif.Lemmas.RawDoc
import Verif.Props.Success

/-
C41: raw capture is verbatim.

`JsonArray`, `JsonObject` and `JsonObjectOrArray` (and their `Ref` forms) are given a value whose opening bracket
`nextToken` has just delivered, in whatever way the tokenizer was used before.
-/

namespace JsonStruct

/-! ### Histories -/

theorem neat_step (w : World) (op : Op) (h : WorldInv w) (hn : w.tz.Neat) (hc : w.tz.copies = []) :
    (w.step op).tz.Neat ∧ (w.step op).tz.copies = [] := by
  cases op with
  | next =>
    have := nextToken_raw w.tz w.tok h.ok hn h.parsed
    obtain ⟨f, hf, _⟩ := this.moves.copies
    exact ⟨this.neat, by rw [hc] at hf; exact hf⟩
  | addData b => exact ⟨⟨hn.idle, fun hh => ⟨hn.idle, (hn.cont hh).name, (hn.cont hh).data⟩⟩, hc⟩
  | resetData b i =>
    have ht := tidy_reset hn.idle
    refine ⟨⟨ht.idle, fun _ => ⟨ht.idle, ?_, ?_⟩⟩, hc⟩
    · exact fun h1 h2 => ht.name h1 h2
    · exact fun h1 => ht.data h1
  | pushScope ty => exact ⟨⟨hn.idle, fun hh => ⟨hn.idle, (hn.cont hh).name, (hn.cont hh).data⟩⟩, hc⟩
  | popScope =>
    simp only [World.step, Tz.popScope]
    cases w.tz.scopes with
    | nil => exact ⟨hn, hc⟩
    | cons s r => exact ⟨⟨hn.idle, fun hh => ⟨hn.idle, (hn.cont hh).name, (hn.cont hh).data⟩⟩, hc⟩

theorem neat_run (o : Opts) (script : List (List Bytes)) (ops : List Op) (hv : ∀ op ∈ ops, op.valid) :
    (World.run o script ops).tz.Neat ∧ (World.run o script ops).tz.copies = [] := by
  have key : ∀ (ops : List Op) (w : World), (∀ op ∈ ops, op.valid) → WorldInv w → w.tz.Neat → w.tz.copies = [] →
      (ops.foldl World.step w).tz.Neat ∧ (ops.foldl World.step w).tz.copies = [] := by
    intro ops
    induction ops with
    | nil => exact fun w _ _ h1 h2 => ⟨h1, h2⟩
    | cons op ops ih =>
      intro w hv hi h1 h2
      obtain ⟨g1, g2⟩ := neat_step w op hi h1 h2
      exact ih (w.step op) (fun x hx => hv x (by simp [hx])) (worldInv_step w op (hv op (by simp)) hi) g1 g2
  have h0 := neat_new o
  exact key ops (World.init o script) hv (worldInv_run o script [] (by simp))
    ⟨h0.idle, fun h => ⟨h0.idle, (h0.cont h).name, (h0.cont h).data⟩⟩ rfl

/-- What a bracket just delivered tells. -/
structure Opened (c : Ctx) : Prop where
  sane : c.Sane
  neat : c.tz.Neat
  free : c.tz.copies = []
  at_ : ∃ b bs, c.tz.bufs = b :: bs ∧ BracketAt b c.tz c.token
  top : c.token.valueType = .arrayStart ∨ c.token.valueType = .objectStart → ∃ rest, c.tz.stack = c.token.valueType :: rest

theorem opened_run (o : Opts) (script : List (List Bytes)) (ops : List Op) (hv : ∀ op ∈ ops, op.valid) (p : POpts)
    (he : ((World.run o script ops).ctx p).next.error = .noError) : Opened ((World.run o script ops).ctx p).next := by
  have hi := worldInv_run o script ops hv
  obtain ⟨hn, hc⟩ := neat_run o script ops hv
  generalize World.run o script ops = w at *
  have hr := nextToken_raw w.tz w.tok hi.ok hn hi.parsed
  have hok := nextToken_ok w.tz w.tok hi.ok hi.parsed
  refine ⟨next_sane ⟨hi.ok, hi.parsed⟩, hr.neat, ?_, hr.at_ he, fun ht => ?_⟩
  · obtain ⟨f, hf, _⟩ := hr.moves.copies
    rw [hc] at hf; exact hf
  · have := hok.stack he
    simp only [Ctx.next, World.ctx] at ht ⊢
    rcases ht with ht | ht
    all_goals
      rw [ht] at this ⊢
      simp only [bracketStep, Option.some.injEq] at this
      exact ⟨_, this.symm⟩

theorem brackets_start {k : RawKind} {ty opn cls : Ty} (h : k.brackets ty = some (opn, cls)) :
    ty = opn ∧ (ty = .arrayStart ∨ ty = .objectStart) := by
  obtain ⟨h1, h2⟩ := opens_cases h
  refine ⟨h1, ?_⟩
  rcases h2 with ⟨h2, _⟩ | ⟨h2, _⟩ <;> simp [h1, h2]

theorem bare_of_free {t : Tz} (h : t.copies = []) : t.bare = t := by
  obtain ⟨⟩ := t
  simp only at h
  subst h
  rfl

/-! ### C41 -/

/-- **C41**, the owning forms. A tokenizer that was used in any way, with any split of the input into buffers; `nextToken`
has just delivered an opening bracket that the type accepts. Capturing the value ends, without undefined behaviour, and
if it returns `NoError`, then

- the tokens it read close the bracket, and none but the last of them does;
- what was added to the variable is exactly the input from the bracket delivered to the closing one;
- the input has the brackets at these two places, and the tokenizer is as if the tokens had been read without capturing.

If it returns an error, what was read is in the variable (`JsonArray` is different: below). -/
theorem C41_captured (k : RawKind) (addr : Nat) (o : Opts) (script : List (List Bytes)) (ops : List Op) (hv : ∀ op ∈ ops, op.valid)
    (p : POpts) (old : Bytes) (opn cls : Ty) :
    let w := World.run o script ops
    let c := (w.ctx p).next
    c.error = .noError → k.brackets c.token.valueType = some (opn, cls) →
    ∃ e data c', (∀ n, w.supplied < n → (rawH k addr).to n old c = some (e, data, c')) ∧ e ≠ .ub ∧
      c'.tz.whole = c.tz.whole ∧
      (k ≠ .array ∨ e = .noError → data = old ++ between c.tz.whole (c.tz.position - 1) c'.tz.position ∧ c'.tz.copies = []) ∧
      (e = .noError → ∃ ks, Reads c.tz c.token ks c'.tz c'.token ∧ Closes opn (ks.map (·.valueType)) ∧
        c.tz.whole[c.tz.position - 1]? = some (bracketByte opn) ∧ c'.token.valueType = cls ∧
        c.tz.whole[c'.tz.position - 1]? = some (bracketByte cls)) := by
  intro w c he hk
  have ho : Opened c := opened_run o script ops hv p he
  obtain ⟨hty, hst⟩ := brackets_start hk
  obtain ⟨rest, hstk⟩ := ho.top hst
  obtain ⟨b, bs, hb, hat⟩ := ho.at_
  obtain ⟨e, data, c', g1, g2⟩ := rawTo_spec k addr old ho.sane ho.neat hb hat hk (by rw [hstk, hty]) (by simp [ho.free])
  have hl : c.left < w.supplied + 1 := by
    obtain ⟨hs, hl⟩ := world_sane o script ops hv p
    exact Nat.lt_succ_of_le (Nat.le_trans (Nat.le_of_lt (next_left hs he)) hl)
  have hbr : c.token.valueType.isBracket = true := by rcases hst with h | h <;> rw [h] <;> rfl
  obtain ⟨_, hop⟩ := bracket_byte_at ho.sane.1 hb hat hbr
  refine ⟨e, data, c', fun n hn => g1 n (by omega), g2.notub, g2.whole, fun h => ⟨g2.data h, ?_⟩, fun h => ?_⟩
  · have := g2.copies h
    rw [ho.free, List.map_nil] at this
    exact List.map_eq_nil_iff.mp this
  · obtain ⟨cs, hcl⟩ := g2.closed h
    obtain ⟨ks, h1, h2, h3⟩ := hcl.reads
    have hc' : c'.tz.copies = [] := by
      have := g2.copies (.inr h)
      rw [ho.free, List.map_nil] at this
      exact List.map_eq_nil_iff.mp this
    have hr := reads_bare h1
    have e1 : Tz.bare (c.tz.copyFromValue c.token addr old) = c.tz := by
      rw [← bare_of_free ho.free]
      unfold Tz.copyFromValue
      split <;> rfl
    have e2 : Tz.bare { c'.tz with copies := cs } = c'.tz := by rw [← bare_of_free hc']; rfl
    simp only [e1, e2] at hr
    obtain ⟨b1, r1, hb1, hat1⟩ := hcl.at_
    obtain ⟨_, hlast⟩ := bracket_byte_at (t := c'.tz) g2.sane.1 hb1 hat1 (by rw [hcl.type]; exact (opn_bracket (opens_cases hk).2).2)
    rw [g2.whole, show c'.token.valueType = cls from hcl.type] at hlast
    exact ⟨ks, hr, ⟨h2, h3⟩, by rw [← hty]; exact hop, hcl.type, hlast⟩

/-- **C41**, the `Ref` forms: the same bytes, or undefined behaviour if the value does not lie in one buffer. -/
theorem C41_referred_partial (k : RawKind) (o : Opts) (script : List (List Bytes)) (ops : List Op) (hv : ∀ op ∈ ops, op.valid)
    (p : POpts) (old : Bytes) (opn cls : Ty) :
    let w := World.run o script ops
    let c := (w.ctx p).next
    c.error = .noError → k.brackets c.token.valueType = some (opn, cls) →
    ∃ e data c', (∀ n, w.supplied < n → (rawRefH k).to n old c = some (e, data, c')) ∧ c'.tz.whole = c.tz.whole ∧
      (e = .noError ∨ e = .ub → ∃ ks, Reads c.tz c.token ks c'.tz c'.token ∧ Closes opn (ks.map (·.valueType)) ∧
        c.tz.whole[c.tz.position - 1]? = some (bracketByte opn) ∧ c'.token.valueType = cls ∧
        c.tz.whole[c'.tz.position - 1]? = some (bracketByte cls)) ∧
      (e = .noError → data = between c.tz.whole (c.tz.position - 1) c'.tz.position) := by
  intro w c he hk
  have ho : Opened c := opened_run o script ops hv p he
  obtain ⟨hty, hst⟩ := brackets_start hk
  obtain ⟨rest, hstk⟩ := ho.top hst
  obtain ⟨b, bs, hb, hat⟩ := ho.at_
  obtain ⟨e, data, c', g1, g2, g3, g4, g5, g6, g7⟩ := rawRefTo_spec k old ho.sane ho.neat hb hat hk (by rw [hstk, hty])
  have hl : c.left < w.supplied + 1 := by
    obtain ⟨hs, hl⟩ := world_sane o script ops hv p
    exact Nat.lt_succ_of_le (Nat.le_trans (Nat.le_of_lt (next_left hs he)) hl)
  have hbr : c.token.valueType.isBracket = true := by rcases hst with h | h <;> rw [h] <;> rfl
  obtain ⟨_, hop⟩ := bracket_byte_at ho.sane.1 hb hat hbr
  refine ⟨e, data, c', fun n hn => g1 n (by omega), g2, fun h => ?_, fun h => (g6 h).1⟩
  have hcl : Closed opn cls [] rest c c' := by
    rcases h with h | h
    · exact (g6 h).2
    · exact (g7 h).1
  obtain ⟨ks, h1, h2, h3⟩ := hcl.reads
  obtain ⟨b1, r1, hb1, hat1⟩ := hcl.at_
  obtain ⟨_, hlast⟩ := bracket_byte_at (t := c'.tz) g4.1 hb1 hat1 (by rw [hcl.type]; exact (opn_bracket (opens_cases hk).2).2)
  rw [g2, hcl.type] at hlast
  exact ⟨ks, h1, ⟨h2, h3⟩, by rw [← hty]; exact hop, hcl.type, hlast⟩

/-! ### One text -/

theorem opened_reads {t t' : Tz} {k k' : Token} {ks : List Tok} (h : Reads t k ks t' k') (h1 : t.Ok) (h2 : t.parsed = none) (h3 : t.Neat)
    (h4 : t.copies = []) (hne : ks ≠ []) : t'.avail + t'.pend ≤ t.avail + t.pend ∧
      ∀ c : Ctx, c.tz = t' → c.token = k' → Opened c := by
  induction h with
  | nil => exact absurd rfl hne
  | @call t t1 t2 k k1 k2 ks h hr ih =>
    have hraw := nextToken_raw t k h1 h3 h2
    have hok := nextToken_ok t k h1 h2
    have hleft := next_left (c := ({ tz := t, token := k } : Ctx)) ⟨h1, h2⟩ (by simp only [Ctx.next, h])
    have hsane := next_sane (c := ({ tz := t, token := k } : Ctx)) ⟨h1, h2⟩
    simp only [Ctx.left, Ctx.next] at hleft
    obtain ⟨f, hf, _⟩ := hraw.moves.copies
    have hs := hok.stack (by rw [h])
    have hat := hraw.at_ (by rw [h])
    have hneat := hraw.neat
    have hs1 := hsane.1
    have hs2 := hsane.2
    simp only [Ctx.next] at hs1 hs2
    rw [h] at hs hf hat hneat hleft hs1 hs2
    dsimp only at hleft
    simp only [h4, List.map_nil] at hf
    have base : ∀ c : Ctx, c.tz = t1 → c.token = k1 → Opened c := by
      rintro c rfl rfl
      refine ⟨⟨hs1, hs2⟩, hneat, hf, hat, fun ht => ?_⟩
      simp only at hs
      rcases ht with ht | ht
      all_goals
        rw [ht] at hs ⊢
        simp only [bracketStep, Option.some.injEq] at hs
        exact ⟨_, hs.symm⟩
    cases hr with
    | nil => exact ⟨by omega, base⟩
    | call a b =>
      obtain ⟨g1, g2⟩ := ih hs1 hs2 hneat hf (by simp)
      exact ⟨by omega, g2⟩

/-- **C41** for a value with a given text, the text in one buffer: the tokens up to the value's opening bracket have been
read (whatever they are), and at the place of this bracket stands the text `b` of a value, as JSON or with what the
options allow in addition. Capturing it into `JsonArray`, `JsonObject` or `JsonObjectOrArray` succeeds and adds exactly
`b` to the variable, the `Ref` forms refer to exactly `b`, and the rest of the text comes next. -/
theorem C41_verbatim (k : RawKind) (addr : Nat) (o : Opts) (hn : o.newLines = false) (pre b tail : Bytes) (v : JVal) (hv : v.isContainer = true)
    (ht : Text (lenient o) v b) (ks : List Tok) (hks : ks ≠ []) (t : Tz) (tok : Token)
    (hr : Reads ((Tz.new o).addData (pre ++ (b ++ tail))) {} ks t tok) (hp : t.position = pre.length + 1) (c : Ctx) (hc : c.tz = t ∧ c.token = tok) (old : Bytes)
    (opn cls : Ty) (hk : k.brackets tok.valueType = some (opn, cls)) :
    (∃ c', (∀ n, (pre ++ (b ++ tail)).length < n → (rawH k addr).to n old c = some (.noError, old ++ b, c')) ∧
      c'.tz.position = pre.length + b.length) ∧
    ∃ c', (∀ n, (pre ++ (b ++ tail)).length < n → (rawRefH k).to n old c = some (.noError, b, c')) ∧
      c'.tz.position = pre.length + b.length := by
  obtain ⟨hc1, hc2⟩ := hc
  generalize hbuf : pre ++ (b ++ tail) = buf at *
  have h0 : Good ((Tz.new o).addData buf) buf := ⟨rfl, rfl, ⟨rfl, rfl, Nat.zero_le _⟩, by simp [Tz.new, Tz.addData], rfl, .inl rfl⟩
  have hnn := neat_new o
  obtain ⟨hav, hop⟩ := opened_reads hr (ok_start o [buf]) rfl ⟨hnn.idle, fun hh => ⟨hnn.idle, (hnn.cont hh).name, (hnn.cont hh).data⟩⟩ rfl hks
  have ho := hop c hc1 hc2
  obtain ⟨hg, hsc, hkp, hop2⟩ := reads_good hr h0 rfl
  obtain ⟨hty, hst⟩ := brackets_start hk
  obtain ⟨hts, hex⟩ := hop2 hst hks
  rw [← hc1] at hg hsc hts hex hp hav hkp
  rw [← hc2] at hk hty hst
  obtain ⟨rest, hstk⟩ := ho.top hst
  rw [hty] at hstk
  obtain ⟨b0, bs, hb, hat⟩ := ho.at_
  have hb0 : b0 = buf ∧ bs = [] := by
    have := hg.bufs
    rw [hb, List.cons.injEq] at this
    exact this
  obtain ⟨rfl, rfl⟩ := hb0
  have hbr : c.token.valueType.isBracket = true := by rcases hst with h | h <;> rw [h] <;> rfl
  obtain ⟨a1, a2, a3, a4⟩ := hat hbr
  have hrel : c.tz.released = [] := hkp.2.1
  have hcur : c.tz.cursor = pre.length + 1 := by
    have : c.tz.position = c.tz.cursor := by simp [Tz.position, hrel]
    omega
  have hdrop : b0.drop (c.tz.cursor - 1) = b ++ tail := by rw [hcur, ← hbuf]; simp
  have hl : c.left ≤ b0.length := by
    have : ((Tz.new o).addData b0).avail + ((Tz.new o).addData b0).pend = b0.length := by
      simp [Tz.addData, Tz.new, Tz.avail, Tz.pend]
    simp only [Ctx.left]; omega
  have hwhole : c.tz.whole = b0 := by simp [Tz.whole, hrel, hg.bufs, hg.pending]
  have hbet : between b0 (c.tz.position - 1) (pre.length + b.length) = b := by
    rw [hp, ← hbuf]; simp [between]
  constructor
  · obtain ⟨e, data, c', g1, g2⟩ := rawTo_spec k addr old ho.sane ho.neat hb hat hk hstk (by simp [ho.free])
    have hcopy : ∃ x, c.tz.copyFromValue c.token addr old = { c.tz with copies := x } := by
      unfold Tz.copyFromValue; split <;> exact ⟨_, rfl⟩
    obtain ⟨x, hx⟩ := hcopy
    obtain ⟨m, c1, q1, q2, q3, q4⟩ := loop_text (c := { c with tz := { c.tz with copies := x } }) (k := k) hn hv ht
      ⟨hg.bufs, hg.pending, ⟨hg.clean.inter, hg.clean.esc, hg.clean.cur⟩, fun hh => by
        have := hg.cont hh
        rw [show Tz.resetForNewToken { c.tz with copies := x } = { c.tz.resetForNewToken with copies := x } from rfl, this], hg.parsed, hg.state⟩
      hsc hkp.1 hts hex hk hstk a1 (by rw [← hty]; exact a2) hdrop
    have hq := q1 (m + b0.length + 1) (by omega)
    have hg1 := g1 (m + b0.length + 1) (by omega)
    unfold rawTo at hg1
    rw [hk] at hg1
    dsimp only at hg1
    rw [hx, hq, Option.bind_some] at hg1
    dsimp only at hg1
    have hfin : e = .noError ∧ c'.tz.position = pre.length + b.length := by
      have hpos : ∀ y, Tz.position { c1.tz with copies := y } = pre.length + b.length := by
        intro y
        have h1 : c1.tz.released = [] := q4.2.1.trans hrel
        simp only at q3
        simp only [Tz.position, h1, List.flatten_nil, List.length_nil, q3]; omega
      split at hg1
      · simp only [Option.some.injEq, Prod.mk.injEq] at hg1
        exact absurd hg1.1.symm g2.notub
      · rw [if_neg (by simp)] at hg1
        split at hg1
        · rename_i dd tz hi
          simp only [Option.some.injEq, Prod.mk.injEq] at hg1
          obtain ⟨r1, r2, r3⟩ := hg1
          refine ⟨r1.symm, ?_⟩
          rw [← r3]
          simp only
          unfold Tz.copyIncludingValue at hi
          split at hi
          · simp only [Option.some.injEq, Prod.mk.injEq] at hi; rw [← hi.2]; exact hpos _
          · simp only [Option.some.injEq, Prod.mk.injEq] at hi; rw [← hi.2]; exact hpos _
          · cases hi
        · simp only [Option.some.injEq, Prod.mk.injEq] at hg1
          exact absurd hg1.1.symm g2.notub
    obtain ⟨rfl, hpos⟩ := hfin
    have hd := g2.data (.inr rfl)
    rw [hpos, hwhole, hbet] at hd
    subst hd
    exact ⟨c', fun n hn => g1 n (by omega), hpos⟩
  · obtain ⟨e, data, c', g1, g2, g3, g4, g5, g6, g7⟩ := rawRefTo_spec k old ho.sane ho.neat hb hat hk hstk
    obtain ⟨m, c1, q1, q2, q3, q4⟩ := loop_text (c := c) (k := k) hn hv ht hg hsc hkp.1 hts hex hk hstk a1 (by rw [← hty]; exact a2) hdrop
    have hq := q1 (m + b0.length + 1) (by omega)
    have hg1 := g1 (m + b0.length + 1) (by omega)
    unfold rawRefTo at hg1
    rw [hk] at hg1
    dsimp only at hg1
    rw [hq, Option.bind_some] at hg1
    dsimp only at hg1
    rw [if_neg (by simp)] at hg1
    have hc' : c' = c1 ∧ (e = .noError ∨ e = .ub) := by
      split at hg1
      · split at hg1
        · simp only [Option.some.injEq, Prod.mk.injEq] at hg1; exact ⟨hg1.2.2.symm, .inl hg1.1.symm⟩
        · simp only [Option.some.injEq, Prod.mk.injEq] at hg1; exact ⟨hg1.2.2.symm, .inr hg1.1.symm⟩
      · simp only [Option.some.injEq, Prod.mk.injEq] at hg1; exact ⟨hg1.2.2.symm, .inr hg1.1.symm⟩
    obtain ⟨rfl, he⟩ := hc'
    have h1 : c'.tz.released = [] := q4.2.1.trans hrel
    have hpos : c'.tz.position = pre.length + b.length := by
      simp only [Tz.position, h1, List.flatten_nil, List.length_nil, q3]; omega
    rcases he with rfl | rfl
    · have hd := (g6 rfl).1
      rw [hpos, hwhole, hbet] at hd
      subst hd
      exact ⟨c', fun n hn => g1 n (by omega), hpos⟩
    · exfalso
      rcases (g7 rfl).2 with h | h | h
      · rw [h1, hrel] at h; exact h rfl
      · rw [hg.clean.inter] at h; cases h
      · rw [q2.clean.inter] at h; cases h

/-- A whole document as `JsonArray` or `JsonObject`: what is captured is the text without the white space around it. -/
theorem C41_root (k : RawKind) (addr : Nat) (o : Opts) (hn : o.newLines = false) (p : POpts) (v : JVal) (w b w' : Bytes)
    (hv : (k ≠ .object ∧ ∃ vs, v = .arr vs) ∨ (k ≠ .array ∧ ∃ ms, v = .obj ms)) (hw : (lenient o).gap w) (ht : Text (lenient o) v b) :
    ∃ c', ∀ n, (w ++ (b ++ w')).length < n → parseTo (rawH k addr) n [] (Ctx.onText o p (w ++ (b ++ w'))) = some (.noError, b, c') := by
  have hcont : v.isContainer = true := by rcases hv with ⟨_, vs, rfl⟩ | ⟨_, vs, rfl⟩ <;> rfl
  have h0 : Good ((Tz.new o).addData (w ++ (b ++ w'))) (w ++ (b ++ w')) :=
    ⟨rfl, rfl, ⟨rfl, rfl, Nat.zero_le _⟩, by simp [Tz.new, Tz.addData], rfl, .inl rfl⟩
  have hin := inner_text o hn ht
  have key : ∃ ty byte t', b = byte :: t' ∧ (∃ opn cls, k.brackets ty = some (opn, cls)) ∧
      lNext o ⟨false, false, [], w ++ (b ++ w')⟩ = .ok (⟨false, false, [ty], t' ++ w'⟩, ⟨[], .ascii, [byte], ty⟩) := by
    rcases hv with ⟨hk, vs, rfl⟩ | ⟨hk, vs, rfl⟩
    · obtain ⟨t', rfl, _⟩ := hin
      exact ⟨.arrayStart, LBRACK, t', rfl, by cases k <;> first | exact absurd rfl hk | exact ⟨_, _, rfl⟩, (next_open o hn (e := false) (st := []) (r := t' ++ w') hw).1⟩
    · obtain ⟨t', rfl, _⟩ := hin
      exact ⟨.objectStart, LBRACE, t', rfl, by cases k <;> first | exact absurd rfl hk | exact ⟨_, _, rfl⟩, (next_open o hn (e := false) (st := []) (r := t' ++ w') hw).2⟩
  obtain ⟨ty, byte, t', hb, ⟨opn, cls, hk⟩, hl⟩ := key
  have hnx := nextToken_light _ _ ({} : Token) h0 (by simp [Tz.addData, Tz.new])
  rw [show ((Tz.new o).addData (w ++ (b ++ w'))).opts = o from rfl, show Tz.light ((Tz.new o).addData (w ++ (b ++ w'))) (w ++ (b ++ w')) = ⟨false, false, [], w ++ (b ++ w')⟩ from rfl, hl] at hnx
  obtain ⟨t, tok, h1, h2, h3, h4, h5, h6⟩ := hnx
  have hty : tok.valueType = ty := congrArg Tok.valueType h2
  have hp : t.position = w.length + 1 := by
    have hrest := congrArg (fun c => c.rest.length) h4
    have hcur := h3.clean.cur
    have hrel : t.released = [] := h6.2.1
    simp only [Tz.light, List.length_drop, List.length_append, hb, List.length_cons] at hrest hcur
    simp only [Tz.position, hrel, List.flatten_nil, List.length_nil]; omega
  have hctx : (Ctx.onText o p (w ++ (b ++ w'))).next = { Ctx.onText o p (w ++ (b ++ w')) with tz := t, token := tok, error := .noError } := by
    simp only [Ctx.next, show (Ctx.onText o p (w ++ (b ++ w'))).tz = (Tz.new o).addData (w ++ (b ++ w')) from rfl,
      show (Ctx.onText o p (w ++ (b ++ w'))).token = {} from rfl, h1]
  obtain ⟨⟨c', g1, _⟩, _⟩ := C41_verbatim k addr o hn w b w' v hcont ht [tok.tok] (by simp) t tok (.call h1 .nil) hp
    (Ctx.onText o p (w ++ (b ++ w'))).next ⟨by rw [hctx], by rw [hctx]⟩ [] opn cls (by rw [hty]; exact hk)
  refine ⟨{ c' with error := .noError }, fun n hnn => ?_⟩
  simp only [parseTo]
  rw [if_neg (by rw [hctx]; simp), g1 n hnn]
  rfl

/-- Which values each type takes: `JsonArray` arrays, `JsonObject` objects, `JsonObjectOrArray` both; the theorems above
speak of these. -/
theorem C41_kinds (k : RawKind) (ty opn cls : Ty) :
    k.brackets ty = some (opn, cls) ↔
      (ty = .arrayStart ∧ k ≠ .object ∧ opn = .arrayStart ∧ cls = .arrayEnd) ∨
        (ty = .objectStart ∧ k ≠ .array ∧ opn = .objectStart ∧ cls = .objectEnd) := by
  cases k <;> cases ty <;> simp [RawKind.brackets, eq_comm]

/-- A value of another kind is refused: the error, and the variable is unchanged. -/
theorem C41_refused (k : RawKind) (addr n : Nat) (old : Bytes) (c : Ctx)
    (ha : c.token.valueType = .arrayStart → k = .object) (ho : c.token.valueType = .objectStart → k = .array) :
    (rawH k addr).to n old c = some (if k = .array then .expectedArrayStart else .expectedObjectStart, old, c) ∧
    (rawRefH k).to n old c = some (if k = .array then .expectedArrayStart else .expectedObjectStart, old, c) := by
  have h : k.brackets c.token.valueType = none := by
    revert ha ho
    generalize c.token.valueType = ty
    cases k <;> cases ty <;> simp [RawKind.brackets]
  simp only [rawH, rawRefH, rawTo, rawRefTo, h]
  cases k <;> exact ⟨rfl, rfl⟩

/-- What is captured is written back byte for byte: whatever was written before and whatever name the value gets, there
is a text `x` in front of the value that does not depend on the value. An owning variable that holds nothing is written
as the empty array or object. -/
theorem C41_written (k : RawKind) (addr : Nat) (o : SerOpts) (size : Nat) (supply : Nat → Option Nat) (hs : Answered supply) (ks : List Tok) (t : Tok) :
    let s := ((Ser.fresh o size supply).writeAll ks).2
    ∃ x, (∀ v, v ≠ [] → (((rawH k addr).from_ v t s).map fun r => r.2.out) = some (s.out ++ x ++ v)) ∧
      (((rawH k addr).from_ [] t s).map fun r => r.2.out) = some (s.out ++ x ++ (if k = .array then b!"[]" else b!"{}")) ∧
      ∀ v, (((rawRefH k).from_ v t s).map fun r => r.2.out) = some (s.out ++ x ++ v) := by
  intro s
  obtain ⟨ok, d, st', hw⟩ := writeAll_any ks { opt := o }
  obtain ⟨_, h2⟩ := hw _ (fresh_good o size supply hs) rfl
  have key : ∀ v, ((s.write { t with value := v, valueType := .verbatim }).2).out = s.out ++ s.st.text { t with value := v, valueType := .verbatim } :=
    fun v => (write_wrote s { t with value := v, valueType := .verbatim } h2.good (by simp [Ty.isEnd])).2.out
  have hx : ∃ x, ∀ v, s.st.text { t with value := v, valueType := .verbatim } = x ++ v := by
    refine ⟨s.st.text { t with value := [], valueType := .verbatim }, fun v => ?_⟩
    simp only [SerSt.text, SerSt.body, typedText, List.append_nil, List.append_assoc]
  obtain ⟨x, hx⟩ := hx
  refine ⟨x, fun v hv => ?_, ?_, fun v => ?_⟩
  · simp only [rawH, rawFrom, putTok, Option.map_some, hv, if_false, key, hx, List.append_assoc]
  · simp only [rawH, rawFrom, putTok, Option.map_some, if_true, key, hx, List.append_assoc]
  · simp only [rawRefH, rawRefFrom, putTok, Option.map_some, key, hx, List.append_assoc]

/-! ### Cases -/

/-- `{"a" : [1,` and, in a second buffer, ` {"]": [ ]}]}`; two tokens are read, the second in the theorems' own call. -/
def splitArray : List Op := [.addData b!"{\"a\" : [1,", .addData b!" {\"]\": [ ]}]}", .next]

example : let c := ((World.run {} [] splitArray).ctx {}).next
    (∀ op ∈ splitArray, op.valid) ∧ c.error = .noError ∧ RawKind.array.brackets c.token.valueType = some (.arrayStart, .arrayEnd) ∧
    ((rawH .array 7).to 50 [] c).map (fun r => (r.1, r.2.1)) = some (.noError, b!"[1, {\"]\": [ ]}]") :=
  ⟨by simp [splitArray, Op.valid], by decide +kernel, by decide +kernel, by decide +kernel⟩

/-- The bracket itself is behind the end of the first buffer, and its name in front of it. -/
def splitName : List Op := [.addData b!"{\"a\" : ", .addData b!"{\"b\":", .addData b!"{ } } ", .next]

example : let c := ((World.run {} [] splitName).ctx {}).next
    c.error = .noError ∧ c.token.value.loc = .own ∧ ((rawH .any 7).to 50 [] c).map (fun r => (r.1, r.2.1)) = some (.noError, b!"{\"b\":{ } }") :=
  ⟨by decide +kernel, by decide +kernel, by decide +kernel⟩

theorem blank_text : Text rfc (.arr [.null, .arr []]) b!"[null, [ ] ]" :=
  have w1 : rfc.gap b!" " := by intro c hc; revert c; decide
  have w0 : rfc.gap [] := by intro c hc; simp at hc
  Text.arr (t := b!"null, [ ] ") (.cons (w := []) (t := b!"null") (w' := []) (ts := b!" [ ] ") w0 .null w0
    (.one (w := b!" ") (t := b!"[ ]") (w' := b!" ") w1 (.arrEmpty (w := b!" ") w1) w1))

/-- The hypotheses of `C41_verbatim` are met by the second member of an object. -/
example : ∃ ks t tok, ks ≠ [] ∧ Reads ((Tz.new {}).addData (b!"{\"x\":null,\"a\" : " ++ (b!"[null, [ ] ]" ++ b!" ,}"))) {} ks t tok ∧
    t.position = (b!"{\"x\":null,\"a\" : ").length + 1 ∧ RawKind.any.brackets tok.valueType = some (.arrayStart, .arrayEnd) ∧
    Text (lenient {}) (.arr [.null, .arr []]) b!"[null, [ ] ]" := by
  have h1 : ∀ (t : Tz), (t.nextToken {}).1 = .noError → ((t.nextToken {}).2.1.nextToken (t.nextToken {}).2.2).1 = .noError →
      (((t.nextToken {}).2.1.nextToken (t.nextToken {}).2.2).2.1.nextToken ((t.nextToken {}).2.1.nextToken (t.nextToken {}).2.2).2.2).1 = .noError →
      ∃ ks, ks ≠ [] ∧ Reads t {} ks (((t.nextToken {}).2.1.nextToken (t.nextToken {}).2.2).2.1.nextToken ((t.nextToken {}).2.1.nextToken (t.nextToken {}).2.2).2.2).2.1
        (((t.nextToken {}).2.1.nextToken (t.nextToken {}).2.2).2.1.nextToken ((t.nextToken {}).2.1.nextToken (t.nextToken {}).2.2).2.2).2.2 :=
    fun t h1 h2 h3 => ⟨_, by simp, .call (Prod.ext h1 rfl) (.call (Prod.ext h2 rfl) (.call (Prod.ext h3 rfl) .nil))⟩
  obtain ⟨ks, h2, h3⟩ := h1 ((Tz.new {}).addData (b!"{\"x\":null,\"a\" : " ++ (b!"[null, [ ] ]" ++ b!" ,}")))
    (by decide +kernel) (by decide +kernel) (by decide +kernel)
  exact ⟨ks, _, _, h2, h3, by decide +kernel, by decide +kernel, text_mono (rfc_le {}) blank_text⟩

/-- The hypotheses of `C41_root` are met, and what it says is so. -/
example : (lenient {}).gap b!" \n" ∧ Text (lenient {}) (.arr [.null, .arr []]) b!"[null, [ ] ]" ∧
    (parseTo (rawH .array 0) 40 [] (Ctx.onText {} {} (b!" \n" ++ (b!"[null, [ ] ]" ++ b!" ")))).map (fun r => (r.1, r.2.1)) = some (.noError, b!"[null, [ ] ]") := by
  refine ⟨(rfc_le {}).gap _ ?_, text_mono (rfc_le {}) blank_text, by decide +kernel⟩
  intro c hc; revert c; decide

/-! ### Where it fails -/

/-- **C41 is false** of a variable that is not empty: what was captured before stays in front. -/
theorem C41_false_appends :
    (parseTo (rawH .array 0) 40 b!"[1]" (Ctx.onText {} {} b!"[2]")).map (fun r => (r.1, r.2.1)) = some (.noError, b!"[1][2]") := by
  decide +kernel

/-- **C41 is false** of the `Ref` forms if a value lies in two buffers: pointers into different buffers are subtracted. -/
theorem C41_false_ref_split :
    ((rawRefH .array).to 50 [] ((World.run {} [] splitArray).ctx {}).next).map (fun r => r.1) = some .ub := by decide +kernel

/-- **C41 is false** of a tokenizer that replays a token vector (a `Map` read with `castTo`, or `JsonTokens`): there is
no buffer to capture from. -/
theorem C41_false_token_vector :
    let close : Token := { value := { loc := .own, bytes := b!"}" }, valueType := .objectEnd }
    let tz : Tz := { opts := {}, parsed := some [close] }
    let c : Ctx := { tz := tz, token := { value := { loc := .own, bytes := b!"{" }, valueType := .objectStart } }
    ((rawH .object 0).to 50 [] c).map (fun r => r.1) = some .ub := by decide +kernel

/-- A failed `JsonArray` stays registered with the tokenizer, which goes on writing to the string when it releases a
buffer; `JsonObject` and `JsonObjectOrArray` are taken out. -/
theorem C41_false_recording_left :
    ((parseTo (rawH .array 3) 40 [] (Ctx.onText {} {} b!"[1, ")).map fun r => (r.1, r.2.2.tz.copies.map Prod.fst)) = some (.needMoreData, [3]) ∧
    ((parseTo (rawH .any 3) 40 [] (Ctx.onText {} {} b!"[1, ")).map fun r => (r.1, r.2.2.tz.copies.map Prod.fst)) = some (.needMoreData, []) := by
  refine ⟨by decide +kernel, by decide +kernel⟩

end JsonStruct
