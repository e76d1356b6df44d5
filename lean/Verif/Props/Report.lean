import Verif.Lemmas.Report
import Verif.Spec.History
import Verif.Props.Tokenizer

/-
C32 (error reports stay inside of the input) and C58 (the marker points at the error).
-/

namespace JsonStruct

theorem pump_bufs (n : Nat) (t : Tz) (h : t.Ok) (hp : t.propState ≠ .foundEnd) (he : (Tz.pump n t).2.1.bufs = []) :
    (Tz.pump n t).1 = .needMoreData := by
  induction n generalizing t with
  | zero => rfl
  | succ n ih =>
    simp only [Tz.pump] at he ⊢
    cases hb : t.bufs with
    | nil => rfl
    | cons b rest =>
      rw [hb] at he
      simp only at he ⊢
      have hl := populateNext_ok t b ⟨h.cur b rest hb, h.fe, hp, h.ds⟩
      generalize t.populateNext b = r at *
      obtain ⟨e, t', tok⟩ := r
      simp only at hl he ⊢
      obtain ⟨a1, a2, a3, a4, a5, a6, a7, a8, a9⟩ := hl
      obtain ⟨f1, f2, f3, f4, f5, f6, f7, f8, f9⟩ := a1
      by_cases hn : e = .needMoreData
      · simp only [hn, if_true] at he ⊢
        have hok : t'.releaseFirst.requestMoreData.Ok ∧ t'.releaseFirst.requestMoreData.propState ≠ .foundEnd := by
          have h8 := a8 hn
          simp only [Tz.releaseFirst, f2, hb, Tz.requestMoreData]
          split
          · exact ⟨⟨by simp, by simp, by simp, fun _ => h8, a9⟩, h8⟩
          · exact ⟨⟨by simp, by simp, by simp, fun _ => h8, a9⟩, h8⟩
        exact ih _ hok.1 hok.2 he
      · simp only [hn, if_false] at he
        rw [f2, hb] at he
        cases he

/-- A tokenizer that reports an error still has the buffer the error is in. -/
theorem nextToken_bufs (t : Tz) (tok : Token) (h : t.Ok) (hp : t.parsed = none)
    (he : (t.nextToken tok).1 ≠ .noError ∧ (t.nextToken tok).1 ≠ .needMoreData ∧ (t.nextToken tok).1 ≠ .scopeHasEnded) :
    (t.nextToken tok).2.1.bufs ≠ [] := by
  unfold Tz.nextToken at he ⊢
  split at he
  · simp at he
  · simp only [hp] at he ⊢
    generalize ht1 : (if t.bufs = [] then t.requestMoreData else t) = t1 at *
    have o1 : t1.Ok := by
      rw [← ht1]; split
      · rename_i hb; exact ok_request t h hb
      · exact h
    split at he
    · simp at he
    · next hb1 =>
      simp only [hb1, if_false]
      generalize ht2 : (if t1.continueAfter = true then t1 else t1.resetForNewToken) = t2 at *
      have o2 : t2.Ok ∧ t2.propState ≠ .foundEnd := by
        rw [← ht2]; split
        · rename_i hc; exact ⟨o1, o1.pe hc⟩
        · exact ⟨ok_reset t1 o1, by simp [Tz.resetForNewToken, Tz.resetForNewValue]⟩
      have hpk := pump_ok t2.supply t2 o2.1 o2.2
      have hpb := pump_bufs t2.supply t2 o2.1 o2.2
      generalize Tz.pump t2.supply t2 = r at *
      obtain ⟨e, t3, k⟩ := r
      simp only at hpk hpb he ⊢
      cases k with
      | none =>
        simp only at he ⊢
        exact fun hb => he.2.1 (hpb hb)
      | some k =>
        simp only at he ⊢
        have hne : e = .noError := by
          by_contra hx; obtain ⟨hk, _⟩ := hpk.bad hx; simp at hk
        obtain ⟨k', hk, ⟨b, rest, r1, _⟩, _⟩ := hpk.ok hne
        have hfin := finish_ok { t3 with continueAfter := e == .needMoreData } k
        have hb : (Tz.finish { t3 with continueAfter := e == .needMoreData } k).2.bufs = t3.bufs := by rw [hfin.same]
        rw [hb, r1]
        simp

/-- What C32 asks of a report on data `d` at position `c`: the new lines, behind the lines that were in the context
before, are an excerpt of `d`. -/
def Reports (cfg : ErrCfg) (d : Bytes) (c : Nat) (x x' : ErrCtx) (first : Nat) : Prop :=
  ∃ ranges shown, x'.lines = x.lines ++ shown ∧ Copied d ranges shown ∧ x.lines.length = first ∧
    Excerpt d c (max 256 cfg.rangeContext) (if cfg.lineContext = 0 then ranges.length else 2 * cfg.lineContext - 1)
      ranges x'.line

/-- **C32**: after any history of calls, `updateErrorContext` reads nothing outside of the current buffer and adds an
excerpt of it to the report. Missing for the full claim: `range_context` settings that make position plus setting exceed
an `int64_t`, see `C32_false_huge_range`. -/
theorem C32_update_partial (o : Opts) (script : List (List Bytes)) (ops : List Op) (hv : ∀ op ∈ ops, op.valid)
    (cfg : ErrCfg) (mem : List Bytes) (places : List MemAddr) (e : Err) (msg : Bytes) (x : ErrCtx)
    (hsize : ∀ b rest, (World.run o script ops).tz.bufs = b :: rest → b.length + cfg.rangeContext < 2 ^ 63) :
    ∃ x', (World.run o script ops).tz.updateErrorContext cfg mem places e msg x = some x' ∧ x'.error = e ∧ x'.custom = msg ∧
      ((World.run o script ops).tz.bufs = [] → x'.lines = x.lines) ∧
      ∀ b rest, (World.run o script ops).tz.bufs = b :: rest →
        Reports cfg b (World.run o script ops).tz.cursor x x' x.lines.length := by
  have hw := worldInv_run o script ops hv
  generalize World.run o script ops = w at *
  unfold Tz.updateErrorContext
  rw [hw.parsed]
  cases hb : w.tz.bufs with
  | nil => exact ⟨_, rfl, rfl, rfl, fun _ => rfl, fun b rest h => by cases h⟩
  | cons b rest =>
    obtain ⟨x', ranges, shown, h1, h2, h3, h4, h5, h6, _⟩ := reportAt_ok cfg b w.tz.cursor { x with error := e, custom := msg }
      (hw.ok.cur b rest hb) (hsize b rest hb)
    refine ⟨x', h1, h5, h6, fun h => by simp at h, fun b' rest' h => ?_⟩
    simp only [List.cons.injEq] at h
    rw [← h.1]
    exact ⟨ranges, shown, h2, h3, rfl, h4⟩

/-- **C32**, errors of the tokenizer: after any history, if the next call of `nextToken` reports an error, the error
context names this error, all its lines are an excerpt of the buffer the tokenizer stopped in, around the place where
it stopped, and the line index is the number of the line with this place. -/
theorem C32_next_token_partial (o : Opts) (script : List (List Bytes)) (ops : List Op) (hv : ∀ op ∈ ops, op.valid)
    (cfg : ErrCfg) (x : ErrCtx) :
    let w := World.run o script ops
    let r := w.tz.nextToken w.tok
    (∀ b rest, r.2.1.bufs = b :: rest → b.length + cfg.rangeContext < 2 ^ 63) →
    ∃ x', w.tz.nextTokenErr cfg w.tok x = some x' ∧
      (r.1 = .noError ∨ r.1 = .needMoreData → x'.error = .noError ∧ x'.lines = []) ∧
      (r.1 ≠ .noError → r.1 ≠ .needMoreData → r.1 ≠ .scopeHasEnded → x'.error = r.1 ∧ x'.custom = [] ∧
        ∃ b rest ranges, r.2.1.bufs = b :: rest ∧ Copied b ranges x'.lines ∧
          Excerpt b r.2.1.cursor (max 256 cfg.rangeContext)
            (if cfg.lineContext = 0 then ranges.length else 2 * cfg.lineContext - 1) ranges x'.line) := by
  intro w r hsize
  have hw := worldInv_run o script ops hv
  have hw' : WorldInv (w.step .next) := worldInv_step w .next trivial hw
  have hok : r.2.1.Ok := hw'.ok
  have hpa : r.2.1.parsed = none := hw'.parsed
  unfold Tz.nextTokenErr
  show ∃ x', (if r.1 = .scopeHasEnded then some x else if w.tz.parsed.isSome = true then some x
    else if r.1 = .noError ∨ r.1 = .needMoreData then some x.clear
    else r.2.1.updateErrorContext cfg [] [] r.1 [] x.clear) = some x' ∧ _
  rw [show w.tz.parsed = none from hw.parsed]
  by_cases h1 : r.1 = .scopeHasEnded
  · rw [if_pos h1]
    exact ⟨x, rfl, fun h => by rw [h1] at h; simp at h, fun _ _ h => absurd h1 h⟩
  · rw [if_neg h1, if_neg (by simp)]
    by_cases h2 : r.1 = .noError ∨ r.1 = .needMoreData
    · rw [if_pos h2]
      exact ⟨_, rfl, fun _ => ⟨rfl, rfl⟩, fun a b _ => by rcases h2 with h | h <;> contradiction⟩
    · rw [if_neg h2]
      have hb : r.2.1.bufs ≠ [] := nextToken_bufs w.tz w.tok hw.ok hw.parsed ⟨fun h => h2 (.inl h), fun h => h2 (.inr h), h1⟩
      obtain ⟨b, rest, hbr⟩ := List.exists_cons_of_ne_nil hb
      obtain ⟨x', ranges, shown, e1, e2, e3, e4, e5, e6, _⟩ := reportAt_ok cfg b r.2.1.cursor
        { x.clear with error := r.1, custom := [] } (hok.cur b rest hbr) (hsize b rest hbr)
      refine ⟨x', ?_, fun h => absurd h h2, fun _ _ _ => ⟨e5, e6, b, rest, ranges, hbr, ?_, e4⟩⟩
      · unfold Tz.updateErrorContext
        rw [hpa, hbr]
        exact e1
      · rw [e2]; exact e3

/-- A history to which the theorems apply: the buffer `[1,⏎2,}⏎3,⏎4]` fed in, three tokens read, the next call fails in
the second line, and four lines are shown. -/
example :
    let w := World.run {} [] [.addData b!"[1,\n2,}\n3,\n4]", .next, .next, .next]
    (w.tz.nextToken w.tok).1 = .unexpectedObjectEnd ∧
      w.tz.nextTokenErr {} w.tok {} = 
        some ⟨1, 4, .unexpectedObjectEnd, [], [b!"[1,", b!"2,}", b!"3,", b!"4"]⟩ := by
  decide +kernel

/-- **C32**, the message: if the line index addresses one of the lines, the message is the header and all the lines, one
after the other and each ended by a line break, with one line put behind the line with the error: blanks and the marker
`^` below the byte number `character` of the line. -/
theorem C32_message (x : ErrCtx) (h : x.line < x.lines.length) :
    ∃ before line after, x.lines = before ++ line :: after ∧ before.length = x.line ∧
      x.message = b!"Error" ++ (if x.error ≠ .userDefinedErrors then b!" " ++ errorString x.error else [])
        ++ (if x.custom ≠ [] then b!" " ++ x.custom else []) ++ b!":\n"
        ++ (before.map (· ++ b!"\n")).flatten ++ line ++ b!"\n"
        ++ List.replicate x.character 32 ++ b!"^\n" ++ (after.map (· ++ b!"\n")).flatten := by
  have key : ∀ (l : List Bytes) (i : Nat), i ≤ x.line → x.line < i + l.length →
      ∃ before line after, l = before ++ line :: after ∧ i + before.length = x.line ∧
        messageLines x i l = (before.map (· ++ b!"\n")).flatten ++ line ++ b!"\n"
          ++ List.replicate x.character 32 ++ b!"^\n" ++ (after.map (· ++ b!"\n")).flatten := by
    have rest : ∀ (l : List Bytes) (i : Nat), x.line < i → messageLines x i l = (l.map (· ++ b!"\n")).flatten := by
      intro l
      induction l with
      | nil => intro i _; rfl
      | cons a l ih =>
        intro i hi
        rw [messageLines, if_neg (by omega), ih (i + 1) (by omega)]
        simp
    intro l
    induction l with
    | nil => intro i h1 h2; simp at h2; omega
    | cons a l ih =>
      intro i h1 h2
      by_cases hi : i = x.line
      · refine ⟨[], a, l, rfl, by simp [hi], ?_⟩
        rw [messageLines, if_pos hi, rest l (i + 1) (by omega)]
        simp [pointing]
      · obtain ⟨before, line, after, e1, e2, e3⟩ := ih (i + 1) (by omega) (by simp at h2; omega)
        refine ⟨a :: before, line, after, by rw [e1]; rfl, by simp; omega, ?_⟩
        rw [messageLines, if_neg hi, e3]
        simp
  obtain ⟨before, line, after, e1, e2, e3⟩ := key x.lines 0 (by omega) (by omega)
  refine ⟨before, line, after, e1, by omega, ?_⟩
  unfold ErrCtx.message
  rw [e3]
  have : (x.custom.length ≠ 0) = (x.custom ≠ []) := by simp
  simp only [this, List.append_assoc]

example : (ErrCtx.mk 1 2 .invalidToken b!"why" [b!"ab", b!"cd", b!"ef"]).message
    = b!"Error InvalidToken why:\nab\ncd\n  ^\nef\n" := by decide +kernel

/-- **C32**, token vectors: if the values of the tokens are all in one block of memory, in the order of the tokens, a
report shows a part of this block, between the first and the last token. -/
theorem C32_token_vector_partial (t : Tz) (ts : List Token) (k : Token) (hp : t.parsed = some (k :: ts)) (cfg : ErrCfg)
    (mem : List Bytes) (places : List MemAddr) (m : Bytes) (blk : Nat) (hm : mem[blk]? = some m)
    (hlen : places.length = (k :: ts).length) (hcur : t.cursor < places.length)
    (hin : ∀ p ∈ places, p.1 = blk ∧ p.2 ≤ m.length)
    (hord : ∀ (i j : Nat) p q, i ≤ j → places[i]? = some p → places[j]? = some q → p.2 ≤ q.2)
    (hsize : m.length + cfg.rangeContext < 2 ^ 63) (e : Err) (msg : Bytes) (x : ErrCtx) :
    ∃ x' f l p, t.updateErrorContext cfg mem places e msg x = some x' ∧ places.head? = some (blk, f) ∧
      places.getLast? = some (blk, l) ∧ places[t.cursor]? = some (blk, p) ∧ x'.error = e ∧
      Reports cfg ((m.drop f).take (l - f)) (p - f) x x' x.lines.length := by
  obtain ⟨q0, qs, hq⟩ : ∃ q0 qs, places = q0 :: qs := List.exists_cons_of_ne_nil (by rintro rfl; simp at hcur)
  have hf := hin q0 (by simp [hq])
  obtain ⟨b0, f⟩ := q0
  dsimp only at hf
  have hp' := List.getElem?_eq_getElem hcur
  generalize hpc : places[t.cursor] = pc at hp'
  obtain ⟨bp, p⟩ := pc
  have hpi := hin (bp, p) (List.mem_of_getElem? hp')
  have hl' : places.getLast? = some (places.getLast (by simp [hq])) := List.getLast?_eq_some_getLast (by simp [hq])
  generalize hlc : places.getLast (by simp [hq]) = lc at hl'
  obtain ⟨bl, l⟩ := lc
  have hli := hin (bl, l) (by rw [← hlc]; exact List.getLast_mem _)
  dsimp only at hpi hli
  have h0 : places[0]? = some (b0, f) := by rw [hq]; rfl
  have hll : places[places.length - 1]? = some (bl, l) := by rw [← List.getLast?_eq_getElem?]; exact hl'
  have o1 := hord 0 t.cursor _ _ (by omega) h0 hp'
  have o2 := hord t.cursor (places.length - 1) _ _ (by omega) hp' hll
  dsimp only at o1 o2
  obtain ⟨rfl, hf⟩ := hf
  obtain ⟨rfl, hpi⟩ := hpi
  obtain ⟨rfl, hli⟩ := hli
  have hdl : ((m.drop f).take (l - f)).length = l - f := by rw [List.length_take, List.length_drop]; omega
  obtain ⟨x', ranges, shown, e1, e2, e3, e4, e5, e6, _⟩ := reportAt_ok cfg ((m.drop f).take (l - f)) (p - f)
    { x with error := e, custom := msg } (by omega) (by omega)
  refine ⟨x', f, l, p, ?_, by rw [hq]; rfl, hl', hp', e5, ranges, shown, e2, e3, rfl, e4⟩
  unfold Tz.updateErrorContext
  rw [hp]
  have : vectorData mem places t.cursor = some ((m.drop f).take (l - f), p - f) := by
    unfold vectorData
    rw [hq] at h0 hl' hp' ⊢
    rw [hl', hp']
    simp only [List.head?_cons, Option.bind_eq_bind, Option.bind_some]
    simp [o1, o2, hm]
  simp only [this, Option.bind_eq_bind, Option.bind_some]
  exact e1

/-- The tokens `[`, `1`, `]` of the text `[1]`, an error at the second one. -/
example : Tz.updateErrorContext { ({} : Tz) with parsed := some [{}, {}, {}], cursor := 1 } {} [b!"[1]"] [(0, 0), (0, 1), (0, 2)]
    .failedToParseInt [] {} = some { line := 0, character := 1, error := .failedToParseInt, lines := [b!"[1"] } := by
  decide +kernel

/-- **C32** is false for a `range_context` of `SIZE_MAX`, "show everything": it becomes -1, and the string shown gets a
length of almost 2^64. -/
theorem C32_false_huge_range : reportAt { rangeContext := 2 ^ 64 - 1 } b!"[1,}" 3 {} = none := by decide +kernel

/-- **C32** is false for token vectors whose tokens are in different blocks of memory, such as those of a `JS::Map` with
a member that was set: pointers into different blocks are subtracted. -/
theorem C32_false_token_vector : Tz.updateErrorContext { ({} : Tz) with parsed := some [{}, {}, {}], cursor := 1 } {}
    [b!"{}", b!"1"] [(0, 0), (1, 0), (0, 1)] .failedToParseInt [] {} = none := by decide +kernel

/-! ### C58: the marker -/

/-- **C58**: if the report has one line, the marker is below the byte at which the tokenizer stopped, counted from the
start of the line, and the message ends with this line and, in the next one, the marker. Missing: reports of several lines,
see the witnesses. -/
theorem C58_one_line_partial (cfg : ErrCfg) (d : Bytes) (c : Nat) (x x' : ErrCtx) (hc : c ≤ d.length) (hx : x.lines = [])
    (hr : d.length + cfg.rangeContext < 2 ^ 63) (h : reportAt cfg d c x = some x') (h1 : x'.lines.length = 1) :
    x'.line = 0 ∧ x'.lines = [(d.drop (c - cfg.rangeContext)).take (min (c + cfg.rangeContext) d.length - (c - cfg.rangeContext))] ∧
      c - cfg.rangeContext + x'.character = c ∧
      ∃ header line, x'.lines = [line] ∧ x'.message = header ++ line ++ b!"\n" ++ List.replicate (c - (c - cfg.rangeContext)) 32 ++ b!"^\n" := by
  obtain ⟨y, ranges, shown, e1, e2, e3, e4, e5, e6, e7⟩ := reportAt_ok cfg d c x hc hr
  rw [h] at e1
  cases e1
  rw [hx, List.nil_append] at e2
  have hl : ranges.length = 1 := by rw [← h1, e2, e3]; simp
  obtain ⟨r, rfl⟩ := List.length_eq_one_iff.1 hl
  obtain ⟨h2, h3⟩ := e7 rfl r (by simp)
  have hline : x'.line = 0 := by
    obtain ⟨r', hr', _⟩ := e4.here
    cases hln : x'.line with
    | zero => rfl
    | succ n => rw [hln] at hr'; simp at hr'
  rw [h2] at h3
  refine ⟨hline, by rw [e2, e3, h2]; rfl, h3, ?_⟩
  obtain ⟨before, line, after, g1, g2, g3⟩ := C32_message x' (by omega)
  rw [hline] at g2
  rw [List.length_eq_zero_iff] at g2
  subst g2
  rw [g1] at h1
  simp only [List.nil_append, List.length_cons, Nat.add_eq_right, List.length_eq_zero_iff] at h1
  subst h1
  refine ⟨b!"Error" ++ (if x'.error ≠ .userDefinedErrors then b!" " ++ errorString x'.error else [])
    ++ (if x'.custom ≠ [] then b!" " ++ x'.custom else []) ++ b!":\n", line, g1, ?_⟩
  rw [g3, show x'.character = c - (c - cfg.rangeContext) by omega]
  simp only [List.map_nil, List.flatten_nil, List.append_nil]

example : reportAt {} b!"[1,}" 3 {} = some { line := 0, character := 3, lines := [b!"[1,}"] } := by decide +kernel

theorem backLoop_char {d : Bytes} {c lc stop : Nat} : ∀ {k : Nat} {s s' : BackSt}, backLoop d c lc stop k s = some s' →
    (s.back ≠ 0 → s'.char = s.char) ∧
    (s.back = 0 → (∀ j0, stop < j0 → j0 ≤ stop + k → d[j0]? = some LF → (∀ j, j0 < j → j ≤ stop + k → d[j]? ≠ some LF) → s'.char = c - j0) ∧
      ((∀ j, stop < j → j ≤ stop + k → d[j]? ≠ some LF) → s'.char = s.char))
  | 0, s, s', h => by
    simp only [backLoop, Option.some.injEq] at h
    subst h
    exact ⟨fun _ => rfl, fun _ => ⟨fun j0 h1 h2 => by omega, fun _ => rfl⟩⟩
  | k + 1, s, s', h => by
    simp only [backLoop] at h
    split at h
    · simp at h
    · rename_i b hb
      split at h
      · rename_i hlf
        subst hlf
        by_cases h0 : s.back = 0
        · have h1 : s.back + 1 = 1 := by omega
          simp only [h1, if_true] at h
          have hc : s'.char = c - (stop + (k + 1)) := by
            split at h
            · injection h with h; rw [← h]
            · have := (backLoop_char h).1 (by simp); simpa using this
          refine ⟨fun hn => absurd h0 hn, fun _ => ⟨fun j0 g1 g2 g3 g4 => ?_, fun g => absurd hb (g _ (by omega) (by omega))⟩⟩
          rcases Nat.lt_or_ge j0 (stop + (k + 1)) with hj | hj
          · exact absurd hb (g4 _ hj (by omega))
          · rw [hc, show j0 = stop + (k + 1) by omega]
        · have h1 : ¬ s.back + 1 = 1 := by omega
          simp only [h1, if_false] at h
          refine ⟨fun _ => ?_, fun hn => absurd hn h0⟩
          split at h
          · injection h with h; rw [← h]
          · have := (backLoop_char h).1 (by simp); simpa using this
      · rename_i hlf
        obtain ⟨i1, i2⟩ := backLoop_char h
        refine ⟨i1, fun h0 => ⟨fun j0 g1 g2 g3 g4 => ?_, fun g => (i2 h0).2 fun j a b => g j a (by omega)⟩⟩
        have hne : j0 ≠ stop + (k + 1) := by
          rintro rfl
          rw [hb] at g3
          injection g3 with g3
          exact hlf g3
        exact (i2 h0).1 j0 g1 (by omega) g3 (fun j a b => g4 j a (by omega))

/-- **C58**, what the marker is in reports of several lines: below the place behind the byte at which the tokenizer stopped, as
far behind the start of the line as the byte is behind the last line break; but where the marker of the report before was, the
first column after `clear`, if there is no line break in the 255 bytes before. -/
theorem C58_several_lines_partial (cfg : ErrCfg) (d : Bytes) (c : Nat) (x x' : ErrCtx) (hx : x.lines = []) (h : reportAt cfg d c x = some x')
    (h1 : 1 < x'.lines.length) :
    (∀ start, c + 1 < start + 256 → 1 < start → start ≤ c → d[start - 1]? = some LF → (∀ j, start ≤ j → j < c → d[j]? ≠ some LF) →
      start + x'.character = c + 1) ∧
    ((∀ j, 0 < j → c < j + 256 → j < c → d[j]? ≠ some LF) → x'.character = x.character) := by
  have hlr : lineRange = 256 := rfl
  unfold reportAt at h
  simp only [Option.bind_eq_bind] at h
  split at h
  · simp at h
  · rw [Option.bind_eq_some_iff] at h
    obtain ⟨s, hs, h⟩ := h
    rw [Option.bind_eq_some_iff] at h
    obtain ⟨⟨ls, q⟩, hf, h⟩ := h
    simp only at h
    split at h
    · rw [Option.bind_eq_some_iff] at h
      obtain ⟨sh, hsh, h⟩ := h
      injection h with h
      subst h
      obtain ⟨k1, k2⟩ := (backLoop_char hs).2 rfl
      refine ⟨fun start a1 a2 a3 a4 a5 => ?_, fun g => ?_⟩
      · show start + s.char = c + 1
        have := k1 (start - 1) (by omega) (by omega) a4 (fun j b1 b2 => a5 j (by omega) (by omega))
        omega
      · exact k2 fun j b1 b2 => g j (by omega) (by omega) (by omega)
    · exfalso
      split at h
      · simp at h
      · rw [Option.bind_eq_some_iff] at h
        obtain ⟨sh, hsh, h⟩ := h
        injection h with h
        subst h
        simp [hx] at h1

/-- The hypotheses hold of the examples below, where the tokenizer stopped at the `}`. -/
example : (∀ x', reportAt {} b!"[1,\n2,}\n3]" 6 {} = some x' → 4 + x'.character = 6 + 1) ∧
    ∀ x', reportAt {} b!"[1,}\n2]" 3 {} = some x' → x'.character = 0 := by
  refine ⟨fun x' h => ?_, fun x' h => ?_⟩
  · refine (C58_several_lines_partial {} _ 6 {} x' rfl h ?_).1 4 (by omega) (by omega) (by omega) (by decide) (fun j h1 h2 => by
      have : j = 4 ∨ j = 5 := by omega
      rcases this with rfl | rfl <;> decide)
    have : reportAt {} b!"[1,\n2,}\n3]" 6 {} = some { line := 1, character := 3, lines := [b!"[1,", b!"2,}", b!"3"] } := by decide +kernel
    rw [this] at h
    injection h with h
    rw [← h]
    decide
  · refine (C58_several_lines_partial {} _ 3 {} x' rfl h ?_).2 ?_
    · have : reportAt {} b!"[1,}\n2]" 3 {} = some { line := 0, character := 0, lines := [b!"[1,}", b!"2"] } := by decide +kernel
      rw [this] at h
      injection h with h
      rw [← h]
      decide
    · intro j h1 _ h3
      have : j = 1 ∨ j = 2 := by omega
      rcases this with rfl | rfl <;> decide

/-- **C58** is false in reports of several lines: the marker is one column to the right. The tokenizer stopped at the
`}`, position 2 of the line `2,}`, and the marker is below position 3. -/
theorem C58_false_one_right : reportAt {} b!"[1,\n2,}\n3]" 6 {} = some { line := 1, character := 3, lines := [b!"[1,", b!"2,}", b!"3"] } ∧
    b!"[1,\n2,}\n3]"[6]? = some RBRACE := by decide +kernel

/-- **C58** is false in reports of several lines if the error is in the first one: the marker is at the start of the
line. -/
theorem C58_false_first_line : reportAt {} b!"[1,}\n2]" 3 {} = some { line := 0, character := 0, lines := [b!"[1,}", b!"2"] } := by
  decide +kernel

/-- **C58** is false in reports of several lines if no line break follows: the byte the tokenizer stopped at is not
shown. -/
theorem C58_false_not_shown : reportAt {} b!"[1,\n2,}]" 6 {} = some { line := 1, character := 3, lines := [b!"[1,", b!"2,"] } := by
  decide +kernel

/-- **C58** is false if the report is written twice, as for an error of the tokenizer in a call of `callFunctions`
(JSH 1730 and 5384): every line is shown twice. -/
theorem C58_false_twice : ((reportAt {} b!"[1,}" 3 {}).bind (reportAt {} b!"[1,}" 3)).map (·.lines)
    = some [b!"[1,}", b!"[1,}"] := by decide +kernel

end JsonStruct
