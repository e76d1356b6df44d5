import Verif.Lemmas.Output
import Verif.Props.Serializer

/- C70: one `SerializerContext` used for several values. -/

namespace JsonStruct

/-- The text of tokens: what a serializer writes whose buffers, of one byte, never run out. -/
def serText (o : SerOpts) (ks : List Tok) : Bytes := ((Ser.fresh o 1 (fun _ => some 1)).writeAll ks).2.out

/-- The tokens written in a history. -/
def OutOp.tokens : List OutOp → List Tok
  | [] => []
  | .write k :: ops => k :: OutOp.tokens ops
  | .flush :: ops => OutOp.tokens ops

/-- The state after the tokens of a history. -/
def OutCtx.After (c : OutCtx) (o : SerOpts) (n : Nat) (ks : List Tok) : Prop :=
  c.Inv n (serText o ks) ((Ser.fresh o 1 (fun _ => some 1)).writeAll ks).2.st

theorem serText_good (o : SerOpts) (ks : List Tok) : ((Ser.fresh o 1 (fun _ => some 1)).writeAll ks).2.Good := by
  obtain ⟨_, _, _, hw⟩ := writeAll_any ks { opt := o }
  exact (hw (Ser.fresh o 1 (fun _ => some 1)) (fresh_good _ _ _ (fun n => ⟨1, rfl, by decide⟩)) rfl).2.good

/-- One more token. -/
theorem after_write (o : SerOpts) (n : Nat) (hn : 0 < n) (ks : List Tok) (k : Tok) (c : OutCtx) (h : c.After o n ks) :
    ∃ d, serText o (ks ++ [k]) = serText o ks ++ d ∧
    (c.Open n (serText o ks) → ∃ c', c.write k = some c' ∧ c'.After o n (ks ++ [k]) ∧ c'.Open n (serText o (ks ++ [k]))) ∧
    (c.json = serText o ks → (serText o ks).length < n * 2 ^ c.ser.requests →
      (d = [] → ∃ c', c.write k = some c' ∧ c'.After o n (ks ++ [k])) ∧ (d ≠ [] → c.write k = none)) := by
  obtain ⟨ok, d, st', hw⟩ := writeAll_any [k] ((Ser.fresh o 1 (fun _ => some 1)).writeAll ks).2.st
  have hw' : ∀ s : Ser, s.Good → s.st = ((Ser.fresh o 1 (fun _ => some 1)).writeAll ks).2.st → WroteToks s st' d (s.write k).2 :=
    fun s hg hs => (hw s hg hs).2
  have hf := hw' _ (serText_good o ks) rfl
  have hnext : ((Ser.fresh o 1 (fun _ => some 1)).writeAll (ks ++ [k])).2 = (((Ser.fresh o 1 (fun _ => some 1)).writeAll ks).2.write k).2 := by
    rw [writeAll_append]; rfl
  have htext : serText o (ks ++ [k]) = serText o ks ++ d := by
    unfold serText; rw [hnext, hf.out]
  have hst : ((Ser.fresh o 1 (fun _ => some 1)).writeAll (ks ++ [k])).2.st = st' := by rw [hnext, hf.st]
  obtain ⟨w1, w2⟩ := write_step c n hn _ _ h k d st' hw'
  refine ⟨d, htext, fun ho => ?_, fun hj hl => ⟨fun hd => ?_, (w2 hj hl).2⟩⟩
  · obtain ⟨c', e1, e2, e3⟩ := w1 ho
    exact ⟨c', e1, by unfold OutCtx.After; rw [htext, hst]; exact e2, by rw [htext]; exact e3⟩
  · obtain ⟨c', e1, e2, _⟩ := (w2 hj hl).1 hd
    refine ⟨c', e1, ?_⟩
    unfold OutCtx.After
    rw [htext, hst, hd, List.append_nil]; exact e2

theorem run_after (o : SerOpts) (n : Nat) (hn : 0 < n) (ops : List OutOp) (ks : List Tok) (c c' : OutCtx) (h : c.After o n ks)
    (hr : c.run ops = some c') : c'.After o n (ks ++ OutOp.tokens ops) := by
  induction ops generalizing c ks with
  | nil =>
    simp only [OutCtx.run, Option.some.injEq] at hr
    subst hr
    simpa [OutOp.tokens] using h
  | cons op ops ih =>
    cases op with
    | flush =>
      exact ih ks c.flush (flush_step h).2 hr
    | write k =>
      simp only [OutCtx.run, Option.bind_eq_bind, Option.bind_eq_some_iff] at hr
      obtain ⟨c1, h1, h2⟩ := hr
      obtain ⟨d, hd, w1, w2⟩ := after_write o n hn ks k c h
      have hc1 : c1.After o n (ks ++ [k]) := by
        rcases inv_cases h with ho | ⟨hj, hl⟩
        · obtain ⟨c2, e1, e2, _⟩ := w1 ho
          rw [e1] at h1
          cases h1
          exact e2
        · by_cases h0 : d = []
          · obtain ⟨c2, e1, e2⟩ := (w2 hj hl).1 h0
            rw [e1] at h1
            cases h1
            exact e2
          · rw [(w2 hj hl).2 h0] at h1; cases h1
      have := ih (ks ++ [k]) c1 hc1 h2
      simpa [OutOp.tokens] using this

theorem run_append (c : OutCtx) (a b : List OutOp) : c.run (a ++ b) = (c.run a).bind (·.run b) := by
  induction a generalizing c with
  | nil => rfl
  | cons op a ih =>
    cases op with
    | flush => exact ih c.flush
    | write k =>
      simp only [List.cons_append, OutCtx.run, Option.bind_eq_bind]
      cases c.write k with
      | none => rfl
      | some c1 => exact ih c1

theorem run_writes (o : SerOpts) (n : Nat) (hn : 0 < n) (ks' : List Tok) (ks : List Tok) (c : OutCtx) (h : c.After o n ks)
    (ho : c.Open n (serText o ks)) :
    ∃ c', c.run (ks'.map .write) = some c' ∧ c'.After o n (ks ++ ks') ∧ c'.Open n (serText o (ks ++ ks')) := by
  induction ks' generalizing c ks with
  | nil => exact ⟨c, rfl, by simpa using h, by simpa using ho⟩
  | cons k ks' ih =>
    obtain ⟨d, hd, w1, _⟩ := after_write o n hn ks k c h
    obtain ⟨c1, e1, e2, e3⟩ := w1 ho
    obtain ⟨c2, f1, f2, f3⟩ := ih (ks ++ [k]) c1 e2 e3
    refine ⟨c2, by simp only [List.map_cons, OutCtx.run, e1, Option.bind_eq_bind, Option.bind_some, f1], ?_, ?_⟩
    · simpa using f2
    · simpa using f3

theorem new_after (o : SerOpts) (json : Bytes) : (OutCtx.new o json).After o (startString json).length [] := (inv_new o json).1

/-- `n` flushes do what one does. -/
theorem run_flushes (o : SerOpts) (n : Nat) (ks : List Tok) (c : OutCtx) (h : c.After o n ks) (m : Nat) :
    ∃ c', c.run (List.replicate (m + 1) .flush) = some c' ∧ c'.json = serText o ks := by
  induction m generalizing c with
  | zero => exact ⟨c.flush, rfl, (flush_step h).1⟩
  | succ m ih => exact ih c.flush (flush_step h).2

/-- **C70**, whenever it is defined: for any contents of the string before, any options, and any history of writes and flushes in
any order, if no write goes beyond the end of the string then after the last flush the string is exactly the text of all tokens
written. -/
theorem C70_what_is_defined_is_exact (o : SerOpts) (json : Bytes) (ops : List OutOp) (c : OutCtx)
    (h : (OutCtx.new o json).run (ops ++ [.flush]) = some c) : c.json = serText o (OutOp.tokens ops) := by
  rw [run_append, Option.bind_eq_some_iff] at h
  obtain ⟨c1, h1, h2⟩ := h
  have ha := run_after o _ (startString_pos json) ops [] _ c1 (new_after o json) h1
  simp only [OutCtx.run, Option.some.injEq] at h2
  subst h2
  simpa using (flush_step ha).1

/-- **C70** is defined for one value: any tokens are written without leaving the string, and any positive number of flushes (that
of the destructor among them) leaves exactly their text. Missing: writes behind a flush. -/
theorem C70_one_value_partial (o : SerOpts) (json : Bytes) (ks : List Tok) (m : Nat) :
    ∃ c, (OutCtx.new o json).run (ks.map .write ++ List.replicate (m + 1) .flush) = some c ∧ c.json = serText o ks := by
  obtain ⟨c1, h1, h2, _⟩ := run_writes o _ (startString_pos json) ks [] _ (new_after o json) (inv_new o json).2
  obtain ⟨c2, h3, h4⟩ := run_flushes o _ _ c1 h2 m
  refine ⟨c2, ?_, by simpa using h4⟩
  rw [run_append, h1]
  exact h3

/-- **C70** is false, and exactly when: once a value has been serialized, the next token that has any text is written beyond the
end of the string, unless the first text happened to be as long as the string at the beginning (4096 bytes for an empty one) or
a multiple of it by a power of two. -/
theorem C70_again_is_undefined (o : SerOpts) (json : Bytes) (ks : List Tok) (k : Tok) (hk : serText o (ks ++ [k]) ≠ serText o ks) :
    (OutCtx.new o json).run (serializeOps ks ++ [.write k]) = none ↔
      ¬ ∃ j, (serText o ks).length = (startString json).length * 2 ^ j := by
  obtain ⟨c1, h1, h2, _⟩ := run_writes o _ (startString_pos json) ks [] _ (new_after o json) (inv_new o json).2
  rw [List.nil_append] at h2
  obtain ⟨hj, hi⟩ := flush_step h2
  have hrun : (OutCtx.new o json).run (serializeOps ks ++ [.write k]) = c1.flush.write k := by
    rw [serializeOps, List.append_assoc, run_append, h1]
    simp only [Option.bind_some, List.cons_append, List.nil_append, OutCtx.run]
    cases c1.flush.write k <;> rfl
  rw [hrun]
  obtain ⟨d, hd, w1, w2⟩ := after_write o _ (startString_pos json) ks k c1.flush hi
  have hne : d ≠ [] := by
    rintro rfl
    exact hk (by simpa using hd)
  obtain ⟨hl1, hl2⟩ := inv_lengths hi
  have hcur := hi.cur
  rcases inv_cases hi with ho | ⟨hj', hl⟩
  · obtain ⟨c2, e1, _⟩ := w1 ho
    rw [e1]
    constructor
    · intro h; cases h
    · intro h
      exact absurd ⟨_, by rw [← hj]; exact ho.1⟩ h
  · rw [(w2 hj' hl).2 hne]
    refine ⟨fun _ => ?_, fun _ => rfl⟩
    rintro ⟨j, hjl⟩
    have hpos := startString_pos json
    have hreq : c1.flush.ser.requests = 0 ∨ (startString json).length * 2 ^ (c1.flush.ser.requests - 1) < (serText o ks).length := by
      by_cases h0 : c1.flush.ser.requests = 0
      · exact .inl h0
      · right
        have h3 := hi.last
        simp only [lastPos, h0, if_false] at h3
        have h4 := List.length_pos_iff.mpr (hi.busy h0)
        omega
    rw [hjl] at hl hreq
    have hlt := (Nat.pow_lt_pow_iff_right (by decide : 1 < 2)).mp (Nat.lt_of_mul_lt_mul_left hl)
    rcases hreq with h0 | h0
    · omega
    · have := (Nat.pow_lt_pow_iff_right (by decide : 1 < 2)).mp (Nat.lt_of_mul_lt_mul_left h0)
      omega

/-- The tokens of `[1]`. -/
def oneArray : List Tok := (JVal.arr [.num b!"1"]).docToks

/-- **C70** is false: `[1]` serialized twice through a context on a new string writes behind its end. -/
theorem C70_false_twice : (OutCtx.new (SerOpts.new false) []).run (serializeOps oneArray ++ serializeOps oneArray) = none ∧
    serText (SerOpts.new false) (oneArray ++ oneArray) = b!"[1],[1]" := by
  refine ⟨?_, by decide +kernel⟩
  rw [← Option.isNone_iff_eq_none]
  decide +kernel

/-- A context on a string of two bytes, enlarged once; on one of three bytes, where a second value can be written. -/
example : ((OutCtx.new (SerOpts.new false) b!"xy").run (serializeOps oneArray)).map (·.json) = some b!"[1]" ∧
    ((OutCtx.new (SerOpts.new false) b!"xyz").run (serializeOps oneArray ++ serializeOps oneArray)).map (·.json) = some b!"[1],[1]" ∧
    serText (SerOpts.new false) (oneArray ++ [{ value := b!"[", valueType := .arrayStart }]) ≠ serText (SerOpts.new false) oneArray := by
  decide +kernel

end JsonStruct
