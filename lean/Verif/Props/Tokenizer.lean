import Verif.Lemmas.Inv
import Verif.Spec.History

/- C06, C07, C08: nesting, bounds and progress for arbitrary histories. -/

namespace JsonStruct

structure WorldInv (w : World) : Prop where
  ok : w.tz.Ok
  parsed : w.tz.parsed = none
  nest : openBrackets (w.delivered.map (·.valueType)) = some w.tz.stack
  count : w.delivered.length + w.tz.avail + w.tz.pend ≤ w.supplied

theorem openBrackets_snoc (l : List Ty) (ty : Ty) :
    openBrackets (l ++ [ty]) = (openBrackets l).bind (fun st => bracketStep st ty) := by
  simp [openBrackets, List.foldlM_append]

theorem worldInv_next (w : World) (h : WorldInv w) : WorldInv (w.step .next) := by
  have hn := nextToken_ok w.tz w.tok h.ok h.parsed
  unfold World.step
  generalize w.tz.nextToken w.tok = r at *
  obtain ⟨e, t, tok⟩ := r
  simp only at hn ⊢
  by_cases he : e = .noError
  · subst he
    have hd : World.delivered { w with tz := t, tok := tok, log := w.log ++ [(.noError, tok)] } =
        w.delivered ++ [tok] := by simp [World.delivered]
    refine ⟨hn.inv, hn.parsed, ?_, ?_⟩
    · rw [hd, List.map_append, List.map_singleton, openBrackets_snoc, h.nest]
      exact hn.stack rfl
    · rw [hd]
      have := hn.progress rfl
      have := h.count
      simp only [List.length_append, List.length_singleton]; omega
  · have hd : World.delivered { w with tz := t, tok := tok, log := w.log ++ [(e, tok)] } =
        w.delivered := by simp [World.delivered, he]
    refine ⟨hn.inv, hn.parsed, ?_, ?_⟩
    · rw [hd, h.nest, hn.stackErr he]
    · rw [hd]
      have := hn.noIncrease
      have := h.count
      simp only; omega

theorem worldInv_step (w : World) (op : Op) (hv : op.valid) (h : WorldInv w) : WorldInv (w.step op) := by
  obtain ⟨ok, parsed, nest, count⟩ := h
  have hsum : ∀ b : Bytes, (w.tz.addData b).avail ≤ w.tz.avail + b.length := by
    intro b; simp [Tz.addData, Tz.avail]; omega
  cases op with
  | next => exact worldInv_next w ⟨ok, parsed, nest, count⟩
  | addData b =>
    refine ⟨⟨fun b' r hb => ?_, fun hb => ?_, ok.fe, ok.pe, ok.ds⟩, parsed, nest, ?_⟩
    · simp only [World.step, Tz.addData] at hb ⊢
      cases hw : w.tz.bufs with
      | nil => rw [ok.cur0 hw]; omega
      | cons b0 r0 =>
        rw [hw] at hb; simp only [List.cons_append, List.cons.injEq] at hb
        rw [← hb.1]; exact ok.cur b0 r0 hw
    · simp [World.step, Tz.addData] at hb
    · have := hsum b
      have h2 : (w.tz.addData b).pend = w.tz.pend := rfl
      simp only [World.step, World.delivered] at *; omega
  | resetData b i =>
    simp only [Op.valid] at hv
    refine ⟨⟨fun b' r hb => ?_, fun hb => ?_, ?_, ?_, ?_⟩, ?_, nest, ?_⟩
    · simp only [World.step, Tz.resetData, Tz.resetForNewToken, Tz.resetForNewValue, List.cons.injEq] at hb ⊢
      rw [← hb.1]; exact hv
    · simp [World.step, Tz.resetData, Tz.resetForNewToken, Tz.resetForNewValue] at hb
    · simp [World.step, Tz.resetData, Tz.resetForNewToken, Tz.resetForNewValue]
    · simp [World.step, Tz.resetData, Tz.resetForNewToken, Tz.resetForNewValue]
    · simp [World.step, Tz.resetData, Tz.resetForNewToken, Tz.resetForNewValue]
    · simp [World.step, Tz.resetData, Tz.resetForNewToken, Tz.resetForNewValue]
    · have h1 : (w.tz.resetData b i).pend ≤ w.tz.pend := by
        unfold Tz.pend
        simp only [Tz.resetData, Tz.resetForNewToken, Tz.resetForNewValue, reduceCtorEq, or_false]
        split
        · rename_i hh; rw [if_pos (by rcases hh with h | h <;> simp [h])]; omega
        · omega
      have h2 : (w.tz.resetData b i).avail ≤ w.tz.avail + b.length := by
        simp [Tz.resetData, Tz.resetForNewToken, Tz.resetForNewValue, Tz.avail]; omega
      simp only [World.step, World.delivered] at *; omega
  | pushScope ty => exact ⟨⟨ok.cur, ok.cur0, ok.fe, ok.pe, ok.ds⟩, parsed, nest, count⟩
  | popScope =>
    simp only [World.step, Tz.popScope]
    cases w.tz.scopes with
    | nil => exact ⟨ok, parsed, nest, count⟩
    | cons s r => exact ⟨⟨ok.cur, ok.cur0, ok.fe, ok.pe, ok.ds⟩, parsed, nest, count⟩

theorem worldInv_run (o : Opts) (script : List (List Bytes)) (ops : List Op) (hv : ∀ op ∈ ops, op.valid) :
    WorldInv (World.run o script ops) := by
  have h0 : WorldInv (World.init o script) := by
    refine ⟨⟨by simp [World.init, Tz.new], by simp [World.init, Tz.new], by simp [World.init, Tz.new],
      by simp [World.init, Tz.new], by simp [World.init, Tz.new]⟩, rfl, rfl, ?_⟩
    simp [World.init, Tz.new, World.delivered, Tz.avail, Tz.pend]
  unfold World.run
  generalize World.init o script = w at *
  induction ops generalizing w with
  | nil => exact h0
  | cons op ops ih =>
    exact ih (fun op' h => hv op' (by simp [h])) _ (worldInv_step w op (hv op (by simp)) h0)

/-- **C06** (nesting). After any history of calls, on any bytes cut into any buffers and
with any options, the brackets among the tokens delivered with `NoError` are properly
nested: every closing bracket matched the innermost open one. Since a history's
prefixes are histories, this holds at every moment. -/
theorem C06_brackets_match (o : Opts) (script : List (List Bytes)) (ops : List Op)
    (hv : ∀ op ∈ ops, op.valid) :
    (openBrackets ((World.run o script ops).delivered.map (·.valueType))).isSome = true := by
  rw [(worldInv_run o script ops hv).nest]; rfl

/-- **C06** (errors). `UnexpectedArrayEnd` / `UnexpectedObjectEnd` are returned only for a
closing bracket that does not match the innermost bracket open among the tokens
delivered so far. -/
theorem C06_mismatch_reported (o : Opts) (script : List (List Bytes)) (ops : List Op)
    (hv : ∀ op ∈ ops, op.valid) :
    let w := World.run o script ops
    let r := w.tz.nextToken w.tok
    (r.1 = .unexpectedArrayEnd → r.2.2.valueType = .arrayEnd ∧
      openBrackets (w.delivered.map (·.valueType) ++ [.arrayEnd]) = none) ∧
    (r.1 = .unexpectedObjectEnd → r.2.2.valueType = .objectEnd ∧
      openBrackets (w.delivered.map (·.valueType) ++ [.objectEnd]) = none) := by
  have h := worldInv_run o script ops hv
  have hn := nextToken_ok _ (World.run o script ops).tok h.ok h.parsed
  simp only
  refine ⟨fun he => ⟨(hn.mismatch.1 he).1, ?_⟩, fun he => ⟨(hn.mismatch.2 he).1, ?_⟩⟩
  · rw [openBrackets_snoc, h.nest]; exact (hn.mismatch.1 he).2
  · rw [openBrackets_snoc, h.nest]; exact (hn.mismatch.2 he).2

/-- The history "add `[{}]` and read five tokens". -/
def exampleOps : List Op :=
  [.addData [91, 123, 125, 93], .next, .next, .next, .next, .next]

example : (World.run {} [] exampleOps).delivered.map (·.valueType) =
    [.arrayStart, .objectStart, .objectEnd, .arrayEnd] := by decide +kernel

/-- A mismatched bracket: `[}`. -/
example : ((World.run {} [] [.addData [91, 125], .next]).tz.nextToken {}).1 = .unexpectedObjectEnd := by
  decide +kernel

/-- **C06** (mismatches never pass). If a call delivers a closing bracket with `NoError`,
it matches the innermost bracket open among the tokens delivered before. -/
theorem C06_delivered_matches (o : Opts) (script : List (List Bytes)) (ops : List Op)
    (hv : ∀ op ∈ ops, op.valid) :
    let w := World.run o script ops
    let r := w.tz.nextToken w.tok
    r.1 = .noError → r.2.2.valueType = .arrayEnd ∨ r.2.2.valueType = .objectEnd →
    (openBrackets (w.delivered.map (·.valueType))).bind List.head? =
      some (if r.2.2.valueType = .arrayEnd then .arrayStart else .objectStart) := by
  have h := worldInv_run o script ops hv
  have hn := nextToken_ok _ (World.run o script ops).tok h.ok h.parsed
  intro w r he hty
  have hs := hn.stack he
  have h0 := h.nest
  change openBrackets (w.delivered.map (·.valueType)) = some w.tz.stack at h0
  change bracketStep w.tz.stack r.2.2.valueType = some r.2.1.stack at hs
  rw [h0]
  rcases hty with hty | hty <;> rw [hty] at hs ⊢ <;> simp only [bracketStep] at hs <;> split at hs <;> simp_all

/-! ### C07 -/

/-- `d` is the range of `buf` that starts at offset `off`. -/
def RangeOf (buf : Bytes) (off : Nat) (d : Bytes) : Prop :=
  ∃ pre post, buf = pre ++ d ++ post ∧ pre.length = off

/-- A name or value handed out by a tokenizer in state `t`: a range of its current
buffer, or a string owned by the tokenizer, or nothing. -/
def SafeRef (t : Tz) (d : DataRef) : Prop :=
  match d.loc with
  | .input off => ∃ buf rest, t.bufs = buf :: rest ∧ RangeOf buf off d.bytes
  | .own => t.inter.active = true ∧ (d.bytes = t.inter.name ∨ d.bytes = t.inter.data)
  | .lit => d.bytes = []

theorem safeRef_of_refOk {t : Tz} {d : DataRef} (h : RefOk t d) : SafeRef t d := by
  obtain ⟨b, rest, hb, hr⟩ := h
  unfold RefIn at hr
  unfold SafeRef
  split at hr
  · rename_i off heq
    rw [heq]
    refine ⟨b, rest, hb, b.take off, b.drop (off + d.bytes.length), ?_, by simp; omega⟩
    have h1 : d.bytes ++ b.drop (off + d.bytes.length) = b.drop off := by
      have h2 : d.bytes = (b.drop off).take d.bytes.length := hr.2
      generalize d.bytes.length = k at *
      rw [h2, ← List.drop_drop, List.take_append_drop]
    rw [List.append_assoc, h1, List.take_append_drop]
  · rename_i heq; rw [heq]; exact hr
  · rename_i heq; rw [heq]; exact hr

/-- **C07** (tokens). After any history of calls, whenever `nextToken` returns `NoError`, the
name and the value are each a range inside the buffer the tokenizer then stands in,
with the bytes found there, or a string the tokenizer owns, or empty. -/
theorem C07_tokens_in_bounds (o : Opts) (script : List (List Bytes)) (ops : List Op)
    (hv : ∀ op ∈ ops, op.valid) :
    let w := World.run o script ops
    let r := w.tz.nextToken w.tok
    r.1 = .noError → SafeRef r.2.1 r.2.2.name ∧ SafeRef r.2.1 r.2.2.value := by
  have h := worldInv_run o script ops hv
  have hn := nextToken_ok _ (World.run o script ops).tok h.ok h.parsed
  exact fun he => ⟨safeRef_of_refOk (hn.name he), safeRef_of_refOk (hn.value he)⟩

/-- **C07** (cursor). The cursor never passes the end of the current buffer, and `nextToken`
never has undefined behaviour. -/
theorem C07_cursor_in_bounds (o : Opts) (script : List (List Bytes)) (ops : List Op)
    (hv : ∀ op ∈ ops, op.valid) :
    let w := World.run o script ops
    (∀ buf rest, w.tz.bufs = buf :: rest → w.tz.cursor ≤ buf.length) ∧
    (w.tz.nextToken w.tok).1 ≠ .ub := by
  have h := worldInv_run o script ops hv
  exact ⟨h.ok.cur, (nextToken_ok _ (World.run o script ops).tok h.ok h.parsed).notub⟩

/-- **C07** (scans). Every scanner, scalar or vectorised, stays inside the bytes it is given:
the distance it reports never exceeds their number. -/
theorem C07_scans_in_bounds (m : Simd) (esc nl g : Bool) (s : Bytes) :
    (∀ k, (findStringEnd m esc s).1 = some k → 0 < k ∧ k ≤ s.length) ∧
    (∀ k, findAsciiEnd m s = .found k → k < s.length) ∧
    (∀ k, findNumberEnd m s = .found k → k < s.length) ∧
    (∀ k, skipComment m nl s = some k → k ≤ s.length) ∧
    wsSkip m g s ≤ s.length := by
  refine ⟨fun k h => findStringEnd_pos m esc s k h, fun k h => ?_, fun k h => ?_, fun k h => ?_, ?_⟩
  · rw [findAsciiEnd_eq] at h; exact asciiEnd_le s k h
  · rw [findNumberEnd_eq] at h; exact numberEnd_le s k h
  · rw [skipComment_eq] at h; exact commentEnd_le nl s k h
  · exact (wsSkip_spec m g s).1

/-- A value inside the buffer, and one that straddled two buffers. -/
example : ((World.run {} [] [.addData [123, 34, 97, 34, 58, 49, 125], .next]).tz.nextToken {}).2.2.value =
    { loc := .input 5, bytes := [49] } := by decide +kernel
example : ((World.run {} [] [.addData [123, 34, 97, 34, 58, 49], .addData [50, 125], .next]).tz.nextToken {}).2.2.value =
    { loc := .own, bytes := [49, 50] } := by decide +kernel

/-! ### C08 -/

/-- **C08** (progress). After any history, the number of tokens delivered is at most the
number of bytes supplied: every delivered token consumed a byte of its own. -/
theorem C08_tokens_le_bytes (o : Opts) (script : List (List Bytes)) (ops : List Op)
    (hv : ∀ op ∈ ops, op.valid) :
    (World.run o script ops).delivered.length ≤ (World.run o script ops).supplied := by
  have := (worldInv_run o script ops hv).count; omega

theorem collect_stops (n : Nat) (t : Tz) (next : Token) (h : t.Ok) (hp : t.parsed = none)
    (hn : t.avail + t.pend < n) : (Tz.collect n t next).2.1 ≠ .noError := by
  induction n generalizing t next with
  | zero => omega
  | succ n ih =>
    simp only [Tz.collect]
    have hk := nextToken_ok t next h hp
    split
    · rename_i he
      have := hk.progress he
      exact ih _ _ hk.inv hk.parsed (by omega)
    · rename_i he; exact he

theorem ok_start (o : Opts) (bs : List Bytes) : Tz.Ok { Tz.new o with bufs := bs } :=
  ⟨by simp [Tz.new], by simp [Tz.new], by simp [Tz.new], by simp [Tz.new], by simp [Tz.new]⟩

/-- **C08** (termination). Reading tokens from any buffers ends with a result other than
`NoError` within `bytes + 1` calls. -/
theorem C08_tokenizing_stops (o : Opts) (bs : List Bytes) : (tokenizeBufs o bs).2 ≠ .noError := by
  unfold tokenizeBufs tokenizeAll
  refine collect_stops _ _ _ (ok_start o bs) rfl ?_
  simp [Tz.avail, Tz.pend, Tz.new, List.length_flatten]

/-- **C08** (the loops inside `nextToken`). The iteration counters of the model never cut a
run short: in every reachable state, any larger counters give the same result. -/
theorem C08_loops_terminate (o : Opts) (script : List (List Bytes)) (ops : List Op)
    (hv : ∀ op ∈ ops, op.valid) (n : Nat) :
    let w := World.run o script ops
    let t := w.tz.resetForNewToken
    (t.supply ≤ n → Tz.pump n t = Tz.pump t.supply t) ∧
    (∀ buf, Tz.populateLoop (4 + n) t buf {} = t.populateNext buf) := by
  have h := worldInv_run o script ops hv
  refine ⟨fun hn => pump_fuel _ _ _ hn (Nat.le_refl _) (ok_reset _ h.ok)
    (by simp [Tz.resetForNewToken, Tz.resetForNewValue]), fun buf => ?_⟩
  exact populateLoop_four _ _ _ _

/-- **C08** (skipping a scope). `goToEndOfScope` terminates: in every reachable state with a
scope, a counter of one more than the bytes left is enough. -/
theorem C08_goToEndOfScope_stops (o : Opts) (script : List (List Bytes)) (ops : List Op)
    (hv : ∀ op ∈ ops, op.valid) (n : Nat) :
    let w := World.run o script ops
    w.supplied + 1 ≤ n →
    Tz.goToEndOfScope n w.tz w.tok = Tz.goToEndOfScope (w.supplied + 1) w.tz w.tok := by
  have h := worldInv_run o script ops hv
  have key : ∀ n m (t : Tz) (tok : Token), t.Ok → t.parsed = none → t.avail + t.pend < n → t.avail + t.pend < m →
      Tz.goToEndOfScope n t tok = Tz.goToEndOfScope m t tok := by
    intro n
    induction n with
    | zero => intros; omega
    | succ n ih =>
      intro m t tok h1 h2 h3 h4
      cases m with
      | zero => omega
      | succ m =>
        simp only [Tz.goToEndOfScope]
        split
        · rfl
        · split
          · rfl
          · have hk := nextToken_ok t tok h1 h2
            split
            · rename_i he
              have := hk.progress he
              exact ih m _ _ hk.inv hk.parsed (by omega) (by omega)
            · rfl
  intro w hn
  have := h.count
  exact key _ _ _ _ h.ok h.parsed (by simp only [w] at *; omega) (by simp only [w] at *; omega)

example : (World.run {} [] exampleOps).delivered.length = 4 ∧ (World.run {} [] exampleOps).supplied = 4 := by
  decide +kernel

end JsonStruct
