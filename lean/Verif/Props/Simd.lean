import Verif.Lemmas.SimdEq
import Verif.Props.Tokenizer

/- C10: the vectorised builds deliver what the scalar build delivers. -/

namespace JsonStruct

/-- The buffer an operation hands over does not end with a backslash. -/
def Op.noBsl : Op → Prop
  | .addData b => b.getLast? ≠ some BSL
  | .resetData b _ => b.getLast? ≠ some BSL
  | _ => True

/-- **C10** (one buffer). For every document in one buffer and all options, every build
(scalar, SSE2, SSE4.2, AVX2, NEON) delivers the same tokens and the same final error. -/
theorem C10_simd_one_buffer (o : Opts) (m : Simd) (b : Bytes) :
    tokenize (o.withSimd m) b = tokenize o b := by
  have key : ∀ n (t : Tz) next, t.noBsl' → t.Ok → t.parsed = none →
      (Tz.collect n (t.simd m) next).1 = (Tz.collect n t next).1 ∧
      (Tz.collect n (t.simd m) next).2.1 = (Tz.collect n t next).2.1 := by
    intro n
    induction n with
    | zero => intros; exact ⟨rfl, rfl⟩
    | succ n ih =>
      intro t next h1 h2 h3
      have hs := nextToken_simd' m t next h1 h2 h3
      have hk := nextToken_ok t next h2 h3
      simp only [Tz.collect, hs.1]
      split
      · rename_i he
        have := ih (t.nextToken next).2.1 (t.nextToken next).2.2 (hs.2 he) hk.inv hk.parsed
        simp only [this]; exact ⟨trivial, trivial⟩
      · exact ⟨rfl, rfl⟩
  have := key ([b].flatten.length + 1) { Tz.new o with bufs := [b] } {}
    ⟨rfl, by simp, rfl⟩ (ok_start o [b]) rfl
  unfold tokenize tokenizeAll
  change (List.map Token.tok (Tz.collect _ (Tz.simd m { Tz.new o with bufs := [b] }) {}).1, _) = _
  rw [this.1]
  exact Prod.ext rfl this.2

/-- **C10** (several buffers), partial: cut the document anywhere except behind a backslash.
Full statement: the same without `hb`; false, see `C10_false_with_pending_escape`. -/
theorem C10_simd_buffers_partial (o : Opts) (m : Simd) (bs : List Bytes)
    (hb : ∀ b ∈ bs.dropLast, b.getLast? ≠ some BSL) :
    tokenizeBufs (o.withSimd m) bs = tokenizeBufs o bs := by
  have key : ∀ n (t : Tz) next, t.noBsl' → t.Ok → t.parsed = none →
      (Tz.collect n (t.simd m) next).1 = (Tz.collect n t next).1 ∧
      (Tz.collect n (t.simd m) next).2.1 = (Tz.collect n t next).2.1 := by
    intro n
    induction n with
    | zero => intros; exact ⟨rfl, rfl⟩
    | succ n ih =>
      intro t next h1 h2 h3
      have hs := nextToken_simd' m t next h1 h2 h3
      have hk := nextToken_ok t next h2 h3
      simp only [Tz.collect, hs.1]
      split
      · rename_i he
        have := ih (t.nextToken next).2.1 (t.nextToken next).2.2 (hs.2 he) hk.inv hk.parsed
        simp only [this]; exact ⟨trivial, trivial⟩
      · exact ⟨rfl, rfl⟩
  have := key (bs.flatten.length + 1) { Tz.new o with bufs := bs } {}
    ⟨rfl, hb, rfl⟩ (ok_start o bs) rfl
  unfold tokenizeBufs tokenizeAll
  change (List.map Token.tok (Tz.collect _ (Tz.simd m { Tz.new o with bufs := bs }) {}).1, _) = _
  rw [this.1]
  exact Prod.ext rfl this.2

/-- **C10** (histories), partial: for every history of calls in which no buffer handed over
ends with a backslash, every build returns the same errors and tokens, call by call.
Missing: buffers ending with a backslash, see `C10_false_with_pending_escape`. -/
theorem C10_simd_histories_partial (o : Opts) (m : Simd) (script : List (List Bytes)) (ops : List Op)
    (hv : ∀ op ∈ ops, op.valid) (hs : ∀ bs ∈ script, ∀ b ∈ bs, b.getLast? ≠ some BSL)
    (ho : ∀ op ∈ ops, op.noBsl) :
    (World.run (o.withSimd m) script ops).log = (World.run o script ops).log := by
  have key : ∀ (ops : List Op) (w w' : World), WorldInv w → w.tz.noBsl → w'.tz = w.tz.simd m → w'.tok = w.tok →
      w'.log = w.log → (∀ op ∈ ops, op.valid) → (∀ op ∈ ops, op.noBsl) →
      (ops.foldl World.step w').log = (ops.foldl World.step w).log := by
    intro ops
    induction ops with
    | nil => intro w w' _ _ _ _ h _ _; exact h
    | cons op ops ih =>
      intro w w' hi hn ht hk hl hv ho
      have hi' := worldInv_step w op (hv op (by simp)) hi
      have ho' := ho op (by simp)
      refine ih (w.step op) (w'.step op) hi' ?_ ?_ ?_ ?_ (fun x hx => hv x (by simp [hx])) (fun x hx => ho x (by simp [hx]))
      · cases op with
        | addData b =>
          refine ⟨hn.1, fun b' hb' => ?_, hn.2.2⟩
          simp only [World.step, Tz.addData, List.mem_append, List.mem_singleton] at hb'
          rcases hb' with hb' | hb'
          · exact hn.2.1 b' hb'
          · rw [hb']; exact ho'
        | next => exact (nextToken_simd m w.tz w.tok hn hi.ok hi.parsed).2
        | resetData b i =>
          refine ⟨hn.1, fun b' hb' => ?_, hn.2.2⟩
          simp only [World.step, Tz.resetData, Tz.resetForNewToken, Tz.resetForNewValue, List.mem_singleton] at hb'
          rw [hb']; exact ho'
        | pushScope ty => exact hn
        | popScope =>
          simp only [World.step, Tz.popScope]
          cases w.tz.scopes <;> exact hn
      all_goals
        cases op with
        | next =>
          have := (nextToken_simd m w.tz w.tok hn hi.ok hi.parsed).1
          simp only [World.step, ht, hk, hl, this]
        | popScope =>
          simp only [World.step, Tz.popScope, ht, show (w.tz.simd m).scopes = w.tz.scopes from rfl]
          cases w.tz.scopes <;> simp [ht, hk, hl, Tz.simd]
        | _ => simp [World.step, ht, hk, hl, Tz.simd, Tz.addData, Tz.resetData, Tz.resetForNewToken,
            Tz.resetForNewValue, Tz.pushScope]
  have hi := worldInv_run o script [] (by simp)
  exact key ops (World.init o script) (World.init (o.withSimd m) script) hi ⟨rfl, by simp [World.init, Tz.new], hs⟩ rfl rfl rfl hv ho

/-- `["a\nbcdefghijklmnop","x"]` cut behind the backslash. -/
def pendingEscape : List Bytes :=
  [[91, 34, 97, 92],
   [110, 98, 99, 100, 101, 102, 103, 104, 105, 106, 107, 108, 109, 110, 111, 112, 34, 44, 34, 120, 34, 93]]

/-- C10 is false of the code when an escape is pending at the start of a buffer: the
vector loop passes over the escaped byte without clearing the flag, and the closing
quote behind the block is taken for an escaped one. -/
theorem C10_false_with_pending_escape :
    ∃ bs : List Bytes, tokenizeBufs ({ simd := .sse2 } : Opts) bs ≠ tokenizeBufs {} bs :=
  ⟨pendingEscape, by decide +kernel⟩

/-- The hypothesis is met by a cut inside a string that is not behind a backslash. -/
example : (∀ b ∈ ([[91, 34, 97, 98], [99, 34, 93]] : List Bytes).dropLast, b.getLast? ≠ some BSL) ∧
    (tokenizeBufs ({ simd := .avx2 } : Opts) [[91, 34, 97, 98], [99, 34, 93]]).1.length = 3 := by
  decide +kernel

end JsonStruct
