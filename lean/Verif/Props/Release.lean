import Verif.Props.Tokenizer
import Mathlib.Data.List.Induction
import Mathlib.Tactic.FinCases

/- C67: buffers are released once each, in the order in which they were added. -/

namespace JsonStruct

/-- The buffers an operation of the user hands to the tokenizer. -/
def Op.buffers : Op → List Bytes
  | .addData b => [b]
  | .resetData b _ => [b]
  | _ => []

/-- `later` holds more than `t`: nothing that was registered is lost or moved, what is new comes behind, from the
callback, and what was released stays released. -/
structure Advances (t later : Tz) : Prop where
  order : ∃ k, later.released ++ later.bufs = t.released ++ t.bufs ++ (t.pending.take k).flatten ∧ later.pending = t.pending.drop k
  kept : t.released <+: later.released

theorem Advances.refl (t : Tz) : Advances t t := ⟨⟨0, by simp⟩, List.prefix_refl _⟩

theorem Advances.trans {a b c : Tz} (h : Advances a b) (h' : Advances b c) : Advances a c := by
  obtain ⟨⟨k, h1, h2⟩, h3⟩ := h
  obtain ⟨⟨k', h1', h2'⟩, h3'⟩ := h'
  refine ⟨⟨k + k', ?_, by rw [h2', h2, List.drop_drop]⟩, h3.trans h3'⟩
  rw [h1', h1, h2, List.append_assoc, ← List.flatten_append, List.take_add]

theorem advances_of_eq {t t' : Tz} (h1 : t'.released = t.released) (h2 : t'.bufs = t.bufs) (h3 : t'.pending = t.pending) : Advances t t' :=
  ⟨⟨0, by simp [h1, h2, h3]⟩, h1 ▸ List.prefix_refl _⟩

theorem request_advances (t : Tz) : Advances t t.requestMoreData := by
  unfold Tz.requestMoreData
  split
  · exact .refl t
  · rename_i bs rest hp
    exact ⟨⟨1, by simp [hp]⟩, List.prefix_refl _⟩

theorem release_advances (t : Tz) : Advances t t.releaseFirst := by
  unfold Tz.releaseFirst
  split
  · exact .refl t
  · rename_i b rest hb
    exact ⟨⟨0, by simp [hb]⟩, by simp⟩

theorem pump_advances (n : Nat) (t : Tz) (h : t.Ok) (hp : t.propState ≠ .foundEnd) : Advances t (Tz.pump n t).2.1 := by
  induction n generalizing t with
  | zero => exact .refl t
  | succ n ih =>
    simp only [Tz.pump]
    cases hb : t.bufs with
    | nil => exact .refl t
    | cons b rest =>
      simp only
      have hl := populateNext_ok t b ⟨h.cur b rest hb, h.fe, hp, h.ds⟩
      generalize t.populateNext b = r at *
      obtain ⟨e, t', tok⟩ := r
      simp only at hl ⊢
      obtain ⟨a1, a2, a3, a4, a5, a6, a7, a8, a9⟩ := hl
      obtain ⟨f1, f2, f3, f4, f5, f6, f7, f8, f9⟩ := a1
      have h0 : Advances t t' := advances_of_eq f6 f2 f3
      split
      · rename_i he
        refine (h0.trans (release_advances t')).trans ((request_advances _).trans (ih _ ?_ ?_))
        · have h8 := a8 he
          simp only [Tz.releaseFirst, f2, hb, Tz.requestMoreData]
          split <;> exact ⟨by simp, by simp, by simp, fun _ => h8, a9⟩
        · have h8 := a8 he
          simp only [Tz.releaseFirst, f2, hb, Tz.requestMoreData]
          split <;> exact h8
      · exact h0

/-- After `NeedMoreData` the loop over the buffers has none left. -/
theorem pump_empty (n : Nat) (t : Tz) (hn : t.supply ≤ n) (h : t.Ok) (hp : t.propState ≠ .foundEnd) (he : (Tz.pump n t).1 = .needMoreData) :
    (Tz.pump n t).2.1.bufs = [] := by
  induction n generalizing t with
  | zero =>
    cases hb : t.bufs with
    | nil => simp [Tz.pump, hb]
    | cons b r => simp [Tz.supply, hb] at hn
  | succ n ih =>
    simp only [Tz.pump] at he ⊢
    cases hb : t.bufs with
    | nil => simp [hb]
    | cons b rest =>
      simp only [hb] at he ⊢
      have hl := populateNext_ok t b ⟨h.cur b rest hb, h.fe, hp, h.ds⟩
      generalize t.populateNext b = r at *
      obtain ⟨e, t', tok⟩ := r
      simp only at hl he ⊢
      obtain ⟨a1, a2, a3, a4, a5, a6, a7, a8, a9⟩ := hl
      obtain ⟨f1, f2, f3, f4, f5, f6, f7, f8, f9⟩ := a1
      split at he
      · rename_i hm
        rw [if_pos hm]
        have h8 := a8 hm
        have hsup : t'.releaseFirst.requestMoreData.supply + 1 ≤ t.supply ∧
            t'.releaseFirst.requestMoreData.Ok ∧ t'.releaseFirst.requestMoreData.propState ≠ .foundEnd := by
          simp only [Tz.releaseFirst, f2, hb, Tz.requestMoreData]
          split
          · rename_i hpn
            simp only [f3] at hpn
            refine ⟨by simp [Tz.supply, hb, f3, hpn], ⟨by simp, by simp, by simp, fun _ => h8, a9⟩, h8⟩
          · rename_i bs ps hpn
            simp only [f3] at hpn
            refine ⟨by simp [Tz.supply, hb, hpn]; omega, ⟨by simp, by simp, by simp, fun _ => h8, a9⟩, h8⟩
        exact ih _ (by omega) hsup.2.1 hsup.2.2 he
      · rename_i hm
        exact absurd he hm

theorem finish_needMore (t : Tz) (tok : Token) : (t.finish tok).1 ≠ .needMoreData := by
  intro he
  rcases (finish_ok t tok).bad (by rw [he]; simp) with ⟨_, _, ⟨h, _⟩ | ⟨h, _⟩⟩ <;> simp [he] at h

theorem nextToken_advances (t : Tz) (next : Token) (h : t.Ok) (hp : t.parsed = none) :
    Advances t (t.nextToken next).2.1 ∧ ((t.nextToken next).1 = .needMoreData → (t.nextToken next).2.1.bufs = []) := by
  unfold Tz.nextToken
  split
  · exact ⟨.refl t, by simp⟩
  · simp only [hp]
    generalize ht1 : (if t.bufs = [] then t.requestMoreData else t) = t1
    have f1 : t1.Ok ∧ Advances t t1 := by
      rw [← ht1]; split
      · rename_i hb
        exact ⟨ok_request t h hb, request_advances t⟩
      · exact ⟨h, .refl t⟩
    obtain ⟨o1, ad1⟩ := f1
    split
    · rename_i hb
      exact ⟨ad1, fun _ => hb⟩
    · generalize ht2 : (if t1.continueAfter = true then t1 else t1.resetForNewToken) = t2
      have f2 : t2.Ok ∧ Advances t1 t2 ∧ t2.propState ≠ .foundEnd := by
        rw [← ht2]; split
        · rename_i hc
          exact ⟨o1, .refl t1, o1.pe hc⟩
        · exact ⟨ok_reset t1 o1, advances_of_eq rfl rfl rfl, by simp [Tz.resetForNewToken, Tz.resetForNewValue]⟩
      obtain ⟨o2, ad2, ne2⟩ := f2
      have hpk := pump_advances t2.supply t2 o2 ne2
      have hpe := pump_empty t2.supply t2 (Nat.le_refl _) o2 ne2
      generalize Tz.pump t2.supply t2 = r at *
      obtain ⟨e, t3, tok⟩ := r
      simp only at hpk hpe ⊢
      have ad3 : Advances t { t3 with continueAfter := e == .needMoreData } :=
        (ad1.trans ad2).trans (hpk.trans (advances_of_eq rfl rfl rfl))
      cases tok with
      | none => exact ⟨ad3, hpe⟩
      | some k =>
        simp only
        have hf := (finish_ok { t3 with continueAfter := e == .needMoreData } k).same
        refine ⟨ad3.trans ?_, fun he => absurd he (finish_needMore _ _)⟩
        rw [hf]
        exact advances_of_eq rfl rfl rfl

/-- **C67**. Whatever has been done with a tokenizer before, one more operation loses no buffer, changes the order of
none, and takes none back that was released. Only `nextToken` and `resetData` release buffers. `resetData` releases all it
had; `nextToken` asks the callback for more and, if it returns `NeedMoreData`, has released them all. -/
theorem C67_release_in_order (o : Opts) (script : List (List Bytes)) (ops : List Op) (hv : ∀ op ∈ ops, op.valid) (op : Op) :
    let t := (World.run o script ops).tz
    let t' := ((World.run o script ops).step op).tz
    t.released <+: t'.released ∧
    (match op with
     | .next =>
       (∃ k, t'.released ++ t'.bufs = t.released ++ t.bufs ++ (t.pending.take k).flatten ∧ t'.pending = t.pending.drop k) ∧
       ((t.nextToken (World.run o script ops).tok).1 = .needMoreData → t'.bufs = [])
     | .addData b => t'.released = t.released ∧ t'.bufs = t.bufs ++ [b] ∧ t'.pending = t.pending
     | .resetData b _ => t'.released = t.released ++ t.bufs ∧ t'.bufs = [b] ∧ t'.pending = t.pending
     | _ => t'.released = t.released ∧ t'.bufs = t.bufs ∧ t'.pending = t.pending) := by
  have h := worldInv_run o script ops hv
  generalize World.run o script ops = w at *
  cases op with
  | next =>
    have hn := nextToken_advances w.tz w.tok h.ok h.parsed
    exact ⟨hn.1.kept, hn.1.order, hn.2⟩
  | addData b => exact ⟨List.prefix_refl _, rfl, rfl, rfl⟩
  | resetData b i => exact ⟨List.prefix_append _ _, rfl, rfl, rfl⟩
  | pushScope ty => exact ⟨List.prefix_refl _, rfl, rfl, rfl⟩
  | popScope =>
    simp only [World.step, Tz.popScope]
    cases w.tz.scopes with
    | nil => exact ⟨List.prefix_refl _, rfl, rfl, rfl⟩
    | cons s r => exact ⟨List.prefix_refl _, rfl, rfl, rfl⟩

/-- **C67**. Without a callback, the buffers released, and behind them those the tokenizer still holds, are the buffers
that were added, each once and in their order. -/
theorem C67_each_once (o : Opts) (ops : List Op) (hv : ∀ op ∈ ops, op.valid) :
    (World.run o [] ops).tz.released ++ (World.run o [] ops).tz.bufs = ops.flatMap Op.buffers := by
  suffices hs : (World.run o [] ops).tz.released ++ (World.run o [] ops).tz.bufs = ops.flatMap Op.buffers ∧ (World.run o [] ops).tz.pending = [] from hs.1
  induction ops using List.reverseRecOn with
  | nil => exact ⟨rfl, rfl⟩
  | append_singleton ops op ih =>
    have hv' : ∀ op ∈ ops, op.valid := fun x hx => hv x (by simp [hx])
    obtain ⟨h1, h2⟩ := ih hv'
    have hs := (C67_release_in_order o [] ops hv' op).2
    have hr : World.run o [] (ops ++ [op]) = (World.run o [] ops).step op := by simp [World.run]
    rw [hr]
    simp only [List.flatMap_append, List.flatMap_cons, List.flatMap_nil, List.append_nil, ← h1]
    cases op with
    | next =>
      obtain ⟨⟨k, a, b⟩, _⟩ := hs
      rw [h2] at a b
      exact ⟨by simpa [Op.buffers] using a, by simpa using b⟩
    | addData b =>
      obtain ⟨a, b, c⟩ := hs
      rw [a, b, c]; exact ⟨by simp [Op.buffers], h2⟩
    | resetData b i =>
      obtain ⟨a, b, c⟩ := hs
      rw [a, b, c]; exact ⟨by simp [Op.buffers], h2⟩
    | pushScope ty =>
      obtain ⟨a, b, c⟩ := hs
      rw [a, b, c]; exact ⟨by simp [Op.buffers], h2⟩
    | popScope =>
      obtain ⟨a, b, c⟩ := hs
      rw [a, b, c]; exact ⟨by simp [Op.buffers], h2⟩

/-- **C67**. A token that was just delivered refers to no released buffer: its name and its value lie in the first buffer
that is still held, or in the tokenizer's own memory, or are empty. -/
theorem C67_token_not_released (o : Opts) (script : List (List Bytes)) (ops : List Op) (hv : ∀ op ∈ ops, op.valid) :
    let w := World.run o script ops
    let r := w.tz.nextToken w.tok
    r.1 = .noError → ∀ d ∈ [r.2.2.name, r.2.2.value],
      (∃ off buf rest, d.loc = .input off ∧ r.2.1.bufs = buf :: rest ∧ RangeOf buf off d.bytes) ∨
      d.loc = .own ∨ d.bytes = [] := by
  intro w r he d hd
  have h : SafeRef r.2.1 r.2.2.name ∧ SafeRef r.2.1 r.2.2.value := C07_tokens_in_bounds o script ops hv he
  have hs : SafeRef r.2.1 d := by
    simp only [List.mem_cons, List.not_mem_nil, or_false] at hd
    rcases hd with rfl | rfl
    · exact h.1
    · exact h.2
  unfold SafeRef at hs
  split at hs
  · rename_i off hl
    obtain ⟨buf, rest, hb, hr⟩ := hs
    exact .inl ⟨off, buf, rest, hl, hb, hr⟩
  · rename_i hl; exact .inr (.inl hl)
  · exact .inr (.inr hs)

/-- Three buffers, the third from the callback. The string straddles the first two; the closing bracket is in the third. -/
def releaseOps : List Op := [.addData b!"[\"a", .addData b!"b\",", .next, .next, .next, .next]

example : (∀ op ∈ releaseOps, op.valid) ∧
    (World.run {} [[b!"1]"]] (releaseOps.take 4)).tz.released = [b!"[\"a"] ∧
    (World.run {} [[b!"1]"]] (releaseOps.take 4)).tz.bufs = [b!"b\",", b!"1]"] ∧
    (World.run {} [[b!"1]"]] (releaseOps.take 4)).tok.value = { loc := .own, bytes := b!"ab" } ∧
    (World.run {} [[b!"1]"]] releaseOps).tz.released = [b!"[\"a", b!"b\","] ∧
    ((World.run {} [[b!"1]"]] releaseOps).tz.nextToken {}).1 = .needMoreData ∧
    ((World.run {} [[b!"1]"]] releaseOps).step .next).tz.released = [b!"[\"a", b!"b\",", b!"1]"] := by
  refine ⟨by intro op h; fin_cases h <;> trivial, by decide +kernel, by decide +kernel, by decide +kernel, by decide +kernel, by decide +kernel, by decide +kernel⟩

example : (World.run {} [] (releaseOps ++ [.resetData b!"[]" 0])).tz.released = [b!"[\"a", b!"b\","] ∧
    (World.run {} [] (releaseOps ++ [.resetData b!"[]" 0])).tz.bufs = [b!"[]"] := by
  refine ⟨by decide +kernel, by decide +kernel⟩

end JsonStruct
