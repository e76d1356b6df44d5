import Verif.Lemmas.Success
import Verif.Props.Container
import Verif.Props.Tokenizer

/-
C56: a parse that reports success swallowed no error of the tokenizer. C57: parsing ends.

Both hold for every type without `std::map` and `std::unordered_map`, after any history of calls on the tokenizer, for
any text in any number of buffers, some of them perhaps supplied by the callback; both are false for maps.
-/

namespace JsonStruct

theorem world_sane (o : Opts) (script : List (List Bytes)) (ops : List Op) (hv : ∀ op ∈ ops, op.valid) (p : POpts) :
    ((World.run o script ops).ctx p).Sane ∧ ((World.run o script ops).ctx p).left ≤ (World.run o script ops).supplied := by
  have h := worldInv_run o script ops hv
  have := h.count
  refine ⟨⟨h.ok, h.parsed⟩, ?_⟩
  simp only [Ctx.left, World.ctx]; omega

theorem parseTo_sound (t : CType T) (ht : t.NoMap) (old : T) (c : Ctx) (hc : c.Sane) :
    ∃ r, (∀ n, c.left < n → parseTo t.handler n old c = some r) ∧ (r.1 = .noError → c.next.error = .noError ∧ c.next.Acc r.2.2) := by
  simp only [parseTo]
  by_cases hne : c.next.error = .noError
  · have hlt := next_left hc hne
    obtain ⟨r, g1, g2⟩ := sound_map (t.sound ht) (old := old) (next_sane hc) (fun r => (r.1, r.2.1, { r.2.2 with error := r.1 }))
      fun r he => ⟨he, rfl, rfl⟩
    exact ⟨r, fun n hn => by rw [if_neg (by simp [hne])]; exact g1 n (by omega), fun h => ⟨hne, g2 h⟩⟩
  · exact ⟨(c.next.error, old, c.next), fun n _ => by rw [if_pos hne], fun h => absurd h hne⟩

/-- `std::map<std::string, int>`. -/
def intMap : CType (List (Bytes × Int)) := .map (fun m e => m ++ [e]) (.int i32)

/-! ### C56 -/

/-- **C56**. A tokenizer that was used in any way; a type without maps. If `parseTo` returns `NoError`, then its first
call of `nextToken`, and every call after it up to the state in which the tokenizer was left, returned `NoError`. -/
theorem C56_success_partial (t : CType T) (ht : t.NoMap) (o : Opts) (script : List (List Bytes)) (ops : List Op)
    (hv : ∀ op ∈ ops, op.valid) (p : POpts) (old : T) (n : Nat) (v : T) (c' : Ctx) :
    let w := World.run o script ops
    w.supplied < n → parseTo t.handler n old (w.ctx p) = some (.noError, v, c') →
    ∃ tz k, w.tz.nextToken w.tok = (.noError, tz, k) ∧ Accepted tz k c'.tz c'.token := by
  intro w hn hp
  obtain ⟨hs, hl⟩ := world_sane o script ops hv p
  obtain ⟨r, g1, g2⟩ := parseTo_sound t ht old _ hs
  have := g1 n (Nat.lt_of_le_of_lt hl hn)
  rw [show parseTo t.handler n old _ = _ from hp] at this
  cases this
  obtain ⟨a, b⟩ := g2 rfl
  exact ⟨_, _, show w.tz.nextToken w.tok = (.noError, (Ctx.next (w.ctx p)).tz, (Ctx.next (w.ctx p)).token) by rw [← a]; rfl, b⟩

/-- The hypotheses are met, with data that arrives in two buffers. -/
example : (CType.vector (.int i32)).NoMap ∧ (∀ op ∈ [Op.addData b!"[1,2", .addData b!"3]"], op.valid) ∧
    (parseTo (CType.vector (.int i32)).handler 20 [] ((World.run {} [] [.addData b!"[1,2", .addData b!"3]"]).ctx {})).map
      (fun r => (r.1, r.2.1)) = some (.noError, [1, 23]) := by
  refine ⟨by simp [CType.NoMap], by simp [Op.valid], by decide +kernel⟩

/-- **C56** is false for maps: behind the comma there is a closing brace where a member was expected. `nextToken` says so
when it is asked for the third token, and the map handler does not listen; it asks again, and again, until what looks
like a member comes. The text has three closing braces for one opening brace. -/
theorem C56_false_for_maps :
    (parseTo intMap.handler 30 [] (Ctx.onText {} {} b!"{\"a\":1,}}}\"b\":2}")).map (fun r => (r.1, r.2.1)) =
      some (.noError, [(b!"a", 1), (b!"b", 2)]) ∧
    (tokenizeBufs {} [b!"{\"a\":1,}}}\"b\":2}"]).2 = .expectedDataToken ∧
    (tokenizeBufs {} [b!"{\"a\":1,}}}\"b\":2}"]).1.length = 2 := by
  refine ⟨by decide +kernel, by decide +kernel, by decide +kernel⟩

/-! ### C57 -/

/-- **C57**. A tokenizer that was used in any way; a type without maps. `parseTo` ends: there is one outcome, reached
with any bound on its loops above the number of bytes handed over. -/
theorem C57_terminates_partial (t : CType T) (ht : t.NoMap) (o : Opts) (script : List (List Bytes)) (ops : List Op)
    (hv : ∀ op ∈ ops, op.valid) (p : POpts) (old : T) :
    let w := World.run o script ops
    ∃ r, ∀ n, w.supplied < n → parseTo t.handler n old (w.ctx p) = some r := by
  intro w
  obtain ⟨hs, hl⟩ := world_sane o script ops hv p
  obtain ⟨r, g1, _⟩ := parseTo_sound t ht old _ hs
  exact ⟨r, fun n hn => g1 n (Nat.lt_of_le_of_lt hl hn)⟩

/-- The same for one text: every text, whether it is JSON or not. -/
theorem C57_text_partial (t : CType T) (ht : t.NoMap) (o : Opts) (p : POpts) (text : Bytes) (old : T) :
    ∃ r, ∀ n, text.length < n → parseTo t.handler n old (Ctx.onText o p text) = some r := by
  have hs : (Ctx.onText o p text).Sane := ⟨ok_start o [text], rfl⟩
  obtain ⟨r, g1, _⟩ := parseTo_sound t ht old _ hs
  refine ⟨r, fun n hn => g1 n ?_⟩
  simpa [Ctx.left, Ctx.onText, Tz.addData, Tz.new, Tz.avail, Tz.pend] using hn

theorem mapLoop_stuck {ins : List (Bytes × V) → Bytes × V → List (Bytes × V)} {h : Handler V} {acc : List (Bytes × V)} {c : Ctx} {v : V}
    (hv : c.token.valueType ≠ .objectEnd) (hh : ∀ n, h.to n h.init c = some (.noError, v, c))
    (hm : mapSet ins acc (escapesIn c.token.name.bytes) v = acc) (hc : c.next = c) (fuel n : Nat) (e : Err) :
    mapLoop ins h fuel n e acc c = none := by
  induction n generalizing e with
  | zero => rfl
  | succ n ih => simp only [mapLoop, hv, if_false, hh, Option.bind_eq_bind, Option.bind_some, hm, hc, ne_eq, not_true_eq_false, ih]

/-- **C57** is false for maps: an object that breaks off behind a comma is read for ever. -/
theorem C57_false_for_maps (n : Nat) : parseTo intMap.handler n [] (Ctx.onText {} {} b!"{\"a\":1,") = none := by
  have hv : (Ctx.onText {} {} b!"{\"a\":1,").next.next.next.token.valueType ≠ .objectEnd := by decide +kernel
  have hc : (Ctx.onText {} {} b!"{\"a\":1,").next.next.next.next = (Ctx.onText {} {} b!"{\"a\":1,").next.next.next := by decide +kernel
  have hk : escapesIn (Ctx.onText {} {} b!"{\"a\":1,").next.next.next.token.name.bytes = b!"a" := by decide +kernel
  have hi : intTo i32 (Ctx.onText {} {} b!"{\"a\":1,").next.next.next.token.value.bytes = (.noError, 1) := by decide +kernel
  have hk2 : escapesIn (Ctx.onText {} {} b!"{\"a\":1,").next.next.token.name.bytes = b!"a" := by decide +kernel
  have hi2 : intTo i32 (Ctx.onText {} {} b!"{\"a\":1,").next.next.token.value.bytes = (.noError, 1) := by decide +kernel
  have e1 : (Ctx.onText {} {} b!"{\"a\":1,").next.error = .noError := by decide +kernel
  have e2 : (Ctx.onText {} {} b!"{\"a\":1,").next.next.error = .noError := by decide +kernel
  have t1 : (Ctx.onText {} {} b!"{\"a\":1,").next.token.valueType = .objectStart := by decide +kernel
  have t2 : (Ctx.onText {} {} b!"{\"a\":1,").next.next.token.valueType ≠ .objectEnd := by decide +kernel
  generalize Ctx.onText {} {} b!"{\"a\":1," = c at *
  have hstuck := fun m e => mapLoop_stuck (ins := fun m e => m ++ [e]) (h := intH i32) (acc := [(b!"a", 1)]) (v := 1) hv
    (fun n => by simp only [intH, hi]) (by rw [hk]; decide) hc n m e
  simp only [parseTo, e1, ne_eq, not_true_eq_false, if_false, intMap, CType.handler, mapH, t1, e2]
  cases n with
  | zero => rfl
  | succ n =>
    have hto : (intH i32).to (n + 1) (intH i32).init c.next.next = some (.noError, 1, c.next.next) := by simp only [intH, hi2]
    rw [mapLoop, if_neg t2, hto]
    simp only [hk2, Option.bind_eq_bind, Option.bind_some, ne_eq, not_true_eq_false, if_false]
    rw [show mapSet (fun m e => m ++ [e]) [] b!"a" (1 : Int) = [(b!"a", 1)] by decide, hstuck]; rfl

end JsonStruct
