import Verif.Lemmas.RawType

/-
C90: raw captures may stand anywhere in a type. `t.handler` records bytes while the tokenizer reads on (Model/RawType); `t.described` is the same type, with captures that
record nothing: the tokens of the value are read, and the bytes between the opening bracket and the end of the last token are then looked up in the input (Spec/RawType).
-/

namespace JsonStruct

theorem raw_parseTo_twin (t : RType T) (ht : t.NoMap) (n : Nat) (old : T) (c : Ctx) (hc : c.Sane) (hn : c.tz.Neat) (hf : c.tz.copies = []) :
    Likeness.Opt rawLike.Out rawLike (parseTo t.handler n old c) (parseTo t.described n old c) := by
  simp only [parseTo]
  by_cases he : c.next.error = .noError
  · rw [if_neg (by simp [he]), if_neg (by simp [he])]
    have hr : Ready c.next.tz c.next.token := ready_next hc.1 hc.2 hn hf he
    rcases (t.twin ht).2 n old _ _ (rawLike_refl hr) with ⟨h1, h2⟩ | ⟨x, y, h1, h2, h3⟩
    · rw [h1, h2]; exact .none
    · rw [h1, h2]
      refine .some ⟨h3.err, ⟨⟨h3.err, h3.after.1.missing, h3.after.1.unassigned, h3.after.1.allowMissing, h3.after.1.allowUnassigned, h3.after.1.track⟩, h3.after.2⟩,
        fun h => ⟨(h3.ok h).1, ⟨h3.err, (h3.ok h).2.1.missing, (h3.ok h).2.1.unassigned, (h3.ok h).2.1.allowMissing, (h3.ok h).2.1.allowUnassigned, (h3.ok h).2.1.track⟩,
          (h3.ok h).2.2⟩, fun h => h.elim⟩
  · rw [if_pos he, if_pos he]
    exact .some ⟨rfl, ⟨⟨rfl, rfl, rfl, rfl, rfl, rfl⟩, (bare_of_free (copies_next hc.1 hc.2 hn hf)).symm, rfl⟩, fun h => absurd h he, fun h => h.elim⟩

theorem described_sound (t : RType T) (ht : t.NoMap) (old : T) (c : Ctx) (hc : c.Sane) :
    ∃ r, (∀ n, c.left < n → parseTo t.described n old c = some r) ∧ (r.1 = .noError → c.next.error = .noError ∧ c.next.Acc r.2.2) := by
  simp only [parseTo]
  by_cases hne : c.next.error = .noError
  · have hlt := next_left hc hne
    obtain ⟨r, g1, g2⟩ := sound_map (t.sound ht) (old := old) (next_sane hc) (fun r => (r.1, r.2.1, { r.2.2 with error := r.1 }))
      fun r he => ⟨he, rfl, rfl⟩
    exact ⟨r, fun n hn => by rw [if_neg (by simp [hne])]; exact g1 n (by omega), fun h => ⟨hne, g2 h⟩⟩
  · exact ⟨(c.next.error, old, c.next), fun n _ => by rw [if_pos hne], fun h => absurd h hne⟩

theorem raw_both (t : RType T) (ht : t.NoMap) (old : T) (c : Ctx) (hc : c.Sane) (hn : c.tz.Neat) (hf : c.tz.copies = []) :
    ∃ r r', (∀ n, c.left < n → parseTo t.handler n old c = some r ∧ parseTo t.described n old c = some r') ∧ rawLike.Out r r' ∧
      (r'.1 = .noError → c.next.error = .noError ∧ c.next.Acc r'.2.2) := by
  obtain ⟨r', g1, g2⟩ := described_sound t ht old c hc
  have key : ∀ n, c.left < n → ∃ r, parseTo t.handler n old c = some r ∧ rawLike.Out r r' := by
    intro n hl
    rcases raw_parseTo_twin t ht n old c hc hn hf with ⟨_, h2⟩ | ⟨x, y, h1, h2, h3⟩
    · rw [g1 n hl] at h2; cases h2
    · rw [g1 n hl] at h2
      cases h2
      exact ⟨x, h1, h3⟩
  obtain ⟨r, h1, h2⟩ := key (c.left + 1) (by omega)
  refine ⟨r, r', fun n hl => ⟨?_, g1 n hl⟩, h2, g2⟩
  obtain ⟨x, k1, _⟩ := key n hl
  have a := parseTo_steady_raw t (show n ≤ c.left + 1 + n by omega) old c x k1
  have b := parseTo_steady_raw t (show c.left + 1 ≤ c.left + 1 + n by omega) old c r h1
  rw [a] at b
  rw [k1, Option.some.inj b]

/-! ### Cases -/

/-- `struct { int id; JsonObject meta; std::vector<JsonArray> rows; std::optional<JsonObjectOrArray> more; }`. -/
def exRaw : RType (Int × Bytes × List Bytes × Option Bytes) :=
  .struct (0, [], [], none) (.mk
    (.cons [b!"id"] (.lib (.int i32)) (·.1) (fun x t => (x, t.2.1, t.2.2.1, t.2.2.2))
    (.cons [b!"meta"] (.raw .object 1) (·.2.1) (fun x t => (t.1, x, t.2.2.1, t.2.2.2))
    (.cons [b!"rows"] (.vector (.raw .array 2)) (·.2.2.1) (fun x t => (t.1, t.2.1, x, t.2.2.2))
    (.cons [b!"more"] (.stdOptional (.raw .any 3)) (·.2.2.2) (fun x t => (t.1, t.2.1, t.2.2.1, x)) .nil)))) .nil)

theorem exRaw_noMap : exRaw.NoMap := ⟨⟨trivial, trivial, trivial, trivial, trivial⟩, trivial⟩

/-- The data, in three buffers; the first ends within a captured object, the second within a captured array. -/
def exRawData : List Op := [.addData b!"{\"meta\": { \"x\" :[1", .addData b!" , 2]} ,\"rows\":[[ 1], [\"]\",", .addData b!"[ ]]], \"id\":7}"]

/-! ### Recording is looking up -/

/-- **C90**, `_partial`: no maps. A tokenizer that was used in any way; a type with captures anywhere in it. Reading it ends, within the bytes handed over, and so does reading
with captures that are looked up in the input. The error is the same, and the tokenizer stands at the same place with the same reports. If there is no error, then the value
is the same; and nothing stays behind that is still recorded. -/
theorem C90_captured_partial (t : RType T) (ht : t.NoMap) (o : Opts) (script : List (List Bytes)) (ops : List Op) (hv : ∀ op ∈ ops, op.valid) (p : POpts) (old : T) :
    let w := World.run o script ops
    ∃ r r', (∀ n, w.supplied < n → parseTo t.handler n old (w.ctx p) = some r ∧ parseTo t.described n old (w.ctx p) = some r') ∧
      r.1 = r'.1 ∧ r.2.2.SameButCopies r'.2.2 ∧ (r.1 = .noError → r = r' ∧ r.2.2.tz.copies = []) := by
  intro w
  obtain ⟨hs, hl⟩ := world_sane o script ops hv p
  obtain ⟨hn, hf⟩ := neat_run o script ops hv
  obtain ⟨r, r', h1, h2, _⟩ := raw_both t ht old _ hs hn hf
  refine ⟨r, r', fun n hn => h1 n (Nat.lt_of_le_of_lt hl hn), h2.err, ?_, fun he => ?_⟩
  · obtain ⟨hF, hE, hT⟩ := h2.after
    obtain ⟨e, v, c⟩ := r
    obtain ⟨e', v', c'⟩ := r'
    obtain ⟨⟩ := c
    obtain ⟨⟩ := c'
    have := hF.error; have := hF.missing; have := hF.unassigned; have := hF.allowMissing; have := hF.allowUnassigned; have := hF.track
    simp only [Ctx.SameButCopies] at *
    simp [*, Tz.bare]
  · obtain ⟨hvv, hC⟩ := h2.ok he
    exact ⟨Prod.ext h2.err (Prod.ext hvv (rawLike_eq hC)), hC.2.2.2.free⟩

set_option synthInstance.maxSize 1000 in
/-- The hypotheses are met by data in three buffers. -/
example : exRaw.NoMap ∧ (∀ op ∈ exRawData, op.valid) ∧
    (parseTo exRaw.handler 80 (0, [], [], none) ((World.run {} [] exRawData).ctx {})).map (fun r => (r.1, r.2.1)) =
      some (.noError, 7, b!"{ \"x\" :[1 , 2]}", [b!"[ 1]", b!"[\"]\",[ ]]"], none) :=
  ⟨exRaw_noMap, by simp [exRawData, Op.valid], by decide +kernel⟩

/-- **C90**, `_partial`: no maps. If `parseTo` returns `NoError`, then its first call of `nextToken`, and every call after it up to the state in which the tokenizer was left,
returned `NoError`: no token within a captured value was an error, either. -/
theorem C90_success_partial (t : RType T) (ht : t.NoMap) (o : Opts) (script : List (List Bytes)) (ops : List Op) (hv : ∀ op ∈ ops, op.valid) (p : POpts) (old : T)
    (n : Nat) (v : T) (c' : Ctx) :
    let w := World.run o script ops
    w.supplied < n → parseTo t.handler n old (w.ctx p) = some (.noError, v, c') →
    ∃ tz k, w.tz.nextToken w.tok = (.noError, tz, k) ∧ Accepted tz k c'.tz c'.token := by
  intro w hn h
  obtain ⟨hs, hl⟩ := world_sane o script ops hv p
  obtain ⟨hne, hf⟩ := neat_run o script ops hv
  obtain ⟨r, r', h1, h2, h3⟩ := raw_both t ht old _ hs hne hf
  have := (h1 n (Nat.lt_of_le_of_lt hl hn)).1
  rw [show parseTo t.handler n old _ = _ from h] at this
  cases this
  obtain ⟨_, hC⟩ := h2.ok rfl
  obtain ⟨a, b⟩ := h3 h2.err.symm
  rw [← rawLike_eq hC] at b
  exact ⟨_, _, show w.tz.nextToken w.tok = (.noError, (Ctx.next (w.ctx p)).tz, (Ctx.next (w.ctx p)).token) by rw [← a]; rfl, b⟩

set_option synthInstance.maxSize 1000 in
/-- Errors in captured values, in a member and in an element: one of the tokenizer, one of a handler, and the end of the data. -/
example :
    (parseTo exRaw.handler 80 (0, [], [], none) (Ctx.onText {} {} b!"{\"meta\": { \"x\" :[1 2] } }")).map (·.1) = some .expectedDelimiter ∧
    (parseTo exRaw.handler 80 (0, [], [], none) (Ctx.onText {} {} b!"{\"meta\": [ ] }")).map (·.1) = some .expectedObjectStart ∧
    (parseTo exRaw.handler 80 (0, [], [], none) (Ctx.onText {} {} b!"{\"rows\": [ [1")).map (·.1) = some .needMoreData := by
  decide +kernel

/-! ### Where it fails -/

/-- `std::tuple<JsonObject, std::map<std::string, int>>`. -/
def rawAndMap : RType (Bytes × List (Bytes × Int) × Unit) := .tuple (.cons (.raw .object 1) (.cons (.lib intMap) .nil))

set_option synthInstance.maxSize 1000 in
/-- **C90 is false** for maps, as C56 is: the closing braces behind the comma are errors, and reading goes on. -/
theorem C90_false_for_maps :
    (parseTo rawAndMap.handler 30 ([], [], ()) (Ctx.onText {} {} b!"[{},{\"a\":1,}}}\"b\":2}]")).map (fun r => (r.1, r.2.1)) =
      some (.noError, b!"{}", [(b!"a", 1), (b!"b", 2)], ()) ∧
    (tokenizeBufs {} [b!"[{},{\"a\":1,}}}\"b\":2}]"]).2 = .expectedDataToken := by
  refine ⟨by decide +kernel, by decide +kernel⟩

/-- `std::set<JsonArray>` (for which users have to define an order); its handler reads an element into a variable of its own. -/
def rawSet : RType (List Bytes) := .set inferInstance (fun s e => s ++ [e]) (.raw .array 5)

/-- **C90 is false** after an error: the element of a set that was being read is a variable on the stack of the handler. It is gone when `parseTo` returns; the tokenizer
goes on recording to it, and the next call of `nextToken` that runs out of the buffer writes to it. -/
theorem C90_false_recording_left :
    (parseTo rawSet.handler 30 [] ((World.run {} [] [.addData b!"[[1,"]).ctx {})).map (fun r => (r.1, r.2.2.tz.copies.map Prod.fst)) = some (.needMoreData, [5]) ∧
    ((parseTo rawSet.handler 30 [] ((World.run {} [] [.addData b!"[[1,"]).ctx {})).map fun r => ((r.2.2.tz.addData b!"2]]").nextToken r.2.2.token).2.1.copies) =
      some [(5, 0, b!"[1,")] := by
  refine ⟨by decide +kernel, by decide +kernel⟩

/-- **C90 is false** of a variable that holds something: an object with the same name twice leaves both values in one string, which is no JSON. -/
theorem C90_false_member_twice :
    (parseTo exRaw.handler 80 (0, [], [], none) (Ctx.onText {} {} b!"{\"id\":1,\"meta\":{},\"rows\":[],\"meta\":{}}")).map (fun r => (r.1, r.2.1.2.1)) =
      some (.noError, b!"{}{}") := by
  decide +kernel

end JsonStruct
