import Verif.Lemmas.Strict
import Verif.Props.Struct

/-
What the options of a `ParseContext` add to what is read without them: C87.
-/

namespace JsonStruct

/-- **C87**, for every type, every previous value, and every context `c` that allows everything and keeps the names: whatever its tokenizer was
given and did before, and whatever names it has already. Let the parse end with `d`. The names in `d` are those of `c` and those found.
If none of the latter is forbidden by the options `p`, the same context with the options `p` reads the same value with the same error, and is left as `d` with
the names as they are to be kept. If there are forbidden ones, that context ends with an error for it. And whatever it reads with success is what `c` reads. -/
theorem C87_strict (t : CType T) (p : POpts) (n : Nat) (old : T) (c : Ctx) (hc : c.Permits) :
    (∀ e v d, parseTo t.handler n old c = some (e, v, d) →
      c.missing <+: d.missing ∧ c.unassigned <+: d.unassigned ∧
      (¬ Offends p c d → parseTo t.handler n old (c.withOpts p) = some (e, v, c.since p d)) ∧
      (Offends p c d → ∃ e' v' d', parseTo t.handler n old (c.withOpts p) = some (e', v', d') ∧ StrictErr p e')) ∧
    (∀ v d', parseTo t.handler n old (c.withOpts p) = some (.noError, v, d') →
      ∃ d, parseTo t.handler n old c = some (.noError, v, d) ∧ ¬ Offends p c d ∧ d' = c.since p d) := by
  have hself : c.since p c = c.withOpts p := by
    simp only [Ctx.since, ite_self]
    rfl
  have key := parseTo_two_runs (p := p) (b := c) t n old c hc
  rw [hself] at key
  refine ⟨fun e v d h => ⟨(key.grows _ h).missing, (key.grows _ h).unassigned, fun ho => ?_, fun ho => ?_⟩, fun v d' h => ?_⟩
  · rcases key.split with ⟨h1, _⟩ | ⟨_, _, _, h3⟩
    · rw [h1, h]; rfl
    · exact absurd (h3 _ h) ho
  · rcases key.split with ⟨_, h2⟩ | ⟨⟨e', v', d'⟩, h1, h2, _⟩
    · exact absurd ho (h2 _ h)
    · exact ⟨e', v', d', h1, h2⟩
  · rcases key.split with ⟨h1, h2⟩ | ⟨⟨e', v', d''⟩, h1, h2, _⟩
    · rw [h1, Option.map_eq_some_iff] at h
      obtain ⟨⟨e, v1, d⟩, h3, h4⟩ := h
      simp only [RunEnd.put, Prod.mk.injEq] at h4
      obtain ⟨rfl, rfl, rfl⟩ := h4
      exact ⟨d, h3, h2 _ h3, rfl⟩
    · rw [h1] at h
      simp only [Option.some.injEq, Prod.mk.injEq] at h
      exact absurd h.1 (strictErr_ne h2)

/-- So for a new context on a text: the parse with the options succeeds exactly if the parse without them does and finds nothing
forbidden, and leaves the same value. -/
theorem C87_success (t : CType T) (o : Opts) (p : POpts) (n : Nat) (old v : T) (text : Bytes) :
    (∃ d', parseTo t.handler n old (Ctx.onText o p text) = some (.noError, v, d')) ↔
    ∃ d, parseTo t.handler n old (Ctx.onText o {} text) = some (.noError, v, d) ∧
      (p.allowMissing = true ∨ d.missing = []) ∧ (p.allowUnassigned = true ∨ d.unassigned = []) := by
  have hc : (Ctx.onText o {} text).Permits := ⟨rfl, rfl, rfl⟩
  obtain ⟨h1, h2⟩ := C87_strict t p n old (Ctx.onText o {} text) hc
  rw [show (Ctx.onText o {} text).withOpts p = Ctx.onText o p text from rfl] at h1 h2
  have hoff : ∀ d, ¬ Offends p (Ctx.onText o {} text) d ↔ (p.allowMissing = true ∨ d.missing = []) ∧ (p.allowUnassigned = true ∨ d.unassigned = []) := by
    intro d
    simp only [Offends, not_or, not_and, not_not, show (Ctx.onText o {} text).missing = [] from rfl, show (Ctx.onText o {} text).unassigned = [] from rfl]
    cases p.allowMissing <;> cases p.allowUnassigned <;> simp
  constructor
  · rintro ⟨d', h⟩
    obtain ⟨d, h3, h4, _⟩ := h2 v d' h
    exact ⟨d, h3, (hoff d).mp h4⟩
  · rintro ⟨d, h3, h4⟩
    exact ⟨_, (h1 _ _ _ h3).2.2.1 ((hoff d).mpr h4)⟩

/-- Two objects, the first with an unknown member, for structs of which both have a member without a value. -/
def exStrict : JVal := .arr [.obj [(b!"c", .num b!"3"), (b!"x", .num b!"1"), (b!"u", .null)], .obj [(b!"b", .num b!"1")]]

/-- `[{"c":3,"x":1,"u":null},{"b":1}]`: the options are offended one by one. -/
example :
    Parses (CType.vector (CType.struct (0, 0, 0) exS)).handler {} {} [] b!"[{\"c\":3,\"x\":1,\"u\":null},{\"b\":1}]"
      ⟨.noError, [(1, 0, 3), (0, 1, 0)], [b!"u"], [b!"b", b!"a"]⟩ ∧
    Parses (CType.vector (CType.struct (0, 0, 0) exS)).handler {} ⟨true, true, false⟩ [] b!"[{\"c\":3,\"x\":1,\"u\":null},{\"b\":1}]"
      ⟨.noError, [(1, 0, 3), (0, 1, 0)], [], []⟩ ∧
    Parses (CType.vector (CType.struct (0, 0, 0) exS)).handler {} ⟨false, true, true⟩ [] b!"[{\"c\":3,\"x\":1,\"u\":null},{\"b\":1}]"
      ⟨.missingPropertyMember, [(1, 0, 3)], [b!"u"], []⟩ ∧
    Parses (CType.vector (CType.struct (0, 0, 0) exS)).handler {} ⟨true, false, true⟩ [] b!"[{\"c\":3,\"x\":1,\"u\":null},{\"b\":1}]"
      ⟨.unassignedRequiredMember, [(1, 0, 3)], [b!"u"], [b!"b"]⟩ :=
  ⟨parse_toks (v := exStrict) (CType.vector (CType.struct _ exS)).sem _ (by example_text) (by decide +kernel),
    parse_toks (v := exStrict) (CType.vector (CType.struct _ exS)).sem _ (by example_text) (by decide +kernel),
    parse_toks (v := exStrict) (CType.vector (CType.struct _ exS)).sem _ (by example_text) (by decide +kernel),
    parse_toks (v := exStrict) (CType.vector (CType.struct _ exS)).sem _ (by example_text) (by decide +kernel)⟩

/-- The first part of the theorem on this text. -/
example (p : POpts) : ∃ n e v d, parseTo (CType.vector (CType.struct (0, 0, 0) exS)).handler n [] (Ctx.onText {} {} b!"[{\"c\":3,\"x\":1,\"u\":null},{\"b\":1}]") =
      some (e, v, d) ∧ (Ctx.onText {} {} b!"[{\"c\":3,\"x\":1,\"u\":null},{\"b\":1}]").Permits ∧
    (p.allowMissing = false → Offends p (Ctx.onText {} {} b!"[{\"c\":3,\"x\":1,\"u\":null},{\"b\":1}]") d) := by
  obtain ⟨N, d, h, hm, _⟩ : Parses (CType.vector (CType.struct (0, 0, 0) exS)).handler {} {} [] b!"[{\"c\":3,\"x\":1,\"u\":null},{\"b\":1}]"
      ⟨.noError, [(1, 0, 3), (0, 1, 0)], [b!"u"], [b!"b", b!"a"]⟩ :=
    parse_toks (v := exStrict) (CType.vector (CType.struct _ exS)).sem _ (by example_text) (by decide +kernel)
  exact ⟨N, _, _, d, h N (Nat.le_refl N), ⟨rfl, rfl, rfl⟩, fun ha => .inl ⟨ha, by rw [hm]; decide⟩⟩

end JsonStruct
