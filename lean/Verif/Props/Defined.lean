import Verif.Lemmas.Defined
import Verif.Lemmas.FloatFree
import Verif.Lemmas.Fuel
import Verif.Props.Success
import Verif.Props.Time

/-
C59, again: which texts are read as floating point numbers without undefined operations. C80: parsing does nothing undefined.
-/

namespace JsonStruct

/-! ### C59 -/

/-- **C59**, partial: any text at all, a number or not, is read as a double without undefined operations if it has no exponent
and its first 19 digits are not all 0 where there are more, or if it starts with neither 0 nor a point. Missing are the others:
it does not hold for all of them, see `C59_false_zeros` and `C59_false_shift`. -/
theorem C59_gentle_partial (text : Bytes) (h : GentleText text) : ∃ err f, doubleTo text = some (err, f) := by
  obtain ⟨r, hr⟩ := Option.ne_none_iff_exists'.mp (gentle_double h)
  exact ⟨r.1, r.2, hr⟩

/-- **C59** for floats, partial: the same for texts of less than 2^30 bytes. -/
theorem C59_float_gentle_partial (text : Bytes) (h : GentleText text) (hlen : text.length < 2 ^ 30) :
    ∃ err f, floatTo text = some (err, f) := by
  obtain ⟨r, hr⟩ := Option.ne_none_iff_exists'.mp (gentle_float h hlen)
  exact ⟨r.1, r.2, hr⟩

example : GentleText b!"0.000123" ∧ GentleText b!"-0" ∧ GentleText b!"0.00.1x" ∧ GentleText b!"00000000000000000100000000000000.5" := by
  refine ⟨.inl ?_, .inl ?_, .inl ?_, .inl ?_⟩ <;> (unfold PlainText; decide +kernel)

/-- A text whose first byte is neither white space nor minus, 0 or point. -/
theorem ledText_cons {c : Byte} {s : Bytes} (h : c ≠ 0x20 ∧ ¬ (9 ≤ c ∧ c ≤ 13) ∧ c ≠ 0x2d ∧ c ≠ 0x30 ∧ c ≠ 0x2e) : LedText (c :: s) := by
  intro sp sign d rest hsp hsign he
  cases sp with
  | cons x sp =>
    cases he
    have := hsp c (by simp)
    tauto
  | nil =>
    rcases hsign with rfl | rfl
    · cases he; tauto
    · cases he; tauto

example : GentleText b!"true" ∧ GentleText b!"12.5e-400" ∧ GentleText b!"[" :=
  ⟨.inr (ledText_cons (by decide)), .inr (ledText_cons (by decide)), .inr (ledText_cons (by decide))⟩

/-! ### C62 -/

/-- Time points whose ticks are not shorter than a 92nd part of a microsecond are read without undefined operations from any
text. -/
theorem C62_defined_partial (C : Clock) (hC : C.perMicro ≤ 92) (old : Int) (text : Bytes) : (timeTo C old text).1 ≠ .ub := by
  have key : ∀ micros t, t * micros ≤ 10 ^ 17 + 8 → (C.ticks old micros t).1 ≠ .ub := by
    intro micros t h
    unfold Clock.ticks
    rw [if_pos]
    · simp
    · have := Nat.mul_le_mul h hC
      norm_num at this ⊢
      omega
  unfold timeTo
  simp only
  split
  · exact intTo_sober _ _
  · split
    · rename_i h; exact key _ _ (by norm_num at h ⊢; omega)
    · split
      · rename_i h; exact key _ _ (by norm_num at h ⊢; omega)
      · split
        · rename_i h; exact key _ _ (by norm_num at h ⊢; omega)
        · split <;> simp

example : microClock.perMicro ≤ 92 ∧ timeTo microClock 0 b!"1700000000" = (.noError, 1700000000000000) := by decide +kernel

/-! ### C80 -/

/-- **C80**, partial. A tokenizer that was used in any way; a type that contains no `JS::Map`. If the texts of all tokens to come
are such that the numbers and time points in the type are read from them without undefined operations, then `parseTo` does
nothing undefined, whatever the text. For types without floating point numbers and time points this is a condition that all texts
meet (`P := fun _ => True`). Missing are `JS::Map` (false in general, see below), and texts for which reading a number or a time
point is undefined (`C59_false_zeros`, `C62_false_overflow`). -/
theorem C80_defined_partial (t : CType T) (P : Bytes → Prop) (ht : t.DefinedOn P) (o : Opts) (script : List (List Bytes)) (ops : List Op)
    (hv : ∀ op ∈ ops, op.valid) (p : POpts) (old : T) (n : Nat) (e : Err) (v : T) (c' : Ctx) :
    let w := World.run o script ops
    (∀ k, P (w.tz.calls (k + 1) w.tok).2.value.bytes) → parseTo t.handler n old (w.ctx p) = some (e, v, c') → e ≠ .ub := by
  intro w hP hp
  obtain ⟨hs, -⟩ := world_sane o script ops hv p
  have hf : ((w.ctx p).next).Fine P :=
    ⟨next_sane hs, (nextToken_ok _ _ hs.1 hs.2).notub, fun k => hP k⟩
  simp only [parseTo] at hp
  split at hp
  · cases hp; exact hf.err
  · obtain ⟨⟨e1, v1, c1⟩, g1, g2⟩ := Option.map_eq_some_iff.mp hp
    cases g2
    exact (t.mild ht _ _ _ _ _ _ g1 hf).2

/-- **C80** for types with numbers and time points of any kind but `high_resolution_clock`, partial: it is enough that all texts
are gentle and shorter than 2^30 bytes. -/
theorem C80_numbers_partial (C : Clock) (hC : C.perMicro ≤ 92) :
    CType.double.DefinedOn (fun s => GentleText s ∧ s.length < 2 ^ 30) ∧ CType.float.DefinedOn (fun s => GentleText s ∧ s.length < 2 ^ 30) ∧
    (CType.time C).DefinedOn (fun s => GentleText s ∧ s.length < 2 ^ 30) := by
  refine ⟨?_, ?_, ?_⟩
  · intro s hs
    exact Option.isSome_iff_ne_none.mpr (gentle_double hs.1)
  · intro s hs
    exact Option.isSome_iff_ne_none.mpr (gentle_float hs.1 hs.2)
  · intro s _ old
    exact C62_defined_partial C hC old s

/-- `std::vector<std::tuple<double, std::string>>`. -/
def pairList : CType (List (Nat × Bytes × Unit)) := .vector (.tuple (.cons .double (.cons (.string .sse2) .nil)))

/-- The calls of `nextToken` have come to rest. -/
theorem calls_rest {t : Tz} {k : Token} {m : Nat} (h : t.calls (m + 1) k = t.calls m k) {P : Bytes → Prop}
    (hP : ∀ i ≤ m, P (t.calls i k).2.value.bytes) (i : Nat) : P (t.calls i k).2.value.bytes := by
  have step : ∀ j t k, Tz.calls (j + 1) t k = ((Tz.calls j t k).1.nextToken (Tz.calls j t k).2).2 := by
    intro j
    induction j with
    | zero => intro t k; rfl
    | succ j ih => intro t k; rw [Tz.calls, ih]; rfl
  have rest : ∀ j, t.calls (m + j) k = t.calls m k := by
    intro j
    induction j with
    | zero => rfl
    | succ j ih => rw [← Nat.add_assoc, step, ih, ← step, h]
  by_cases hi : i ≤ m
  · exact hP i hi
  · rw [show i = m + (i - m) by omega, rest]
    exact hP m (Nat.le_refl m)

-- a document with doubles, in two buffers, that is not what the type asks for
example : pairList.DefinedOn (fun s => GentleText s ∧ s.length < 2 ^ 30) ∧
    (let w := World.run {} [] [.addData b!"[[0.00", .addData b!"1,\"a\"], [{}]]"]
     (∀ k, GentleText (w.tz.calls (k + 1) w.tok).2.value.bytes ∧ (w.tz.calls (k + 1) w.tok).2.value.bytes.length < 2 ^ 30) ∧
     (parseTo pairList.handler 30 [] (w.ctx {})).map (fun r => r.1) = some .failedToParseDouble) := by
  refine ⟨?_, ?_, by decide +kernel⟩
  · unfold pairList
    simp only [CType.DefinedOn, CTypes.DefinedOn, and_true]
    exact (C80_numbers_partial microClock (by decide)).1
  · intro k
    refine calls_rest (P := fun s => GentleText s ∧ s.length < 2 ^ 30) (m := 12) (by decide +kernel) ?_ (k + 1)
    have key : ∀ i ≤ 12, PlainText ((World.run {} [] [.addData b!"[[0.00", .addData b!"1,\"a\"], [{}]]"]).tz.calls i
        (World.run {} [] [.addData b!"[[0.00", .addData b!"1,\"a\"], [{}]]"]).tok).2.value.bytes ∧
        ((World.run {} [] [.addData b!"[[0.00", .addData b!"1,\"a\"], [{}]]"]).tz.calls i
        (World.run {} [] [.addData b!"[[0.00", .addData b!"1,\"a\"], [{}]]"]).tok).2.value.bytes.length < 2 ^ 30 := by
      unfold PlainText
      decide +kernel
    exact fun i hi => ⟨.inl (key i hi).1, (key i hi).2⟩

/-- **C80** for a `JS::Map`, partial: a tokenizer that was used in any way and has no array or object open; a map that was made by
default, by parsing or by the functions of `JS::Map`, so that its tokens close no more brackets than they open. `parseTo` does
nothing undefined, and the same can be said of the map afterwards, whether there was an error or not. -/
theorem C80_map_partial (o : Opts) (script : List (List Bytes)) (ops : List Op)
    (hv : ∀ op ∈ ops, op.valid) (p : POpts) (old : JMap) (hold : (metaForTokens old.tokens).isSome) (n : Nat) (e : Err) (v : JMap) (c' : Ctx) :
    let w := World.run o script ops
    w.tz.stack = [] → parseTo CType.jmap.handler n old (w.ctx p) = some (e, v, c') → e ≠ .ub ∧ (metaForTokens v.tokens).isSome := by
  intro w hstack hp
  obtain ⟨hs, -⟩ := world_sane o script ops hv p
  have hok := nextToken_ok (w.ctx p).tz (w.ctx p).token hs.1 hs.2
  have hf : ((w.ctx p).next).Fine (fun _ => True) := ⟨next_sane hs, hok.notub, fun k => trivial⟩
  simp only [parseTo] at hp
  split at hp
  · cases hp; exact ⟨hf.err, hold⟩
  · rename_i hne
    have hne := Decidable.not_not.mp hne
    have hb := hok.stack hne
    rw [show ((World.run o script ops).ctx p).tz.stack = [] from hstack] at hb
    obtain ⟨⟨e1, v1, c1⟩, g1, g2⟩ := Option.map_eq_some_iff.mp hp
    cases g2
    simp only [CType.handler, jmapH] at g1
    obtain ⟨⟨e2, v2, c2⟩, g3, g4⟩ := Option.map_eq_some_iff.mp g1
    have key : e2 ≠ .ub ∧ (metaForTokens v2).isSome := by
      simp only [tokensH] at g3
      split at g3
      · cases g3
        refine ⟨hf.err, ?_⟩
        rw [meta_open, Option.isSome_iff_exists] at hold
        obtain ⟨d, hd⟩ := hold
        have hty : ¬ ((w.ctx p).next.token.tok.valueType = .arrayEnd ∨ (w.ctx p).next.token.tok.valueType = .objectEnd) := by
          rintro (h | h)
          · rw [show (((World.run o script ops).ctx p).tz.nextToken ((World.run o script ops).ctx p).token).2.2.valueType = .arrayEnd from h] at hb
            cases hb
          · rw [show (((World.run o script ops).ctx p).tz.nextToken ((World.run o script ops).ctx p).token).2.2.valueType = .objectEnd from h] at hb
            cases hb
        rw [meta_open, openCount_snoc, hd]
        simp only [Option.bind_some, openCount]
        rw [if_neg hty]
        split <;> rfl
      · rename_i hty
        refine tokensLoop_open _ _ _ _ _ _ _ g3 hf ?_
        simp only [openCount]
        have hty : (w.ctx p).next.token.tok.valueType = .arrayStart ∨ (w.ctx p).next.token.tok.valueType = .objectStart := by
          rw [show (w.ctx p).next.token.tok.valueType = (w.ctx p).next.token.valueType from rfl]
          tauto
        rw [if_neg (by rcases hty with h | h <;> rw [h] <;> decide), if_pos hty]
    simp only [jmapRead] at g4
    split at g4
    · obtain ⟨ms, hm⟩ := Option.isSome_iff_exists.mp key.2
      rw [hm] at g4
      cases g4
      exact ⟨by simp, by rw [hm]; rfl⟩
    · cases g4
      exact ⟨key.1, key.2⟩

-- a text that ends too early, read into a map that holds something
example : (metaForTokens [⟨[], .ascii, b!"1", .number⟩]).isSome ∧ (World.run {} [] [.addData b!"[[1, {\"a\":"]).tz.stack = [] ∧
    (parseTo CType.jmap.handler 30 ⟨[⟨[], .ascii, b!"1", .number⟩], []⟩ ((World.run {} [] [.addData b!"[[1, {\"a\":"]).ctx {})).map (fun r => r.1) =
      some .needMoreData := by decide +kernel

/-- **C80** does not hold for a `JS::Map` in a `std::array` or a tuple: of `[]`, the closing bracket is taken for the first
element, and `pop_back` is called on an empty vector. -/
theorem C80_false_map :
    (∃ r, Parses (CType.array 1 .jmap).handler {} {} [⟨[], []⟩] b!"[]" r ∧ r.err = .ub) ∧
    (∃ r, Parses (CType.tuple (.cons .jmap .nil)).handler {} {} (⟨[], []⟩, ()) b!"[]" r ∧ r.err = .ub) :=
  ⟨⟨_, parses_of_run _ 30 rfl, by decide +kernel⟩, ⟨_, parses_of_run _ 30 rfl, by decide +kernel⟩⟩

/-- **C80** does not hold for numbers and time points: `C59_false_zeros` and `C62_false_overflow` in documents. -/
theorem C80_false_numbers :
    (∃ r, Parses (CType.vector .double).handler {} {} [] b!"[0.0000000000000000001]" r ∧ r.err = .ub) ∧
    (∃ r, Parses (CType.vector (.time hiresClock)).handler {} {} [] b!"[10000000000]" r ∧ r.err = .ub) :=
  ⟨⟨_, parses_of_run _ 30 rfl, by decide +kernel⟩, ⟨_, parses_of_run _ 30 rfl, by decide +kernel⟩⟩

end JsonStruct
