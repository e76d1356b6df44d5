import Verif.Lemmas.Keyword
import Verif.Props.Tokenizer
import Verif.Model.Bool

/- C17: keywords and booleans. -/

namespace JsonStruct

/-- The invariant over histories. -/
structure KeyHist (w : World) : Prop where
  inv : WorldInv w
  key : KeyWorld w.tz
  log : ∀ k ∈ w.delivered, KeyOk k.valueType k.value.bytes

theorem keyHist_step (w : World) (op : Op) (hv : op.valid) (h : KeyHist w) : KeyHist (w.step op) := by
  have hinv := worldInv_step w op hv h.inv
  cases op with
  | next =>
    have hk := nextToken_key w.tz w.tok h.key h.inv.ok
    refine ⟨hinv, hk.1, ?_⟩
    intro k hkk
    simp only [World.step, World.delivered, List.filter_append, List.map_append, List.mem_append] at hkk
    rcases hkk with hkk | hkk
    · exact h.log k hkk
    · simp only [List.filter_cons, List.filter_nil] at hkk
      split at hkk
      · rename_i he
        simp only [List.map_cons, List.map_nil, List.mem_singleton] at hkk
        rw [hkk]; exact hk.2 (by simpa using he)
      · simp at hkk
  | addData b => exact ⟨hinv, ⟨h.key.data, h.key.inactive, h.key.name, h.key.parsed⟩, h.log⟩
  | resetData b i =>
    have := clear_key w.tz.inter h.key.data h.key.inactive
    exact ⟨hinv, ⟨this.1, fun _ => this.2, fun _ _ => this.2, rfl⟩, h.log⟩
  | pushScope ty => exact ⟨hinv, ⟨h.key.data, h.key.inactive, h.key.name, h.key.parsed⟩, h.log⟩
  | popScope =>
    refine ⟨hinv, ?_, ?_⟩
    · simp only [World.step]
      cases hp : w.tz.popScope with
      | none => exact h.key
      | some t =>
        unfold Tz.popScope at hp
        split at hp
        · simp at hp
        · simp only [Option.some.injEq] at hp; subst hp
          exact ⟨h.key.data, h.key.inactive, h.key.name, h.key.parsed⟩
    · intro k hk
      refine h.log k ?_
      simp only [World.step] at hk
      cases hp : w.tz.popScope <;> simpa [hp, World.delivered] using hk

theorem keyHist_run (o : Opts) (script : List (List Bytes)) (ops : List Op) (hv : ∀ op ∈ ops, op.valid) :
    KeyHist (World.run o script ops) := by
  have h0 : KeyHist (World.init o script) := by
    refine ⟨worldInv_run o script [] (by simp), ⟨?_, ?_, ?_, rfl⟩, ?_⟩ <;>
      simp [World.init, Tz.new, RawTy, World.delivered]
  unfold World.run
  generalize World.init o script = w at *
  induction ops generalizing w with
  | nil => exact h0
  | cons op ops ih => exact ih (fun op' h => hv op' (by simp [h])) _ (keyHist_step w op (hv op (by simp)) h0)

/-- **C17** (tokens). Over any history of calls, on any bytes in any buffers and with any options, a token
delivered as a bare word (type `Bool`, `Null` or `Ascii`) has type `Bool` exactly if its text is `true` or
`false`, and `Null` exactly if its text is `null`. -/
theorem C17_keywords_exact (o : Opts) (script : List (List Bytes)) (ops : List Op) (hv : ∀ op ∈ ops, op.valid)
    (k : Token) (hk : k ∈ (World.run o script ops).delivered)
    (hw : k.valueType = .bool ∨ k.valueType = .null ∨ k.valueType = .ascii) :
    (k.valueType = .bool ↔ k.value.bytes = b!"true" ∨ k.value.bytes = b!"false") ∧
    (k.valueType = .null ↔ k.value.bytes = b!"null") := by
  obtain ⟨h1, h2, h3⟩ := (keyHist_run o script ops hv).log k hk
  rcases hw with h | h | h
  · refine ⟨⟨h1, fun _ => h⟩, ?_⟩
    rw [h]
    refine ⟨by simp, fun hb => ?_⟩
    rcases h1 h with h' | h' <;> rw [h'] at hb <;> simp at hb
  · refine ⟨?_, ⟨h2, fun _ => h⟩⟩
    rw [h, h2 h]
    simp
  · have := h3 h
    rw [h]
    exact ⟨⟨by simp, fun hb => absurd hb (by simp [this])⟩, ⟨by simp, fun hb => absurd hb this.2.2⟩⟩

/-- The hypotheses are met: words of every kind, one of them cut across buffers. -/
example : ((World.run { ascii := true } [] [.addData b!"{\"a\":tr", .addData b!"ue,\"b\":nul", .next, .next, .next,
    .addData b!"l,\"c\":nullx,\"d\":falsy}", .next, .next, .next, .next]).delivered.map (fun k => (k.valueType, k.value.bytes))) =
    [(.objectStart, b!"{"), (.bool, b!"true"), (.null, b!"null"), (.ascii, b!"nullx"), (.ascii, b!"falsy"), (.objectEnd, b!"}")] := by
  decide +kernel

/-- **C17** (parsing a bool). Parsing into `bool` succeeds exactly if the token text is `true` or `false`, the
result is the value named, and otherwise the error is `FailedToParseBoolean` and the variable keeps its value. -/
theorem C17_bool_exact (old : Bool) (value : Bytes) :
    ((boolTo old value).1 = .noError ↔ value = b!"true" ∨ value = b!"false") ∧
    (value = b!"true" → boolTo old value = (.noError, true)) ∧
    (value = b!"false" → boolTo old value = (.noError, false)) ∧
    ((boolTo old value).1 ≠ .noError → boolTo old value = (.failedToParseBoolean, old)) := by
  have ht : (value.length = 4 ∧ value.take 4 = b!"true") ↔ value = b!"true" :=
    ⟨fun h => by rw [← h.2, List.take_of_length_le (by omega)], by rintro rfl; decide⟩
  have hf : (value.length = 5 ∧ value.take 5 = b!"false") ↔ value = b!"false" :=
    ⟨fun h => by rw [← h.2, List.take_of_length_le (by omega)], by rintro rfl; decide⟩
  unfold boolTo
  simp only [ht, hf]
  by_cases h1 : value = b!"true"
  · simp [h1]
  · by_cases h2 : value = b!"false"
    · simp [h2]
    · simp [h1, h2]

/-- **C17** (writing a bool). Both booleans are written as the keyword that parses back to them. -/
theorem C17_bool_round_trip (old b : Bool) : boolTo old (boolText b) = (.noError, b) := by
  cases b <;> rfl

end JsonStruct
