import Verif.Lemmas.RawRound
import Verif.Props.Source

/-
C92: what is written for a value of a type with raw captures in it parses back to it, captured texts included.
-/

namespace JsonStruct

theorem r_serialized {d : Dialect} (t : RType T) (ht : t.Lawful) (v : T) (hv : t.Valid d v) {j : JVal} (hj : t.enc v = some j)
    (pretty : Bool) (shift depth : Nat) (hd : depth + j.depth ≤ 255) :
    ∃ text, serializeStruct t.handler v (userOpts pretty shift depth) = some text ∧ Doc (rawTexts d) j text := by
  have hg := t.good ht v hv j hj
  obtain ⟨k, h1, _, _⟩ := t.writes ht v hv {} (Ser.onString (userOpts pretty shift depth) (startString []).length) (.inl rfl) rfl
  refine ⟨_, by simp only [serializeStruct, serializeWith, h1, Option.map_some]; rfl, ?_⟩
  have hw := written_text_in wide_rawTexts j hg pretty shift depth hd []
  rw [hj]
  simp only [encToks]
  rw [writeAll_names (a := .string) (b := .ascii) rfl (.inl rfl) (.inr rfl)]
  exact hw

theorem fills_container {j : JVal} {a : AVal} (h : Fills j a) (hj : j.Bracketed) : a.plain.isContainer = true := by
  cases h with
  | null | bool | str => exact hj.elim
  | num hn => exact (hj.elim (number_head hn).1 (number_head hn).2).elim
  | _ => rfl

/-- **C92**, with the result of reading. -/
theorem r_round_trip {d : Dialect} (t : RType T) (ht : t.Lawful) {o : Opts} (hn : o.newLines = false) (hdo : d = rfc ∨ d = lenient o) (v : T) (hv : t.Valid d v)
    {j : JVal} (hj : t.enc v = some j) (hc : j.Bracketed) (hd : j.depth ≤ 255) (pretty : Bool) (shift : Nat)
    (p : POpts) (hp : p.allowUnassigned = true ∨ t.WritesRequired d) (old : T) (ho : t.Fresh old) :
    ∃ text un w, serializeStruct t.handler v (userOpts pretty shift 0) = some text ∧ Doc (lenient o) w text ∧
      Parses t.handler o p old text ⟨.noError, v, [], un⟩ ∧ (t.WritesRequired d → un = []) := by
  have hle : d.Le (lenient o) := by
    rcases hdo with rfl | rfl
    · exact rfc_le o
    · exact ⟨fun _ h => h, fun _ h => h, fun _ h => h, fun _ _ h => h, fun h => h, fun _ h => h⟩
  obtain ⟨text, h1, w, b, w', h2, h3, h4, rfl⟩ := r_serialized t ht v hv hj pretty shift 0 (by omega)
  obtain ⟨a, ha, hl⟩ := fills_exists (rfcBytes_le o) hle h3 w'
  obtain ⟨un, hu, hun⟩ := (t.roundTrips ht).full hj hv ho hp ha ([], .ascii)
  have hgap : (lenient o).gap w := (rfcBytes_le o).gap _ h2
  have haft : (lenient o).after a.plain w' := (rfcBytes_le o).after _ _ h4
  exact ⟨_, un, a.plain, h1, ⟨w, b, w', hgap, laid_text hl, haft, rfl⟩, parse_laid t.asem hn p (fills_container ha hc) ⟨w, b, w', hgap, hl, haft, rfl⟩ hu, hun⟩

/-- **C92**, without the option that makes new lines separators, and for values whose text begins with a bracket and is, captures not counted, at most 255 levels deep. A type
with `JsonArray`, `JsonObject`, `JsonObjectOrArray` and their `Ref` forms anywhere in it; a value whose captures hold texts of JSON values (of RFC 8259, or with comments and
superfluous commas where the parser allows them). What `serializeStruct` returns is a document, and parsing it leaves the value in any fresh variable: each capture has its text back,
to the byte, whatever the style in which the rest is written. Missing as in C01: scalars at the root, deeper values and the values of the library's types that C01 leaves out. -/
theorem C92_round_trip_partial {d : Dialect} (t : RType T) (ht : t.Lawful) {o : Opts} (hn : o.newLines = false) (hdo : d = rfc ∨ d = lenient o) (v : T) (hv : t.Valid d v)
    {j : JVal} (hj : t.enc v = some j) (hc : j.Bracketed) (hd : j.depth ≤ 255) (pretty : Bool) (shift : Nat)
    (p : POpts) (hp : p.allowUnassigned = true) (old : T) (ho : t.Fresh old) :
    ∃ text un w, serializeStruct t.handler v (userOpts pretty shift 0) = some text ∧ Doc (lenient o) w text ∧
      Parses t.handler o p old text ⟨.noError, v, [], un⟩ := by
  obtain ⟨text, un, w, h1, h2, h3, _⟩ := r_round_trip t ht hn hdo v hv hj hc hd pretty shift p (.inl hp) old ho
  exact ⟨text, un, w, h1, h2, h3⟩

/-- **C92** with strict options: if every member, in every struct, may be absent or is always written, nothing is reported at all. -/
theorem C92_strict_partial {d : Dialect} (t : RType T) (ht : t.Lawful) {o : Opts} (hn : o.newLines = false) (hdo : d = rfc ∨ d = lenient o) (hw : t.WritesRequired d)
    (v : T) (hv : t.Valid d v) {j : JVal} (hj : t.enc v = some j) (hc : j.Bracketed) (hd : j.depth ≤ 255) (pretty : Bool) (shift : Nat) (p : POpts) (old : T) (ho : t.Fresh old) :
    ∃ text w, serializeStruct t.handler v (userOpts pretty shift 0) = some text ∧ Doc (lenient o) w text ∧ Parses t.handler o p old text ⟨.noError, v, [], []⟩ := by
  obtain ⟨text, un, w, h1, h2, h3, h4⟩ := r_round_trip t ht hn hdo v hv hj hc hd pretty shift p (.inr hw) old ho
  obtain rfl := h4 hw
  exact ⟨text, w, h1, h2, h3⟩

/-- **C92**, captures at the root: what `serializeStruct` returns for a capture is its text, with white space around it at most. -/
theorem C92_root {d : Dialect} (k : RawKind) (addr : Nat) (v : Bytes) (hv : ∃ j, Text d j v ∧ k.Takes j) (pretty : Bool) (shift : Nat) :
    ∃ w w', Ws w ∧ Ws w' ∧ serializeStruct (RType.raw k addr).handler v (userOpts pretty shift 0) = some (w ++ v ++ w') := by
  have hj : (RType.raw k addr).enc v = some (.num v) := by simp only [RType.enc, if_neg (takes_nonempty hv)]
  have hv' : (RType.raw k addr).Valid d v := hv
  have hl : (RType.raw k addr).Lawful := by simp [RType.Lawful]
  obtain ⟨text, h2, w, b, w', h3, h4, h5, rfl⟩ := r_serialized (d := d) (RType.raw k addr) hl v hv' hj pretty shift 0 (by simp [JVal.depth])
  cases h4
  exact ⟨w, w', h3, h5, h2⟩

/-! ### Cases -/

theorem exRaw_lawful : exRaw.Lawful := by
  refine ⟨⟨?_, ?_, ?_, ?_, ?_⟩, ?_, ?_⟩
  · intro e he
    simp only [RStruct.entries, RMembers.entries, RSupers.entries, List.append_nil, List.mem_cons, List.not_mem_nil, or_false] at he
    rcases he with rfl | rfl | rfl | rfl
    · exact ⟨b!"id", rfl, by decide, by quotable⟩
    · exact ⟨b!"meta", rfl, by decide, by quotable⟩
    · exact ⟨b!"rows", rfl, by decide, by quotable⟩
    · exact ⟨b!"more", rfl, by decide, by quotable⟩
  · simp only [RStruct.entries, RMembers.entries, RSupers.entries]; decide +kernel
  · simp [RStruct.entries, RMembers.entries, RSupers.entries, Access.Apart, REntry.access]
  · intro e he x t
    simp only [RStruct.entries, RMembers.entries, RSupers.entries, List.append_nil, List.mem_cons, List.not_mem_nil, or_false] at he
    rcases he with rfl | rfl | rfl | rfl <;> rfl
  · intro a b h
    simp [RStruct.entries, RMembers.entries, RSupers.entries] at h
    exact Prod.ext h.1 (Prod.ext h.2.1 (Prod.ext h.2.2.1 h.2.2.2))
  · exact ⟨⟨trivial, rfl, trivial, rfl, trivial⟩, trivial⟩
  · simp [RStruct.Lawful, RMembers.Lawful, RSupers.Lawful, RType.Lawful, CType.Lawful]

def exRawValue : Int × Bytes × List Bytes × Option Bytes := (7, b!"{ \"x\" :[1 , 1]}", [b!"[ 1]", b!"[\"]\",[ ]]"], none)

theorem exRaw_valid : exRaw.Valid rfc exRawValue := by
  have s0 : rfc.gap [] := ws_nil
  have s1 : rfc.gap b!" " := by intro c hc; revert c; decide
  have e0 {v : JVal} : rfc.after v [] := ws_nil
  have e1 {v : JVal} : rfc.after v b!" " := by intro c hc; revert c; decide
  have one : rfc.num b!"1" := ⟨[], b!"1", [], [], rfl, .inl rfl, .inr ⟨⟨by decide, by decide⟩, by decide⟩, .inl rfl, .inl rfl⟩
  refine ⟨⟨⟨by simp [IntTy.Supported, i32], by simp [IntTy.InRange, IntTy.min, IntTy.max, i32, exRawValue]⟩, ⟨_, .obj (.one (n := b!"x") (w1 := b!" ") (w2 := b!" ") (w3 := []) (w4 := []) s1 (text_str (by decide)) s1 s0
        (.arr (.cons (w := []) (w' := b!" ") s0 (.num one) e1 (.one (w := b!" ") (w' := []) s1 (.num one) e0))) e0), trivial⟩, ?_, ?_, trivial⟩, trivial⟩
  · simp only [RType.Valid, exRawValue, List.mem_cons, List.not_mem_nil, or_false, forall_eq_or_imp, forall_eq]
    exact ⟨⟨⟨_, .arr (.one (w := b!" ") (w' := []) s1 (.num one) e0), trivial⟩, rfl⟩,
      ⟨_, .arr (.cons (w := []) (w' := []) s0 (.str (s := b!"]") (text_str (by decide))) e0 (.one (w := []) (w' := []) s0 (.arrEmpty (w := b!" ") s1) e0)), trivial⟩, rfl⟩
  · show ∀ x, none = some x → _
    intro x h; cases h

/-- The hypotheses are met; the captures keep their blanks. -/
example : ∃ text un w, serializeStruct exRaw.handler exRawValue (userOpts true 2 0) = some text ∧ Doc (lenient {}) w text ∧
    Parses exRaw.handler {} {} (0, [], [], none) text ⟨.noError, exRawValue, [], un⟩ :=
  C92_round_trip_partial (d := rfc) exRaw exRaw_lawful rfl (.inl rfl) exRawValue exRaw_valid rfl trivial (by decide +kernel) true 2 {} rfl _
    ⟨⟨trivial, rfl, trivial, rfl, trivial⟩, trivial⟩

/-- Those of `C92_strict_partial`. -/
example (p : POpts) : ∃ text w, serializeStruct exRaw.handler exRawValue (userOpts false 0 0) = some text ∧ Doc (lenient {}) w text ∧
    Parses exRaw.handler {} p (0, [], [], none) text ⟨.noError, exRawValue, [], []⟩ := by
  refine C92_strict_partial (d := rfc) exRaw exRaw_lawful rfl (.inl rfl) ?_ exRawValue exRaw_valid rfl trivial (by decide +kernel) false 0 p _
    ⟨⟨trivial, rfl, trivial, rfl, trivial⟩, trivial⟩
  refine ⟨⟨⟨.inr fun v hv => ?_, by simp [RType.WritesRequired, CType.WritesRequired]⟩, ⟨.inr fun _ _ => rfl, trivial⟩, ⟨.inr fun _ _ => rfl, trivial⟩,
    ⟨.inl rfl, trivial⟩, trivial⟩, trivial⟩
  obtain ⟨txt, h1, _⟩ := intDec_enc hv.1 hv.2 {} 0 ([], .ascii)
  show ((intFrom i32 v).map JVal.num).isSome = true
  simp [h1]

/-- Those of `C92_root`. -/
example : ∃ j, Text rfc j b!"[ ]" ∧ RawKind.array.Takes j := ⟨_, .arrEmpty (w := b!" ") (by intro c hc; revert c; decide), trivial⟩

example : (serializeStruct exRaw.handler exRawValue (userOpts false 0 0)) = some b!"{\"id\":7,\"meta\":{ \"x\" :[1 , 1]},\"rows\":[[ 1],[\"]\",[ ]]]}" := by decide +kernel

/-- **C92** is false for empty captures: `{}` is written, and read back as such. -/
theorem C92_false_empty : serializeStruct (RType.raw .object 1).handler [] (userOpts false 0 0) = some b!"{}" ∧
    (parseTo (RType.raw .object 1).handler 80 [] (Ctx.onText {} {} b!"{}")).map (fun r => (r.1, r.2.1)) = some (.noError, b!"{}") := by
  decide +kernel

/-- **C92** is false for empty `Ref` captures: nothing at all is written for them, and the text is not JSON. -/
theorem C92_false_empty_ref : serializeStruct (RType.vector (.rawRef .object)).handler [[], []] (userOpts false 0 0) = some b!"[,]" ∧
    (parseTo (RType.vector (.rawRef .object)).handler 80 [] (Ctx.onText {} {} b!"[,]")).map (fun r => (r.1, r.2.1)) = some (.encounteredIllegalChar, []) := by
  decide +kernel

/-- **C92** is false for captures to which white space was added: it is dropped. -/
theorem C92_false_blanks : serializeStruct (RType.raw .array 1).handler b!" [1] " (userOpts false 0 0) = some b!" [1] " ∧
    (parseTo (RType.raw .array 1).handler 80 [] (Ctx.onText {} {} b!" [1] ")).map (fun r => (r.1, r.2.1)) = some (.noError, b!"[1]") := by
  decide +kernel

end JsonStruct
