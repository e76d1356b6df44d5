import Verif.Lemmas.Serializer
import Verif.Props.Document

/- C03, C04, C05, C43, C47, C48: the serializer. -/

namespace JsonStruct

/-- Options as a user sets them: style, `setShiftSize`, `setDepth`. -/
def userOpts (pretty : Bool) (shift depth : Nat) : SerOpts := ((SerOpts.new pretty).setShiftSize shift).setDepth depth

/-- A new serializer whose first buffer has `size` bytes and whose further buffers come from `supply`. -/
def Ser.fresh (o : SerOpts) (size : Nat) (supply : Nat → Option Nat) : Ser :=
  { opt := o, buf := { size := size }, supply := supply }

/-- Every request for a buffer is answered with a buffer that is not empty. -/
def Answered (supply : Nat → Option Nat) : Prop := ∀ n, ∃ k, supply n = some k ∧ 0 < k

theorem fresh_good (o : SerOpts) (size : Nat) (supply : Nat → Option Nat) (h : Answered supply) : (Ser.fresh o size supply).Good :=
  ⟨h, Nat.zero_le _, by simp [Ser.fresh]⟩

theorem fresh_st (o : SerOpts) (size : Nat) (supply : Nat → Option Nat) : (Ser.fresh o size supply).st = { opt := o } := rfl

/-- The common core: what is written for a value. -/
theorem written_doc (v : JVal) (hwf : v.WF rfc) (hnm : v.Named) (pretty : Bool) (shift depth : Nat) (hdep : depth + v.depth ≤ 255)
    (s : Ser) (hg : s.Good) (hs : s.st = { opt := userOpts pretty shift depth }) (h0 : s.out = []) :
    (s.writeAll v.docToks).1 = true ∧ Doc rfc v (s.writeAll v.docToks).2.out ∧
    WroteToks s { opt := userOpts pretty shift depth, first := false, tokenStart := false } (s.writeAll v.docToks).2.out (s.writeAll v.docToks).2 ∧
    (pretty = false → shift % 256 ≠ 2 → (s.writeAll v.docToks).2.out = v.compact) := by
  have hdd : (userOpts pretty shift depth).depth = depth := by simp [userOpts, SerOpts.setDepth]; omega
  have hw := written Ws rfc wide_rfc v { opt := userOpts pretty shift depth } [] .ascii (std_ws pretty shift depth (by omega)) (.inr rfl)
    (by simp only [hdd]; omega) hwf hnm
  obtain ⟨⟨t, ht1, ht2⟩, ha, hf⟩ := hw
  obtain ⟨r1, r2⟩ := writeAll_wrote s v.docToks hg (by rw [hs]; exact hf)
  have hout := r2.out
  rw [h0, List.nil_append, hs] at hout
  refine ⟨r1, ?_, ?_, ?_⟩
  · obtain ⟨w, hw, hfr⟩ := front_text { opt := userOpts pretty shift depth } (std_ws pretty shift depth (by omega)) false
    rw [hout]
    refine ⟨w, t, [], hw, ht2, ws_nil, ?_⟩
    have : (SerSt.mk (userOpts pretty shift depth) true true).texts v.docToks = _ := ht1
    rw [this, hfr]; simp [nameText]
  · have h2 := r2
    rw [hs] at h2
    have h3 : (SerSt.mk (userOpts pretty shift depth) true true).after v.docToks = _ := ha
    rw [h3] at h2
    rw [hout]; exact h2
  · rintro rfl hsh
    have hw := written (· = []) rfcTight wide_tight v { opt := userOpts false shift depth } [] .ascii (std_compact shift depth hsh (by omega)) (.inr rfl)
      (by simp only [hdd]; omega) (wf_tight v hwf) hnm
    obtain ⟨⟨t', ht1', ht2'⟩, _, _⟩ := hw
    obtain ⟨w, hw, hfr⟩ := front_text { opt := userOpts false shift depth } (std_compact shift depth hsh (by omega)) false
    have : (SerSt.mk (userOpts false shift depth) true true).texts v.docToks = _ := ht1'
    rw [hout, this, hfr, hw, ← text_tight ht2']; simp [nameText]

/-- A value used to show that hypotheses are met: `{"a":[1,"x y",{}],"b":null}`. -/
def sampleValue : JVal := .obj [(b!"a", .arr [.num b!"1", .str b!"x y", .obj []]), (b!"b", .null)]

theorem sampleValue_ok : sampleValue.WF rfc ∧ sampleValue.Named ∧ sampleValue.isContainer = true ∧ 0 + sampleValue.depth ≤ 255 := by
  refine ⟨?_, ?_, rfl, by decide⟩
  · simp only [sampleValue, JVal.WF, membersWF, elemsWF, and_true]
    refine ⟨.plain (by decide) (by decide) (by decide) .nil,
      ⟨⟨[], b!"1", [], [], rfl, .inl rfl, .inr ⟨⟨by simp, by decide⟩, by decide⟩, .inl rfl, .inl rfl⟩,
        .plain (by decide) (by decide) (by decide) (.plain (by decide) (by decide) (by decide) (.plain (by decide) (by decide) (by decide) .nil))⟩,
      .plain (by decide) (by decide) (by decide) .nil⟩
  · simp [sampleValue, JVal.Named, membersNamed, elemsNamed]

/-- **C03**. Writing the tokens of a JSON value through a new serializer, with any style, shift size, initial
depth and buffers, succeeds and yields an RFC 8259 text of that value, which tokenizes (with any options but
new lines as delimiters, on every build) to the tokens written. Missing: member names that are the empty string,
and more than 255 open brackets; for both the claim is false (`C03_false_empty_name`, `C47_false_depth_256`). -/
theorem C03_written_text_tokenizes_back_partial (v : JVal) (hv : v.isContainer = true) (hwf : v.WF rfc) (hnm : v.Named)
    (pretty : Bool) (shift depth : Nat) (hdep : depth + v.depth ≤ 255)
    (size : Nat) (supply : Nat → Option Nat) (hs : Answered supply) (o : Opts) (hn : o.newLines = false) :
    let r := (Ser.fresh (userOpts pretty shift depth) size supply).writeAll v.docToks
    r.1 = true ∧ Doc rfc v r.2.out ∧ tokenize o r.2.out = (v.docToks, .needMoreData) := by
  obtain ⟨h1, h2, _⟩ := written_doc v hwf hnm pretty shift depth hdep _ (fresh_good _ size supply hs) rfl rfl
  exact ⟨h1, h2, C02_document_tokenized o hn v _ hv h2⟩

example : sampleValue.isContainer = true ∧ sampleValue.WF rfc ∧ sampleValue.Named ∧ Answered (fun _ => some 3) :=
  ⟨sampleValue_ok.2.2.1, sampleValue_ok.1, sampleValue_ok.2.1, fun _ => ⟨3, rfl, by decide⟩⟩

/-- What is written for the sample in Pretty style. -/
example : ((Ser.fresh (userOpts true 2 0) 3 (fun _ => some 5)).writeAll sampleValue.docToks).2.out =
    b!"{\n  \"a\": [\n    1,\n    \"x y\",\n    {\n    }\n  ],\n  \"b\": null\n}" := by decide +kernel

/-- **C03** is false for empty member names: the name is dropped, and the text is not JSON any more. -/
theorem C03_false_empty_name :
    let v : JVal := .obj [([], .num b!"1")]
    let r := (Ser.fresh (userOpts false 0 0) 100 (fun _ => some 100)).writeAll v.docToks
    r.2.out = b!"{1}" ∧ tokenize {} r.2.out ≠ (v.docToks, .needMoreData) := by decide +kernel

/-- **C04**. For the tokens of any JSON value, the outputs with any two styles, shift sizes, initial depths and
buffers differ only in white space outside of strings: removing it gives the same text, and that text is what
Compact style writes itself (unless its shift size is set to 2). Both tokenize identically. Missing: as for C03. -/
theorem C04_styles_agree_partial (v : JVal) (hv : v.isContainer = true) (hwf : v.WF rfc) (hnm : v.Named)
    (pretty pretty' : Bool) (shift shift' depth depth' : Nat) (hdep : depth + v.depth ≤ 255) (hdep' : depth' + v.depth ≤ 255)
    (size size' : Nat) (supply supply' : Nat → Option Nat) (hs : Answered supply) (hs' : Answered supply')
    (o : Opts) (hn : o.newLines = false) :
    let a := ((Ser.fresh (userOpts pretty shift depth) size supply).writeAll v.docToks).2.out
    let b := ((Ser.fresh (userOpts pretty' shift' depth') size' supply').writeAll v.docToks).2.out
    withoutWs a = withoutWs b ∧ (pretty' = false → shift' % 256 ≠ 2 → withoutWs a = b) ∧ tokenize o a = tokenize o b := by
  obtain ⟨_, ha, _⟩ := written_doc v hwf hnm pretty shift depth hdep _ (fresh_good _ size supply hs) rfl rfl
  obtain ⟨_, hb, _, hc⟩ := written_doc v hwf hnm pretty' shift' depth' hdep' _ (fresh_good _ size' supply' hs') rfl rfl
  have key : ∀ t, Doc rfc v t → withoutWs t = v.compact := by
    rintro t ⟨w, b, w', h1, h2, h3, rfl⟩
    unfold withoutWs
    rw [List.append_assoc, strip_ws h1, strip_text strict_rfc h2]
    have := strip_ws h3 []
    rw [List.append_nil] at this
    rw [this]; simp [strip]
  intro a b
  refine ⟨by rw [key a ha, key b hb], fun h1 h2 => ?_, ?_⟩
  · rw [key a ha]; exact (hc h1 h2).symm
  · rw [C02_document_tokenized o hn v a hv ha, C02_document_tokenized o hn v b hv hb]

/-- In Compact style with shift size 2 white space is written all the same. -/
theorem C04_compact_shift2_writes_new_lines :
    ((Ser.fresh (userOpts false 2 0) 100 (fun _ => some 100)).writeAll (JVal.arr [.num b!"1"]).docToks).2.out = b!"[\n  1]" := by
  decide +kernel

/-- Brackets are closed only if open, and at most 255 are open, when `d` are open at the beginning. -/
def Nests : Nat → List Tok → Prop
  | _, [] => True
  | d, k :: ks =>
    if k.valueType = .arrayStart ∨ k.valueType = .objectStart then d + 1 ≤ 255 ∧ Nests (d + 1) ks
    else if k.valueType = .arrayEnd ∨ k.valueType = .objectEnd then d ≠ 0 ∧ Nests (d - 1) ks
    else Nests d ks

theorem nests_fits (ks : List Tok) (s : SerSt) (h : Nests s.opt.depth ks) (hl : s.opt.depth ≤ 255) : s.Fits ks := by
  induction ks generalizing s with
  | nil => trivial
  | cons k ks ih =>
    rw [Nests] at h
    split at h
    · rename_i ht
      have he : k.valueType.isEnd = false := by rcases ht with ht | ht <;> simp [Ty.isEnd, ht]
      refine ⟨by simp [he], ih _ ?_ ?_⟩
      · rw [next_start s ht]; simp only [SerOpts.setDepth]; rw [Nat.mod_eq_of_lt (by omega)]; exact h.2
      · rw [next_start s ht]; simp only [SerOpts.setDepth]; omega
    · split at h
      · rename_i ht
        refine ⟨fun _ => h.1, ih _ ?_ ?_⟩
        · rw [next_end s ht]; simp only [SerOpts.setDepth]; rw [Nat.mod_eq_of_lt (by omega)]; exact h.2
        · rw [next_end s ht]; simp only [SerOpts.setDepth]; omega
      · rename_i h1 h2
        have hs : k.valueType.isStart = false := by simp only [not_or] at h1; simp [Ty.isStart, h1]
        have he : k.valueType.isEnd = false := by simp only [not_or] at h2; simp [Ty.isEnd, h2]
        refine ⟨by simp [he], ih _ ?_ ?_⟩
        · rw [next_scalar s hs he]; exact h
        · rw [next_scalar s hs he]; exact hl

/-- **C05**. For any sequence of tokens, any options and any two ways to supply buffers (of any sizes, no request
unanswered): the bytes written are the same, the results are the same, and in neither case does any buffer
receive more bytes than it has. -/
theorem C05_buffers_do_not_matter (o : SerOpts) (ks : List Tok) (size size' : Nat) (supply supply' : Nat → Option Nat)
    (h : Answered supply) (h' : Answered supply') :
    let a := (Ser.fresh o size supply).writeAll ks
    let b := (Ser.fresh o size' supply').writeAll ks
    a.1 = b.1 ∧ a.2.out = b.2.out ∧ (∀ x ∈ a.2.done ++ [a.2.buf], x.data.length ≤ x.size) := by
  obtain ⟨ok, d, st', hw⟩ := writeAll_any ks { opt := o }
  obtain ⟨h1, h2⟩ := hw _ (fresh_good o size supply h) rfl
  obtain ⟨h3, h4⟩ := hw _ (fresh_good o size' supply' h') rfl
  refine ⟨by rw [h1, h3], ?_, ?_⟩
  · rw [h2.out, h4.out]; rfl
  · intro x hx
    simp only [List.mem_append, List.mem_singleton] at hx
    rcases hx with hx | rfl
    · exact Nat.le_of_eq (h2.good.full x hx)
    · exact h2.good.cur

/-- **C05** (success). As long as brackets are closed only when open, and never more than 255 are, every write
succeeds whatever the buffers; and no write ever overruns a buffer, whatever the tokens. -/
theorem C05_writes_succeed (o : SerOpts) (hd : o.depth ≤ 255) (ks : List Tok) (size : Nat) (supply : Nat → Option Nat)
    (h : Answered supply) :
    (Nests o.depth ks → ((Ser.fresh o size supply).writeAll ks).1 = true) ∧
    (∀ k, (((Ser.fresh o size supply).writeAll ks).2.write k).1 ≠ .ub) := by
  obtain ⟨ok, d, st', hw⟩ := writeAll_any ks { opt := o }
  obtain ⟨_, h2⟩ := hw _ (fresh_good o size supply h) rfl
  exact ⟨fun hn => (writeAll_wrote _ ks (fresh_good o size supply h) (nests_fits ks _ hn hd)).1, fun k => write_no_ub _ k h2.good⟩

/-- Buffers of 1, 2, 3, ... bytes answer every request; the tokens of the sample nest. -/
example : Answered (fun n => some (n + 1)) ∧ Nests 0 sampleValue.docToks :=
  ⟨fun n => ⟨n + 1, rfl, by omega⟩, by simp [sampleValue, JVal.docToks, JVal.toks, memberToks, elemToks, Nests]⟩

/-- **C47** holds up to depth 255: for every value nesting at most that deep, all writes succeed and the output
is a text of the value, in particular balanced. Missing: deeper values, for which the claim is false. -/
theorem C47_balanced_to_depth_255_partial (v : JVal) (hwf : v.WF rfc) (hnm : v.Named) (hd : v.depth ≤ 255)
    (pretty : Bool) (shift size : Nat) (supply : Nat → Option Nat) (hs : Answered supply) :
    let r := (Ser.fresh (userOpts pretty shift 0) size supply).writeAll v.docToks
    r.1 = true ∧ Doc rfc v r.2.out := by
  obtain ⟨h1, h2, _⟩ := written_doc v hwf hnm pretty shift 0 (by omega) _ (fresh_good _ size supply hs) rfl rfl
  exact ⟨h1, h2⟩

/-- `n` nested arrays. -/
def nested : Nat → JVal
  | 0 => .arr []
  | n + 1 => .arr [nested n]

/-- **C47** is false: of 256 nested arrays no closing bracket is written at all, since the depth is an 8 bit
number. -/
theorem C47_false_depth_256 :
    ((Ser.fresh (userOpts false 0 0) 1000 (fun _ => some 1000)).writeAll (nested 255).docToks).1 = false ∧
    ((Ser.fresh (userOpts false 0 0) 1000 (fun _ => some 1000)).writeAll (nested 255).docToks).2.out = List.replicate 256 0x5B := by
  decide +kernel

/-! ### The growing string -/

/-- **C48**. Whatever tokens are written through a `SerializerContext` on a string with any contents, after
`flush` the string is exactly what was written: the text that a single buffer, large enough, would hold. -/
theorem C48_flush_is_exact (o : SerOpts) (json : Bytes) (ks : List Tok) (size : Nat) :
    let r := (Ser.onString o (startString json).length).writeAll ks
    r.2.flush (startString json) = ((Ser.fresh o size (fun _ => some 1)).writeAll ks).2.out := by
  obtain ⟨ok, d, st', hw⟩ := writeAll_any ks { opt := o }
  have hpos : 0 < (startString json).length := by
    unfold startString
    split
    · rw [List.length_replicate]; omega
    · rename_i h; cases json with
      | nil => simp at h
      | cons => simp
  have hg : (Ser.onString o (startString json).length).Good :=
    ⟨fun n => ⟨_, rfl, Nat.mul_pos hpos (Nat.two_pow_pos n)⟩, Nat.zero_le _, by simp [Ser.onString]⟩
  obtain ⟨_, h2⟩ := hw _ hg rfl
  obtain ⟨_, h4⟩ := hw (Ser.fresh o size (fun _ => some 1)) (fresh_good _ _ _ (fun n => ⟨1, rfl, by decide⟩)) rfl
  intro r
  rw [flush_out o _ _ _ _ h2, h4.out]; rfl

/-- A string with stale contents, enlarged three times. -/
example : ((Ser.onString (userOpts false 0 0) 3).writeAll sampleValue.docToks).2.requests = 4 ∧
    ((Ser.onString (userOpts false 0 0) 3).writeAll sampleValue.docToks).2.flush b!"xyz" = b!"{\"a\":[1,\"x y\",{}],\"b\":null}" := by
  decide +kernel

/-! ### reformat -/

theorem reformatLoop_writes (n : Nat) (t : Tz) (s : Ser) (tok : Token) :
    reformatLoop n t s tok = ((Tz.collect n t tok).2.1, (s.writeAll ((Tz.collect n t tok).1.map Token.tok)).2) := by
  induction n generalizing t s tok with
  | zero => rfl
  | succ n ih =>
    simp only [reformatLoop, Tz.collect]
    split
    · rw [ih]; rfl
    · rfl

/-- `reformat` writes the tokens of the text. -/
theorem reformat_eq (m : Simd) (text out : Bytes) (o : SerOpts) :
    reformat m text out o =
      (if (tokenize { simd := m } text).2 = .needMoreData then .noError else (tokenize { simd := m } text).2,
       ((Ser.onString o (startString out).length).writeAll (tokenize { simd := m } text).1).2.flush (startString out)) := by
  unfold reformat
  simp only [reformatLoop_writes]
  simp [tokenize, tokenizeAll]

/-- What `reformat` gives for a document. -/
theorem reformat_doc (m : Simd) (v : JVal) (hv : v.isContainer = true) (hnm : v.Named) (t : Bytes) (ht : Doc rfc v t)
    (pretty : Bool) (shift depth : Nat) (hdep : depth + v.depth ≤ 255) (out : Bytes) :
    (reformat m t out (userOpts pretty shift depth)).1 = .noError ∧ Doc rfc v (reformat m t out (userOpts pretty shift depth)).2 ∧
    (reformat m t out (userOpts pretty shift depth)).2 =
      ((Ser.fresh (userOpts pretty shift depth) 0 (fun _ => some 1)).writeAll v.docToks).2.out := by
  have htok := C02_document_tokenized { simd := m } rfl v t hv ht
  obtain ⟨w, b, w', h1, h2, h3, rfl⟩ := ht
  have e : (reformat m (w ++ b ++ w') out (userOpts pretty shift depth)).2 =
      ((Ser.fresh (userOpts pretty shift depth) 0 (fun _ => some 1)).writeAll v.docToks).2.out := by
    rw [reformat_eq, htok]
    exact C48_flush_is_exact (userOpts pretty shift depth) out v.docToks 0
  refine ⟨by rw [reformat_eq, htok]; rfl, ?_, e⟩
  rw [e]
  exact (written_doc v (text_wf h2) hnm pretty shift depth hdep _ (fresh_good _ 0 _ (fun n => ⟨1, rfl, by decide⟩)) rfl rfl).2.1

/-- **C43**. For every RFC 8259 document with an array or object as root, in any text and on every build, `reformat`
succeeds with any style, shift size and initial depth and whatever the output string held; its output is a text of the same
document; reformatting that again with the same options changes nothing, and reformatting a Pretty output with other
options gives what reformatting the original with them gives. Missing: empty member names and more than 255 open
brackets (false, as for C03). -/
theorem C43_reformat_partial (m : Simd) (v : JVal) (hv : v.isContainer = true) (hnm : v.Named) (t : Bytes) (ht : Doc rfc v t)
    (pretty pretty' : Bool) (shift shift' depth depth' : Nat) (hdep : depth + v.depth ≤ 255) (hdep' : depth' + v.depth ≤ 255)
    (out out' : Bytes) (o : Opts) (hn : o.newLines = false) :
    let r := reformat m t out (userOpts pretty shift depth)
    r.1 = .noError ∧ Doc rfc v r.2 ∧ tokenize o r.2 = tokenize o t ∧
    reformat m r.2 out' (userOpts pretty shift depth) = r ∧
    reformat m r.2 out' (userOpts pretty' shift' depth') = reformat m t out (userOpts pretty' shift' depth') := by
  obtain ⟨a1, a2, a3⟩ := reformat_doc m v hv hnm t ht pretty shift depth hdep out
  obtain ⟨b1, b2, b3⟩ := reformat_doc m v hv hnm _ a2 pretty shift depth hdep out'
  obtain ⟨c1, c2, c3⟩ := reformat_doc m v hv hnm _ a2 pretty' shift' depth' hdep' out'
  obtain ⟨d1, d2, d3⟩ := reformat_doc m v hv hnm t ht pretty' shift' depth' hdep' out
  refine ⟨a1, a2, ?_, ?_, ?_⟩
  · rw [C02_document_tokenized o hn v _ hv a2, C02_document_tokenized o hn v t hv ht]
  · exact Prod.ext (by rw [b1, a1]) (by rw [b3, a3])
  · exact Prod.ext (by rw [c1, d1]) (by rw [c3, d3])

/-- **C43** is false for empty member names: `{"":1}` becomes `{1}`, which cannot be reformatted again. -/
theorem C43_false_empty_name : reformat .scalar b!"{\"\":1}" [] (userOpts false 0 0) = (.noError, b!"{1}") ∧
    reformat .scalar b!"{1}" [] (userOpts false 0 0) = (.expectedDelimiter, b!"{") := by decide +kernel

/-- A document and both of its forms. -/
example : reformat .avx2 b!" {\"a\" :[1 ,2]}" b!"old" (userOpts true 2 0) = (.noError, b!"{\n  \"a\": [\n    1,\n    2\n  ]\n}") ∧
    reformat .avx2 b!"{\n  \"a\": [\n    1,\n    2\n  ]\n}" [] (userOpts false 0 0) = (.noError, b!"{\"a\":[1,2]}") := by decide +kernel

end JsonStruct
