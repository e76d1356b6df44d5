import Verif.Lemmas.FollowText
import Verif.Lemmas.Fuel
import Verif.Props.Struct
import Verif.Props.Success
import Verif.Props.Sequence
import Verif.Props.Diff

/- C78 and C79: what is known of a text when only the beginning of it is there. -/

namespace JsonStruct

/-! ### C78 -/

/-- **C78**. The tokens that are reported for the beginning of a text are the first tokens reported for the whole text,
whatever follows, with all options; the text need not be JSON. -/
theorem C78_tokens_stay (o : Opts) (beginning more : Bytes) : (tokenize o beginning).1 <+: (tokenize o (beginning ++ more)).1 :=
  tokenize_more more

/-- `{"a": [1` of `{"a": [1, 2]}`: the number is not taken for complete, `{` and `[` are reported. -/
example : tokenize {} b!"{\"a\": [1" = ([⟨[], .ascii, b!"{", .objectStart⟩, ⟨b!"a", .string, b!"[", .arrayStart⟩], .needMoreData) ∧
    (tokenize {} b!"{\"a\": [1, 2]}").1.length = 6 := by decide +kernel

/-- **C78**, `_partial`: the text must not end with a slash where comments are allowed (see `C78_false_slash`).
An error other than `NeedMoreData` is final: whatever follows, the same tokens and the same error are reported. -/
theorem C78_errors_stay_partial (o : Opts) (beginning more : Bytes) (he : (tokenize o beginning).2 ≠ .needMoreData)
    (hs : o.comments = false ∨ beginning.getLast? ≠ some SLASH) :
    tokenize o (beginning ++ more) = tokenize o beginning := by
  refine tokenize_final more he ?_
  unfold halfSlash
  rcases hs with h | h
  · simp [h]
  · simp [h]

/-- `[1 x` is refused, and so is everything that begins with it. -/
example : (tokenize {} b!"[1 x").2 = .expectedDelimiter := by decide +kernel

/-- **C78** is false for errors where comments are allowed and the text ends in the middle of `//`: the text is refused
for what is the beginning of a comment. -/
theorem C78_false_slash :
    (tokenize { comments := true } b!"[1 /").2 = .expectedDelimiter ∧
    tokenize { comments := true } b!"[1 // one\n, 2]" = ((JVal.arr [.num b!"1", .num b!"2"]).docToks, .needMoreData) := by decide +kernel

/-- **C78**, `_partial`: a type with maps only if no error but the end of the text is found in it. A value that is read from the
beginning of a text without error is read from the whole text, with the same reports, whatever follows. -/
theorem C78_values_stay_partial (t : CType T) (o : Opts) (p : POpts) (beginning more : Bytes) (ht : t.NoMap ∨ (tokenize o beginning).2 = .needMoreData)
    (old : T) {r : Res T} (h : Parses t.handler o p old beginning r) (he : r.err = .noError) : Parses t.handler o p old (beginning ++ more) r := by
  obtain ⟨N, c, h1, h2, h3, h4⟩ := h
  rw [he] at h1
  obtain ⟨c', g, hf, -⟩ := parse_more t p more ht.symm (h1 N (Nat.le_refl _))
  refine ⟨N, c', fun n hn => by rw [he]; exact parseTo_steady t hn _ _ _ g, ?_, ?_, ?_⟩
  · rw [← hf.missing, h2]
  · rw [← hf.unassigned, h3]
  · rw [← hf.error, h4]

/-- `[1,2]` with anything behind it. -/
example : Parses (CType.vector (.int i32)).handler {} {} [] b!"[1,2]" ⟨.noError, [1, 2], [], []⟩ :=
  parse_toks (v := .arr [.num b!"1", .num b!"2"]) (CType.sem _) _ (by example_text) (by decide +kernel)

/-- `{"a":1}`, read into a map, with anything behind it. -/
example : (tokenize {} b!"{\"a\":1}").2 = .needMoreData ∧
    Parses intMap.handler {} {} [] b!"{\"a\":1}" ⟨.noError, [(b!"a", 1)], [], []⟩ :=
  ⟨by decide +kernel, parse_toks (v := .obj [(b!"a", .num b!"1")]) (CType.sem _) _ (by example_text) (by decide +kernel)⟩

/-! ### C79 -/

/-- A document without what stands behind it, cut off before its end. -/
theorem cut_off_text (t : CType T) {o : Opts} (hn : o.newLines = false) (p : POpts) {v : JVal} (hv : v.isContainer = true) {w b w' beginning rest : Bytes}
    (hw : (lenient o).gap w) (hb : Text (lenient o) v b) (hw' : GapO o.comments w') (hc : w ++ b ++ w' = beginning ++ rest) (hlt : w'.length < rest.length)
    (hm : t.NoMap ∨ o.comments = false ∨ beginning.getLast? ≠ some SLASH) {old : T} {r : Res T} (hr : t.dec p old v.root = some r) :
    ∃ N, ∀ n, N ≤ n → ∀ x c, parseTo t.handler n old (Ctx.onText o p beginning) ≠ some (.noError, x, c) := by
  obtain ⟨e', -, hrun⟩ := run_container o hn (inner_text o hn hb) hv (e := false) (st := []) (tail := w') hw
  have hrun : Run o ⟨false, false, [], beginning ++ rest⟩ v.docToks ⟨true, e', [], w'⟩ := by
    rw [← hc]; simpa [JVal.docToks] using hrun
  refine cut_off t p hrun (lNext_blank o hn hw') hlt ?_ hr
  rcases hm with h | h | h
  · exact .inr h
  · exact .inl (by simp [halfSlash, h])
  · exact .inl (by simp [halfSlash, h])

theorem cut_off_doc (t : CType T) {o : Opts} (hn : o.newLines = false) (p : POpts) {d : Dialect} (hle : d.Le (lenient o)) (haf : ∀ v w, d.after v w → Ws w)
    {v : JVal} (hv : v.isContainer = true) {beginning rest : Bytes} (hd : Doc d v (beginning ++ rest)) (hrest : ¬Ws rest)
    (hm : t.NoMap ∨ o.comments = false ∨ beginning.getLast? ≠ some SLASH) {old : T} {r : Res T} (hr : t.dec p old v.root = some r) :
    ∃ N, ∀ n, N ≤ n → ∀ x c, parseTo t.handler n old (Ctx.onText o p beginning) ≠ some (.noError, x, c) := by
  obtain ⟨w, b, w', h1, h2, h3, h4⟩ := hd
  have h5 := haf _ _ h3
  refine cut_off_text t hn p hv (hle.gap _ h1) (text_mono hle h2) (hle.after _ _ h3).1 h4.symm ?_ hm hr
  by_contra hlt
  obtain ⟨x, hx⟩ : rest <:+ w' := by
    refine List.suffix_of_suffix_length_le (l₃ := beginning ++ rest) (List.suffix_append _ _) ?_ (by omega)
    rw [h4]; exact List.suffix_append _ _
  exact hrest fun c hc => h5 c (by rw [← hx]; simp [hc])

/-- **C79**, `_partial`: strings must not be given arrays or objects (the decoder of Spec/Decode must be defined on the value of
the whole text, see `C79_false_string`), and a text cut off behind a slash is left out where comments are allowed and the type has maps.
An RFC 8259 document (an array or an object) is cut off before its last bracket. Then `parseTo` does not return `NoError`, for every
type, whether the whole text is accepted for the type or not. -/
theorem C79_cut_off_partial (t : CType T) {o : Opts} (hn : o.newLines = false) (p : POpts) {v : JVal} (hv : v.isContainer = true) {beginning rest : Bytes}
    (hd : Doc rfc v (beginning ++ rest)) (hrest : ¬Ws rest) (hm : t.NoMap ∨ o.comments = false ∨ beginning.getLast? ≠ some SLASH)
    {old : T} {r : Res T} (hr : t.dec p old v.root = some r) :
    ∃ N, ∀ n, N ≤ n → ∀ x c, parseTo t.handler n old (Ctx.onText o p beginning) ≠ some (.noError, x, c) :=
  cut_off_doc t hn p (rfc_le o) (fun _ _ h => h) hv hd hrest hm hr

/-- `std::map<std::string, std::map<std::string, int>>`. -/
def intMaps : CType (List (Bytes × List (Bytes × Int))) := .map (fun m e => m ++ [e]) intMap

set_option synthInstance.maxSize 1000 in
/-- `{"a":{"b":1}}`, read into a map of maps, cut off before the last `}`. -/
example : Doc rfc (.obj [(b!"a", .obj [(b!"b", .num b!"1")])]) (b!"{\"a\":{\"b\":1}" ++ b!"}") ∧ ¬Ws b!"}" ∧
    intMaps.dec {} [] (JVal.obj [(b!"a", .obj [(b!"b", .num b!"1")])]).root = some ⟨.noError, [(b!"a", [(b!"b", 1)])], [], []⟩ :=
  ⟨⟨[], _, [], ws_nil, .obj (.one (w1 := []) (w2 := []) (w3 := []) (w4 := []) ws_nil (example_string _ (by decide)) ws_nil ws_nil
      (.obj (.one (w1 := []) (w2 := []) (w3 := []) (w4 := []) ws_nil (example_string _ (by decide)) ws_nil ws_nil (.num example_num) ws_nil)) ws_nil), ws_nil, rfl⟩,
    fun h => absurd (h 0x7D (by decide)) (by decide), by decide +kernel⟩

/-- **C79** (no maps), `_partial` as above. Such a text is refused: `parseTo` returns, and it returns an error. -/
theorem C79_cut_off_reported_partial (t : CType T) (ht : t.NoMap) {o : Opts} (hn : o.newLines = false) (p : POpts) {v : JVal} (hv : v.isContainer = true)
    {beginning rest : Bytes} (hd : Doc rfc v (beginning ++ rest)) (hrest : ¬Ws rest) {old : T} {r : Res T} (hr : t.dec p old v.root = some r) :
    ∃ e x c, e ≠ .noError ∧ ∀ n, beginning.length < n → parseTo t.handler n old (Ctx.onText o p beginning) = some (e, x, c) := by
  obtain ⟨N, h⟩ := C79_cut_off_partial t hn p hv hd hrest (.inl ht) hr
  obtain ⟨⟨e, x, c⟩, g⟩ := C57_text_partial t ht o p beginning old
  refine ⟨e, x, c, fun he => ?_, g⟩
  have := g (max N (beginning.length + 1)) (by omega)
  rw [he] at this
  exact h _ (by omega) _ _ this

/-- **C79** (comments and trailing commas), `_partial` as above. The same for the texts the tokenizer takes for documents with its
options, cut off before the last bracket. -/
theorem C79_lenient_partial (t : CType T) {o : Opts} (hn : o.newLines = false) (p : POpts) {v : JVal} (hv : v.isContainer = true) {w b beginning rest : Bytes}
    (hw : (lenient o).gap w) (hb : Text (lenient o) v b) (hc : w ++ b = beginning ++ rest) (hrest : rest ≠ [])
    (hm : t.NoMap ∨ o.comments = false ∨ beginning.getLast? ≠ some SLASH) {old : T} {r : Res T} (hr : t.dec p old v.root = some r) :
    ∃ N, ∀ n, N ≤ n → ∀ x c, parseTo t.handler n old (Ctx.onText o p beginning) ≠ some (.noError, x, c) :=
  cut_off_text t hn p hv (w' := []) hw hb (gapO_nil _) (by simpa using hc) (List.length_pos_iff.2 hrest) hm hr

/-- **C79** (torn output), `_partial`: arrays and objects, with the conditions of C01. What `serializeStruct` wrote for a value of
any type, of which the end is lost, is not read without error. -/
theorem C79_torn_output_partial (w : SavedValue) (hw : w.Fine) {o : Opts} (hn : o.newLines = false) (p : POpts) (hp : p.allowUnassigned = true) :
    ∃ text, serializeStruct w.type.handler w.val (userOpts w.pretty w.shift 0) = some text ∧
    ∀ beginning rest, text = beginning ++ rest → ¬Ws rest → w.type.NoMap ∨ o.comments = false ∨ beginning.getLast? ≠ some SLASH →
      ∃ N, ∀ n, N ≤ n → ∀ x c, parseTo w.type.handler n w.old (Ctx.onText o p beginning) ≠ some (.noError, x, c) := by
  obtain ⟨text, h1, h2⟩ := serialized w.type hw.lawful w.val hw.valid hw.enc w.pretty w.shift 0 (by have := hw.depth; omega)
  obtain ⟨un, hu⟩ := (w.type.roundTrips hw.lawful).some hw.enc hw.valid hw.fresh hp ([], .ascii)
  refine ⟨text, h1, ?_⟩
  rintro beginning rest rfl hrest hm
  exact cut_off_doc w.type hn p (rfcBytes_le o) (fun _ _ h => h) hw.container h2 hrest hm hu

/-- A struct with one string. -/
def oneString : CStruct Bytes := .mk (.cons [b!"a"] (.string .scalar) id (fun x _ => x) .nil) .nil

/-- **C79** is false where a string is given an object: `{"a":{}`, the beginning of `{"a":{}}`, is accepted. -/
theorem C79_false_string : Parses (CType.struct [] oneString).handler {} {} [] b!"{\"a\":{}" ⟨.noError, b!"{", [], []⟩ :=
  parses_of_run _ 30 (by decide +kernel)

end JsonStruct
