import Verif.Lemmas.AlikeText
import Verif.Props.Cut
import Verif.Props.Simd
import Verif.Props.Serializer
import Verif.Props.Success

/-
C66: what is read into a variable depends on the tokens only, not on white space, comments, the buffers the text comes
in, or the instructions the tokenizer was compiled with.
-/

namespace JsonStruct

/-- `ParseContext` on a new tokenizer with some buffers added (JSH 1623-1627) and a callback that adds the others, a group
of them in each call. -/
def Ctx.onBuffers (o : Opts) (p : POpts) (bs : List Bytes) (gs : List (List Bytes)) : Ctx :=
  { tz := { Tz.new o with bufs := bs, pending := gs }, allowMissing := p.allowMissing, allowUnassigned := p.allowUnassigned, track := p.track }

/-- What a program sees after `parseTo`: the error, the variable, `missing_members`, `unassigned_required_members`. `none` if
the bound on the loops was reached. -/
def outcome (r : Option (Err × T × Ctx)) : Option (Err × T × List Bytes × List Bytes) :=
  r.map fun r => (r.1, r.2.1, r.2.2.missing, r.2.2.unassigned)

/-- The same without the variable. -/
def outcomeLists (r : Option (Err × T × Ctx)) : Option (Err × List Bytes × List Bytes) :=
  r.map fun r => (r.1, r.2.2.missing, r.2.2.unassigned)

/-- Contexts that differ in their tokenizers and token variables only. -/
def Ctx.SameSettings (c c' : Ctx) : Prop := { c' with tz := c.tz, token := c.token } = c

theorem Ctx.SameSettings.flags {c c' : Ctx} (h : c.SameSettings c') : c.Flags c' := by
  unfold Ctx.SameSettings at h
  rw [← h]
  exact ⟨rfl, rfl, rfl, rfl, rfl, rfl⟩

theorem onBuffers_same (o o' : Opts) (p : POpts) (bs bs' : List Bytes) (gs gs' : List (List Bytes)) :
    (Ctx.onBuffers o p bs gs).SameSettings (Ctx.onBuffers o' p bs' gs') := rfl

theorem onBuffers_plain (o : Opts) (p : POpts) (bs : List Bytes) (gs : List (List Bytes)) (hg : ∀ g ∈ gs, g ≠ []) :
    (Ctx.onBuffers o p bs gs).tz.Plain := ⟨ok_new o bs gs, rfl, rfl, hg⟩

theorem onText_buffers (o : Opts) (p : POpts) (t : Bytes) : Ctx.onText o p t = Ctx.onBuffers o p [t] [] := rfl

/-! ### Two tokenizers -/

/-- **C66**, for two tokenizers whose calls of `nextToken` agree up to the first one that fails, and a type without maps:
`parseTo` ends with the same error and the same lists of members, and, if it succeeds, with the same value; with the same
value in any case if there are no `JsonTokens` in the type. -/
theorem C66_up_to_an_error_partial (t : CType T) (ht : t.NoMap) (c c' : Ctx) (hs : c.SameSettings c') (ha : AnswersAlike c.tz c.token c'.tz c'.token)
    (n : Nat) (old : T) :
    outcomeLists (parseTo t.handler n old c) = outcomeLists (parseTo t.handler n old c') ∧
    (∀ v m u, outcome (parseTo t.handler n old c) = some (.noError, v, m, u) ↔ outcome (parseTo t.handler n old c') = some (.noError, v, m, u)) ∧
    (t.NoTokens → outcome (parseTo t.handler n old c) = outcome (parseTo t.handler n old c')) := by
  have h1 := parseTo_alike (S := simUpTo False) t (.inr ht) (.inr (.inl id)) n old c c' ⟨hs.flags, ha⟩
  refine ⟨?_, ?_, fun hk => ?_⟩
  · rcases h1 with ⟨e, e'⟩ | ⟨x, y, e, e', ho⟩
    · rw [e, e']
    · rw [e, e']
      simp only [outcomeLists, Option.map_some, ho.err, ho.after.1.missing, ho.after.1.unassigned]
  · intro v m u
    rcases h1 with ⟨e, e'⟩ | ⟨x, y, e, e', ho⟩
    · rw [e, e']
    · rw [e, e']
      simp only [outcome, Option.map_some, ho.err, ho.after.1.missing, ho.after.1.unassigned, Option.some.injEq, Prod.mk.injEq]
      constructor
      · rintro ⟨a, b⟩
        rw [← (ho.ok (ho.err.trans a)).1]; exact ⟨a, b⟩
      · rintro ⟨a, b⟩
        rw [(ho.ok (ho.err.trans a)).1]; exact ⟨a, b⟩
  · have h1 := parseTo_alike (S := simUpTo True) t (.inr ht) (.inr (.inr hk)) n old c c' ⟨hs.flags, ha⟩
    rcases h1 with ⟨e, e'⟩ | ⟨x, y, e, e', ho⟩
    · rw [e, e']
    · rw [e, e']
      simp only [outcome, Option.map_some, ho.err, ho.after.1.missing, ho.after.1.unassigned, ho.vals trivial]

/-- **C66**, for two tokenizers all of whose calls agree: every type. -/
theorem C66_all_calls (t : CType T) (c c' : Ctx) (hs : c.SameSettings c') (ha : AlikeForever c.tz c.token c'.tz c'.token) (n : Nat) (old : T) :
    outcome (parseTo t.handler n old c) = outcome (parseTo t.handler n old c') := by
  have h1 := parseTo_alike (S := simForever) t (.inl trivial) (.inl trivial) n old c c' ⟨hs.flags, ha⟩
  rcases h1 with ⟨e, e'⟩ | ⟨x, y, e, e', ho⟩
  · rw [e, e']
  · rw [e, e']
    simp only [outcome, Option.map_some, ho.err, ho.after.1.missing, ho.after.1.unassigned, ho.vals trivial]

/-! ### Two texts -/

theorem texts_alike (o o' : Opts) (p : POpts) (bs bs' : List Bytes) (h : tokenizeBufs o bs = tokenizeBufs o' bs') :
    AnswersAlike (Ctx.onBuffers o p bs []).tz (Ctx.onBuffers o p bs []).token (Ctx.onBuffers o' p bs' []).tz (Ctx.onBuffers o' p bs' []).token :=
  alike_of_collect _ _ _ _ _ _ (onBuffers_plain o p bs [] (by simp)) (onBuffers_plain o' p bs' [] (by simp)) rfl
    (congrArg Prod.fst h) (congrArg Prod.snd h) (C08_tokenizing_stops o bs)

/-- **C66**. Two inputs, each in any number of buffers, that give the same tokens and the same error: a type without maps
is read in the same way. -/
theorem C66_same_tokens_partial (t : CType T) (ht : t.NoMap) (o o' : Opts) (p : POpts) (bs bs' : List Bytes)
    (h : tokenizeBufs o bs = tokenizeBufs o' bs') (n : Nat) (old : T) :
    let r := parseTo t.handler n old (Ctx.onBuffers o p bs [])
    let r' := parseTo t.handler n old (Ctx.onBuffers o' p bs' [])
    outcomeLists r = outcomeLists r' ∧ (∀ v m u, outcome r = some (.noError, v, m, u) ↔ outcome r' = some (.noError, v, m, u)) ∧
    (t.NoTokens → outcome r = outcome r') :=
  C66_up_to_an_error_partial t ht _ _ (onBuffers_same o o' p bs bs' [] []) (texts_alike o o' p bs bs' h) n old

/-- **C66**. If there is nothing wrong with the inputs but that they end, every type is read in the same way. -/
theorem C66_same_tokens_no_error (t : CType T) (o o' : Opts) (p : POpts) (bs bs' : List Bytes)
    (h : tokenizeBufs o bs = tokenizeBufs o' bs') (he : (tokenizeBufs o bs).2 = .needMoreData) (n : Nat) (old : T) :
    outcome (parseTo t.handler n old (Ctx.onBuffers o p bs [])) = outcome (parseTo t.handler n old (Ctx.onBuffers o' p bs' [])) :=
  C66_all_calls t _ _ (onBuffers_same o o' p bs bs' [] [])
    (forever_of_alike (onBuffers_plain o p bs [] (by simp)) (onBuffers_plain o' p bs' [] (by simp)) (texts_alike o o' p bs bs' h) _ he) n old

/-! ### Formatting -/

/-- **C66**, white space: two texts of one JSON value, laid out in any way. -/
theorem C66_white_space (t : CType T) (o o' : Opts) (hn : o.newLines = false) (hn' : o'.newLines = false) (p : POpts) (v : JVal)
    (hv : v.isContainer = true) (x x' : Bytes) (hx : Doc rfc v x) (hx' : Doc rfc v x') (n : Nat) (old : T) :
    outcome (parseTo t.handler n old (Ctx.onText o p x)) = outcome (parseTo t.handler n old (Ctx.onText o' p x')) := by
  have h1 := C02_document_tokenized o hn v x hv hx
  have h2 := C02_document_tokenized o' hn' v x' hv hx'
  rw [onText_buffers, onText_buffers]
  exact C66_same_tokens_no_error t o o' p [x] [x'] (h1.trans h2.symm) (congrArg Prod.snd h1) n old

/-- **C66**, comments: a text with comments is read as one without them. -/
theorem C66_comments (t : CType T) (o o' : Opts) (hn : o.newLines = false) (hn' : o'.newLines = false) (hc : o'.comments = true) (p : POpts) (v : JVal)
    (hv : v.isContainer = true) (x x' : Bytes) (hx : Doc rfc v x) (hx' : Doc rfcCommentsNotBehindWords v x') (n : Nat) (old : T) :
    outcome (parseTo t.handler n old (Ctx.onText o p x)) = outcome (parseTo t.handler n old (Ctx.onText o' p x')) := by
  have h1 := C02_document_tokenized o hn v x hv hx
  have h2 := C44_comments_invisible_partial o' hn' hc v x' hv hx'
  rw [onText_buffers, onText_buffers]
  exact C66_same_tokens_no_error t o o' p [x] [x'] (h1.trans h2.symm) (congrArg Prod.snd h1) n old

/-- **C66**, commas in front of closing brackets, where they are allowed. -/
theorem C66_commas (t : CType T) (o o' : Opts) (hn : o.newLines = false) (hn' : o'.newLines = false) (hc : o'.superfluousComma = true) (p : POpts) (v : JVal)
    (hv : v.isContainer = true) (x x' : Bytes) (hx : Doc rfc v x) (hx' : Doc rfcCommas v x') (n : Nat) (old : T) :
    outcome (parseTo t.handler n old (Ctx.onText o p x)) = outcome (parseTo t.handler n old (Ctx.onText o' p x')) := by
  have h1 := C02_document_tokenized o hn v x hv hx
  have h2 := C45_superfluous_comma_ignored o' hn' hc v x' hv hx'
  rw [onText_buffers, onText_buffers]
  exact C66_same_tokens_no_error t o o' p [x] [x'] (h1.trans h2.symm) (congrArg Prod.snd h1) n old

/-- **C66**, `reformat`: what is read from the text it makes is what is read from the original. -/
theorem C66_reformatted (t : CType T) (m : Simd) (o : Opts) (hn : o.newLines = false) (p : POpts) (v : JVal) (hv : v.isContainer = true) (hnm : v.Named)
    (x : Bytes) (hx : Doc rfc v x) (pretty : Bool) (shift depth : Nat) (hd : depth + v.depth ≤ 255) (out : Bytes) (n : Nat) (old : T) :
    outcome (parseTo t.handler n old (Ctx.onText o p (reformat m x out (userOpts pretty shift depth)).2)) =
      outcome (parseTo t.handler n old (Ctx.onText o p x)) :=
  C66_white_space t o o hn hn p v hv _ x
    (C43_reformat_partial m v hv hnm x hx pretty pretty shift shift depth depth hd hd out out o hn).2.1 hx n old

/-! ### Buffers and instructions -/

/-- **C66**, buffers added in advance: any text, cut at safe places (C09), and a type without maps. -/
theorem C66_split_partial (t : CType T) (ht : t.NoMap) (o : Opts) (p : POpts) (bs : List Bytes)
    (h0 : ∀ b ∈ bs, 0 ∉ b) (hs : SafeCuts o bs) (n : Nat) (old : T) :
    let r := parseTo t.handler n old (Ctx.onBuffers o p bs [])
    let r' := parseTo t.handler n old (Ctx.onText o p bs.flatten)
    outcomeLists r = outcomeLists r' ∧ (∀ v m u, outcome r = some (.noError, v, m, u) ↔ outcome r' = some (.noError, v, m, u)) ∧
    (t.NoTokens → outcome r = outcome r') :=
  C66_same_tokens_partial t ht o o p bs [bs.flatten] (C09_split_partial o bs h0 hs) n old

/-- The same for every type, if there is nothing wrong with the text but that it ends. -/
theorem C66_split_no_error_partial (t : CType T) (o : Opts) (p : POpts) (bs : List Bytes)
    (h0 : ∀ b ∈ bs, 0 ∉ b) (hs : SafeCuts o bs) (he : (tokenize o bs.flatten).2 = .needMoreData) (n : Nat) (old : T) :
    outcome (parseTo t.handler n old (Ctx.onBuffers o p bs [])) = outcome (parseTo t.handler n old (Ctx.onText o p bs.flatten)) :=
  have h := C09_split_partial o bs h0 hs
  C66_same_tokens_no_error t o o p bs [bs.flatten] h (by rw [h]; exact he) n old

theorem callback_alike (o : Opts) (p : POpts) (gs : List (List Bytes))
    (hg : ∀ g ∈ gs, g ≠ []) (h0 : ∀ b ∈ gs.flatten, 0 ∉ b) (hs : SafeCuts o gs.flatten) :
    AnswersAlike (Ctx.onText o p gs.flatten.flatten).tz (Ctx.onText o p gs.flatten.flatten).token (Ctx.onBuffers o p [] gs).tz (Ctx.onBuffers o p [] gs).token :=
  have h := (C09_callback_partial o gs hg h0 hs).symm
  alike_of_collect ([gs.flatten.flatten].flatten.length + 1) (gs.flatten.flatten.length + 1) _ _ _ _
    (onBuffers_plain o p [gs.flatten.flatten] [] (by simp)) (onBuffers_plain o p [] gs hg) rfl
    (congrArg Prod.fst h) (congrArg Prod.snd h) (C08_tokenizing_stops o [gs.flatten.flatten])

/-- **C66**, buffers from a callback. -/
theorem C66_callback_partial (t : CType T) (ht : t.NoMap) (o : Opts) (p : POpts) (gs : List (List Bytes))
    (hg : ∀ g ∈ gs, g ≠ []) (h0 : ∀ b ∈ gs.flatten, 0 ∉ b) (hs : SafeCuts o gs.flatten) (n : Nat) (old : T) :
    let r := parseTo t.handler n old (Ctx.onText o p gs.flatten.flatten)
    let r' := parseTo t.handler n old (Ctx.onBuffers o p [] gs)
    outcomeLists r = outcomeLists r' ∧ (∀ v m u, outcome r = some (.noError, v, m, u) ↔ outcome r' = some (.noError, v, m, u)) ∧
    (t.NoTokens → outcome r = outcome r') :=
  C66_up_to_an_error_partial t ht _ _ (onBuffers_same o o p [gs.flatten.flatten] [] [] gs) (callback_alike o p gs hg h0 hs) n old

/-- The same for every type, if there is nothing wrong with the text but that it ends. -/
theorem C66_callback_no_error_partial (t : CType T) (o : Opts) (p : POpts) (gs : List (List Bytes))
    (hg : ∀ g ∈ gs, g ≠ []) (h0 : ∀ b ∈ gs.flatten, 0 ∉ b) (hs : SafeCuts o gs.flatten)
    (he : (tokenize o gs.flatten.flatten).2 = .needMoreData) (n : Nat) (old : T) :
    outcome (parseTo t.handler n old (Ctx.onText o p gs.flatten.flatten)) = outcome (parseTo t.handler n old (Ctx.onBuffers o p [] gs)) :=
  C66_all_calls t _ _ (onBuffers_same o o p [gs.flatten.flatten] [] [] gs)
    (forever_of_alike (onBuffers_plain o p [gs.flatten.flatten] [] (by simp)) (onBuffers_plain o p [] gs hg) (callback_alike o p gs hg h0 hs) _ he) n old

/-- **C66**, vector instructions: any text in one buffer. -/
theorem C66_simd_partial (t : CType T) (ht : t.NoMap) (o : Opts) (m : Simd) (p : POpts) (x : Bytes) (n : Nat) (old : T) :
    let r := parseTo t.handler n old (Ctx.onText (o.withSimd m) p x)
    let r' := parseTo t.handler n old (Ctx.onText o p x)
    outcomeLists r = outcomeLists r' ∧ (∀ v m u, outcome r = some (.noError, v, m, u) ↔ outcome r' = some (.noError, v, m, u)) ∧
    (t.NoTokens → outcome r = outcome r') :=
  C66_same_tokens_partial t ht (o.withSimd m) o p [x] [x] (C10_simd_one_buffer o m x) n old

/-! ### Cases -/

set_option synthInstance.maxSize 1000
set_option synthInstance.maxHeartbeats 200000

/-- A struct with a number and a list of strings in it, described by its members. -/
def layoutStruct : CType (Int × List Bytes) :=
  .struct (0, []) (.mk (.cons [b!"n"] (.int i32) Prod.fst (fun a v => (a, v.2)) (.cons [b!"l"] (.vector (.string .scalar)) Prod.snd (fun l v => (v.1, l)) .nil)) .nil)

/-- One object in two layouts, the second in three buffers. -/
example : layoutStruct.NoMap ∧ layoutStruct.NoTokens ∧
    tokenizeBufs {} [b!"{\"n\":12,\"l\":[\"a\",\"b\"]}"] = tokenizeBufs {} [b!" { \"n\" : 1", b!"2 , \"l\"\n: [\"a", b!"\" , \"b\"] }"] ∧
    outcome (parseTo layoutStruct.handler 40 (0, []) (Ctx.onText {} {} b!"{\"n\":12,\"l\":[\"a\",\"b\"]}")) =
      some (.noError, (12, [b!"a", b!"b"]), [], []) ∧
    outcome (parseTo layoutStruct.handler 40 (0, []) (Ctx.onBuffers {} {} [b!" { \"n\" : 1", b!"2 , \"l\"\n: [\"a", b!"\" , \"b\"] }"] [])) =
      some (.noError, (12, [b!"a", b!"b"]), [], []) := by
  refine ⟨by simp [layoutStruct, CType.NoMap, CStruct.NoMap, CMembers.NoMap, CSupers.NoMap],
    by simp [layoutStruct, CType.NoTokens, CStruct.NoTokens, CMembers.NoTokens, CSupers.NoTokens], by decide +kernel, by decide +kernel, by decide +kernel⟩

/-- The same text through a callback, and with a fault in it. -/
example : outcome (parseTo layoutStruct.handler 40 (0, []) (Ctx.onBuffers {} {} [] [[b!" { \"n\" : 1", b!"2 , \"l\"\n: [\"a"], [b!"\" , \"b\"] }"]])) =
      some (.noError, (12, [b!"a", b!"b"]), [], []) ∧
    outcome (parseTo layoutStruct.handler 40 (0, []) (Ctx.onText {} {} b!"{\"n\":12,\"l\":[\"a\" \"b\"]}")) =
      some (.expectedDelimiter, (12, []), [], []) ∧
    outcome (parseTo layoutStruct.handler 40 (0, []) (Ctx.onBuffers {} {} [b!"{\"n\": 1", b!"2, \"l\":[\"a\" \"b", b!"\"]}"] [])) =
      some (.expectedDelimiter, (12, []), [], []) := by
  refine ⟨by decide +kernel, by decide +kernel, by decide +kernel⟩

/-- **C66** is false for maps in texts with errors: a map goes on reading behind the error, where the texts differ. -/
theorem C66_false_for_maps :
    tokenizeBufs {} [b!"{\"a\":1,}}}\"b\":2}"] = tokenizeBufs {} [b!"{\"a\":1,}}}\"c\":3}"] ∧
    outcome (parseTo intMap.handler 30 [] (Ctx.onText {} {} b!"{\"a\":1,}}}\"b\":2}")) = some (.noError, [(b!"a", 1), (b!"b", 2)], [], []) ∧
    outcome (parseTo intMap.handler 30 [] (Ctx.onText {} {} b!"{\"a\":1,}}}\"c\":3}")) = some (.noError, [(b!"a", 1), (b!"c", 3)], [], []) := by
  refine ⟨by decide +kernel, by decide +kernel, by decide +kernel⟩

/-- A `JsonTokens` keeps the token of the call that failed. -/
theorem C66_false_for_tokens :
    tokenizeBufs {} [b!"{\"a\":]}"] = tokenizeBufs {} [b!"{\"b\":]}"] ∧
    outcome (parseTo CType.tokens.handler 30 [] (Ctx.onText {} {} b!"{\"a\":]}")) =
      some (.unexpectedArrayEnd, [⟨[], .ascii, b!"{", .objectStart⟩, ⟨b!"a", .string, b!"]", .arrayEnd⟩], [], []) ∧
    outcome (parseTo CType.tokens.handler 30 [] (Ctx.onText {} {} b!"{\"b\":]}")) =
      some (.unexpectedArrayEnd, [⟨[], .ascii, b!"{", .objectStart⟩, ⟨b!"b", .string, b!"]", .arrayEnd⟩], [], []) := by
  refine ⟨by decide +kernel, by decide +kernel, by decide +kernel⟩

end JsonStruct
