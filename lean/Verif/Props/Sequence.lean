import Verif.Props.Layout
import Verif.Props.RoundTrip
import Verif.Props.Diff
import Verif.Props.Cut
import Verif.Lemmas.Reset

/-
C68: documents that stand one behind the other in a stream are read one by one, each by its own call of `parseTo`.
-/

namespace JsonStruct

/-- One call of `parseTo`: the type of the variable, the value in it before, and the value in it behind the call. -/
structure ReadStep where
  T : Type
  type : CType T
  old : T
  val : T

/-- Calls of `parseTo` with one context, all of them successful, with the given values. `n` bounds the loops. -/
inductive ReadsInTurn (n : Nat) : Ctx → List ReadStep → Ctx → Prop
  | nil {c} : ReadsInTurn n c [] c
  | cons {c s c1 ss c2} : parseTo s.type.handler n s.old c = some (.noError, s.val, c1) → ReadsInTurn n c1 ss c2 → ReadsInTurn n c (s :: ss) c2

/-! ### Tokens -/

theorem gapO_append {cm : Bool} {w w' : Bytes} (h : GapO cm w) (h' : GapO cm w') : GapO cm (w ++ w') := by
  unfold GapO at *
  cases cm with
  | true =>
    simp only [if_true] at h h' ⊢
    induction h with
    | nil => exact h'
    | ws h1 _ ih => exact .ws h1 ih
    | comment h1 _ ih => simpa using Gap.comment h1 ih
  | false =>
    simp only [Bool.false_eq_true, if_false] at h h' ⊢
    intro x hx
    rcases List.mem_append.1 hx with hx | hx
    · exact h x hx
    · exact h' x hx

theorem run_docs (o : Opts) (hn : o.newLines = false) (docs : List (JVal × Bytes))
    (hd : ∀ d ∈ docs, d.1.isContainer = true ∧ Doc (lenient o) d.1 d.2) (te e : Bool) (he : EOk o e) (g : Bytes) (hg : GapO o.comments g) :
    ∃ c', Run o ⟨te, e, [], g ++ docs.flatMap (·.2)⟩ (docs.flatMap (·.1.docToks)) c' ∧ lNext o c' = .error .needMoreData := by
  induction docs generalizing te e g with
  | nil => exact ⟨_, .nil, by simpa using lNext_blank o hn (te := te) (e := e) hg⟩
  | cons d docs ih =>
    obtain ⟨hv, w, b, w', h1, h2, h3, ht⟩ := hd d (by simp)
    obtain ⟨e', he', hr⟩ := run_container o hn (inner_text o hn h2) hv (e := false) (st := []) (tail := w' ++ docs.flatMap (·.2))
      (gapO_append hg h1)
    obtain ⟨c', hr', hx⟩ := ih (fun d hd' => hd d (by simp [hd'])) true e' he' w' h3.1
    refine ⟨c', ?_, hx⟩
    have := hr.append hr'
    simp only [List.flatMap_cons, ht]
    rw [show g ++ (w ++ b ++ w' ++ List.flatMap (fun x => x.2) docs) = g ++ w ++ (b ++ (w' ++ List.flatMap (fun x => x.2) docs)) by simp]
    cases hh : d.1.docToks with
    | nil => exact absurd hh (toks_ne d.1 [] .ascii)
    | cons k ks =>
      refine Run.sim (sim_root o te e he _) ?_
      have h0 := this
      rw [show d.1.toks [] .ascii = k :: ks from hh] at h0
      exact h0

/-- **C68** (tokens). The tokens of a text made of documents are those of the documents, one after the other. -/
theorem C68_tokens (o : Opts) (hn : o.newLines = false) (docs : List (JVal × Bytes))
    (hd : ∀ d ∈ docs, d.1.isContainer = true ∧ Doc rfc d.1 d.2) :
    tokenize o (docs.flatMap (·.2)) = (docs.flatMap (·.1.docToks), .needMoreData) := by
  obtain ⟨c', h1, h2⟩ := run_docs o hn docs (fun d h => ⟨(hd d h).1, doc_mono (rfc_le o) (hd d h).2⟩) false false (eok_false o) [] (gapO_nil _)
  exact tokenize_run o h1 h2 (tokenize_stops o _)

theorem delivers_docs (o : Opts) (hn : o.newLines = false) (docs : List (JVal × Bytes))
    (hd : ∀ d ∈ docs, d.1.isContainer = true ∧ Doc (lenient o) d.1 d.2) :
    @Delivers (endsIn .needMoreData) ((Tz.new o).addData (docs.flatMap (·.2))) (docs.flatMap (·.1.docToks)) := by
  obtain ⟨c', h1, h2⟩ := run_docs o hn docs hd false false (eok_false o) [] (gapO_nil _)
  have := tokenize_run o h1 h2 (tokenize_stops o _)
  simp only [tokenize, Prod.mk.injEq] at this
  exact delivers_of_collect_end this.1 this.2 (by decide)

/-! ### Values -/

/-- A document of the stream: its value, its text, and what the decoder of the step's type (Spec/Decode) makes of it. -/
structure DocStep where
  step : ReadStep
  value : JVal
  text : Bytes
  missing : List Bytes
  unassigned : List Bytes

theorem reads_docs [EndCond] (p : POpts) (ds : List DocStep)
    (hr : ∀ d ∈ ds, d.step.type.dec p d.step.old (elem d.value) = some ⟨.noError, d.step.val, d.missing, d.unassigned⟩)
    (c : Ctx) (hp : c.popts = p) (hc : Delivers c.tz (ds.flatMap (·.value.docToks))) :
    ∃ N c', (∀ n, N ≤ n → ReadsInTurn n c (ds.map (·.step)) c') ∧ c'.missing = c.missing ++ ds.flatMap (·.missing) ∧
      c'.unassigned = c.unassigned ++ ds.flatMap (·.unassigned) ∧ Delivers c'.tz [] := by
  induction ds generalizing c with
  | nil => exact ⟨0, c, fun _ _ => .nil, by simp, by simp, hc⟩
  | cons d ds ih =>
    obtain ⟨k, ks, hk⟩ : ∃ k ks, d.value.docToks = k :: ks := by
      cases hh : d.value.docToks with
      | nil => exact absurd hh (toks_ne d.value [] .ascii)
      | cons k ks => exact ⟨k, ks, rfl⟩
    rw [List.flatMap_cons, hk] at hc
    obtain ⟨t', tok, h1, h2, h3⟩ := hc
    have hnext : c.next = { c with tz := t', token := tok, error := .noError } := by simp only [Ctx.next, h1]
    have hst : c.next.Stream ((elem d.value).toks ++ ds.flatMap (·.value.docToks)) := by
      rw [hnext]
      exact ⟨rfl, k, ks ++ ds.flatMap (·.value.docToks), by rw [elem, Item.toks]; exact congrArg (· ++ _) hk, h2, h3⟩
    obtain ⟨N, c1, g1, g2, g3⟩ := d.step.type.sem _ d.step.old _ _ _ hst (by
      rw [show c.next.popts = p by rw [hnext]; exact hp]; exact hr d (by simp))
    obtain ⟨_, k1, ks1, g4, g5, g6⟩ := g3 rfl
    simp only [List.cons.injEq] at g4
    rw [← g4.2] at g6
    obtain ⟨N', c2, i1, i2, i3, i4⟩ := ih (fun d hd => hr d (by simp [hd])) { c1 with error := .noError }
      (by rw [← hp]; have := g2.opts; rw [hnext] at this; exact this) g6
    refine ⟨max N N', c2, fun n hn => .cons ?_ (i1 n (by omega)), ?_, ?_, i4⟩
    · simp only [parseTo]
      rw [if_neg (by rw [hnext]; simp)]
      have := g1 n (by omega)
      dsimp only at this
      rw [this]; rfl
    · rw [i2]; have := g2.missing; rw [hnext] at this; simp only at this ⊢; rw [this]; simp
    · rw [i3]; have := g2.unassigned; rw [hnext] at this; simp only at this ⊢; rw [this]; simp

/-- Calls of `parseTo` on this context, for any type, report `NeedMoreData` and leave the variable as it is. -/
def NothingLeft (c : Ctx) : Prop :=
  ∀ {T : Type} (t : CType T) (n : Nat) (old : T), ∃ c', parseTo t.handler n old c = some (.needMoreData, old, c')

theorem nothingLeft {c : Ctx} (h : (c.tz.nextToken c.token).1 = .needMoreData) : NothingLeft c := by
  intro T t n old
  refine ⟨c.next, ?_⟩
  have : c.next.error = .needMoreData := by simp only [Ctx.next, h]
  simp only [parseTo, this]
  rfl

theorem one_by_one (o : Opts) (hn : o.newLines = false) (p : POpts) (ds : List DocStep)
    (hd : ∀ d ∈ ds, d.value.isContainer = true ∧ Doc rfc d.value d.text)
    (hr : ∀ d ∈ ds, d.step.type.dec p d.step.old (elem d.value) = some ⟨.noError, d.step.val, d.missing, d.unassigned⟩) :
    ∃ N c', (∀ n, N ≤ n → ReadsInTurn n (Ctx.onText o p (ds.flatMap (·.text))) (ds.map (·.step)) c') ∧
      c'.missing = ds.flatMap (·.missing) ∧ c'.unassigned = ds.flatMap (·.unassigned) ∧ (c'.tz.nextToken c'.token).1 = .needMoreData := by
  have h := delivers_docs o hn (ds.map fun d => (d.value, d.text)) (by
    intro d h
    obtain ⟨d', h', rfl⟩ := List.mem_map.1 h
    exact ⟨(hd d' h').1, doc_mono (rfc_le o) (hd d' h').2⟩)
  simp only [List.flatMap_map] at h
  obtain ⟨N, c', h1, h2, h3, h4⟩ := @reads_docs (endsIn .needMoreData) p ds hr (Ctx.onText o p (ds.flatMap fun (d : DocStep) => d.text)) rfl h
  exact ⟨N, c', h1, by simpa [Ctx.onText] using h2, by simpa [Ctx.onText] using h3, h4 _⟩

/-- **C68**. A text is made of documents, one behind the other, with any white space between them. If the decoders of the
types read the values of the documents without error, then as many calls of `parseTo` on one context succeed with the
decoded values, and any call behind them reports `NeedMoreData` and leaves its variable as it is. The lists of missing
and unassigned members collect those of all documents. -/
theorem C68_one_by_one (o : Opts) (hn : o.newLines = false) (p : POpts) (ds : List DocStep)
    (hd : ∀ d ∈ ds, d.value.isContainer = true ∧ Doc rfc d.value d.text)
    (hr : ∀ d ∈ ds, d.step.type.dec p d.step.old (elem d.value) = some ⟨.noError, d.step.val, d.missing, d.unassigned⟩) :
    ∃ N c', (∀ n, N ≤ n → ReadsInTurn n (Ctx.onText o p (ds.flatMap (·.text))) (ds.map (·.step)) c') ∧
      c'.missing = ds.flatMap (·.missing) ∧ c'.unassigned = ds.flatMap (·.unassigned) ∧ NothingLeft c' := by
  obtain ⟨N, c', h1, h2, h3, h4⟩ := one_by_one o hn p ds hd hr
  exact ⟨N, c', h1, h2, h3, nothingLeft h4⟩

/-- What is written for values of any types, one text behind the other. -/
structure SavedValue where
  T : Type
  type : CType T
  val : T
  old : T
  json : JVal
  pretty : Bool
  shift : Nat

/-- The conditions of C01 on a value. -/
structure SavedValue.Fine (w : SavedValue) : Prop where
  lawful : w.type.Lawful
  valid : w.type.Valid w.val
  enc : w.type.enc w.val = some w.json
  container : w.json.isContainer = true
  depth : w.json.depth ≤ 255
  fresh : w.type.Fresh w.old

/-- **C68** (round trip). Texts that `serializeStruct` made of values of any types are joined, and read again into
variables of these types, with one context: each call of `parseTo` gets its value. As in C01, for arrays and objects. -/
theorem C68_round_trip_partial (o : Opts) (hn : o.newLines = false) (p : POpts) (hp : p.allowUnassigned = true) (ws : List SavedValue) (hw : ∀ w ∈ ws, w.Fine) :
    ∃ texts, List.Forall₂ (fun (w : SavedValue) t => serializeStruct w.type.handler w.val (userOpts w.pretty w.shift 0) = some t) ws texts ∧
    ∃ N c', (∀ n, N ≤ n → ReadsInTurn n (Ctx.onText o p texts.flatten) (ws.map fun w => ⟨w.T, w.type, w.old, w.val⟩) c') ∧ c'.missing = [] ∧ NothingLeft c' := by
  suffices hs : ∃ ds : List DocStep, List.Forall₂ (fun (w : SavedValue) (d : DocStep) =>
      serializeStruct w.type.handler w.val (userOpts w.pretty w.shift 0) = some d.text ∧ d.step = ⟨w.T, w.type, w.old, w.val⟩ ∧
      d.value = w.json ∧ Doc rfcBytes d.value d.text ∧ d.missing = [] ∧
      d.step.type.dec p d.step.old (elem d.value) = some ⟨.noError, d.step.val, d.missing, d.unassigned⟩ ∧ d.value.isContainer = true) ws ds by
    obtain ⟨ds, hds⟩ := hs
    have hall : ∀ d ∈ ds, (d.value.isContainer = true ∧ Doc rfcBytes d.value d.text) ∧ d.missing = [] ∧
        d.step.type.dec p d.step.old (elem d.value) = some ⟨.noError, d.step.val, d.missing, d.unassigned⟩ := by
      intro d hd
      clear hw
      induction hds with
      | nil => simp at hd
      | cons h _ ih =>
        rcases List.mem_cons.1 hd with rfl | hd
        · exact ⟨⟨h.2.2.2.2.2.2, h.2.2.2.1⟩, h.2.2.2.2.1, h.2.2.2.2.2.1⟩
        · exact ih hd
    refine ⟨ds.map (·.text), ?_, ?_⟩
    · rw [List.forall₂_map_right_iff]
      exact hds.imp fun _ _ h => h.1
    · have hdel := delivers_docs o hn (ds.map fun d => (d.value, d.text)) (by
        intro d h
        obtain ⟨d', h', rfl⟩ := List.mem_map.1 h
        exact ⟨(hall d' h').1.1, doc_mono (rfcBytes_le o) (hall d' h').1.2⟩)
      simp only [List.flatMap_map] at hdel
      obtain ⟨N, c', h1, h2, h3, h4⟩ := @reads_docs (endsIn .needMoreData) p ds (fun d hd => (hall d hd).2.2) (Ctx.onText o p (ds.flatMap fun (d : DocStep) => d.text)) rfl hdel
      refine ⟨N, c', ?_, ?_, nothingLeft (h4 _)⟩
      · have hst : ds.map (·.step) = ws.map fun w => ⟨w.T, w.type, w.old, w.val⟩ := by
          clear hdel h1 h2 h3 hall hw
          induction hds with
          | nil => rfl
          | cons h _ ih => simp only [List.map_cons, ih, h.2.1]
        rw [← hst, ← List.flatMap_def]
        exact h1
      · rw [h2]
        simp only [Ctx.onText, List.nil_append, List.flatMap_eq_nil_iff]
        exact fun d hd => (hall d hd).2.1
  induction ws with
  | nil => exact ⟨[], .nil⟩
  | cons w ws ih =>
    obtain ⟨ds, hds⟩ := ih (fun w h => hw w (by simp [h]))
    have hf := hw w (by simp)
    obtain ⟨text, h1, h2⟩ := serialized w.type hf.lawful w.val hf.valid hf.enc w.pretty w.shift 0 (by have := hf.depth; omega)
    obtain ⟨un, hu⟩ := (w.type.roundTrips hf.lawful).some hf.enc hf.valid hf.fresh hp ([], .ascii)
    exact ⟨⟨⟨w.T, w.type, w.old, w.val⟩, w.json, text, [], un⟩ :: ds, .cons ⟨h1, rfl, rfl, h2, rfl, hu, hf.container⟩ hds⟩

/-! ### Buffers -/

theorem readsInTurn_alike {n : Nat} {c c' c2 : Ctx} {ss : List ReadStep} (h : ReadsInTurn n c ss c2) (hc : simForever.C c c') :
    ∃ c2', ReadsInTurn n c' ss c2' ∧ c2'.missing = c2.missing ∧ c2'.unassigned = c2.unassigned ∧
      (c2'.tz.nextToken c2'.token).1 = (c2.tz.nextToken c2.token).1 := by
  induction h generalizing c' with
  | nil => exact ⟨c', .nil, hc.1.missing.symm, hc.1.unassigned.symm, (hc.2 0).2.symm⟩
  | @cons c s c1 ss c2 h1 _ ih =>
    rcases parseTo_alike (S := simForever) s.type (.inl trivial) (.inl trivial) n s.old c c' hc with ⟨e, e'⟩ | ⟨x, y, e, e', ho⟩
    · rw [h1] at e; cases e
    · rw [h1] at e; cases e
      obtain ⟨g1, g2⟩ := ho.ok rfl
      obtain ⟨c2', i1, i2⟩ := ih g2
      refine ⟨c2', .cons ?_ i1, i2⟩
      rw [e']
      have := ho.err
      obtain ⟨y1, y2, y3⟩ := y
      simp only at g1 this ⊢
      rw [← g1, ← this]

/-- **C68** (buffers). The same if the text comes in several buffers, added in advance or by a callback, and cut at safe
places (C09), whether or not a cut falls between two documents. -/
theorem C68_buffers_partial (o : Opts) (hn : o.newLines = false) (p : POpts) (ds : List DocStep)
    (hd : ∀ d ∈ ds, d.value.isContainer = true ∧ Doc rfc d.value d.text)
    (hr : ∀ d ∈ ds, d.step.type.dec p d.step.old (elem d.value) = some ⟨.noError, d.step.val, d.missing, d.unassigned⟩)
    (gs : List (List Bytes)) (hg : ∀ g ∈ gs, g ≠ []) (h0 : ∀ b ∈ gs.flatten, 0 ∉ b) (hs : SafeCuts o gs.flatten)
    (ht : gs.flatten.flatten = ds.flatMap (·.text)) :
    ∃ N, ∀ n, N ≤ n → ∀ c ∈ [Ctx.onBuffers o p gs.flatten [], Ctx.onBuffers o p [] gs], ∃ c',
      ReadsInTurn n c (ds.map (·.step)) c' ∧ c'.missing = ds.flatMap (·.missing) ∧ c'.unassigned = ds.flatMap (·.unassigned) ∧
      NothingLeft c' := by
  obtain ⟨N, c1, h1, h2, h3, h4⟩ := one_by_one o hn p ds hd hr
  refine ⟨N, fun n hN c hmem => ?_⟩
  have htok := C68_tokens o hn (ds.map fun d => (d.value, d.text)) (by
    intro d h
    obtain ⟨d', h', rfl⟩ := List.mem_map.1 h
    exact hd d' h')
  simp only [List.flatMap_map] at htok
  have hend : (tokenize o gs.flatten.flatten).2 = .needMoreData := by rw [ht, htok]
  have key : simForever.C (Ctx.onText o p gs.flatten.flatten) c := by
    simp only [List.mem_cons, List.not_mem_nil, or_false] at hmem
    rcases hmem with rfl | rfl
    · have h := (C09_split_partial o gs.flatten h0 hs).symm
      exact ⟨(onBuffers_same o o p [gs.flatten.flatten] gs.flatten [] []).flags,
        forever_of_alike (onBuffers_plain o p [gs.flatten.flatten] [] (by simp)) (onBuffers_plain o p gs.flatten [] (by simp))
          (texts_alike o o p [gs.flatten.flatten] gs.flatten h) _ hend⟩
    · exact ⟨(onBuffers_same o o p [gs.flatten.flatten] [] [] gs).flags,
        forever_of_alike (onBuffers_plain o p [gs.flatten.flatten] [] (by simp)) (onBuffers_plain o p [] gs hg)
          (callback_alike o p gs hg h0 hs) _ hend⟩
  rw [ht] at key
  obtain ⟨c', i1, i2, i3, i4⟩ := readsInTurn_alike (h1 n hN) key
  exact ⟨c', i1, i2.trans h2, i3.trans h3, nothingLeft (i4.trans h4)⟩

/-! ### Cases -/

/-- An object for the struct of Props/Layout, a list of numbers, and an object again, in which a member is missing and one
is in excess. -/
def threeDocs : List DocStep :=
  [⟨⟨_, layoutStruct, (0, []), (1, [b!"a"])⟩, .obj [(b!"n", .num b!"1"), (b!"l", .arr [.str b!"a"])], b!"{\"n\":1,\"l\":[\"a\"]} ", [], []⟩,
   ⟨⟨_, .vector (.int i32), [], [1, 1]⟩, .arr [.num b!"1", .num b!"1"], b!"[1,1]", [], []⟩,
   ⟨⟨_, layoutStruct, (0, []), (1, [])⟩, .obj [(b!"x", .arr []), (b!"n", .num b!"1")], b!" {\"x\":[],\"n\": 1}", [b!"x"], [b!"l"]⟩]

theorem threeDocs_text : ∀ d ∈ threeDocs, d.value.isContainer = true ∧ Doc rfc d.value d.text := by
  simp only [threeDocs, List.mem_cons, List.not_mem_nil, or_false, forall_eq_or_imp, forall_eq]
  refine ⟨⟨rfl, [], _, b!" ", ws_nil, .obj (.cons (w1 := []) (w2 := []) (w3 := []) (w4 := []) ws_nil (example_string _ (by decide)) ws_nil ws_nil (.num example_num) ws_nil
      (.one (w1 := []) (w2 := []) (w3 := []) (w4 := []) ws_nil (example_string _ (by decide)) ws_nil ws_nil
        (.arr (.one (w := []) (w' := []) ws_nil (.str (example_string _ (by decide))) ws_nil)) ws_nil)), ws_blank, rfl⟩,
    ⟨rfl, [], _, [], ws_nil, .arr (.cons (w := []) (w' := []) ws_nil (.num example_num) ws_nil (.one (w := []) (w' := []) ws_nil (.num example_num) ws_nil)), ws_nil, rfl⟩,
    ⟨rfl, b!" ", _, [], ws_blank, .obj (.cons (w1 := []) (w2 := []) (w3 := []) (w4 := []) ws_nil (example_string _ (by decide)) ws_nil ws_nil (.arrEmpty (w := []) ws_nil) ws_nil
      (.one (w1 := []) (w2 := []) (w3 := b!" ") (w4 := []) ws_nil (example_string _ (by decide)) ws_nil ws_blank (.num example_num) ws_nil)), ws_nil, rfl⟩⟩

/-- The decoders read them. -/
theorem threeDocs_read : ∀ d ∈ threeDocs, d.step.type.dec {} d.step.old (elem d.value) = some ⟨.noError, d.step.val, d.missing, d.unassigned⟩ := by
  simp only [threeDocs, List.mem_cons, List.not_mem_nil, or_false, forall_eq_or_imp, forall_eq]
  refine ⟨?_, ?_, ?_⟩ <;> rfl

/-- Three calls read the three documents, and the fourth one finds nothing more. -/
example : ∃ N c', (∀ n, N ≤ n → ReadsInTurn n (Ctx.onText {} {} b!"{\"n\":1,\"l\":[\"a\"]} [1,1] {\"x\":[],\"n\": 1}")
    [⟨_, layoutStruct, (0, []), (1, [b!"a"])⟩, ⟨_, .vector (.int i32), [], [1, 1]⟩, ⟨_, layoutStruct, (0, []), (1, [])⟩] c') ∧
    c'.missing = [b!"x"] ∧ c'.unassigned = [b!"l"] ∧ NothingLeft c' :=
  C68_one_by_one {} rfl {} threeDocs threeDocs_text threeDocs_read

/-- The same in three buffers, one of which ends behind the first document and one in the second, through a callback. -/
example : ∃ N, ∀ n, N ≤ n → ∃ c', ReadsInTurn n (Ctx.onBuffers {} {} []
      [[b!"{\"n\":1,\"l\":[\"a\"]} "], [b!"[1,", b!"1] {\"x\":[],\"n\": 1}"]])
    [⟨_, layoutStruct, (0, []), (1, [b!"a"])⟩, ⟨_, .vector (.int i32), [], [1, 1]⟩, ⟨_, layoutStruct, (0, []), (1, [])⟩] c' ∧ NothingLeft c' := by
  obtain ⟨N, h⟩ := C68_buffers_partial {} rfl {} threeDocs threeDocs_text threeDocs_read
    [[b!"{\"n\":1,\"l\":[\"a\"]} "], [b!"[1,", b!"1] {\"x\":[],\"n\": 1}"]] (by decide) (by decide) ((safeCuts_iff _ _).2 (by decide +kernel)) (by decide)
  refine ⟨N, fun n hn => ?_⟩
  obtain ⟨c', h1, _, _, h4⟩ := h n hn _ (List.mem_cons_of_mem _ (List.mem_singleton_self _))
  exact ⟨c', h1, h4⟩

/-- The conditions of the round trip are met by the struct of Props/RoundTrip. -/
example : ∃ j, (SavedValue.mk _ exDerived exValue exDerived.init j true 2).Fine := by
  obtain ⟨j, h1, h2, h3⟩ : ∃ j, exDerived.enc exValue = some j ∧ j.isContainer = true ∧ j.depth ≤ 255 :=
    ⟨_, rfl, rfl, by simp [JVal.depth, membersDepth, elemsDepth, exDerived, CStruct.enc, CMembers.enc, CSupers.enc, CType.enc]; decide +kernel⟩
  exact ⟨j, exDerived_lawful, exDerived_valid, h1, h2, h3, exDerived.fresh_init exDerived_lawful⟩

/-- Documents with a comma between them, as one `Serializer` writes them, are not read: the second call fails, without
an end. -/
theorem C68_not_with_commas :
    tokenize {} b!"[1],[2]" = ((JVal.arr [.num b!"1"]).docToks, .encounteredIllegalChar) := by decide +kernel

end JsonStruct
