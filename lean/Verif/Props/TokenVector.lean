import Verif.Lemmas.Map
import Verif.Props.Container

/-
C49: captured tokens are read like the text they come from.
-/

namespace JsonStruct

/-- What parsing in a context comes to, given enough steps: error, value, and the names that are reported. -/
def Ctx.Gives (c : Ctx) (h : Handler T) (old : T) (r : Res T) : Prop :=
  ∃ N c', (∀ n, N ≤ n → parseTo h n old c = some (r.err, r.val, c')) ∧ c'.missing = c.missing ++ r.missing ∧ c'.unassigned = c.unassigned ++ r.unassigned

/-- A new `ParseContext` whose tokenizer is given tokens: `context.tokenizer.addData(&tokens.data)`. -/
def Ctx.onTokens (o : Opts) (p : POpts) (ks : List Tok) : Ctx :=
  { Ctx.onText o p [] with tz := (Tz.new o).addTokens (ks.map fun k => ⟨⟨.lit, k.name⟩, ⟨.lit, k.value⟩, k.nameType, k.valueType⟩) }

/-- **C49**, use. A text of an array or object is read into `JsonTokens`, and the tokens are given to the tokenizer of a new
`ParseContext` (`tokenizer.addData(&tokens.data)`), with whatever options of its own. Reading a variable of any type from them
comes to what reading it from the text comes to: error, value and reported names. -/
theorem C49_tokens_used {o : Opts} (hn : o.newLines = false) (p : POpts) {v : JVal} (hv : v.isContainer = true) {text : Bytes}
    (hd : Doc (lenient o) v text) (old : List Tok) :
    ∃ ks : List Tok, Parses CType.tokens.handler o p old text ⟨.noError, ks, [], []⟩ ∧
      ∀ (T : Type) (t : CType T) (o' : Opts) (q : POpts) (x : T) (r : Res T), t.dec q x v.root = some r →
        (Ctx.onText o q text).Gives t.handler x r ∧
        (Ctx.onTokens o' q ks).Gives t.handler x r := by
  refine ⟨v.docToks, C49_tokens_read hn p v hv hd old, fun T t o' q x r hr => ⟨?_, ?_⟩⟩
  · obtain ⟨N, c', h1, h2, h3⟩ := parse_doc t.sem hn q hv hd hr
    exact ⟨N, c', h1, by simpa [Ctx.onText] using h2, by simpa [Ctx.onText] using h3.1⟩
  · obtain ⟨k, ks, hks⟩ : ∃ k ks, v.docToks = k :: ks := by
      cases hh : v.docToks with
      | nil => exact absurd hh (toks_ne v [] .ascii)
      | cons k ks => exact ⟨k, ks, rfl⟩
    generalize hC : Ctx.onTokens o' q v.docToks = C
    have hdel : Delivers C.tz (k :: ks) := by
      rw [← hC]
      have := delivers_parsed (ts := v.docToks.map Tok.token) v.docToks.length ((Tz.new o').addTokens (v.docToks.map Tok.token)) rfl rfl
        (by simp [Tz.addTokens])
      have hc : ((Tz.new o').addTokens (v.docToks.map Tok.token)).cursor = 0 := rfl
      rw [hc, List.drop_zero, List.map_map, show Token.tok ∘ Tok.token = id from rfl, List.map_id, hks] at this
      exact hks ▸ this
    have hp : C.popts = q := by rw [← hC]; rfl
    obtain ⟨g1, g2, g3, g4⟩ := next_stream (c := C) hdel
    obtain ⟨N, c', e1, e2, _⟩ := t.sem C.next x v.root [] r
      (by simp only [Item.toks, List.append_nil]; rw [show v.toks [] .ascii = k :: ks from hks]; exact g1) (by rw [g2, hp]; exact hr)
    refine ⟨N, { c' with error := r.err }, fun n hn => ?_, ?_, ?_⟩
    · simp only [parseTo, g1.1, ne_eq, not_true_eq_false, if_false, e1 n hn, Option.map_some]
    · exact (e2.missing.trans (by rw [g3]))
    · exact (e2.unassigned.trans (by rw [g4]))

/-- A concrete case: the second hypothesis is met by a struct and an object with a member too many. -/
example : (CType.struct (0, []) (.mk (.cons [b!"a"] (.int ⟨32, true⟩) Prod.fst (fun x s => (x, s.2))
      (.cons [b!"b"] (.vector (.string .scalar)) Prod.snd (fun x s => (s.1, x)) .nil)) .nil)).dec {} (0, [])
      (JVal.obj [(b!"b", .arr [.str b!"x"]), (b!"c", .null), (b!"a", .num b!"7")]).root =
    some ⟨.noError, (7, [b!"x"]), [b!"c"], []⟩ := by decide +kernel

end JsonStruct
