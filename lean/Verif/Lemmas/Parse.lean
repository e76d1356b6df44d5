import Verif.Spec.Parsing
import Verif.Lemmas.Struct
import Verif.Lemmas.Scope
import Verif.Props.Document

/- From decoders to texts. -/

namespace JsonStruct

/-- The tokens of a document. -/
theorem delivers_doc {o : Opts} (hn : o.newLines = false) {v : JVal} {t : Bytes} (hv : v.isContainer = true)
    (h : Doc (lenient o) v t) : Delivers ((Tz.new o).addData t) v.docToks := by
  have := tokenize_doc o hn hv h
  simp only [tokenize, Prod.mk.injEq] at this
  exact delivers_of_collect this.1

/-- Parsing a text with the tokens of a value does what the decoder of the type says about the value. -/
theorem parse_toks {h : Handler T} {d : Dec T} (hs : h.Sem d) {o : Opts} (p : POpts) {v : JVal} {t : Bytes}
    (hdel : Delivers ((Tz.new o).addData t) v.docToks) {old : T} {r : Res T}
    (hr : d p old (.val ([], .ascii) v) = some r) : Parses h o p old t r := by
  have hne := toks_ne v [] .ascii
  obtain ⟨k, ks, hk⟩ : ∃ k ks, v.docToks = k :: ks := by
    cases hh : v.docToks with
    | nil => exact absurd hh hne
    | cons k ks => exact ⟨k, ks, rfl⟩
  rw [hk] at hdel
  obtain ⟨t', tok, h1, h2, h3⟩ := hdel
  have hnext : (Ctx.onText o p t).next = { Ctx.onText o p t with tz := t', token := tok, error := .noError } := by
    simp only [Ctx.next, show (Ctx.onText o p t).tz = (Tz.new o).addData t from rfl, h1]
  have hst : (Ctx.onText o p t).next.Stream ((Item.val ([], .ascii) v).toks ++ []) := by
    rw [hnext, List.append_nil]
    exact ⟨rfl, k, ks, hk, h2, h3⟩
  obtain ⟨N, c', g1, g2, _⟩ := hs _ old _ _ r hst (by rw [hnext]; exact hr)
  dsimp only at g1
  refine ⟨N, { c' with error := r.err }, fun n hn => ?_, ?_, ?_, rfl⟩
  · simp only [parseTo]
    rw [g1 n hn, if_neg (by rw [hnext]; simp)]
    rfl
  · have := g2.missing; rw [hnext] at this; simpa [Ctx.onText] using this
  · have := g2.unassigned; rw [hnext] at this; simpa [Ctx.onText] using this

/-- Parsing a document does what the decoder of the type says about the document's value. -/
theorem parse_doc {h : Handler T} {d : Dec T} (hs : h.Sem d) {o : Opts} (hn : o.newLines = false) (p : POpts) {v : JVal} {t : Bytes}
    (hv : v.isContainer = true) (hd : Doc (lenient o) v t) {old : T} {r : Res T}
    (hr : d p old (.val ([], .ascii) v) = some r) : Parses h o p old t r :=
  parse_toks hs p (delivers_doc hn hv hd) hr

/-- A text that is an RFC 8259 document. -/
theorem parse_rfc {h : Handler T} {d : Dec T} (hs : h.Sem d) {o : Opts} (hn : o.newLines = false) (p : POpts) {v : JVal} {t : Bytes}
    (hv : v.isContainer = true) (hd : Doc rfc v t) {old : T} {r : Res T}
    (hr : d p old (.val ([], .ascii) v) = some r) : Parses h o p old t r :=
  parse_doc hs hn p hv (doc_mono (rfc_le o) hd) hr

end JsonStruct
