import Verif.Props.Diff
import Verif.Props.Sequence

/-
C84: a string literal is compared like the same text in a `std::string`, although the NUL byte at its end is passed on.
-/

namespace JsonStruct

theorem lNext_terminated (o : Opts) (hn : o.newLines = false) {w : Bytes} {te e : Bool} (hw : GapO o.comments w) :
    lNext o ⟨te, e, [], w ++ [0]⟩ = .error .needMoreData := by
  rw [lNext_fin]
  have hl : lName o ⟨false, e, [], w ++ [0]⟩ = .error .needMoreData := by
    have : lValue o (w ++ [0]) = .error .needMoreData := by
      rw [lValue_gap o hn w [0] hw]
      rcases o with ⟨_ | _, _ | _, _ | _, _ | _⟩ <;> rfl
    unfold lName; simp only [this]; split <;> rfl
  unfold lPop
  cases te <;> simp only [hl, Bool.false_eq_true, if_true, ite_self] <;> rfl

/-- A document with a NUL byte behind it has the tokens of the document. -/
theorem tokenize_terminated (o : Opts) (hn : o.newLines = false) {v : JVal} {t : Bytes} (hv : v.isContainer = true) (h : Doc (lenient o) v t) :
    tokenize o (t ++ [0]) = (v.docToks, .needMoreData) := by
  obtain ⟨w, b, w', h1, h2, h3, ht⟩ := h
  obtain ⟨e', he', hr⟩ := run_container o hn (inner_text o hn h2) hv (e := false) (st := []) (tail := w' ++ [0]) h1
  have := tokenize_run o (buf := t ++ [0]) (by simpa [ht, JVal.docToks] using hr) (lNext_terminated o hn h3.1) (tokenize_stops o _)
  exact this

/-- **C84**. Comparing with a literal that is an array or an object does what comparing with the same text in a
`std::string` does, whatever the context has been used for. -/
theorem C84_literal (c : DiffCtx) (n : Nat) (v : JVal) (t : Bytes) (hv : v.isContainer = true) (h : Doc rfc v t) :
    c.diffLiteral n t = c.diffString n t := by
  have ht := C02_document_tokenized {} rfl v t hv h
  have h0 := tokenize_terminated {} rfl hv (doc_mono (rfc_le {}) h)
  have hne : t ≠ [] := by
    rintro rfl
    have : (tokenize {} []).1 = [] := by decide +kernel
    rw [ht] at this
    exact toks_ne v [] .ascii this
  have : DiffDoc.ofText (t ++ [0]) = DiffDoc.ofText t := by simp [DiffDoc.ofText, hne, ht, h0]
  simp only [DiffCtx.diffLiteral, DiffCtx.diffString, DiffCtx.diff, this]

/-- The hypotheses of `C84_literal` are met: `{"a":1,"b":[null]}`. -/
example (c : DiffCtx) (n : Nat) : c.diffLiteral n b!"{\"a\":1,\"b\":[null]}" = c.diffString n b!"{\"a\":1,\"b\":[null]}" :=
  C84_literal c n exampleDoc1 _ rfl exampleDoc1_text

/-- A text that is cut off is not such a document, and the two differ: the NUL byte ends the number of `{"a":1`. -/
theorem C84_false_cut_off :
    ((DiffDoc.ofText b!"{\"a\":1").map fun d => d.doc.tokens.length) = some 1 ∧
    ((DiffDoc.ofText (b!"{\"a\":1" ++ [0])).map fun d => d.doc.tokens.length) = some 2 := by decide +kernel

end JsonStruct
