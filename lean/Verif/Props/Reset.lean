import Verif.Lemmas.Reset
import Verif.Props.Document

/- C42: `resetData`. -/

namespace JsonStruct

/-- What is read from a tokenizer after `resetData b`: the tokens and the error that ends them. -/
def readAfterReset (t : Tz) (b : Bytes) : List Tok × Err :=
  let r := Tz.collect (b.length + 1) (t.resetData b 0) {}
  (r.1.map Token.tok, r.2.1)

/-- The tokenizer after `n` calls of `nextToken` (or up to the first that fails) on the text `t`. -/
def readSome (o : Opts) (t : Bytes) (n : Nat) : Tz := (Tz.collect n { Tz.new o with bufs := [t] } {}).2.2

/-- **C42** (part). When all tokens of a document have been read (and possibly more calls have been made,
which report the end of the data), `resetData` with any new data gives what a new tokenizer gives.
Missing: resets inside a document, where the claim is false. -/
theorem C42_reset_after_document_partial (o : Opts) (hn : o.newLines = false) (v : JVal) (t : Bytes) (hv : v.isContainer = true)
    (h : Doc rfc v t) (n : Nat) (hlen : v.docToks.length ≤ n) (b : Bytes) :
    readAfterReset (readSome o t n) b = tokenize o b := by
  obtain ⟨w, b', w', h1, h2, h3, rfl⟩ := doc_mono (rfc_le o) h
  obtain ⟨e', he', hr⟩ := run_container o hn (inner_text o hn h2) hv (e := false) (st := []) (tail := w') h1
  have hg : Good ({ Tz.new o with bufs := [w ++ b' ++ w'] } : Tz) (w ++ b' ++ w') :=
    ⟨rfl, rfl, ⟨rfl, rfl, Nat.zero_le _⟩, by simp [Tz.new], rfl, .inl rfl⟩
  have := collect_atRest n (next := {}) hg hn rfl (by rw [List.append_assoc]; exact hr) he' h3.1 hlen
  unfold readAfterReset
  have h4 := resetData_fresh this.1 b (b.length + 1) {}
  simp only
  rw [tokenize_light]
  rw [this.2] at h4
  exact h4

example : (JVal.obj [(b!"a", .num b!"1")]).docToks.length = 3 := by decide

/-- **C42** is false inside a document: the position in the old structure and the open containers survive
the reset. -/
theorem C42_false_inside_document :
    tokenize {} b!"[2]" = ((JVal.arr [.num b!"2"]).docToks, .needMoreData) ∧
    readAfterReset (readSome {} b!"{\"a\":1}" 2) b!"[2]" = ([], .invalidToken) ∧
    (readAfterReset (readSome {} b!"[1]" 1) b!"[2]]").2 = .needMoreData := by decide +kernel

end JsonStruct
