import Verif.Lemmas.Lines
import Verif.Props.Layout

/-
C72: line breaks as separators. `Lines.LDoc` (Spec/Lines) says which texts these are; `tokenize o t` is the list of
tokens that repeated `nextToken` calls return for the text `t` in one buffer, and the error that ends them.
-/

namespace JsonStruct

open Lines

/-- **C72**. With `allowNewLineAsTokenDelimiter`, every text in which the elements of arrays and the members of objects are
separated by commas or line breaks has the tokens of its value; with `allowComments` comments may be in it. -/
theorem C72_tokens (o : Opts) (hn : o.newLines = true) (cm : Bool) (hc : cm = true → o.comments = true) (v : JVal) (t : Bytes)
    (hv : v.isContainer = true) (h : LDoc rfc cm v t) : tokenize o t = (v.docToks, .needMoreData) :=
  tokenize_lines o hn hc tame_rfc hv h

/-- **C72**, parsing: every type is read from such a text as it is read from a JSON text of the same value without the option. -/
theorem C72_read_alike (t : CType T) (o o' : Opts) (hn : o.newLines = true) (cm : Bool) (hc : cm = true → o.comments = true)
    (hn' : o'.newLines = false) (p : POpts) (v : JVal) (hv : v.isContainer = true) (x x' : Bytes) (hx : LDoc rfc cm v x) (hx' : Doc rfc v x')
    (n : Nat) (old : T) :
    outcome (parseTo t.handler n old (Ctx.onText o p x)) = outcome (parseTo t.handler n old (Ctx.onText o' p x')) := by
  have h1 := C72_tokens o hn cm hc v x hv hx
  have h2 := C02_document_tokenized o' hn' v x' hv hx'
  rw [onText_buffers, onText_buffers]
  exact C66_same_tokens_no_error t o o' p [x] [x'] (h1.trans h2.symm) (congrArg Prod.snd h1) n old

/-- **C72**, the serializer: what it writes for any value, in either style, is such a text. C01 uses this to include the option. -/
theorem C72_written (v : JVal) (hwf : v.WF rfcBytes) (hnm : v.Named) (hv : v.isContainer = true) (pretty : Bool) (shift depth : Nat)
    (hd : depth + v.depth ≤ 255) (size : Nat) (o : Opts) :
    let t := ((Ser.fresh (userOpts pretty shift depth) size (fun _ => some 1)).writeAll v.docToks).2.out
    LDoc rfcBytes false v t ∧ tokenize o t = (v.docToks, .needMoreData) := by
  have h1 := lwritten_text false v ⟨hwf, hnm⟩ pretty shift depth hd []
  have h2 := written_text v ⟨hwf, hnm⟩ pretty shift depth hd []
  rw [C48_flush_is_exact (userOpts pretty shift depth) [] v.docToks size] at h1 h2
  refine ⟨h1, ?_⟩
  cases hn : o.newLines with
  | false => exact tokenize_doc o hn hv (doc_mono (rfcBytes_le o) h2)
  | true => exact tokenize_lines o hn (by simp) tame_rfcBytes hv h1

/-- **C72** says nothing of a line break in front of a comma or colon: with the option it is not white space there. -/
theorem C72_not_before_comma_or_colon :
    tokenize { newLines := true } b!"[1\n,2]" = ([⟨[], .ascii, b!"[", .arrayStart⟩, ⟨[], .ascii, b!"1", .number⟩], .encounteredIllegalChar) ∧
    tokenize { newLines := true } b!"{\"a\"\n:1}" = ([⟨[], .ascii, b!"{", .objectStart⟩], .expectedDelimiter) ∧
    tokenize {} b!"{\"a\"\n:1}" = ((JVal.obj [(b!"a", .num b!"1")]).docToks, .needMoreData) := by
  decide +kernel

theorem num_digit : rfc.num b!"1" ∧ rfc.num b!"2" :=
  ⟨⟨[], b!"1", [], [], rfl, .inl rfl, .inr ⟨⟨by simp, by decide⟩, by decide⟩, .inl rfl, .inl rfl⟩,
   ⟨[], b!"2", [], [], rfl, .inl rfl, .inr ⟨⟨by simp, by decide⟩, by decide⟩, .inl rfl, .inl rfl⟩⟩

/-- Such a text, with a comma, line breaks, one of them behind the last member, and a comment. -/
example : LDoc rfc true (.obj [(b!"a", .arr [.num b!"1", .num b!"2"]), (b!"b", .null)]) b!"{\n\"a\": [1, 2] // first\n\"b\": null\n}\n" := by
  have sp : ∀ w, Ws w → Space true w := fun w h => space_of_ws h
  have ws0 : Ws [] := by simp [Ws]
  have ws1 : Ws b!" " := by simp [Ws, isWs]
  have wsl : Ws b!"\n" := by simp [Ws, isWs]
  have bl0 : Blanks [] := blanks_nil
  have bl1 : Blanks b!" " := by simp [Blanks, isWs]
  have sa : rfc.str b!"a" := JsonString.plain (by decide) (by decide) (by decide) .nil
  have sb : rfc.str b!"b" := JsonString.plain (by decide) (by decide) (by decide) .nil
  have harr : LText rfc true (.arr [.num b!"1", .num b!"2"]) b!"[1, 2]" :=
    .arr (.comma (w := []) (w' := []) (sp _ ws0) (.num num_digit.1) bl0 (.last (w := b!" ") (w' := []) (sp _ ws1) (.num num_digit.2) bl0))
  have hobj : LText rfc true (.obj [(b!"a", .arr [.num b!"1", .num b!"2"]), (b!"b", .null)]) b!"{\n\"a\": [1, 2] // first\n\"b\": null\n}" :=
    .obj (.line (n := b!"a") (w1 := b!"\n") (w2 := []) (w3 := b!" ") (w' := b!" ") (x := b!"// first\n") (sp _ wsl) sa
      bl0 (sp _ ws1) harr bl1 (.comment (body := b!" first") rfl (by decide)) (by intro h; cases h)
      (.line (n := b!"b") (w1 := []) (w2 := []) (w3 := b!" ") (w' := []) (x := b!"\n") (sp _ ws0) sb
        bl0 (sp _ ws1) .null bl0 .plain (by intro _; decide) (.nil (w := []) (sp _ ws0))))
  exact ⟨[], _, b!"\n", sp _ ws0, hobj, sp _ wsl, rfl⟩

/-- Its value and its tokens with the option; without it the text is rejected. -/
example :
    tokenize { newLines := true, comments := true } b!"{\n\"a\": [1, 2] // first\n\"b\": null\n}\n" =
      ((JVal.obj [(b!"a", .arr [.num b!"1", .num b!"2"]), (b!"b", .null)]).docToks, .needMoreData) ∧
    (tokenize { comments := true } b!"{\n\"a\": [1, 2] // first\n\"b\": null\n}\n").2 = .invalidToken := by
  decide +kernel

end JsonStruct
