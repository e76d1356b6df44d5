import Verif.Lemmas.CutFeed
import Verif.Lemmas.CutDoc

/-
C09: the split of a text into buffers does not matter. It does in the code: a buffer may not
end at the places listed at `Spot.safe`. For all other cuts the property is proved, for the
three ways to supply buffers: all in advance, one after each `NeedMoreData`, and from a
callback.
-/

namespace JsonStruct

/-- **C09**, partial: buffers registered in advance. Any text without NUL bytes, cut at safe
places into any number of buffers, gives the tokens and the final error of the text in one
buffer, for all options. Full statement: for every cut; false, see the witnesses below. -/
theorem C09_split_partial (o : Opts) (bs : List Bytes)
    (h0 : ∀ b ∈ bs, 0 ∉ b) (hs : SafeCuts o bs) :
    tokenizeBufs o bs = tokenize o bs.flatten := by
  by_cases hne : bs = []
  · subst hne
    rw [List.flatten_nil, tokenize_nil]
    unfold tokenizeBufs tokenizeAll
    simp [Tz.collect, Tz.nextToken, Tz.new, Tz.requestMoreData]
  · have h := collect_new o bs [] (by simpa using h0) (by simp) (by simpa using hs) (by simpa using hne) (bs.flatten.length + 1) (by simp)
    simp only [List.flatten_nil, List.append_nil] at h
    have h1 := lrun_tokenize o bs.flatten (by
      intro hh
      obtain ⟨b, hb, hx⟩ := List.mem_flatten.1 hh
      exact h0 b hb hx)
    have := h.det h1
    unfold tokenizeBufs tokenizeAll
    exact Prod.ext this.1 this.2

/-- **C09**, partial: a program that reads tokens until `NeedMoreData` and then adds the next
buffer. -/
theorem C09_fed_partial (o : Opts) (bs : List Bytes)
    (h0 : ∀ b ∈ bs, 0 ∉ b) (hs : SafeCuts o bs) :
    tokenizeFed o bs = tokenize o bs.flatten := by
  have hfed := fed_new o [] [] (by simp) (by simp) (by intro pre post h1 h2; simp at h1; exact absurd h1.2 h2)
  have hidle (n : Nat) := collect_idle n _ _ _ hfed rfl rfl
  rcases bs with _ | ⟨b, bs⟩
  · rw [List.flatten_nil, tokenize_nil]
    unfold tokenizeFed
    simp only [Tz.feed]
    have := hidle 1
    change Tz.collect 2 (Tz.new o) {} = _ at this
    simp [this]
  · have := feed_fed ((b :: bs).flatten.length + 2) b bs _ _ _ hfed (ok_new o [] []) rfl rfl h0
      (fun pre post h1 h2 => hs pre post h1 h2) (by omega)
    have h1 := lrun_tokenize o (b :: bs).flatten (by
      intro hh
      obtain ⟨b, hb, hx⟩ := List.mem_flatten.1 hh
      exact h0 b hb hx)
    have hd := this.det h1
    unfold tokenizeFed
    rw [Tz.feed]
    have hi := hidle ((b :: bs).flatten.length + 1)
    change Tz.collect _ (Tz.new o) {} = _ at hi
    rw [hi]
    simp only [if_true, List.nil_append]
    exact Prod.ext hd.1 hd.2

/-- **C09**, partial: a callback supplies the buffers, at least one in each call. -/
theorem C09_callback_partial (o : Opts) (gs : List (List Bytes))
    (hg : ∀ g ∈ gs, g ≠ []) (h0 : ∀ b ∈ gs.flatten, 0 ∉ b) (hs : SafeCuts o gs.flatten) :
    tokenizeCallback o gs = tokenize o gs.flatten.flatten := by
  by_cases hne : gs = []
  · subst hne
    rw [List.flatten_nil, List.flatten_nil, tokenize_nil]
    unfold tokenizeCallback
    simp [Tz.collect, Tz.nextToken, Tz.new, Tz.requestMoreData]
  · have hne' : gs.flatten ≠ [] := by
      rw [ne_eq, List.flatten_eq_nil_iff]
      intro h
      obtain ⟨g, gs', rfl⟩ := List.exists_cons_of_ne_nil hne
      exact hg g (by simp) (h g (by simp))
    have h := collect_new o [] gs (by simpa using h0) hg (by simpa using hs) (by simpa using hne') (gs.flatten.flatten.length + 1) (by simp)
    simp only [List.nil_append] at h
    have h1 := lrun_tokenize o gs.flatten.flatten (by
      intro hh
      obtain ⟨b, hb, hx⟩ := List.mem_flatten.1 hh
      exact h0 b hb hx)
    have := h.det h1
    unfold tokenizeCallback
    exact Prod.ext this.1 this.2

/-- In the text of a document of RFC 8259 no beginning is `off`: a cut is unsafe only for one
of the reasons listed at `Spot.safe`. Line breaks must not be separators, then the document would
be another one. -/
theorem C09_documents_on_track (o : Opts) (hn : o.newLines = false) {v : JVal} {t : Bytes} (hv : v.isContainer = true) (h : Doc rfc v t) (p s : Bytes) (hp : t = p ++ s) :
    (spotBehind o p).1 ≠ .off := by
  intro hoff
  have := doc_place hn hv h
  rw [hp, spotBehind, spot_append] at this
  have h2 := off_after (o := o) (p := spotBehind o p) hoff s
  rw [spotBehind, this] at h2
  exact absurd h2 (by simp [Spot.isOff])

/-! The hypotheses are met by a document cut inside a name, behind the name and a space, inside
a string, behind a value, inside a number, inside a word. -/

def cutDocument : List Bytes :=
  [b!"{\"na", b!"me\" ", b!": \"te", b!"xt\"", b!", \"l\": [1", b!"23, tr", b!"ue", b!"]}"]

example : (∀ b ∈ cutDocument, 0 ∉ b) ∧ (tokenize {} cutDocument.flatten).1.length = 7 ∧
    tokenizeBufs {} cutDocument = tokenize {} cutDocument.flatten ∧
    tokenizeFed {} cutDocument = tokenize {} cutDocument.flatten ∧
    tokenizeCallback {} (cutDocument.map fun b => [b]) = tokenize {} cutDocument.flatten := by decide +kernel

/-- Cuts of a list, one by one. -/
theorem safeCuts_iff (o : Opts) (bs : List Bytes) :
    SafeCuts o bs ↔ ∀ k < bs.length, (spotBehind o (bs.take k).flatten).safe (o.simd != .scalar) = true := by
  constructor
  · intro h k hk
    exact h _ (bs.drop k) (List.take_append_drop k bs).symm (by simp; omega)
  · intro h pre post h1 h2
    have := h pre.length (by subst h1; simp; exact List.length_pos_iff.2 h2)
    subst h1
    simpa using this

example : SafeCuts {} cutDocument ∧ SafeCuts { simd := .sse2 } cutDocument :=
  ⟨(safeCuts_iff _ _).2 (by decide +kernel), (safeCuts_iff _ _).2 (by decide +kernel)⟩

/-- With comments: cut directly before and directly behind them. -/
def cutComments : List Bytes :=
  [b!"{\"a\" ", b!"// the list\n", b!": [1,", b!"// one\n 2 ,", b!"// two\n3", b!"]", b!"// \"end\"\n", b!"}"]

/-- With line breaks as separators: cut before and behind a line break. -/
def cutLines : List Bytes := [b!"{\"a\": [1", b!"\n2\n", b!"3", b!"]", b!"\n\"b\" ", b!": 4", b!"\n", b!"}"]

example : SafeCuts { comments := true } cutComments ∧ SafeCuts { newLines := true } cutLines ∧
    SafeCuts { newLines := true, comments := true } cutLines :=
  ⟨(safeCuts_iff _ _).2 (by decide +kernel), (safeCuts_iff _ _).2 (by decide +kernel), (safeCuts_iff _ _).2 (by decide +kernel)⟩

example :
    (tokenizeBufs { comments := true } cutComments).1.map (·.value) = [b!"{", b!"[", b!"1", b!"2", b!"3", b!"]", b!"}"] ∧
    (tokenizeFed { newLines := true } cutLines).1.map (·.value) = [b!"{", b!"[", b!"1", b!"2", b!"3", b!"]", b!"4", b!"}"] := by
  decide +kernel

/-! ### Unsafe cuts -/

/-- A buffer that ends directly behind the quote of a member name: the name is lost. -/
theorem C09_false_behind_name :
    (tokenize {} b!"{\"a\":1}").1.map (·.name) = [[], b!"a", []] ∧
    (tokenizeBufs {} [b!"{\"a\"", b!":1}"]).1.map (·.name) = [[], [], []] := by decide +kernel

/-- Directly behind the colon: the same. -/
theorem C09_false_behind_colon :
    (tokenizeBufs {} [b!"{\"a\":", b!"1}"]).1.map (·.name) = [[], [], []] := by decide +kernel

/-- Directly behind an array element that is a string, or behind the white space after a
number: the element is lost. -/
theorem C09_false_behind_element :
    (tokenize {} b!"[\"a\",2]").1.map (·.value) = [b!"[", b!"a", b!"2", b!"]"] ∧
    (tokenizeBufs {} [b!"[\"a\"", b!",2]"]).1.map (·.value) = [b!"[", [], b!"2", b!"]"] ∧
    (tokenize {} b!"[12 ,3]").1.map (·.value) = [b!"[", b!"12", b!"3", b!"]"] ∧
    (tokenizeBufs {} [b!"[12 ", b!",3]"]).1.map (·.value) = [b!"[", [], b!"3", b!"]"] := by decide +kernel

/-- Behind a member name that is a number: in one buffer it is an error, in two it is not. -/
theorem C09_false_number_name :
    (tokenize {} b!"{1 :2}").2 = .illegalPropertyName ∧
    (tokenizeBufs {} [b!"{1 ", b!":2}"]).2 = .needMoreData := by decide +kernel

/-- Between a backslash and the escaped byte, in a build with vector instructions. -/
theorem C09_false_escape :
    (tokenize { simd := .sse2 } b!"[\"a\\nbcdefghijklmnop\",\"x\"]").1.length = 4 ∧
    (tokenizeBufs { simd := .sse2 } [b!"[\"a\\", b!"nbcdefghijklmnop\",\"x\"]"]).2 = .expectedDelimiter := by decide +kernel

/-- A NUL byte in a string cut into two buffers. -/
theorem C09_false_nul :
    (tokenize {} [91, 34, 97, 0, 98, 99, 34, 93]).1.map (·.value) = [[91], [97, 0, 98, 99], [93]] ∧
    (tokenizeBufs {} [[91, 34, 97, 0, 98], [99, 34, 93]]).1.map (·.value) = [[91], [97, 99], [93]] := by decide +kernel

/-- Inside a comment: the rest of the comment is read as JSON. -/
theorem C09_false_comment :
    (tokenize { comments := true } b!"[ // x1]\n]").1.map (·.value) = [b!"[", b!"]"] ∧
    (tokenizeBufs { comments := true } [b!"[ // x", b!"1]\n]"]).1.map (·.value) = [b!"[", b!"1", b!"]"] := by decide +kernel

/-- Between the two slashes: neither is read as part of a comment. -/
theorem C09_false_slashes :
    (tokenize { comments := true } b!"[1, // x\n2]").2 = .needMoreData ∧
    (tokenizeBufs { comments := true } [b!"[1, /", b!"/ x\n2]"]).2 ≠ .needMoreData ∧
    (tokenizeBufs { comments := true } [b!"[1 /", b!"/ x\n, 2]"]).2 = .expectedDelimiter := by decide +kernel

end JsonStruct
