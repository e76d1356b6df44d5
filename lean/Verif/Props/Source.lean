import Verif.Lemmas.SourceText
import Verif.Props.RawType

/-
C91: what raw captures hold. `LaidDoc d a t` says that `t` is a document with root `a`, where the arrays and objects of `a` remember the text they have in `t`; `t.adec` says
what reading such a value into the type `t` amounts to (Spec/Source).
-/

namespace JsonStruct

/-- The text that a value remembers is a text of it, and stands where it says. -/
theorem laid_in {d : Dialect} {a : AVal} {t r : Bytes} (h : Laid d a t r) : ∀ (b : AVal) (s : Src), b.In a → b.src = some s →
    Text d b.plain s.text ∧ ∃ pre post, t = pre ++ s.text ++ post ∧ s.after = post ++ r := by
  refine Laid.rec (d := d)
    (motive_1 := fun a t r _ => ∀ (b : AVal) (s : Src), b.In a → b.src = some s → Text d b.plain s.text ∧ ∃ pre post, t = pre ++ s.text ++ post ∧ s.after = post ++ r)
    (motive_2 := fun vs t r _ => ∀ v ∈ vs, ∀ (b : AVal) (s : Src), b.In v → b.src = some s → Text d b.plain s.text ∧ ∃ pre post, t = pre ++ s.text ++ post ∧ s.after = post ++ r)
    (motive_3 := fun ms t r _ => ∀ m ∈ ms, ∀ (b : AVal) (s : Src), b.In m.2 → b.src = some s → Text d b.plain s.text ∧ ∃ pre post, t = pre ++ s.text ++ post ∧ s.after = post ++ r)
    ?_ ?_ ?_ ?_ ?_ ?_ ?_ ?_ ?_ ?_ ?_ ?_ ?_ ?_ ?_ h
  · intro r b s hb hs; cases hb; cases hs
  · intro r b s hb hs; cases hb; cases hs
  · intro r b s hb hs; cases hb; cases hs
  · intro n r _ b s hb hs; cases hb; cases hs
  · intro n r _ b s hb hs; cases hb; cases hs
  · intro w r hw b s hb hs
    cases hb with
    | self => cases hs; exact ⟨.arrEmpty hw, [], [], by simp, rfl⟩
    | elem h => cases h
  · intro vs t r ht ih b s hb hs
    cases hb with
    | self => cases hs; exact ⟨laid_text (.arr ht), [], [], by simp, rfl⟩
    | elem hv hb =>
      obtain ⟨h1, pre, post, rfl, h3⟩ := ih _ hv b s hb hs
      exact ⟨h1, b!"[" ++ pre, post ++ b!"]", by simp, by simp [h3]⟩
  · intro w r hw b s hb hs
    cases hb with
    | self => cases hs; exact ⟨.objEmpty hw, [], [], by simp, rfl⟩
    | member h => cases h
  · intro vs t r ht ih b s hb hs
    cases hb with
    | self => cases hs; exact ⟨laid_text (.obj ht), [], [], by simp, rfl⟩
    | member hv hb =>
      obtain ⟨h1, pre, post, rfl, h3⟩ := ih _ hv b s hb hs
      exact ⟨h1, b!"{" ++ pre, post ++ b!"}", by simp, by simp [h3]⟩
  · intro v t w w' r _ _ _ ih x hx b s hb hs
    obtain rfl := List.mem_singleton.mp hx
    obtain ⟨h1, pre, post, rfl, h3⟩ := ih b s hb hs
    exact ⟨h1, w ++ pre, post ++ w', by simp, by simp [h3]⟩
  · intro v t w w' vs ts r _ _ _ _ ih ihs x hx b s hb hs
    rcases List.mem_cons.mp hx with rfl | hx
    · obtain ⟨h1, pre, post, rfl, h3⟩ := ih b s hb hs
      exact ⟨h1, w ++ pre, post ++ w' ++ b!"," ++ ts, by simp, by simp [h3]⟩
    · obtain ⟨h1, pre, post, rfl, h3⟩ := ihs x hx b s hb hs
      exact ⟨h1, w ++ t ++ w' ++ b!"," ++ pre, post, by simp, h3⟩
  · intro v t w w' w'' r _ _ _ _ _ ih x hx b s hb hs
    obtain rfl := List.mem_singleton.mp hx
    obtain ⟨h1, pre, post, rfl, h3⟩ := ih b s hb hs
    exact ⟨h1, w ++ pre, post ++ w' ++ b!"," ++ w'', by simp, by simp [h3]⟩
  · intro n v t w1 w2 w3 w4 r _ _ _ _ _ _ ih x hx b s hb hs
    obtain rfl := List.mem_singleton.mp hx
    obtain ⟨h1, pre, post, rfl, h3⟩ := ih b s hb hs
    exact ⟨h1, w1 ++ b!"\"" ++ n ++ b!"\"" ++ w2 ++ b!":" ++ w3 ++ pre, post ++ w4, by simp, by simp [h3]⟩
  · intro n v t w1 w2 w3 w4 ms ts r _ _ _ _ _ _ _ ih ihs x hx b s hb hs
    rcases List.mem_cons.mp hx with rfl | hx
    · obtain ⟨h1, pre, post, rfl, h3⟩ := ih b s hb hs
      exact ⟨h1, w1 ++ b!"\"" ++ n ++ b!"\"" ++ w2 ++ b!":" ++ w3 ++ pre, post ++ w4 ++ b!"," ++ ts, by simp, by simp [h3]⟩
    · obtain ⟨h1, pre, post, rfl, h3⟩ := ihs x hx b s hb hs
      exact ⟨h1, w1 ++ b!"\"" ++ n ++ b!"\"" ++ w2 ++ b!":" ++ w3 ++ t ++ w4 ++ b!"," ++ pre, post, by simp, h3⟩
  · intro n v t w1 w2 w3 w4 w5 r _ _ _ _ _ _ _ _ ih x hx b s hb hs
    obtain rfl := List.mem_singleton.mp hx
    obtain ⟨h1, pre, post, rfl, h3⟩ := ih b s hb hs
    exact ⟨h1, w1 ++ b!"\"" ++ n ++ b!"\"" ++ w2 ++ b!":" ++ w3 ++ pre, post ++ w4 ++ b!"," ++ w5, by simp, by simp [h3]⟩

theorem laidDoc_mono {d d' : Dialect} (h : d.Le d') {a : AVal} {t : Bytes} (ht : LaidDoc d a t) : LaidDoc d' a t := by
  obtain ⟨w, b, w', h1, h2, h3, rfl⟩ := ht
  exact ⟨w, b, w', h.gap _ h1, laid_mono h h2, h.after _ _ h3, rfl⟩

theorem text_str {s : Bytes} (h : ∀ c ∈ s, 0x20 ≤ c ∧ c ≠ 0x22 ∧ c ≠ 0x5C) : JsonString s := by
  induction s with
  | nil => exact .nil
  | cons c s ih =>
    obtain ⟨h1, h2, h3⟩ := h c (by simp)
    exact .plain h1 h2 h3 (ih fun c hc => h c (by simp [hc]))

/-! ### Captures hold the text of their values -/

/-- **C91**, `_partial`: without the option that makes new lines separators. A document of RFC 8259, or of the grammar with comments and superfluous commas where the options
allow them; its root is an array or object. A type with raw captures anywhere in it, also in maps. What `parseTo` does is what `t.adec` says of the value: captures hold the
text of their value, to the byte, and the rest is read as if they were not there. -/
theorem C91_captures_partial (t : RType T) {o : Opts} (hn : o.newLines = false) (p : POpts) {a : AVal} {text : Bytes} (hv : a.plain.isContainer = true)
    (hd : LaidDoc rfc a text ∨ LaidDoc (lenient o) a text) {old : T} {r : Res T} (hr : t.adec p old (aelem a) = some r) : Parses t.handler o p old text r :=
  parse_laid t.asem hn p hv (hd.elim (laidDoc_mono (rfc_le o)) id) hr

/-- **C91**. Every document has a root that remembers its text. -/
theorem C91_every_document {d : Dialect} {v : JVal} {text : Bytes} (h : Doc d v text) : ∃ a : AVal, a.plain = v ∧ LaidDoc d a text := by
  obtain ⟨w, b, w', h1, h2, h3, rfl⟩ := h
  obtain ⟨a, rfl, h4⟩ := laid_exists h2 w'
  exact ⟨a, rfl, w, b, w', h1, h4, h3, rfl⟩

/-- **C91**. What an array or object within the document remembers is a text of this very value, and it stands in the document. -/
theorem C91_remembered {d : Dialect} {a : AVal} {text : Bytes} (h : LaidDoc d a text) {b : AVal} (hb : b.In a) {s : Src} (hs : b.src = some s) :
    Text d b.plain s.text ∧ ∃ before, text = before ++ s.text ++ s.after := by
  obtain ⟨w, c, w', _, h2, _, rfl⟩ := h
  obtain ⟨h1, pre, post, rfl, h4⟩ := laid_in h2 b s hb hs
  exact ⟨h1, w ++ pre, by simp [h4]⟩

/-- **C91**. So the text in a capture can be parsed on its own, into any type, and this does what reading the value into that type amounts to. -/
theorem C91_parsed_later (u : RType T) {o : Opts} (hn : o.newLines = false) (p : POpts) {a : AVal} {text : Bytes} (h : LaidDoc rfc a text)
    {b : AVal} (hb : b.In a) {s : Src} (hs : b.src = some s) :
    ∃ b' : AVal, b'.plain = b.plain ∧ LaidDoc rfc b' s.text ∧ ∀ {old : T} {r : Res T}, u.adec p old (aelem b') = some r → Parses u.handler o p old s.text r := by
  obtain ⟨h1, _⟩ := C91_remembered h hb hs
  obtain ⟨b', h2, h3⟩ := C91_every_document (d := rfc) ⟨[], _, [], ws_nil, h1, ws_nil, rfl⟩
  rw [List.nil_append, List.append_nil] at h3
  refine ⟨b', h2, h3, fun hr => C91_captures_partial u hn p ?_ (.inl h3) hr⟩
  rw [h2]
  cases b <;> simp_all [AVal.src, AVal.plain, JVal.isContainer]

/-! ### Cases -/

/-- Blanks within captured values, and a bracket within a string. -/
def exSource : Bytes := b!" {\"meta\" : { \"x\" :[1 , 1]} ,\"rows\":[[ 1], [\"]\",[ ]]], \"id\":1 } "

set_option synthInstance.maxSize 1000 in
theorem exSource_laid : ∃ a : AVal, LaidDoc rfc a exSource ∧ a.plain.isContainer = true ∧
    exRaw.adec {} (0, [], [], none) (aelem a) = some ⟨.noError, (1, b!"{ \"x\" :[1 , 1]}", [b!"[ 1]", b!"[\"]\",[ ]]"], none), [], []⟩ ∧
    exRaw.adec {} (0, b!"{}", [b!"[]"], none) (aelem a) = some ⟨.noError, (1, b!"{}{ \"x\" :[1 , 1]}", [b!"[ 1]", b!"[\"]\",[ ]]"], none), [], []⟩ ∧
    ∃ (b : AVal) (s : Src), b.In a ∧ b.src = some s ∧ s.text = b!"[\"]\",[ ]]" := by
  have s0 : rfc.gap [] := ws_nil
  have s1 : rfc.gap b!" " := by intro c hc; revert c; decide
  have e0 {v : JVal} : rfc.after v [] := ws_nil
  have e1 {v : JVal} : rfc.after v b!" " := by intro c hc; revert c; decide
  have one : rfc.num b!"1" := ⟨[], b!"1", [], [], rfl, .inl rfl, .inr ⟨⟨by decide, by decide⟩, by decide⟩, .inl rfl, .inl rfl⟩
  refine ⟨_, ⟨b!" ", _, b!" ", s1, .obj (.cons (n := b!"meta") (w1 := []) (w2 := b!" ") (w3 := b!" ") (w4 := b!" ") s0 (text_str (by decide)) s1 s1
      (.obj (.one (n := b!"x") (w1 := b!" ") (w2 := b!" ") (w3 := []) (w4 := []) s1 (text_str (by decide)) s1 s0
        (.arr (.cons (w := []) (w' := b!" ") s0 (.num one) e1 (.one (w := b!" ") (w' := []) s1 (.num one) e0))) e0)) e1
      (.cons (n := b!"rows") (w1 := []) (w2 := []) (w3 := []) (w4 := []) s0 (text_str (by decide)) s0 s0
        (.arr (.cons (w := []) (w' := []) s0 (.arr (.one (w := b!" ") (w' := []) s1 (.num one) e0)) e0
          (.one (w := b!" ") (w' := []) s1 (.arr (.cons (w := []) (w' := []) s0 (.str (s := b!"]") (text_str (by decide))) e0
            (.one (w := []) (w' := []) s0 (.arrEmpty (w := b!" ") s1) e0))) e0))) e0
        (.one (n := b!"id") (w1 := b!" ") (w2 := []) (w3 := []) (w4 := b!" ") s1 (text_str (by decide)) s0 s0 (.num one) e1))), e1, by decide +kernel⟩,
    rfl, by decide +kernel, by decide +kernel, _, _, .member (.tail _ (.head _)) (.elem (.tail _ (.head _)) .self), rfl, by decide +kernel⟩

/-- The hypotheses of `C91_captures_partial` are met; captures in a member, in elements of a vector, and one that is not mentioned. -/
example : Parses exRaw.handler {} {} (0, [], [], none) exSource ⟨.noError, (1, b!"{ \"x\" :[1 , 1]}", [b!"[ 1]", b!"[\"]\",[ ]]"], none), [], []⟩ := by
  obtain ⟨a, h1, h2, h3, _, _⟩ := exSource_laid
  exact C91_captures_partial exRaw rfl {} h2 (.inl h1) h3

/-- Those of `C91_remembered` and `C91_parsed_later`, by the second element of the vector. -/
example : ∃ (a b : AVal) (s : Src), LaidDoc rfc a exSource ∧ b.In a ∧ b.src = some s ∧ s.text = b!"[\"]\",[ ]]" := by
  obtain ⟨a, h1, _, _, _, b, s, h2⟩ := exSource_laid
  exact ⟨a, b, s, h1, h2⟩

/-- `std::map<std::string, JsonArray>`. -/
def rawMap : RType (List (Bytes × Bytes)) := .map (fun m e => m ++ [e]) (.raw .array 6)

/-- Maps hold captures, too. -/
example : ∃ a : AVal, LaidDoc rfc a b!"{\"a\":[ ],\"b\" :[1]}" ∧ rawMap.adec {} [] (aelem a) = some ⟨.noError, [(b!"a", b!"[ ]"), (b!"b", b!"[1]")], [], []⟩ ∧
    Parses rawMap.handler {} {} [] b!"{\"a\":[ ],\"b\" :[1]}" ⟨.noError, [(b!"a", b!"[ ]"), (b!"b", b!"[1]")], [], []⟩ := by
  have s0 : rfc.gap [] := ws_nil
  have s1 : rfc.gap b!" " := by intro c hc; revert c; decide
  have e0 {v : JVal} : rfc.after v [] := ws_nil
  have one : rfc.num b!"1" := ⟨[], b!"1", [], [], rfl, .inl rfl, .inr ⟨⟨by decide, by decide⟩, by decide⟩, .inl rfl, .inl rfl⟩
  have key : ∃ a : AVal, LaidDoc rfc a b!"{\"a\":[ ],\"b\" :[1]}" ∧ a.plain.isContainer = true ∧
      rawMap.adec {} [] (aelem a) = some ⟨.noError, [(b!"a", b!"[ ]"), (b!"b", b!"[1]")], [], []⟩ :=
    ⟨_, ⟨[], _, [], s0, .obj (.cons (n := b!"a") (w1 := []) (w2 := []) (w3 := []) (w4 := []) s0 (text_str (by decide)) s0 s0 (.arrEmpty (w := b!" ") s1) e0
      (.one (n := b!"b") (w1 := []) (w2 := b!" ") (w3 := []) (w4 := []) s0 (text_str (by decide)) s1 s0
        (.arr (.one (w := []) (w' := []) s0 (.num one) e0)) e0)), e0, by decide +kernel⟩, rfl, by decide +kernel⟩
  obtain ⟨a, h1, h2, h3⟩ := key
  exact ⟨a, h1, h3, C91_captures_partial rawMap rfl {} h2 (.inl h1) h3⟩

end JsonStruct
