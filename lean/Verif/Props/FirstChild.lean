import Verif.Lemmas.FirstChild
import Verif.Lemmas.Map
import Verif.Props.Map

/-
C85: looking for the first child that has data (`findFirstChildWithData`), and reading a map as a whole.
-/

namespace JsonStruct

/-- **C85** For every array or object of a document, by its index in the metadata: the answer is the index, among the arrays and
objects directly inside of it, of the first that contains a scalar, or `size_t(-1)` if there is none; no index is out of range. -/
theorem C85_first_child (name : Bytes) (nameType : Ty) (v : JVal) (start : Nat) (e : Nat × JVal) (he : v.containers[start]? = some e) :
    ∃ metas, metaForTokens (v.toks name nameType) = some metas ∧ findFirstChildWithData metas start = some e.2.firstWithData := by
  refine ⟨_, metaForTokens_value name nameType v, ?_⟩
  obtain ⟨hc, rest, hr⟩ := drop_containers v 0 start e he
  have hget : (v.containers.map metaOf)[start]? = some (metaOf e) := by rw [List.getElem?_map, he]; rfl
  simp only [findFirstChildWithData, hget, Option.bind_eq_bind, Option.bind_some, metaOf_hasData]
  by_cases hs : e.2.holdsScalar = true
  · rw [if_pos hs]
    have hd : (v.containers.map metaOf).drop (start + 0 + 1) = (elemContainersAt (e.1 + 1) e.2.kids ++ rest).map metaOf := by
      rw [show start + 0 + 1 = 1 + start by omega, Nat.add_comm, ← List.drop_drop, ← List.map_drop]
      have : v.containers.drop start = e.2.containersAt e.1 ++ rest := hr
      rw [this, containersAt_kids hc]
      rfl
    have := findDataLoop_spec _ start e.2.kids (e.1 + 1) 0 0 rest hd
    simp only [Nat.zero_add, Option.map_id'] at this
    exact this
  · rw [if_neg hs, JVal.firstWithData, Eq.comm, Option.some.injEq, List.findIdx?_eq_none_iff]
    intro w hw
    rw [holdsScalar_kids hc, Bool.not_eq_true, List.any_eq_false] at hs
    simpa using hs w (List.mem_filter.mp hw).1

/-- The text of `tests/json-meta-test.cpp`, and the container with index 3 in it. -/
example :
    let v : JVal := .arr [.arr [], .arr [], .arr [.arr [], .arr [], .obj [(b!"this has a member", .bool true)], .arr []], .arr [], .arr []]
    (v.containers[0]?.map (·.2.firstWithData)) = some (some 2) ∧ (v.containers[3]?.map (·.2.firstWithData)) = some (some 2) := by decide +kernel

/-- **C26**, the whole map: a text of an array or object is read into a `Map`, and `castToType` of the map as a whole makes of it what
is made of the text by reading it into a variable of that type. -/
theorem C26_whole_map {o : Opts} (hn : o.newLines = false) (p : POpts) {v : JVal} (hv : v.isContainer = true) {text : Bytes}
    (hd : Doc (lenient o) v text) (old : JMap) :
    ∃ m, Parses jmapH o p old text ⟨.noError, m, [], []⟩ ∧ ∀ (T : Type) (t : CType T) (c : Ctx) (x : T) (r : Res T), c.tz.scopes = [] →
      t.dec ⟨c.allowMissing, c.allowUnassigned, c.track⟩ x (.val ([], .ascii) v) = some r → m.CastsAll t.handler c x r := by
  refine ⟨jmapOf ([], .ascii) v, parse_doc jmap_sem hn p hv hd (jmapDec_value _ _ _ hv), fun T t c x r hsc hr => ?_⟩
  obtain ⟨k, ks, hks⟩ : ∃ k ks, v.toks [] .ascii = k :: ks := by
    cases v with
    | arr vs => exact ⟨_, _, rfl⟩
    | obj ms => exact ⟨_, _, rfl⟩
    | _ => simp [JVal.isContainer] at hv
  have hdel : Delivers (c.tz.resetTokens ((v.toks [] .ascii).map Tok.token) 0) (k :: ks) :=
    hks ▸ delivers_resetTokens c.tz hsc (v.toks [] .ascii) 0 (Nat.zero_le _)
  obtain ⟨g1, g2, g3, g4⟩ := next_stream (c := { c with tz := c.tz.resetTokens ((v.toks [] .ascii).map Tok.token) 0 }) hdel
  obtain ⟨N, c', e1, e2, _⟩ := t.sem ({ c with tz := c.tz.resetTokens ((v.toks [] .ascii).map Tok.token) 0 }).next x (.val ([], .ascii) v) [] r
    (by rw [← hks] at g1; simpa only [Item.toks, List.append_nil] using g1) (by rw [g2]; exact hr)
  refine ⟨N, c', fun n hn => e1 n hn, ?_, ?_⟩
  · rw [e2.missing, g3]
  · rw [e2.unassigned, g4]

/-- A concrete map, read as a list of numbers. -/
example : (CType.vector (.int ⟨32, true⟩)).dec ⟨true, true, false⟩ [] (.val ([], .ascii) (.arr [.num b!"1", .num b!"2"])) = some ⟨.noError, [1, 2], [], []⟩ := by
  decide +kernel

end JsonStruct
