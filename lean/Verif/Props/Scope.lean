import Verif.Lemmas.Parse

/-
C23: scopes. C24: skipping a value. `Delivers t ks` says that the next calls of `nextToken` on `t` succeed and return the
tokens `ks`; a tokenizer on the text of a document with value `v` delivers `v.docToks` (`delivers_doc`).
-/

namespace JsonStruct

/-! ### Scopes -/

/-- **C23** (part). The tokenizer is in front of an array or object `v`, and not inside another scope. The first token
of `v` is read and a scope pushed for it. Then `goToEndOfScope` succeeds, having read exactly the tokens of `v`: the
last token it returns is the closing bracket of `v`; from then on `nextToken` reports `ScopeHasEnded` and changes
nothing, until `popScope`, after which the tokens that follow `v` are delivered.
Missing: values nested more than 65535 deep, and scopes inside other scopes; for both the claim is false. -/
theorem C23_scope_ends_at_bracket_partial (t : Tz) (v : JVal) (n : Bytes) (nt : Ty) (rest : List Tok) (next : Token)
    (hs : t.scopes = []) (hc : v.isContainer = true) (hdepth : v.depth ≤ 65535) (hd : Delivers t (v.toks n nt ++ rest)) :
    ∃ t1 tok1, t.nextToken next = (.noError, t1, tok1) ∧ some tok1.tok = (v.toks n nt).head? ∧
    ∃ t2 tok2 N, (∀ i, N ≤ i → Tz.goToEndOfScope i (t1.pushScope tok1.valueType) tok1 = (.noError, t2, tok2)) ∧
      some tok2.tok = (v.toks n nt).getLast? ∧
      (∀ next, t2.nextToken next = (.scopeHasEnded, t2, next)) ∧
      ∃ t3, t2.popScope = some t3 ∧ t3.scopes = [] ∧ Delivers t3 rest := by
  have key : ∃ a b ks ty, v.toks n nt = a :: (ks ++ [b]) ∧ (ty = Ty.arrayStart ∨ ty = .objectStart) ∧ a.valueType = ty ∧
      b.valueType = ty.closing ∧ Flat (kindLevel ty ty.closing) ks ∧ Below (kindLevel ty ty.closing) 65535 1 ks := by
    cases v with
    | arr vs =>
      refine ⟨_, _, elemToks vs, .arrayStart, rfl, .inl rfl, rfl, rfl, flat_elems arr_counts vs, below_elems arr_counts _ vs 1 (by omega) ?_⟩
      simp only [JVal.depth] at hdepth; omega
    | obj ms =>
      refine ⟨_, _, memberToks ms, .objectStart, rfl, .inr rfl, rfl, rfl, flat_members obj_counts ms, below_members obj_counts _ ms 1 (by omega) ?_⟩
      simp only [JVal.depth] at hdepth; omega
    | _ => simp [JVal.isContainer] at hc
  obtain ⟨a, b, ks, ty, he, hty, ha, hb, hf, hbel⟩ := key
  rw [he] at hd
  obtain ⟨t1, tok1, h1, h2, h3⟩ := hd
  have hv : tok1.valueType = ty := by rw [← ha, ← h2]; rfl
  have hs1 : t1.scopes = [] := (nextToken_sc t [] next hs (by simp [Tz.ended, Tz.sc]) (h1 next)).2
  have hk : kindLevel ty ty.closing 1 ty.closing = 0 := by rcases hty with rfl | rfl <;> rfl
  obtain ⟨h4, h5⟩ := inner_toks (b := b) (by rw [hb]; exact hk) hf
  have h6 : Below (kindLevel ty ty.closing) 65535 1 (ks ++ [b]) := by
    refine below_append hbel ?_
    rw [(hf 1 (by omega)).2]
    exact ⟨by rw [hb, hk]; omega, trivial⟩
  obtain ⟨t', tok', g1, g2, g3, g4⟩ := go_run hty rest [] (ks ++ [b]) t1 1 tok1 hs1 (by simp) h3 h4 h6 (by omega) h5
  refine ⟨t1, tok1, h1 next, by rw [he, h2]; rfl, t'.sc [⟨ty, 0⟩], tok', (ks ++ [b]).length + 1, fun i hi => ?_, ?_, fun nx => ?_, ?_⟩
  · have : t1.pushScope tok1.valueType = t1.sc [⟨ty, 1⟩] := by
      rw [hv]; simp only [Tz.pushScope, Tz.sc, hs1]; rcases hty with rfl | rfl <;> rfl
    rw [this]
    exact g1 i (by omega)
  · rw [g3, he, show a :: (ks ++ [b]) = (a :: ks) ++ [b] from rfl, List.getLast?_concat, List.getLast?_concat]
  · simp [Tz.nextToken, Tz.sc]
  · refine ⟨t', ?_, g2, g4⟩
    simp only [Tz.popScope, Tz.sc, ← g2]

/-- A tokenizer on a text whose root is an array or object meets the hypotheses. -/
example : ∃ t rest, t.scopes = [] ∧ (JVal.obj [(b!"a", .arr [.num b!"1"])]).depth ≤ 65535 ∧
    Delivers t ((JVal.obj [(b!"a", .arr [.num b!"1"])]).toks [] .ascii ++ rest) :=
  ⟨(Tz.new {}).addData b!"{\"a\":[1]}", [], rfl, by decide, delivers_of_collect (n := 20) (next := {}) (by decide +kernel)⟩

/-- An array inside arrays: `[` ... `]` with `d + 1` brackets of each kind. -/
def deep : Nat → JVal
  | 0 => .arr []
  | d + 1 => .arr [deep d]

theorem deep_toks (m d : Nat) :
    ∃ rest, (deep (m + d)).toks [] .ascii = List.replicate (m + 1) ⟨[], .ascii, b!"[", .arrayStart⟩ ++ rest := by
  induction m with
  | zero =>
    cases d with
    | zero => exact ⟨_, rfl⟩
    | succ d => exact ⟨_, by rw [Nat.zero_add]; rfl⟩
  | succ m ih =>
    obtain ⟨rest, h⟩ := ih
    refine ⟨rest ++ [⟨[], .ascii, b!"]", .arrayEnd⟩], ?_⟩
    rw [show m + 1 + d = (m + d) + 1 by omega]
    simp only [deep, JVal.toks, elemToks, h, List.append_nil, List.replicate_succ (n := m + 1), List.cons_append, List.append_assoc]

theorem go_wraps (m : Nat) : ∀ (k : Nat) (t : Tz) (tok : Token) (rest : List Tok), t.scopes = [] → tok.valueType = .arrayStart →
    k + m = 65536 → 1 ≤ k → Delivers t (List.replicate m ⟨[], .ascii, b!"[", .arrayStart⟩ ++ rest) →
    ∃ t' tok', (∀ i, m < i → Tz.goToEndOfScope i (t.sc [⟨.arrayStart, k % 65536⟩]) tok = (.noError, t', tok')) ∧ tok'.valueType = .arrayStart := by
  induction m with
  | zero =>
    intro k t tok rest hs htok hk _ _
    refine ⟨t.sc [⟨.arrayStart, 0⟩], tok, fun i hi => ?_, htok⟩
    obtain ⟨i, rfl⟩ : ∃ j, i = j + 1 := ⟨i - 1, by omega⟩
    rw [show k % 65536 = 0 by omega]
    simp [Tz.goToEndOfScope, Tz.sc]
  | succ m ih =>
    intro k t tok rest hs htok hk hk1 hd
    obtain ⟨t1, tok1, h1, h2, h3⟩ := hd
    have hv : tok1.valueType = .arrayStart := by
      rw [show tok1.valueType = tok1.tok.valueType from rfl, h2]
    have hk' : k % 65536 = k := by omega
    obtain ⟨h4, h5⟩ := nextToken_sc t [⟨.arrayStart, k % 65536⟩] tok hs (by rw [hk']; simp [Tz.sc, Tz.ended]; omega) (h1 tok)
    obtain ⟨t', tok', g1, g2⟩ := ih (k + 1) t1 tok1 _ h5 hv (by omega) (by omega) h3
    refine ⟨t', tok', fun i hi => ?_, g2⟩
    obtain ⟨i, rfl⟩ : ∃ j, i = j + 1 := ⟨i - 1, by omega⟩
    rw [Tz.goToEndOfScope, show (t.sc [⟨.arrayStart, k % 65536⟩]).scopes = [⟨.arrayStart, k % 65536⟩] from rfl]
    simp only [hk', show k ≠ 0 by omega, if_false]
    rw [hk'] at h4
    have : handleScope [⟨Ty.arrayStart, k⟩] tok1.valueType = [⟨.arrayStart, (k + 1) % 65536⟩] := by
      simp [handleScope, Scope.handleType, hv, inc16]
    rw [h4, if_pos rfl, this]
    exact g1 i (by omega)

/-- **C23** is false of values nested deeper: behind the 65536th opening bracket the counter of the scope is zero
again. There `goToEndOfScope` stops, at an opening bracket. -/
theorem C23_false_at_depth_65536 (t : Tz) (d : Nat) (rest : List Tok) (next : Token)
    (hs : t.scopes = []) (hd : Delivers t ((deep (65535 + d)).toks [] .ascii ++ rest)) :
    ∃ t1 tok1 t2 tok2 N, t.nextToken next = (.noError, t1, tok1) ∧
      (∀ i, N ≤ i → Tz.goToEndOfScope i (t1.pushScope tok1.valueType) tok1 = (.noError, t2, tok2)) ∧
      tok2.valueType = .arrayStart := by
  obtain ⟨r, hr⟩ := deep_toks 65535 d
  rw [hr, List.replicate_succ (n := 65535)] at hd
  obtain ⟨t1, tok1, h1, h2, h3⟩ := hd
  have hv : tok1.valueType = .arrayStart := by
    rw [show tok1.valueType = tok1.tok.valueType from rfl, h2]
  have hs1 : t1.scopes = [] := (nextToken_sc t [] next hs (by simp [Tz.ended, Tz.sc]) (h1 next)).2
  change Delivers t1 (List.replicate 65535 _ ++ r ++ rest) at h3
  rw [List.append_assoc] at h3
  obtain ⟨t', tok', g1, g2⟩ := go_wraps 65535 1 t1 tok1 _ hs1 hv (by omega) (by omega) h3
  refine ⟨t1, tok1, t', tok', 65536, h1 next, fun i hi => ?_, g2⟩
  have : t1.pushScope tok1.valueType = t1.sc [⟨.arrayStart, 1 % 65536⟩] := by
    rw [hv]; simp only [Tz.pushScope, Tz.sc, hs1]; rfl
  rw [this]
  exact g1 i (by omega)

/-- The text of `deep d` is a document, so that a tokenizer on it delivers its tokens. -/
theorem deep_delivered (d : Nat) : ∃ t : Tz, t.scopes = [] ∧ Delivers t ((deep d).toks [] .ascii ++ []) := by
  have ht : ∀ d, ∃ b, Text rfc (deep d) b := by
    intro d
    induction d with
    | zero => exact ⟨_, .arrEmpty (w := []) (by simp [rfc, Ws])⟩
    | succ d ih =>
      obtain ⟨b, hb⟩ := ih
      exact ⟨_, .arr (.one (w := []) (w' := []) (by simp [rfc, Ws]) hb (by simp [rfc, Ws]))⟩
  obtain ⟨b, hb⟩ := ht d
  refine ⟨(Tz.new {}).addData ([] ++ b ++ []), rfl, ?_⟩
  rw [List.append_nil (JVal.toks _ _ _)]
  exact delivers_doc rfl (by cases d <;> rfl) (doc_mono (rfc_le {}) ⟨[], b, [], by simp [rfc, Ws], hb, by simp [rfc, Ws], rfl⟩)

/-- The hypotheses of `C23_false_at_depth_65536` are met. -/
example : ∃ t rest, t.scopes = [] ∧ Delivers t ((deep (65535 + 7)).toks [] .ascii ++ rest) :=
  let ⟨t, h1, h2⟩ := deep_delivered (65535 + 7); ⟨t, [], h1, h2⟩

/-- Read a token, enter its scope. -/
def enter (t : Tz) : Tz := let r := t.nextToken {}; r.2.1.pushScope r.2.2.valueType

/-- **C23** is false of a scope in which another one, of the same kind of bracket, was entered and left: the bracket
that closed the inner scope was not counted by the outer one. In `[[[1],2],3]`, the scope of the second bracket is
entered, in it the scope of the third, which is left at its end. Going to the end of the remaining scope then
passes its closing bracket, and `3`, and ends at the last bracket: nothing is left. -/
theorem C23_false_with_nested_scopes :
    let t := ((Tz.new {}).addData b!"[[[1],2],3]").nextToken {}
    let inner := enter (enter t.2.1)
    let atInnerEnd := Tz.goToEndOfScope 100 inner {}
    let left := atInnerEnd.2.1.popScope
    atInnerEnd.1 = .noError ∧ atInnerEnd.2.2.tok = ⟨[], .ascii, b!"]", .arrayEnd⟩ ∧
    -- the matching bracket is the second token from here
    (left.map fun t => (Tz.collect 2 t {}).1.map Token.tok) = some [⟨[], .ascii, b!"2", .number⟩, ⟨[], .ascii, b!"]", .arrayEnd⟩] ∧
    -- the end found
    (left.map fun t => (Tz.goToEndOfScope 100 t {}).1) = some .noError ∧
    (left.bind fun t => (Tz.goToEndOfScope 100 t {}).2.1.popScope.map fun t => (t.nextToken {}).1) = some .needMoreData := by
  decide +kernel

/-! ### Skipping -/

/-- **C24**. A parse context whose current token is the first one of a value, with any tokens `rest` behind the value.
Skipping the value terminates and reports no error. Then the current token is the last one of the value, and the
tokens to come are `rest`. Nothing is added to the lists of missing and unassigned members. -/
theorem C24_skips_exactly_one_value (c : Ctx) (v : JVal) (n : Bytes) (nt : Ty) (k : Tok) (inner rest : List Tok)
    (hv : v.toks n nt = k :: inner) (hk : c.token.tok = k) (he : c.error = .noError) (hd : Delivers c.tz (inner ++ rest)) :
    ∃ N c', (∀ i, N ≤ i → skipArrayOrObject i c = some c') ∧ c'.error = .noError ∧
      some c'.token.tok = (v.toks n nt).getLast? ∧ Delivers c'.tz rest ∧
      c'.missing = c.missing ∧ c'.unassigned = c.unassigned := by
  obtain ⟨N, c', h1, h2, h3⟩ := skip_value c (n, nt) v rest ⟨he, k, inner ++ rest, by simp [Item.toks, hv], hk, hd⟩
  have h4 := h3.tok
  obtain ⟨h5, k', ks', h6, h7, h8⟩ := h3
  simp only [List.cons.injEq] at h6
  obtain ⟨rfl, rfl⟩ := h6
  refine ⟨N, c', h1, h5, ?_, h8, by simpa using h2.missing, by simpa using h2.unassigned⟩
  rw [h4]
  simp only [Item.last, Item.toks, hv]
  rw [List.getLastD_eq_getLast?, List.getLast?_cons]; rfl

/-- The hypotheses are met inside a document with a nested value: `{"a":[{},1],"b":2}` behind the token of `a`. -/
example : ∃ (c : Ctx) (inner rest : List Tok), (JVal.arr [.obj [], .num b!"1"]).toks b!"a" .string = c.token.tok :: inner ∧
    c.error = .noError ∧ Delivers c.tz (inner ++ rest) ∧ rest ≠ [] := by
  let t := (((Tz.new {}).addData b!"{\"a\":[{},1],\"b\":2}").nextToken {}).2.1
  let r := t.nextToken {}
  refine ⟨{ tz := r.2.1, token := r.2.2 }, [⟨[], .ascii, b!"{", .objectStart⟩, ⟨[], .ascii, b!"}", .objectEnd⟩,
    ⟨[], .ascii, b!"1", .number⟩, ⟨[], .ascii, b!"]", .arrayEnd⟩],
    [⟨b!"b", .string, b!"2", .number⟩, ⟨[], .ascii, b!"}", .objectEnd⟩], by decide +kernel, rfl, ?_, by simp⟩
  exact delivers_of_collect (n := 20) (next := {}) (by decide +kernel)

end JsonStruct
