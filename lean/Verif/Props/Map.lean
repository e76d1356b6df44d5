import Verif.Lemmas.Map
import Verif.Props.Container

/-
C25, C26 and C27: the metadata of token lists, and `JS::Map`.

`JVal.containers`, `metaOf` (Spec/Meta.lean) and `JMap.Shows`, `setMember` (Spec/Map.lean) are the specifications.
-/

namespace JsonStruct

/-! ### C25 -/

/-- **C25**: for the tokens of any JSON value (under any name) `metaForTokens` gives exactly one entry for each array and
object in it, in the order of the document, with its position, its number of tokens, of containers, of direct children
and of direct children that are containers, whether it is an array, and whether there is a scalar in it. -/
theorem C25_metadata_exact (name : Bytes) (nameType : Ty) (v : JVal) :
    metaForTokens (v.toks name nameType) = some (v.containers.map metaOf) := metaForTokens_value name nameType v

def Tok.isStart (k : Tok) : Bool := k.valueType = .arrayStart || k.valueType = .objectStart

mutual
theorem starts_value (n : Bytes) (nt : Ty) (i : Nat) : (v : JVal) →
    (v.containersAt i).map Prod.fst = (((v.toks n nt).zipIdx i).filter fun e => e.1.isStart).map Prod.snd
  | .null | .bool true | .bool false | .num _ | .str _ => by
    simp [JVal.containersAt, JVal.toks, List.zipIdx, Tok.isStart]
  | .arr vs => by
    simp [JVal.containersAt, JVal.toks, List.zipIdx_append, Tok.isStart, starts_elems (i + 1) vs]
  | .obj ms => by
    simp [JVal.containersAt, JVal.toks, List.zipIdx_append, Tok.isStart, starts_members (i + 1) ms]
theorem starts_elems (i : Nat) : (vs : List JVal) →
    (elemContainersAt i vs).map Prod.fst = (((elemToks vs).zipIdx i).filter fun e => e.1.isStart).map Prod.snd
  | [] => by simp [elemContainersAt, elemToks]
  | v :: vs => by
    simp only [elemContainersAt, elemToks, List.map_append, List.zipIdx_append, List.filter_append, starts_value [] .ascii i v,
      starts_elems (i + v.docToks.length) vs, JVal.toks_length]
theorem starts_members (i : Nat) : (ms : List (Bytes × JVal)) →
    (memberContainersAt i ms).map Prod.fst = (((memberToks ms).zipIdx i).filter fun e => e.1.isStart).map Prod.snd
  | [] => by simp [memberContainersAt, memberToks]
  | (n, v) :: ms => by
    simp only [memberContainersAt, memberToks, List.map_append, List.zipIdx_append, List.filter_append, starts_value n .string i v,
      starts_members (i + v.docToks.length) ms, JVal.toks_length]
end

/-- **C25**, the positions: they are the indices of the opening brackets, all of them and in order. -/
theorem C25_positions (v : JVal) :
    v.containers.map Prod.fst = (v.docToks.zipIdx.filter fun e => e.1.isStart).map Prod.snd := starts_value [] .ascii 0 v

mutual
theorem range_value (n : Bytes) (nt : Ty) (pre post : List Tok) : (v : JVal) → ∀ e ∈ v.containersAt pre.length,
    ∃ n' nt', ((pre ++ v.toks n nt ++ post).drop e.1).take e.2.docToks.length = e.2.toks n' nt'
  | .null, e, he | .bool _, e, he | .num _, e, he | .str _, e, he => by simp [JVal.containersAt] at he
  | .arr vs, e, he => by
    simp only [JVal.containersAt, List.mem_cons] at he
    rcases he with rfl | he
    · refine ⟨n, nt, ?_⟩
      rw [List.append_assoc, List.drop_left, List.take_left' (JVal.toks_length ..)]
    · have := range_elems (pre ++ [⟨n, nt, b!"[", .arrayStart⟩]) (⟨[], .ascii, b!"]", .arrayEnd⟩ :: post) vs e (by simpa using he)
      simpa [JVal.toks] using this
  | .obj ms, e, he => by
    simp only [JVal.containersAt, List.mem_cons] at he
    rcases he with rfl | he
    · refine ⟨n, nt, ?_⟩
      rw [List.append_assoc, List.drop_left, List.take_left' (JVal.toks_length ..)]
    · have := range_members (pre ++ [⟨n, nt, b!"{", .objectStart⟩]) (⟨[], .ascii, b!"}", .objectEnd⟩ :: post) ms e (by simpa using he)
      simpa [JVal.toks] using this
theorem range_elems (pre post : List Tok) : (vs : List JVal) → ∀ e ∈ elemContainersAt pre.length vs,
    ∃ n' nt', ((pre ++ elemToks vs ++ post).drop e.1).take e.2.docToks.length = e.2.toks n' nt'
  | [], e, he => by simp [elemContainersAt] at he
  | v :: vs, e, he => by
    simp only [elemContainersAt, List.mem_append] at he
    rcases he with he | he
    · simpa [elemToks] using range_value [] .ascii pre (elemToks vs ++ post) v e he
    · simpa [elemToks] using range_elems (pre ++ v.toks [] .ascii) post vs e (by simpa [JVal.toks_length] using he)
theorem range_members (pre post : List Tok) : (ms : List (Bytes × JVal)) → ∀ e ∈ memberContainersAt pre.length ms,
    ∃ n' nt', ((pre ++ memberToks ms ++ post).drop e.1).take e.2.docToks.length = e.2.toks n' nt'
  | [], e, he => by simp [memberContainersAt] at he
  | (n, v) :: ms, e, he => by
    simp only [memberContainersAt, List.mem_append] at he
    rcases he with he | he
    · simpa [memberToks] using range_value n .string pre (memberToks ms ++ post) v e he
    · simpa [memberToks] using range_members (pre ++ v.toks n .string) post ms e (by simpa [JVal.toks_length] using he)
end

/-- **C25**, the extent: `size` tokens from `position` on are the tokens of that array or object, from the opening to
the closing bracket. -/
theorem C25_ranges (v : JVal) (e : Nat × JVal) (he : e ∈ v.containers) :
    ∃ name nameType, (v.docToks.drop (metaOf e).position).take (metaOf e).size = e.2.toks name nameType := by
  simpa [metaOf, JVal.docToks] using range_value [] .ascii [] [] v e he

/-- The entries of a concrete value. -/
example : metaForTokens (JVal.obj [(b!"a", .num b!"1"), (b!"b", .arr [.arr [], .null]), (b!"c", .obj [])]).docToks = some [
    { position := 0, size := 10, skip := 4, children := 3, complexChildren := 2, isArray := false, hasData := true },
    { position := 2, size := 5, skip := 2, children := 2, complexChildren := 1, isArray := true, hasData := true },
    { position := 3, size := 2, skip := 1, children := 0, complexChildren := 0, isArray := true, hasData := false },
    { position := 7, size := 2, skip := 1, children := 0, complexChildren := 0, isArray := false, hasData := false }] := by
  decide +kernel

/-! ### C26 -/

/-- The map read from a container. -/
def jmapOf (l : Lbl) (v : JVal) : JMap := { tokens := v.toks l.1 l.2, metas := v.containers.map metaOf }

theorem jmapDec_value (p : POpts) (old : JMap) (l : Lbl) {v : JVal} (hv : v.isContainer = true) :
    jmapDec p old (.val l v) = some ⟨.noError, jmapOf l v, [], []⟩ := by
  simp only [jmapDec, tokensDec, hv, if_true, Item.toks, Option.bind_some, metaForTokens_value, Option.map_some]
  rfl

/-- **C26**, for names that are not empty: a text of an object is read into a `Map` without error, and the map shows
this object: iteration visits its direct members in order, `find` gives the first direct member of that name or
`end()`, and reading a member by its name reads its value. Missing: iteration also visits the closing bracket, and the
empty name; the property is false there, see below. -/
theorem C26_map_shows_object_partial {o : Opts} (hn : o.newLines = false) (p : POpts) (ms : List (Bytes × JVal)) {text : Bytes}
    (hd : Doc (lenient o) (.obj ms) text) (old : JMap) :
    ∃ m, Parses jmapH o p old text ⟨.noError, m, [], []⟩ ∧ m.Shows ms :=
  ⟨jmapOf ([], .ascii) (.obj ms), parse_doc jmap_sem hn p rfl hd (jmapDec_value _ _ _ rfl), (mirrors_new [] (.inr rfl) ms).shows⟩

/-- The same for a `Map` that is a member or an element: whatever follows, the map shows the object. -/
theorem C26_nested_map_partial (c : Ctx) (old : JMap) (l : Lbl) (hl : l.2 = .string ∨ l.2 = .ascii) (ms : List (Bytes × JVal))
    (rest : List Tok) (h : c.Stream ((JVal.obj ms).toks l.1 l.2 ++ rest)) :
    ∃ m, Does (fun n => jmapH.to n old c) c ⟨.noError, m, [], []⟩ (fun c' => c'.Stream ((Item.val l (.obj ms)).last :: rest)) ∧ m.Shows ms :=
  ⟨jmapOf l (.obj ms), jmap_sem c old (.val l (.obj ms)) rest _ h (jmapDec_value _ _ _ rfl), (mirrors_new l.1 hl ms).shows⟩

/-- **C26** is false as it stands: `end()` lies behind the closing bracket, which iteration visits like a member; its
name is empty, so looking for the empty name finds it. -/
theorem C26_false_closing_bracket :
    let m := jmapOf ([], .ascii) (.obj [(b!"a", .num b!"1")])
    m.visit 9 m.begin = some [⟨b!"a", .string, b!"1", .number⟩, ⟨[], .ascii, b!"}", .objectEnd⟩] ∧
    (m.find []).map (·.index) = some 2 ∧ m.endIndex = 3 := by decide +kernel

/-- A concrete map: nested members of the same names are not found. -/
example :
    let m := jmapOf ([], .ascii) (.obj [(b!"a", .obj [(b!"b", .num b!"1")]), (b!"b", .arr [.obj [(b!"c", .null)]]), (b!"b", .num b!"2")])
    (m.find b!"b").map (·.index) = some 4 ∧ (m.find b!"c").map (·.index) = some m.endIndex ∧ (m.find b!"a").map (·.index) = some 1 := by
  decide +kernel

/-! ### C27 -/

/-- The map is new, or it shows the members `ms` (and its internals agree). -/
def JMap.Is (m : JMap) (ms : List (Bytes × JVal)) : Prop := (m = {} ∧ ms = []) ∨ m.Mirrors ms

theorem JMap.Is.setValue {m : JMap} {ms : List (Bytes × JVal)} (h : m.Is ms) (a : SetOp) (ha : a.Ok) (hr : Replaceable a.name ms) :
    ∃ N m', (∀ n, N ≤ n → m.setValue a.t.handler n a.name a.x = some m') ∧ m'.Mirrors (setMember a.name a.j ms) := by
  rcases h with ⟨rfl, rfl⟩ | h
  · let m0 : JMap := { tokens := [{ value := b!"{", valueType := .objectStart }, { value := b!"}", valueType := .objectEnd }],
                       metas := [{ position := 0, size := 2, isArray := false }] }
    have hm : m0.Mirrors [] := ⟨⟨[], .string, .string, .inl rfl, .inl rfl, rfl⟩, ⟨_, rfl⟩⟩
    obtain ⟨N, m', h1, h2⟩ := hm.setValue a ha hr
    refine ⟨N, m', fun n hn => ?_, h2⟩
    rw [← h1 n hn]
    have e1 : ({} : JMap).ensure = some m0 := by decide +kernel
    have e2 : m0.ensure = some m0 := by decide +kernel
    simp only [JMap.setValue, e1, e2]
  · exact h.setValue a ha hr

theorem JMap.Is.setAll {as : List SetOp} {m : JMap} {ms : List (Bytes × JVal)} (h : m.Is ms) (hs : Safe as ms) :
    ∃ N m', (∀ n, N ≤ n → m.setAll n as = some m') ∧ m'.Is (setMembers as ms) := by
  induction as generalizing m ms with
  | nil => exact ⟨0, m, fun _ _ => rfl, h⟩
  | cons a as ih =>
    obtain ⟨N, m1, h1, h2⟩ := h.setValue a hs.1 hs.2.1
    obtain ⟨M, m2, g1, g2⟩ := ih (.inr h2) hs.2.2
    refine ⟨max N M, m2, fun n hn => ?_, g2⟩
    simp only [JMap.setAll, h1 n (by omega), Option.bind_some]
    exact g1 n (by omega)

/-- **C27**, except where a scalar in front of an array or object is replaced: any history of `setValue` calls on a new
map. The map shows the object that results from removing, for each call, the first member of that name and adding the
new one at the end. Missing: the other histories; it is false for them, see below. -/
theorem C27_history_partial (as : List SetOp) (hs : Safe as []) (hne : as ≠ []) :
    ∃ N m, (∀ n, N ≤ n → JMap.setAll n as {} = some m) ∧ m.Shows (setMembers as []) := by
  obtain ⟨N, m, h1, h2⟩ := JMap.Is.setAll (m := {}) (.inl ⟨rfl, rfl⟩) hs
  refine ⟨N, m, h1, ?_⟩
  rcases h2 with ⟨_, h2⟩ | h2
  · cases as with
    | nil => exact absurd rfl hne
    | cons a as =>
      have hnn : ∀ (as : List SetOp) (ms : List (Bytes × JVal)), ms ≠ [] → setMembers as ms ≠ [] := by
        intro as
        induction as with
        | nil => exact fun _ h => h
        | cons a as ih => intro ms _; exact ih _ (by simp [setMember])
      exact absurd h2 (hnn as _ (by simp [setMember]))
  · exact h2.shows

/-- **C27**, the same for a map that was read from a text. -/
theorem C27_history_of_parsed_map_partial {o : Opts} (hn : o.newLines = false) (p : POpts) (ms : List (Bytes × JVal)) {text : Bytes}
    (hd : Doc (lenient o) (.obj ms) text) (old : JMap) (as : List SetOp) (hs : Safe as ms) :
    ∃ m N m', Parses jmapH o p old text ⟨.noError, m, [], []⟩ ∧ (∀ n, N ≤ n → JMap.setAll n as m = some m') ∧ m'.Shows (setMembers as ms) := by
  have hm := mirrors_new [] (.inr rfl) ms
  obtain ⟨N, m', h1, h2⟩ := JMap.Is.setAll (m := jmapOf ([], .ascii) (.obj ms)) (.inr hm) hs
  refine ⟨_, N, m', parse_doc jmap_sem hn p rfl hd (jmapDec_value _ _ _ rfl), h1, ?_⟩
  rcases h2 with ⟨h2, h3⟩ | h2
  · cases as with
    | nil =>
      have := h1 N (Nat.le_refl _)
      simp only [JMap.setAll, Option.some.injEq] at this
      rw [← this]
      exact hm.shows
    | cons a as =>
      have hnn : ∀ (as : List SetOp) (ms : List (Bytes × JVal)), ms ≠ [] → setMembers as ms ≠ [] := by
        intro as
        induction as with
        | nil => exact fun _ h => h
        | cons a as ih => intro ms _; exact ih _ (by simp [setMember])
      exact absurd h3 (hnn as _ (by simp [setMember]))
  · exact h2.shows

/-- What `setMember` does to the members: the name has the new value, the others have the values they had, and there is
one member more if the name was new. (With distinct names.) -/
theorem C27_set_member (name : Bytes) (v : JVal) (ms : List (Bytes × JVal)) (hd : (ms.map Prod.fst).Nodup) :
    ((setMember name v ms).map Prod.fst).Nodup ∧ (name, v) ∈ setMember name v ms ∧
    (∀ n w, n ≠ name → ((n, w) ∈ setMember name v ms ↔ (n, w) ∈ ms)) ∧
    (setMember name v ms).length = if name ∈ ms.map Prod.fst then ms.length else ms.length + 1 := by
  by_cases hm : name ∈ ms.map Prod.fst
  · obtain ⟨pre, w, post, he, hp, hr⟩ := removeMember_split hm
    subst he
    simp only [List.map_append, List.map_cons, List.nodup_append, List.nodup_cons, List.mem_cons] at hd
    obtain ⟨d1, ⟨d2, d3⟩, d4⟩ := hd
    simp only [setMember, hr, if_pos hm]
    refine ⟨?_, by simp, ?_, by simp +arith⟩
    · simp only [List.map_append, List.map_cons, List.map_nil, List.append_assoc, List.nodup_append, List.mem_append]
      refine ⟨d1, ⟨d3, by simp, ?_⟩, ?_⟩
      · rintro a ha b hb rfl
        simp only [List.mem_singleton] at hb
        subst hb
        exact d2 ha
      · rintro a ha b (hb | hb) rfl
        · exact d4 a ha a (.inr hb) rfl
        · simp only [List.mem_singleton] at hb
          subst hb
          exact hp ha
    · intro n x hn
      simp [hn]
  · simp only [setMember, removeMember_none hm, if_neg hm]
    refine ⟨?_, by simp, ?_, by simp⟩
    · simp only [List.map_append, List.map_cons, List.map_nil, List.nodup_append]
      refine ⟨hd, by simp, ?_⟩
      rintro a ha b hb rfl
      simp only [List.mem_singleton] at hb
      subst hb
      exact hm ha
    · intro n x hn
      simp [hn]

/-- **C27**, the value: after `setValue(name, context, x)` reading `name` into a fresh variable gives `x`. -/
theorem C27_set_then_get_partial (m : JMap) (ms : List (Bytes × JVal)) (h : m.Is ms) (a : SetOp) (ha : a.Ok) (hr : Replaceable a.name ms)
    (hd : (ms.map Prod.fst).Nodup) (c : Ctx) (hc : c.tz.scopes = []) (hu : c.allowUnassigned = true) (old : a.T) (ho : a.t.Fresh old) :
    ∃ N m' un, (∀ n, N ≤ n → m.setValue a.t.handler n a.name a.x = some m') ∧
      m'.Casts a.t.handler a.name c old ⟨.noError, a.x, [], un⟩ := by
  obtain ⟨N, m', h1, h2⟩ := h.setValue a ha hr
  obtain ⟨un, hun⟩ := (a.t.roundTrips ha.1).some ha.2.2.1 ha.2.1 ho (p := c.popts) hu (a.name, .string)
  refine ⟨N, m', un, h1, h2.shows.cast _ a.t (removeMember a.name ms) a.name a.j [] rfl ?_ c old _ hc hun⟩
  by_cases hm : a.name ∈ ms.map Prod.fst
  · obtain ⟨pre, w, post, he, hp, hrm⟩ := removeMember_split hm
    subst he
    rw [hrm]
    simp only [List.map_append, List.map_cons, List.nodup_append, List.nodup_cons, List.mem_cons] at hd
    simp only [List.map_append, List.mem_append, not_or]
    exact ⟨hp, hd.2.1.1⟩
  · rw [removeMember_none hm]
    exact hm

/-- **C27** is false where a scalar in front of an array or object is replaced: the positions in the metadata are not
moved, so iteration goes astray. In `{"a":1,"b":{"x":2}}` after `setValue("a", 5)` the member `a` is not found. -/
theorem C27_false_scalar_replaced :
    let m := jmapOf ([], .ascii) (.obj [(b!"a", .num b!"1"), (b!"b", .obj [(b!"x", .num b!"2")])])
    (m.setValue (CType.int i32).handler 50 b!"a" 5).map (fun m' =>
      (m'.tokens, (m'.find b!"a").map (·.index), (m'.find b!"x").map (·.index), m'.endIndex)) =
    some ((JVal.obj [(b!"b", .obj [(b!"x", .num b!"2")]), (b!"a", .num b!"5")]).docToks, some 6, some 2, 6) := by decide +kernel

/-- A history that meets the hypotheses: a scalar, an array, the array again, the scalar again. -/
def exOps : List SetOp :=
  [⟨.int i32, b!"a", 1, .num b!"1"⟩, ⟨.vector (.int i32), b!"b", [2, 3], .arr [.num b!"2", .num b!"3"]⟩,
   ⟨.vector (.int i32), b!"b", [], .arr []⟩, ⟨.int i32, b!"c", 4, .num b!"4"⟩, ⟨.int i32, b!"c", 5, .num b!"5"⟩]

def replaceableB (name : Bytes) : List (Bytes × JVal) → Bool
  | [] => true
  | (n, v) :: ms => if n = name then v.isContainer || ms.all (fun e => !e.2.isContainer) else replaceableB name ms

theorem replaceable_of {name : Bytes} {ms : List (Bytes × JVal)} (h : replaceableB name ms = true) : Replaceable name ms := by
  intro pre v post he hp
  subst he
  induction pre with
  | nil => simpa [replaceableB] using h
  | cons e pre ih =>
    obtain ⟨n, w⟩ := e
    simp only [List.map_cons, List.mem_cons, not_or] at hp
    simp only [List.cons_append, replaceableB, Ne.symm hp.1, if_false] at h
    exact ih hp.2 h

example : Safe exOps [] ∧ (setMembers exOps []).map Prod.fst = [b!"a", b!"b", b!"c"] := by
  have hi : i32.Supported := by decide
  have ok1 : ∀ c : Byte, Quotable [c] → ∀ x : Int, i32.InRange x → ∀ j, intFrom i32 x = some j → SetOp.Ok ⟨.int i32, [c], x, .num j⟩ :=
    fun c hc x hx j hj => ⟨trivial, ⟨hi, hx⟩, by simp [CType.enc, hj], by simp, hc, by simp [JVal.depth]⟩
  have ok2 : ∀ x : List Int, (∀ y ∈ x, i32.InRange y) → SetOp.Ok ⟨.vector (.int i32), b!"b", x, .arr (x.filterMap fun y => (intFrom i32 y).map .num)⟩ := by
    intro x hx
    refine ⟨trivial, fun y hy => ⟨⟨hi, hx y hy⟩, ?_⟩, rfl, by simp, by quotable, ?_⟩
    · obtain ⟨t, h, _⟩ := C16_valid_number i32 hi y (hx y hy)
      simp [CType.enc, h]
    · have : ∀ l : List Int, elemsDepth (l.filterMap fun y => (intFrom i32 y).map .num) = 0 := by
        intro l
        induction l with
        | nil => rfl
        | cons y l ih => cases h : intFrom i32 y <;> simp [h, elemsDepth, JVal.depth, ih]
      simp [JVal.depth, this]
  refine ⟨⟨ok1 _ (by quotable) 1 (by decide) _ (by decide +kernel), replaceable_of rfl, ok2 [2, 3] (by decide), replaceable_of rfl,
    ok2 [] (by decide), replaceable_of rfl, ok1 _ (by quotable) 4 (by decide) _ (by decide +kernel), replaceable_of rfl,
    ok1 _ (by quotable) 5 (by decide) _ (by decide +kernel), replaceable_of rfl, trivial⟩, by decide +kernel⟩

end JsonStruct
