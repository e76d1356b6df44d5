import Verif.Lemmas.SavedRead
import Verif.Props.RoundTrip
import Verif.Props.Container

/-
C93: what was loaded can be saved and loaded again. `Loaded`, `CType.Ordinary` and `CType.Storable` are in Spec/Saved.lean,
`CType.enc` and `CType.Valid` in Spec/Encode.lean.
-/

namespace JsonStruct

/-- **C93**: a variable that can be saved (a new one, say) is loaded from any texts. What it holds then can be saved, provided
that its scalars are ordinary ones. -/
theorem C93_loaded_values (t : CType T) (ht : t.Lawful) (hs : t.Storable) {old v : T} (hold : t.Valid old)
    (hl : Loaded t.handler old v) (hv : t.Ordinary v) : t.Valid v :=
  t.valid_of v (t.kept_loaded ht hs hl hold) hv

/-- **C93**, for values whose text is an array or an object at most 255 levels deep: a variable that can be saved is loaded any number
of times, from any texts, in any buffers, with any options. If the numbers, enumerators and keys it then holds are ordinary
(`Ordinary`), what `serializeStruct` returns is JSON (but for control characters in strings), and parses without error into any fresh
variable, whatever the style, the indentation and the options, and leaves the same value in it.

Missing: types that are not `Storable` (an element or pointee for which nothing is written, a `OneOrMany` of arrays, `JsonTokens` and
`JS::Map`), and values that are not `Ordinary`; it is false for these, see below. -/
theorem C93_load_save_load_partial (t : CType T) (ht : t.Lawful) (hs : t.Storable) {old v : T} (hold : t.Valid old)
    (hl : Loaded t.handler old v) (hv : t.Ordinary v) {j : JVal} (hj : t.enc v = some j) (hc : j.isContainer = true) (hd : j.depth ≤ 255)
    (pretty : Bool) (shift : Nat) (o : Opts) (p : POpts) (hp : p.allowUnassigned = true) (x : T) (hx : t.Fresh x) :
    ∃ text un, serializeStruct t.handler v (userOpts pretty shift 0) = some text ∧ Doc rfcBytes j text ∧
      Parses t.handler o p x text ⟨.noError, v, [], un⟩ :=
  C01_round_trip_partial t ht v (C93_loaded_values t ht hs hold hl hv) hj hc hd pretty shift o p hp x hx

/-! ### Containers -/

theorem foldl_append (f : List T → T → List T) (hf : ∀ l x, f l x = l ++ [x]) (l acc : List T) : l.foldl f acc = acc ++ l := by
  induction l generalizing acc with
  | nil => simp
  | cons x xs ih => rw [List.foldl_cons, ih, hf, List.append_assoc]; rfl

/-- Containers that append keep their order. -/
theorem C93_appending {V : Type} : MapKeepsOrder fun (l : List (Bytes × V)) x => l ++ [x] := by
  intro l _ _
  refine ⟨fun x _ => ?_, fun k v => ?_⟩ <;> rw [foldl_append _ fun _ _ => rfl] <;> rfl

abbrev KeySorted (l : List (Bytes × V)) : Prop := l.Pairwise fun a b => a.1 < b.1

theorem sortedIns_last {l : List (Bytes × V)} {x : Bytes × V} (h : ∀ e ∈ l, e.1 < x.1) : sortedIns l x = l ++ [x] := by
  induction l with
  | nil => rfl
  | cons e es ih =>
    rw [sortedIns, if_pos (h e (List.mem_cons_self ..)), ih fun e he => h e (List.mem_cons_of_mem _ he)]; rfl

theorem foldl_sortedIns {l acc : List (Bytes × V)} (h : KeySorted (acc ++ l)) : l.foldl sortedIns acc = acc ++ l := by
  induction l generalizing acc with
  | nil => simp
  | cons x xs ih =>
    have h1 : ∀ e ∈ acc, e.1 < x.1 := fun e he => (List.pairwise_append.mp h).2.2 e he x (List.mem_cons_self ..)
    rw [List.foldl_cons, sortedIns_last h1, ih (by simpa using h)]; simp

theorem sortedIns_sorted {l : List (Bytes × V)} {x : Bytes × V} (h : KeySorted l) (hx : x.1 ∉ l.map Prod.fst) : KeySorted (sortedIns l x) := by
  induction l with
  | nil => simp [sortedIns, KeySorted]
  | cons e es ih =>
    obtain ⟨h1, h2⟩ := List.pairwise_cons.mp h
    simp only [List.map_cons, List.mem_cons, not_or] at hx
    rw [sortedIns]
    split
    · next hlt =>
      refine List.pairwise_cons.mpr ⟨fun a ha => ?_, ih h2 hx.2⟩
      rcases List.mem_cons.mp ((sortedIns_perm es x).mem_iff.mp ha) with rfl | ha
      · exact hlt
      · exact h1 a ha
    · next hlt =>
      have hxe : x.1 < e.1 := Decidable.byContradiction fun g => hx.1 (List.le_antisymm (List.not_lt.mp hlt) (List.not_lt.mp g))
      refine List.pairwise_cons.mpr ⟨fun a ha => ?_, h⟩
      rcases List.mem_cons.mp ha with rfl | ha
      · exact hxe
      · exact List.lt_trans hxe (h1 a ha)

theorem foldl_sorted {l acc : List (Bytes × V)} (h : KeySorted acc) (hn : ((acc ++ l).map Prod.fst).Nodup) : KeySorted (l.foldl sortedIns acc) := by
  induction l generalizing acc with
  | nil => exact h
  | cons x xs ih =>
    rw [List.foldl_cons]
    have hp : ((acc ++ x :: xs).map Prod.fst).Perm ((sortedIns acc x ++ xs).map Prod.fst) := by
      refine List.Perm.map _ ?_
      refine List.perm_middle.trans ?_
      exact (sortedIns_perm acc x).symm.append_right xs
    refine ih (sortedIns_sorted h fun hm => ?_) (hp.nodup_iff.mp hn)
    rw [List.map_append, List.nodup_append] at hn
    exact hn.2.2 _ hm _ (by simp) rfl

/-- The order of `std::map` is kept. -/
theorem C93_sorted {V : Type} : MapKeepsOrder (sortedIns (V := V)) := by
  intro l hn hl
  have hs : KeySorted l := by rw [← hl]; exact foldl_sorted (by simp [KeySorted]) (by simpa using hn)
  refine ⟨fun x hx => ?_, fun k v => ?_⟩
  · exact foldl_sortedIns (acc := []) (sortedIns_sorted hs hx)
  · refine foldl_sortedIns (acc := []) ?_
    have hk : (l.map fun e => if e.1 = k then (k, v) else e).map Prod.fst = l.map Prod.fst := by
      rw [List.map_map]
      refine List.map_congr_left fun e _ => ?_
      simp only [Function.comp]
      split
      · next h => exact h.symm
      · rfl
    have : ((l.map fun e => if e.1 = k then (k, v) else e).map Prod.fst).Pairwise (· < ·) := by rw [hk]; exact List.pairwise_map.mpr hs
    exact List.pairwise_map.mp this

/-! ### Examples -/

theorem exPoint_storable : exPoint.Storable := by
  simp [exPoint, CType.Storable, CStruct.Storable, CMembers.Storable, CSupers.Storable, CType.Shown]

theorem exDerived_storable : exDerived.Storable := by
  have h0 : i32.Supported ∧ i32.InRange 0 := by decide
  have h1 : exPoint.Valid exPoint.init := by
    refine ⟨⟨h0, ⟨h0, ?_⟩, trivial⟩, trivial⟩
    intro h
    simp [CType.enc] at h
  refine ⟨⟨trivial, ⟨⟨⟨⟨trivial, trivial⟩, ⟨trivial, trivial⟩, trivial⟩, trivial, ?_⟩, ⟨⟨exPoint_storable, trivial, h1⟩, trivial⟩⟩⟩, ⟨⟨trivial, trivial⟩, trivial⟩, trivial⟩
  exact ⟨⟨h0, by decide +kernel⟩, ⟨trivial, rfl⟩, trivial⟩

/-- The hypotheses are met by a struct with a super class, a vector of tuples and a pointer, loaded twice. -/
def exLoad1 : Bytes := b!"{\"flag\": true, \"name\":\"a\", \"unknown\":[{}], \"xs\":[[1,\"u\"]], \"p\":{\"y\":2,\"x\":7}}"
def exLoad2 : Bytes := b!"{\"name\":\"b\\n\", \"list\":[], \"p\":{\"x\":3,\"y\":null}}"

theorem Loaded.step {h : Handler T} {a b v : T} {n : Nat} {c : Ctx} (l : Loaded h a b) (g : (parseTo h n b c).map (fun r => (r.1, r.2.1)) = some (.noError, v)) :
    Loaded h a v := by
  simp only [Option.map_eq_some_iff, Prod.mk.injEq, Prod.exists] at g
  obtain ⟨_, _, c', g, rfl, rfl⟩ := g
  exact .more l g

set_option synthInstance.maxSize 1000 in
example : exDerived.Lawful ∧ exDerived.Storable ∧ exDerived.Valid exDerived.init ∧ Loaded exDerived.handler exDerived.init (true, b!"b\n", [], some (3, 2)) ∧
    exDerived.Ordinary (true, b!"b\n", [], some (3, 2)) ∧ (∃ j, exDerived.enc (true, b!"b\n", [], some (3, 2)) = some j ∧ j.isContainer = true ∧ j.depth ≤ 255) ∧
    serializeStruct exDerived.handler (true, b!"b\n", [], some (3, 2)) (userOpts false 0 0) =
      some b!"{\"name\":\"b\\n\",\"xs\":[],\"p\":{\"x\":3,\"y\":2},\"flag\":true}" := by
  refine ⟨exDerived_lawful, exDerived_storable, ?_, ?_, ?_, ⟨_, rfl, rfl, ?_⟩, by decide +kernel⟩
  · simp [exDerived, CType.init, CType.handler, structH, CType.Valid, CStruct.Valid, CMembers.Valid, CSupers.Valid, exBase]
  · exact (Loaded.none.step (n := 100) (c := Ctx.onText {} {} exLoad1) (v := (true, b!"a", [(1, b!"u", ())], some (7, 2))) (by decide +kernel)).step
      (n := 100) (c := Ctx.onText {} {} exLoad2) (by decide +kernel)
  · simp [exDerived, exPoint, CType.Ordinary, CStruct.Ordinary, CMembers.Ordinary, CSupers.Ordinary, exBase]
  · decide +kernel

/-- A `std::map<std::string, int>`: the order of its keys is kept. -/
example : exMap.Lawful ∧ exMap.Storable ∧ exMap.Valid exMap.init ∧ Loaded exMap.handler [] [(b!"a", 2), (b!"b", 3)] ∧ exMap.Ordinary [(b!"a", 2), (b!"b", 3)] := by
  refine ⟨⟨sortedIns_perm, trivial⟩, ⟨⟨trivial, trivial, by decide, by decide⟩, C93_sorted⟩, ⟨by decide, rfl, by simp [CType.init, CType.handler, mapH, exMap]⟩,
    Loaded.none.step (n := 100) (c := Ctx.onText {} {} b!"{\"b\":1,\"a\":2,\"b\":3}") (by decide +kernel), ?_⟩
  simp only [exMap, CType.Ordinary, List.mem_cons, List.not_mem_nil, or_false]
  rintro e (rfl | rfl)
  · exact ⟨by decide, by quotable, by decide +kernel, trivial⟩
  · exact ⟨by decide, by quotable, by decide +kernel, trivial⟩

/-! ### Falsehoods -/

/-- **C93** is false for a number too large for a `double`: `[1e400]` is read as infinity, which is written as `null`, which is not read. -/
theorem C93_false_infinity :
    let t : CType (List Nat) := .vector .double
    Loaded t.handler [] [0x7FF0000000000000] ∧ serializeStruct t.handler [0x7FF0000000000000] (userOpts false 0 0) = some b!"[null]" ∧
    Parses t.handler {} {} [] b!"[null]" ⟨.failedToParseDouble, [0], [], []⟩ :=
  ⟨Loaded.none.step (n := 100) (c := Ctx.onText {} {} b!"[1e400]") (by decide +kernel), by decide +kernel,
    parse_toks (v := .arr [.null]) (CType.sem _) _ (by example_text) (by decide +kernel)⟩

/-- **C93** is false for a number that is no enumerator: it is read, but writing it is undefined. -/
theorem C93_false_enumerator :
    let t : CType (List Int) := .vector (.enum [b!"red", b!"green"] i32)
    Loaded t.handler [] [7] ∧ serializeStruct t.handler [7] (userOpts false 0 0) = none :=
  ⟨Loaded.none.step (n := 100) (c := Ctx.onText {} {} b!"[7]") (by decide +kernel), by decide +kernel⟩

/-- **C93** is false for an `ArrayVariableContent` that is filled: the size is not stored, and nothing of it is written. -/
theorem C93_false_full_array :
    let t : CType (List Int × Nat) := .arrayVariable 2 (.int i32)
    Loaded t.handler ([0, 0], 0) ([1, 2], 0) ∧ serializeStruct t.handler ([1, 2], 0) (userOpts false 0 0) = some b!"[]" ∧
    Parses t.handler {} {} ([0, 0], 0) b!"[]" ⟨.noError, ([0, 0], 0), [], []⟩ :=
  ⟨Loaded.none.step (n := 100) (c := Ctx.onText {} {} b!"[1,2]") (by decide +kernel), by decide +kernel,
    parse_toks (v := .arr []) (CType.sem _) _ (by example_text) (by decide +kernel)⟩

/-- **C93** is false for an empty key: it is read, but written without quotes and colon. -/
theorem C93_false_empty_key :
    Loaded exMap.handler [] [([], 1)] ∧ serializeStruct exMap.handler [([], 1)] (userOpts false 0 0) = some b!"{1}" ∧
    Parses exMap.handler {} {} [] b!"{1}" ⟨.expectedDelimiter, [], [], []⟩ := by
  refine ⟨Loaded.none.step (n := 100) (c := Ctx.onText {} {} b!"{\"\":1}") (by decide +kernel), by decide +kernel,
    0, { (Ctx.onText {} {} b!"{1}").next.next with error := .expectedDelimiter }, fun n _ => ?_, by decide +kernel, by decide +kernel, rfl⟩
  have h1 : (Ctx.onText {} {} b!"{1}").next.error = .noError := by decide +kernel
  have h2 : (Ctx.onText {} {} b!"{1}").next.token.valueType = .objectStart := by decide +kernel
  have h3 : (Ctx.onText {} {} b!"{1}").next.next.error = .expectedDelimiter := by decide +kernel
  simp [parseTo, h1, h2, h3, exMap, CType.handler, mapH]

/-- **C93** is false for `std::vector<OneOrMany<int>>`: nothing is written for an empty element. -/
theorem C93_false_empty_element :
    let t : CType (List (List Int)) := .vector (.oneOrMany (.int i32))
    Loaded t.handler [] [[]] ∧ serializeStruct t.handler [[]] (userOpts false 0 0) = some b!"[]" ∧
    Parses t.handler {} {} [] b!"[]" ⟨.noError, [], [], []⟩ :=
  ⟨Loaded.none.step (n := 100) (c := Ctx.onText {} {} b!"[[]]") (by decide +kernel), by decide +kernel,
    parse_toks (v := .arr []) (CType.sem _) _ (by example_text) (by decide +kernel)⟩

/-- **C93** is false for `OneOrMany<std::vector<int>>`: one element is written without the outer brackets, and the inner ones are
taken for these. -/
theorem C93_false_one_array :
    let t : CType (List (List Int)) := .oneOrMany (.vector (.int i32))
    Loaded t.handler [] [[1]] ∧ serializeStruct t.handler [[1]] (userOpts false 0 0) = some b!"[1]" ∧
    Parses t.handler {} {} [] b!"[1]" ⟨.expectedArrayStart, [[]], [], []⟩ :=
  ⟨Loaded.none.step (n := 100) (c := Ctx.onText {} {} b!"[[1]]") (by decide +kernel), by decide +kernel,
    parse_toks (v := .arr [.num b!"1"]) (CType.sem _) _ (by example_text) (by decide +kernel)⟩

end JsonStruct
