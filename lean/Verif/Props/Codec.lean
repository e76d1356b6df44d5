import Verif.Lemmas.Codec
import Verif.Props.Own

/-
C89: what is written for a value of a type with handlers of users inside parses back to it, if these handlers read back what they write.
-/

namespace JsonStruct

theorem k_serialized_lines (t : KType T) (ht : t.Lawful) (v : T) (hv : t.Valid v) {j : JVal} (hj : t.enc v = some j)
    (pretty : Bool) (shift depth : Nat) (hd : depth + j.depth ≤ 255) :
    ∃ text, serializeStruct t.handler v (userOpts pretty shift depth) = some text ∧ Doc rfcBytes j text ∧
      Lines.LDoc rfcBytes false j text := by
  have hg := t.good ht v hv j hj
  obtain ⟨k, h1, _, _⟩ := t.writes ht v hv {} (Ser.onString (userOpts pretty shift depth) (startString []).length) (.inl rfl) rfl
  refine ⟨_, by simp only [serializeStruct, serializeWith, h1, Option.map_some]; rfl, ?_⟩
  have hw := written_text j hg pretty shift depth hd []
  have hw' := lwritten_text false j hg pretty shift depth hd []
  rw [hj]
  simp only [encToks]
  rw [writeAll_names (a := .string) (b := .ascii) rfl (.inl rfl) (.inr rfl)]
  exact ⟨hw, hw'⟩

/-- **C89**, for values whose text is an array or an object at most 255 levels deep: a type that is built of types of the library and of types with handlers of users, nested in
any way. If each of these handlers reads back what it writes (`Codec.Faithful`, part of `Lawful`), what `serializeStruct` returns for a value parses without error into any
fresh variable and leaves the value in it, whatever the style, the indentation and the options of the parser; no member is reported as missing. Missing as in C01: scalars at the
root, deeper values, and the values of the library's types that C01 leaves out. -/
theorem C89_round_trip_partial (t : KType T) (ht : t.Lawful) (v : T) (hv : t.Valid v) {j : JVal} (hj : t.enc v = some j)
    (hc : j.isContainer = true) (hd : j.depth ≤ 255) (pretty : Bool) (shift : Nat)
    (o : Opts) (p : POpts) (hp : p.allowUnassigned = true) (old : T) (ho : t.Fresh old) :
    ∃ text un, serializeStruct t.handler v (userOpts pretty shift 0) = some text ∧ Doc rfcBytes j text ∧
      Parses t.handler o p old text ⟨.noError, v, [], un⟩ := by
  obtain ⟨text, h1, h2, h3⟩ := k_serialized_lines t ht v hv hj pretty shift 0 (by omega)
  obtain ⟨un, hu⟩ := (t.roundTrips ht).some hj hv ho hp ([], .ascii)
  exact ⟨text, un, h1, h2, parse_toks (t.sem ht) p (delivers_written o hc h2 h3) hu⟩

/-- **C89** with strict options: if every member, in every struct, may be absent or is always written, nothing is reported at all. -/
theorem C89_strict_partial (t : KType T) (ht : t.Lawful) (hc : t.WritesRequired) (v : T) (hv : t.Valid v) {j : JVal} (hj : t.enc v = some j)
    (hcon : j.isContainer = true) (hd : j.depth ≤ 255) (pretty : Bool) (shift : Nat) (o : Opts) (p : POpts) (old : T) (ho : t.Fresh old) :
    ∃ text, serializeStruct t.handler v (userOpts pretty shift 0) = some text ∧ Doc rfcBytes j text ∧
      Parses t.handler o p old text ⟨.noError, v, [], []⟩ := by
  obtain ⟨text, h1, h2, h3⟩ := k_serialized_lines t ht v hv hj pretty shift 0 (by omega)
  obtain ⟨un, hu, hun⟩ := (t.roundTrips ht).full hj hv ho (.inr hc) ([], .ascii) (p := p)
  obtain rfl := hun hc
  exact ⟨text, h1, h2, parse_toks (t.sem ht) p (delivers_written o hcon h2 h3) hu⟩

/-! ### The handlers in the examples -/

/-- The handler in examples/01: a list with room for `N` elements, of which less than `N` are in use. -/
def moduleCodec (N : Nat) (t : OType M) (k : KType M) : Codec (List M × Nat) where
  handler := (moduleList N t).handler
  optional := false
  dec := fun p old i => if old.1.length = N then avcDec k.dec p old i else none
  enc := fun v => some (.arr ((v.1.take v.2).filterMap k.enc))
  valid := fun v => v.1.length = N ∧ (v.2 < N ∨ v.2 = 0) ∧ (∀ x ∈ v.1.take v.2, k.Valid x ∧ (k.enc x).isSome) ∧ ∀ x ∈ v.1.drop v.2, x = k.init
  fresh := fun x => x.1 = List.replicate N k.init ∧ (N = 0 → x.2 = 0)
  strict := k.WritesRequired

/-- **C89**: The handler in examples/01 reads back what it writes, if the list is not full and that of the elements does. -/
theorem C89_module_list (N : Nat) (t : OType M) (k : KType M) (h : t.handler = k.handler) (hk : k.Lawful) : (moduleCodec N t k).Faithful where
  fresh_init := ⟨by show List.replicate N t.handler.init = _; rw [h], fun _ => rfl⟩
  writes := fun v hv => by
    have : FromSem (putArray (putElems t.handler (v.1.take v.2))) fun n => encToks n (some (.arr ((v.1.take v.2).filterMap k.enc))) :=
      putArray_sem (putElems_sem fun y hy => h ▸ k.writes hk y (hv.2.2.1 y hy).1)
    exact this
  good := fun v hv j hj => by
    cases hj
    exact good_filterMap fun x hx => k.good hk x (hv.2.2.1 x hx).1
  reads := by
    intro _ c old i rest r hst hd
    simp only [moduleCodec] at hd
    split at hd
    · rename_i ho
      obtain ⟨n, c', h1, h2, h3⟩ := avc_sem N (k.sem hk) c old i rest r hst hd
      refine ⟨n + N, c', fun m hm => ?_, h2, h3⟩
      show (moduleList N t).handler.to m old c = _
      rw [module_avc N t (by omega) old ho c, h]
      exact h1 m (by omega)
    · cases hd
  back := fun v hv old hf p l hp => by
    have hlen : old.1.length = N := by rw [hf.1]; simp
    have := KType.roundTrips (.arrayVariable N k) hk v hv old hf p l hp
    simp only [KType.enc] at this
    simp only [moduleCodec, hlen, if_true]
    exact this

/-- The handler in examples/08 and examples/09: a vector of three elements. -/
def vec3Codec (t : OType M) (k : KType M) : Codec (List M) where
  handler := (vec3 t).handler
  optional := false
  dec := arrDec k.dec
  enc := fun v => some (.arr (v.filterMap k.enc))
  valid := fun v => v.length = 3 ∧ ∀ x ∈ v, k.Valid x ∧ (k.enc x).isSome
  fresh := fun x => x.length = 3 ∧ ∀ y ∈ x, k.Fresh y
  strict := k.WritesRequired

/-- **C89**: The handler in examples/08 and examples/09 reads back what it writes, if that of the elements does. -/
theorem C89_vec3 (t : OType M) (k : KType M) (h : t.handler = k.handler) (hk : k.Lawful) : (vec3Codec t k).Faithful where
  fresh_init := by
    have := KType.fresh_init (.array 3 k) hk
    have he : (vec3Codec t k).handler.init = (KType.array 3 k).init := by
      show List.replicate 3 t.handler.init = List.replicate 3 k.handler.init
      rw [h]
    rw [he]
    exact this
  writes := fun v hv => by
    have := KType.writes (.array 3 k) hk v hv
    show FromSem ((arrH 3 t.handler).from_ v) _
    rw [h]
    exact this
  good := fun v hv j hj => KType.good (.array 3 k) hk v hv j hj
  reads := by
    intro _ c old i rest r hst hd
    have ha : (arrH 3 t.handler).Sem (arrDec k.dec) := h ▸ arr_sem 3 (k.sem hk)
    refine (ha c old i rest r hst hd).congr fun n => ?_
    show OProg.run _ n c = _
    simp only [OProg.run, OType.handler]
    cases (arrH 3 t.handler).to n old c <;> rfl
  back := fun v hv old hf p l hp => KType.roundTrips (.array 3 k) hk v hv old hf p l hp

/-- The handler in the README. -/
def readmeCodec : Codec Int where
  handler := readmeUint.handler
  optional := false
  dec := intDec ⟨32, false⟩
  enc := fun v => (intFrom ⟨32, false⟩ v).map .num
  valid := fun v => (⟨32, false⟩ : IntTy).InRange v
  fresh := fun _ => True
  strict := True

/-- **C89**: The handler in the README reads back what it writes. -/
theorem C89_readme : readmeCodec.Faithful where
  fresh_init := trivial
  writes := fun v hv => intH_sem (by simp [IntTy.Supported]) hv
  good := fun v hv j hj => good_int (I := ⟨32, false⟩) (by simp [IntTy.Supported]) hv hj
  reads := by
    intro _ c old i rest r hst hd
    refine (int_sem ⟨32, false⟩ c old i rest r hst hd).congr fun n => ?_
    show OProg.run _ n c = _
    simp only [OProg.run]
    rfl
  back := fun v hv old _ p l hp =>
    (CType.int ⟨32, false⟩).roundTrips trivial v ⟨by simp [IntTy.Supported], hv⟩ old trivial p l (hp.imp_right fun _ => trivial)

/-! ### An example -/

/-- The types of the members of `exK`: `Vec3<int>` and a list of vectors of them. -/
def exVec : KType (List Int) := .own (vec3Codec (.lib (.int i32)) (.lib (.int i32)))

def exList : KType (List (List (List Int)) × Nat) := .own (moduleCodec 2 (.vector (vec3 (.lib (.int i32)))) (.vector exVec))

/-- `struct { uint32_t a; ModuleList vec; std::optional<Vec3<int>> d; }`. -/
def exK : KType (Int × (List (List (List Int)) × Nat) × Option (List Int)) :=
  .struct (0, ([[], []], 0), none) (.mk
    (.cons [b!"a"] (.own readmeCodec) (·.1) (fun x t => (x, t.2.1, t.2.2))
    (.cons [b!"vec"] exList (·.2.1) (fun x t => (t.1, x, t.2.2))
    (.cons [b!"d"] (.stdOptional exVec) (·.2.2) (fun x t => (t.1, t.2.1, x)) .nil))) .nil)

def exKValue : Int × (List (List (List Int)) × Nat) × Option (List Int) := (7, ([[[1, 2, 3]], []], 1), some [4, 5, 6])

theorem exVec_lawful : exVec.Lawful := by
  simp only [exVec, KType.Lawful]
  exact C89_vec3 _ _ rfl (by simp [KType.Lawful, CType.Lawful])

theorem exList_lawful : exList.Lawful := by
  simp only [exList, KType.Lawful]
  exact C89_module_list _ _ _ rfl (by simp only [KType.Lawful]; exact exVec_lawful)

theorem exK_lawful : exK.Lawful := by
  refine ⟨⟨?_, ?_, ?_, ?_, ?_⟩, ?_, ?_⟩
  · intro e he
    simp only [KStruct.entries, KMembers.entries, KSupers.entries, List.append_nil, List.mem_cons, List.not_mem_nil, or_false] at he
    rcases he with rfl | rfl | rfl
    · exact ⟨b!"a", rfl, by decide, by quotable⟩
    · exact ⟨b!"vec", rfl, by decide, by quotable⟩
    · exact ⟨b!"d", rfl, by decide, by quotable⟩
  · simp only [KStruct.entries, KMembers.entries, KSupers.entries]; decide +kernel
  · simp [KStruct.entries, KMembers.entries, KSupers.entries, Access.Apart, KEntry.access]
  · intro e he x t
    simp only [KStruct.entries, KMembers.entries, KSupers.entries, List.append_nil, List.mem_cons, List.not_mem_nil, or_false] at he
    rcases he with rfl | rfl | rfl <;> rfl
  · intro a b h
    simp [KStruct.entries, KMembers.entries, KSupers.entries] at h
    exact Prod.ext h.1 (Prod.ext h.2.1 h.2.2)
  · exact ⟨⟨trivial, ⟨rfl, fun h => by cases h⟩, rfl, trivial⟩, trivial⟩
  · simp only [KStruct.Lawful, KMembers.Lawful, KSupers.Lawful, KType.Lawful, and_true]
    exact ⟨C89_readme, exList_lawful, exVec_lawful⟩

theorem exVec_valid (l : List Int) (h : l.length = 3) (hl : ∀ x ∈ l, -9 ≤ x ∧ x ≤ 9) : exVec.Valid l := by
  refine ⟨h, fun x hx => ?_⟩
  have hv : (CType.int i32).Valid x :=
    ⟨by simp [IntTy.Supported, i32], by have := hl x hx; simp [IntTy.InRange, IntTy.min, IntTy.max, i32]; omega⟩
  refine ⟨hv, ?_⟩
  obtain ⟨txt, h1, _⟩ := intDec_enc hv.1 hv.2 {} 0 ([], .ascii)
  show ((intFrom i32 x).map JVal.num).isSome = true
  simp [h1]

theorem exK_valid : exK.Valid exKValue := by
  have h123 := exVec_valid [1, 2, 3] rfl (by decide)
  have h456 := exVec_valid [4, 5, 6] rfl (by decide)
  refine ⟨⟨?_, ⟨rfl, .inl (by decide), ?_, ?_⟩, ?_, trivial⟩, trivial⟩
  · show (⟨32, false⟩ : IntTy).InRange 7
    simp [IntTy.InRange, IntTy.min, IntTy.max]
  · intro x hx
    obtain rfl : x = [[1, 2, 3]] := by simpa [exKValue] using hx
    refine ⟨?_, rfl⟩
    simp only [KType.Valid, List.mem_cons, List.not_mem_nil, or_false, forall_eq]
    exact ⟨h123, rfl⟩
  · intro x hx
    obtain rfl : x = [] := by simpa [exKValue] using hx
    rfl
  · show ∀ x, some [4, 5, 6] = some x → _
    rintro x ⟨⟩
    exact ⟨h456, rfl⟩

/-- The hypotheses are met, and this is the text. -/
example : exK.Lawful ∧ exK.Valid exKValue ∧ exK.Fresh exK.init ∧
    (∃ j, exK.enc exKValue = some j ∧ j.isContainer = true ∧ j.depth ≤ 255) ∧
    serializeStruct exK.handler exKValue (userOpts false 0 0) = some b!"{\"a\":7,\"vec\":[[[1,2,3]]],\"d\":[4,5,6]}" :=
  ⟨exK_lawful, exK_valid, exK.fresh_init exK_lawful, ⟨_, rfl, rfl, by decide +kernel⟩, by decide +kernel⟩

/-- **C89** cannot do without the condition on the handlers: that in examples/01 does not read back a full list. Two numbers are written, and read back as a list
of none. -/
theorem C89_false_full :
    serializeStruct (moduleList 2 (.lib (.int i32))).handler ([5, 6], 2) (userOpts false 0 0) = some b!"[5,6]" ∧
    outcome (parseTo (moduleList 2 (.lib (.int i32))).handler 40 ([0, 0], 0) (Ctx.onText {} {} b!"[5,6]")) = some (.noError, ([5, 6], 0), [], []) := by
  decide +kernel

end JsonStruct
