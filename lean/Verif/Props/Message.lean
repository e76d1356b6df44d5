import Verif.Model.Message
import Verif.Props.Struct

/-
C71: the message after a failed `parseTo` names the members at fault.
-/

namespace JsonStruct

/-! ### Specification -/

/-- What a user expects to read about one name, or about several. -/
def namesText (one many : Bytes) (ns : List Bytes) : Bytes :=
  if ns.length = 1 then one ++ ns.flatten else many ++ (ns.intersperse b!", ").flatten

/-- The text about members of the object no member of the struct has. -/
def unknownText (ns : List Bytes) : Bytes :=
  namesText b!"JSON Object contained member not found in C++ struct/class. JSON Object member is: "
    b!"JSON Object contained members not found in C++ struct/class. JSON Object members are: " ns

/-- The text about required members of the struct the object does not have. -/
def unassignedText (ns : List Bytes) : Bytes :=
  namesText b!"C++ struct/class has a required member that is not present in input JSON. The unassigned C++ member is: "
    b!"C++ struct/class has required members that are not present in the input JSON. The unassigned C++ members are: " ns

theorem joinNames_eq : ∀ ns : List Bytes, joinNames ns = (ns.intersperse b!", ").flatten
  | [] => rfl
  | [n] => by simp [joinNames]
  | n :: m :: ns => by
    have := joinNames_eq (m :: ns)
    simp only [joinNames, List.flatMap_cons] at this ⊢
    simp [← this]

theorem message_unknown {ns : List Bytes} (h : ns ≠ []) (u : List Bytes) (x : ErrCtx) :
    parseMessage .missingPropertyMember ns u x = unknownText ns := by
  match ns with
  | [n] => simp [parseMessage, unknownText, namesText]
  | n :: m :: ns => simp [parseMessage, unknownText, namesText, joinNames_eq]

theorem message_unassigned {ns : List Bytes} (h : ns ≠ []) (m : List Bytes) (x : ErrCtx) :
    parseMessage .unassignedRequiredMember m ns x = unassignedText ns := by
  match ns with
  | [n] => simp [parseMessage, unassignedText, namesText]
  | n :: m :: ns => simp [parseMessage, unassignedText, namesText, joinNames_eq]

/-! ### Theorems -/

/-- **C71**, unknown members are forbidden: after the failed call the message names the first member of the object no
member of the struct has, whatever the error context of the tokenizer is. Missing: contexts that do not track member
names, objects inside of the object, and contexts used before; see the witnesses. -/
theorem C71_unknown_partial (init : T) (s : CStruct T) {o : Opts} (hn : o.newLines = false) (p : POpts) (hp : p.track = true)
    {ms : List (Bytes × JVal)} {t : Bytes} (ht : Doc (lenient o) (.obj ms) t) (hr : ReadsClean s p ms)
    (ha : p.allowMissing = false) {n : Bytes} {ns : List Bytes} (hu : unknownNames s ms = n :: ns) (old : T) :
    ∃ r, Parses (CType.struct init s).handler o p old t r ∧ r.err = .missingPropertyMember ∧
      ∀ x, parseMessage r.err r.missing r.unassigned x = unknownText [n] := by
  obtain ⟨r, h1, h2, h3, h4⟩ := C19_unknown_rejected_partial init s hn p ht hr ha hu old
  refine ⟨r, h1, h2, fun x => ?_⟩
  rw [h2, h3, hp]
  exact message_unknown (by simp) _ x

/-- **C71**, unassigned members are forbidden: after the failed call the message names all the required members of the
struct the object does not mention, in the order in which they are checked (the last one of `JS_OBJECT` first), and no
other. Missing: as above. -/
theorem C71_unassigned_partial (init : T) (s : CStruct T) {o : Opts} (hn : o.newLines = false) (p : POpts) (hp : p.track = true)
    {ms : List (Bytes × JVal)} {t : Bytes} (ht : Doc (lenient o) (.obj ms) t) (hr : ReadsClean s p ms)
    (ha : p.allowMissing = true ∨ unknownNames s ms = []) (hu : p.allowUnassigned = false)
    (hd : (s.specs []).Pairwise fun a b => ∀ n, n ∈ a.names → n ∉ b.names)
    (hne : ∃ m ∈ s.specs [], m.optional = false ∧ ∀ e ∈ ms, e.1 ∉ m.names) (old : T) :
    ∃ r, Parses (CType.struct init s).handler o p old t r ∧ r.err = .unassignedRequiredMember ∧
      ∀ x, parseMessage r.err r.missing r.unassigned x = unassignedText
        (((s.specs []).filter fun m => !m.optional && !(ms.any fun e => m.names.contains e.1)).map (·.qname)) := by
  obtain ⟨r, h1, h2, h3, h4⟩ := C19_reports_exact_partial init s hn p ht hr ha old
  rw [hp, if_pos rfl, C19_unassigned_spec s ms hd] at h3
  have hne' : ((s.specs []).filter fun m => !m.optional && !(ms.any fun e => m.names.contains e.1)).map (·.qname) ≠ [] := by
    obtain ⟨m, hm, h5, h6⟩ := hne
    intro h
    rw [List.map_eq_nil_iff, List.filter_eq_nil_iff] at h
    have := h m hm
    simp only [h5, Bool.not_false, Bool.true_and, Bool.not_eq_true, Bool.not_eq_false', List.any_eq_true, List.contains_iff_mem] at this
    obtain ⟨e, he, he'⟩ := this
    exact h6 e he he'
  have he : r.err = .unassignedRequiredMember := by
    rw [h4, if_pos ⟨hu, by rw [C19_unassigned_spec s ms hd]; exact hne'⟩]
  refine ⟨r, h1, he, fun x => ?_⟩
  rw [he, h3]
  exact message_unassigned hne' _ x

/-- **C71**, all other errors: if the error context of the tokenizer is the one of the error returned or of none when the
type handler returns, the message of the context `parseTo` leaves starts with the name of the error returned. -/
theorem C71_names_the_error_partial (t : Tz) (cfg : ErrCfg) (e : Err) (missing unassigned : List Bytes) (x x' : ErrCtx)
    (he : e ≠ .noError ∧ e ≠ .missingPropertyMember ∧ e ≠ .unassignedRequiredMember ∧ e ≠ .userDefinedErrors)
    (hx : x.error = .noError ∨ x.error = e) (hp : t.parsed = none) (h : t.parseToErr cfg e x = some x') :
    ∃ rest, parseMessage e missing unassigned x' = b!"Error " ++ errorString e ++ rest := by
  have hrep : ∀ d c y y', reportAt cfg d c y = some y' → y'.error = y.error := by
    intro d c y y' h
    simp only [reportAt] at h
    split at h
    · cases h
    · simp only [Option.bind_eq_bind, Option.bind_eq_some_iff] at h
      obtain ⟨s, -, l, -, h⟩ := h
      split at h
      · simp only [Option.bind_eq_some_iff, Option.some.injEq] at h
        obtain ⟨_, -, rfl⟩ := h
        rfl
      · split at h
        · cases h
        · simp only [Option.bind_eq_some_iff, Option.some.injEq] at h
          obtain ⟨_, -, rfl⟩ := h
          rfl
  have hx' : x'.error = e := by
    simp only [Tz.parseToErr, Tz.updateErrorContext, hp] at h
    split at h
    · cases hb : t.bufs with
      | nil => simp only [hb, Option.some.injEq] at h; rw [← h]
      | cons b rest => simp only [hb] at h; exact hrep _ _ _ _ h
    · rename_i hc
      cases h
      rcases hx with hx | hx
      · exact absurd ⟨he.1, hx⟩ hc
      · exact hx
  refine ⟨(if x'.custom.length ≠ 0 then b!" " ++ x'.custom else []) ++ b!":\n" ++ messageLines x' 0 x'.lines, ?_⟩
  simp only [parseMessage, if_neg he.2.1, if_neg he.2.2.1, hx', if_neg (fun h : e = .noError ∧ _ => he.1 h.1), ErrCtx.message, if_pos he.2.2.2]
  simp

/-- The hypotheses are met: for the struct of the C19 examples and `{"u":1,"b":2,"w":3}`, unknown members are forbidden;
for `{"u":1}`, they are allowed. -/
example : unknownNames exS [(b!"u", .num b!"1"), (b!"b", .num b!"2"), (b!"w", .num b!"3")] = [b!"u", b!"w"] ∧
    (∃ m ∈ exS.specs [], m.optional = false ∧ ∀ e ∈ [(b!"u", JVal.num b!"1")], e.1 ∉ m.names) ∧
    ((exS.specs []).Pairwise fun a b => ∀ n, n ∈ a.names → n ∉ b.names) ∧
    unassignedText (((exS.specs []).filter fun m => !m.optional && !([(b!"u", JVal.num b!"1")].any fun e => m.names.contains e.1)).map (·.qname)) =
      b!"C++ struct/class has required members that are not present in the input JSON. The unassigned C++ members are: b, a" := by
  refine ⟨by decide +kernel, ?_, ?_, by decide +kernel⟩ <;>
    simp [exS, CStruct.specs, CMembers.specs, CSupers.specs, CType.isOptional]

/-- The same for the last theorem: an `int` was expected where the tokenizer stands in `["x"]`. -/
example : (Tz.parseToErr { (Tz.new {}).addData b!"[\"x\"]" with cursor := 4 } {} .failedToParseInt {}).map (parseMessage .failedToParseInt [] []) =
    some b!"Error FailedToParseInt:\n[\"x\"]\n    ^\n" := by decide +kernel

/-! ### Where it is false -/

/-- **C71** is false if the context does not track member names: the message is empty. -/
theorem C71_false_untracked : ∃ r, Parses (CType.struct (0, 0, 0) exS).handler {} { allowMissing := false, track := false } (0, 0, 0)
      b!"{\"u\":1}" r ∧ r.err = .missingPropertyMember ∧ ∀ x, parseMessage r.err r.missing r.unassigned x = [] := by
  refine ⟨_, parse_toks (v := .obj [(b!"u", .num b!"1")]) (CType.struct _ exS).sem _ (by example_text)
    (r := ⟨.missingPropertyMember, (0, 0, 0), [], []⟩) (by decide +kernel), rfl, fun x => rfl⟩

/-- **C71** is false if the unknown member is in an object inside of the object: the error is another one, and the
message shows the place but does not name the member. -/
theorem C71_false_nested : ∃ r, Parses (CType.struct (0, 0, 0) exN).handler {} { allowMissing := false } (0, 0, 0)
      b!"{\"p\":{\"u\":1}}" r ∧ r.err = .unknownPropertyMember ∧ r.missing = [b!"u"] ∧
      parseMessage r.err r.missing r.unassigned { error := r.err } = b!"Error UnknownPropertyMember:\n" := by
  refine ⟨_, parse_toks (v := .obj [(b!"p", .obj [(b!"u", .num b!"1")])]) (CType.struct _ exN).sem _ (by example_text)
    (r := ⟨.unknownPropertyMember, (0, 0, 0), [b!"u"], []⟩) (by decide +kernel), rfl, rfl, by decide +kernel⟩

/-- **C71** is false for a context used before: the second object lacks only the member "b", and the message also names
the members the first one lacked. -/
theorem C71_false_used_before :
    let h := (CType.struct (0, 0, 0) exS).handler
    ∃ c c', (parseTo h 60 (0, 0, 0) (Ctx.onText {} { allowUnassigned := false } b!"{}{\"a\":1}")).map (fun r => (r.1, r.2.2)) = some (.unassignedRequiredMember, c) ∧
      (parseTo h 60 (0, 0, 0) c).map (fun r => (r.1, r.2.2)) = some (.unassignedRequiredMember, c') ∧
      ∀ x, parseMessage c'.error c'.missing c'.unassigned x = unassignedText [b!"b", b!"a", b!"b"] := by
  have h1 : (((parseTo (CType.struct (0, 0, 0) exS).handler 60 (0, 0, 0) (Ctx.onText {} { allowUnassigned := false } b!"{}{\"a\":1}")).bind
      fun r => (parseTo (CType.struct (0, 0, 0) exS).handler 60 (0, 0, 0) r.2.2).map fun q => (r.1, q)).map
        fun r => (r.1, r.2.1, r.2.2.2.error, r.2.2.2.unassigned))
        = some (.unassignedRequiredMember, .unassignedRequiredMember, .unassignedRequiredMember, [b!"b", b!"a", b!"b"]) := by decide +kernel
  simp only [Option.map_eq_some_iff, Option.bind_eq_some_iff] at h1
  obtain ⟨_, ⟨r, e1, q, e2, rfl⟩, e3⟩ := h1
  simp only [Prod.mk.injEq] at e3
  obtain ⟨e3, e4, e5, e6⟩ := e3
  refine ⟨r.2.2, q.2.2, by rw [e1, Option.map_some, e3], by rw [e2, Option.map_some, e4], fun x => ?_⟩
  rw [e5, e6]
  exact message_unassigned (by simp) _ x

end JsonStruct
