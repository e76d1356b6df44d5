import Verif.Lemmas.Access
import Verif.Lemmas.Parse

/-
Parsing an object into a struct: C18 to C21. The struct is any that can be described with `JS_OBJECT` and
`JS_OBJECT_WITH_SUPER` from the types of `Model/Types.lean`; the text is any that represents the object.

Each theorem assumes that the decoder of the struct is defined on the object (`= some r`): no `std::string` member, or
string inside a member, is given an array or an object. Where one is, the library reads the bracket as a string and
goes on inside the value; see `C52_false_wrong_shape_accepted` and `C20_false_strings_swallow`.
-/

namespace JsonStruct

/-- What a handler finds at the beginning of a text. -/
abbrev JVal.root (v : JVal) : Item := .val ([], .ascii) v

theorem struct_dec_ok {init : T} {s : CStruct T} {p : POpts} {ms : List (Bytes × JVal)} {old : T} {q : Res T} {l : Lbl}
    (hq : membersDec (s.specs []) p old ms = some q) (he : q.err = .noError) :
    (CType.struct init s).dec p old (.val l (.obj ms)) =
      some ⟨if unassignedNames (s.specs []) ms = [] ∨ p.allowUnassigned = true then .noError else .unassignedRequiredMember,
        q.val, q.missing, q.unassigned ++ if p.track then unassignedNames (s.specs []) ms else []⟩ := by
  simp only [CType.dec, structDec, objectDec, hq, Option.bind_eq_bind, Option.bind_some]
  rw [Res.andThen_ok he]
  simp

theorem struct_dec_err {init : T} {s : CStruct T} {p : POpts} {ms : List (Bytes × JVal)} {old : T} {q : Res T} {l : Lbl}
    (hq : membersDec (s.specs []) p old ms = some q) (he : q.err ≠ .noError) :
    (CType.struct init s).dec p old (.val l (.obj ms)) = some q := by
  simp only [CType.dec, structDec, objectDec, hq, Option.bind_eq_bind, Option.bind_some]
  rw [Res.andThen_err he]
  rfl

theorem struct_dec_inv {init : T} {s : CStruct T} {p : POpts} {ms : List (Bytes × JVal)} {old : T} {r : Res T} {l : Lbl}
    (hr : (CType.struct init s).dec p old (.val l (.obj ms)) = some r) :
    (∃ q, membersDec (s.specs []) p old ms = some q ∧ q.err = .noError ∧
      r = ⟨if unassignedNames (s.specs []) ms = [] ∨ p.allowUnassigned = true then .noError else .unassignedRequiredMember,
        q.val, q.missing, q.unassigned ++ if p.track then unassignedNames (s.specs []) ms else []⟩) ∨
    (r.err ≠ .noError ∧ membersDec (s.specs []) p old ms = some r) := by
  cases hq : membersDec (s.specs []) p old ms with
  | none => simp [CType.dec, structDec, objectDec, hq] at hr
  | some q =>
    by_cases he : q.err = .noError
    · rw [struct_dec_ok hq he] at hr
      cases hr
      exact .inl ⟨q, rfl, he, rfl⟩
    · rw [struct_dec_err hq he] at hr
      cases hr
      exact .inr ⟨he, rfl⟩

/-- The last member of an object is stored in the member it means. -/
theorem stored (init : T) (s : CStruct T) {o : Opts} (hn : o.newLines = false) (p : POpts)
    {ms : List (Bytes × JVal)} {n : Bytes} {v : JVal} {t : Bytes} (ht : Doc (lenient o) (.obj (ms ++ [(n, v)])) t)
    {m : MemberSpec T} (hm : (resolve (s.specs []) n).bind ((s.specs [])[·]?) = some m)
    {old : T} {r q : Res T} (hr : membersDec (s.specs []) p old ms = some r) (he : r.err = .noError)
    (hq : m.dec p r.val (.val (n, .string) v) = some q) :
    ∃ r', Parses (CType.struct init s).handler o p old t r' ∧ r'.val = q.val ∧ (q.err ≠ .noError → r'.err = q.nested.err) := by
  have h1 : membersDec (s.specs []) p r.val [(n, v)] = some q.nested := by
    rw [membersDec, hm]
    simp only [hq, Option.bind_eq_bind, Option.bind_some]
    by_cases hqe : q.nested.err = .noError
    · rw [Res.andThen_ok hqe]; simp [membersDec, ← hqe]
    · rw [Res.andThen_err hqe]; rfl
  have h2 : membersDec (s.specs []) p old (ms ++ [(n, v)]) =
      some ⟨q.nested.err, q.val, r.missing ++ q.missing, r.unassigned ++ q.unassigned⟩ := by
    rw [membersDec_append, hr, Option.bind_some, Res.andThen_ok he, h1]; rfl
  by_cases hqe : q.err = .noError
  · exact ⟨_, parse_doc (CType.struct init s).sem hn p rfl ht (struct_dec_ok h2 (by simp [Res.nested, hqe])), rfl, fun h => absurd hqe h⟩
  · refine ⟨_, parse_doc (CType.struct init s).sem hn p rfl ht (struct_dec_err h2 ?_), rfl, fun _ => rfl⟩
    simp only [Res.nested]; split <;> simp_all

/-- The struct members (by position) the members of an object mean. -/
def meant (s : CStruct T) (ms : List (Bytes × JVal)) : List Nat := ms.filterMap fun m => resolve (s.specs []) m.1

/-! ### A struct for the examples -/

/-- `int`. -/
def i32 : IntTy := ⟨32, true⟩

/-- `struct P { int a; int b; Optional<int> c; JS_OBJECT(JS_MEMBER_WITH_NAME_AND_ALIASES(a, "a", "x"), JS_MEMBER(b),
JS_MEMBER(c)) };` -/
def exS : CStruct (Int × Int × Int) :=
  .mk (.cons [b!"a", b!"x"] (.int i32) (·.1) (fun x t => (x, t.2.1, t.2.2))
    (.cons [b!"b"] (.int i32) (·.2.1) (fun x t => (t.1, x, t.2.2))
    (.cons [b!"c"] (.optional (.int i32)) (·.2.2) (fun x t => (t.1, t.2.1, x)) .nil))) .nil

theorem exS_disjoint : exS.Disjoint := by
  simp [CStruct.Disjoint, exS, CStruct.accesses, CMembers.accesses, CSupers.accesses, Access.Apart]

/-- An example text has the tokens of an example value. -/
macro "example_text" : tactic => `(tactic| exact delivers_of_collect (n := 60) (next := {}) (by decide +kernel))

/-! ### C18 -/

/-- **C18**, for objects whose members mean different members of the struct: if one order is parsed without error,
every order is, and leaves the same struct. Missing: objects naming a struct member both by name and by alias, for
which it is false. -/
theorem C18_member_order_partial (init : T) (s : CStruct T) (hs : s.Disjoint) {o : Opts} (hn : o.newLines = false) (p : POpts)
    {ms ms' : List (Bytes × JVal)} (hp : ms.Perm ms') (hd : (meant s ms).Nodup)
    {t t' : Bytes} (ht : Doc (lenient o) (.obj ms) t) (ht' : Doc (lenient o) (.obj ms') t')
    {old : T} {r : Res T} (hr : (CType.struct init s).dec p old (JVal.obj ms).root = some r) (he : r.err = .noError) :
    Parses (CType.struct init s).handler o p old t r ∧
    ∃ r', Parses (CType.struct init s).handler o p old t' r' ∧ r'.err = .noError ∧ r'.val = r.val ∧
      r'.missing.Perm r.missing ∧ r'.unassigned.Perm r.unassigned := by
  refine ⟨parse_doc (CType.struct init s).sem hn p rfl ht hr, ?_⟩
  rcases struct_dec_inv hr with ⟨q, hq, hqe, rfl⟩ | ⟨h1, h2⟩
  · dsimp only at he
    obtain ⟨q', g1, g2, g3, g4, g5⟩ := membersDec_perm (CStruct.apart hs []) hp hd old q hq hqe
    refine ⟨_, parse_doc (CType.struct init s).sem hn p rfl ht' (struct_dec_ok g1 g2), ?_, g3, g4, ?_⟩
    · dsimp only; rw [← unassignedNames_perm _ hp]; exact he
    · dsimp only
      rw [unassignedNames_perm _ hp]
      exact g5.append_right _
  · exact absurd he h1

/-- The hypotheses are met by `{"c":3,"x":1,"u":null}`. -/
example : exS.Disjoint ∧ (meant exS [(b!"c", .num b!"3"), (b!"x", .num b!"1"), (b!"u", .null)]).Nodup ∧
    (CType.struct (0, 0, 0) exS).dec {} (7, 7, 7) (JVal.obj [(b!"c", .num b!"3"), (b!"x", .num b!"1"), (b!"u", .null)]).root =
      some ⟨.noError, (1, 7, 3), [b!"u"], [b!"b"]⟩ :=
  ⟨exS_disjoint, by decide +kernel, by decide +kernel⟩

/-- **C18** is false if an object names a member both by its name and by its alias, although the two names differ:
`{"a":1,"x":2}` and `{"x":2,"a":1}`. -/
theorem C18_false_for_aliases :
    (∃ r, Parses (CType.struct (0, 0, 0) exS).handler {} {} (0, 0, 0) b!"{\"a\":1,\"x\":2}" r ∧ r.err = .noError ∧ r.val = (2, 0, 0)) ∧
    (∃ r, Parses (CType.struct (0, 0, 0) exS).handler {} {} (0, 0, 0) b!"{\"x\":2,\"a\":1}" r ∧ r.err = .noError ∧ r.val = (1, 0, 0)) := by
  constructor
  · refine ⟨_, parse_toks (v := .obj [(b!"a", .num b!"1"), (b!"x", .num b!"2")]) (CType.struct _ exS).sem _ (by example_text)
      (r := ⟨.noError, (2, 0, 0), [], [b!"b"]⟩) (by decide +kernel), rfl, rfl⟩
  · refine ⟨_, parse_toks (v := .obj [(b!"x", .num b!"2"), (b!"a", .num b!"1")]) (CType.struct _ exS).sem _ (by example_text)
      (r := ⟨.noError, (1, 0, 0), [], [b!"b"]⟩) (by decide +kernel), rfl, rfl⟩

/-! ### C19 -/

/-- The names of the members of an object that no member of the struct has. -/
def unknownNames (s : CStruct T) (ms : List (Bytes × JVal)) : List Bytes :=
  (ms.map (·.1)).filter fun n => !hasMember (s.specs []) n

/-- The members the struct knows are read without error and report nothing themselves (nested structs do report
their own missing and unassigned members). -/
def ReadsClean (s : CStruct T) (p : POpts) (ms : List (Bytes × JVal)) : Prop :=
  ReadsAll (s.specs []) p (fun _ _ => ([], [])) ms

theorem reported_clean (s : CStruct T) (p : POpts) (ms : List (Bytes × JVal)) :
    reported (s.specs []) p (fun _ _ => ([], [])) ms = (if p.track then unknownNames s ms else [], []) := by
  simp only [reported, unknownNames]
  induction ms with
  | nil => simp
  | cons m ms ih =>
    simp only [Prod.mk.injEq] at ih ⊢
    simp only [List.flatMap_cons, ih.1, ih.2, List.map_cons, List.filter_cons]
    cases hasMember (s.specs []) m.1 <;> cases p.track <;> simp

/-- **C19**, unknown members are allowed or there are none. The reports are exact: `missing_members` are the names no
struct member has; `unassigned_required_members` are the required members the object does not mention; the call fails,
with `UnassignedRequiredMember`, exactly if there are such members and the option forbids it. -/
theorem C19_reports_exact_partial (init : T) (s : CStruct T) {o : Opts} (hn : o.newLines = false) (p : POpts)
    {ms : List (Bytes × JVal)} {t : Bytes} (ht : Doc (lenient o) (.obj ms) t) (hr : ReadsClean s p ms)
    (ha : p.allowMissing = true ∨ unknownNames s ms = []) (old : T) :
    ∃ r, Parses (CType.struct init s).handler o p old t r ∧
      r.missing = (if p.track then unknownNames s ms else []) ∧
      r.unassigned = (if p.track then unassignedNames (s.specs []) ms else []) ∧
      r.err = (if p.allowUnassigned = false ∧ unassignedNames (s.specs []) ms ≠ [] then .unassignedRequiredMember else .noError) := by
  have ha' : p.allowMissing = true ∨ ∀ m ∈ ms, hasMember (s.specs []) m.1 = true := by
    refine ha.imp_right fun h m hm => ?_
    simp only [unknownNames, List.filter_eq_nil_iff, List.mem_map] at h
    have := h m.1 ⟨m, hm, rfl⟩
    simpa using this
  obtain ⟨x, hx⟩ := membersDec_reports hr ha' old
  refine ⟨_, parse_doc (CType.struct init s).sem hn p rfl ht (struct_dec_ok hx rfl), ?_, ?_, ?_⟩
  · simp [reported_clean]
  · simp [reported_clean]
  · cases p.allowUnassigned <;> simp

/-- **C19**, unknown members are forbidden and there is one: the call fails with `MissingPropertyMember` at the first
of them, and this one is what `missing_members` holds. -/
theorem C19_unknown_rejected_partial (init : T) (s : CStruct T) {o : Opts} (hn : o.newLines = false) (p : POpts)
    {ms : List (Bytes × JVal)} {t : Bytes} (ht : Doc (lenient o) (.obj ms) t) (hr : ReadsClean s p ms)
    (ha : p.allowMissing = false) {n : Bytes} {ns : List Bytes} (hu : unknownNames s ms = n :: ns) (old : T) :
    ∃ r, Parses (CType.struct init s).handler o p old t r ∧ r.err = .missingPropertyMember ∧
      r.missing = (if p.track then [n] else []) ∧ r.unassigned = [] := by
  obtain ⟨a, v, b, rfl, h1, h2⟩ : ∃ a v b, ms = a ++ (n, v) :: b ∧ (∀ m ∈ a, hasMember (s.specs []) m.1 = true) ∧ hasMember (s.specs []) n = false := by
    clear ht hr
    induction ms with
    | nil => simp [unknownNames] at hu
    | cons m ms ih =>
      cases hm : hasMember (s.specs []) m.1 with
      | true =>
        obtain ⟨a, v, b, rfl, h1, h2⟩ := ih (by simpa [unknownNames, List.filter_cons, hm] using hu)
        exact ⟨m :: a, v, b, rfl, by simpa [hm] using h1, h2⟩
      | false =>
        simp only [unknownNames, List.map_cons, List.filter_cons, hm, Bool.not_false, if_true, List.cons.injEq] at hu
        exact ⟨[], m.2, ms, by simp [← hu.1], by simp, by rw [← hu.1]; exact hm⟩
  obtain ⟨x, hx⟩ := membersDec_unknown (b := b) (v := v) (fun n v h => hr n v (by simp [h])) ha h1 h2 old
  refine ⟨_, parse_doc (CType.struct init s).sem hn p rfl ht (struct_dec_err hx (by simp)), rfl, ?_, ?_⟩
  · have : unknownNames s a = [] := by
      simp only [unknownNames, List.filter_eq_nil_iff, List.mem_map]
      rintro n ⟨m, hm, rfl⟩
      simp [h1 m hm]
    simp [reported_clean, this]
  · simp [reported_clean]

/-- **C19** with members that make reports of their own, as nested structs do: these are listed where the member stands,
the unassigned members of the struct itself behind all others. -/
theorem C19_nested_reports_partial (init : T) (s : CStruct T) {o : Opts} (hn : o.newLines = false) (p : POpts) (ha : p.allowMissing = true)
    {ms : List (Bytes × JVal)} {t : Bytes} (ht : Doc (lenient o) (.obj ms) t) (rep : Bytes → JVal → List Bytes × List Bytes)
    (hr : ReadsAll (s.specs []) p rep ms) (old : T) :
    ∃ r, Parses (CType.struct init s).handler o p old t r ∧
      r.missing = (ms.flatMap fun m => if hasMember (s.specs []) m.1 then (rep m.1 m.2).1 else if p.track then [m.1] else []) ∧
      r.unassigned = (ms.flatMap fun m => if hasMember (s.specs []) m.1 then (rep m.1 m.2).2 else []) ++
        (if p.track then unassignedNames (s.specs []) ms else []) ∧
      r.err = (if p.allowUnassigned = false ∧ unassignedNames (s.specs []) ms ≠ [] then .unassignedRequiredMember else .noError) := by
  obtain ⟨x, hx⟩ := membersDec_reports hr (.inl ha) old
  refine ⟨_, parse_doc (CType.struct init s).sem hn p rfl ht (struct_dec_ok hx rfl), rfl, rfl, ?_⟩
  cases p.allowUnassigned <;> simp

/-- A struct with a struct as a member: `{"p":{"z":0,"b":1}}` reports "z" and "a". -/
def exN : CStruct (Int × Int × Int) := .mk (.cons [b!"p"] (.struct (0, 0, 0) exS) id (fun x _ => x) .nil) .nil

example : ReadsAll (exN.specs []) {} (fun _ _ => ([b!"z"], [b!"a"])) [(b!"p", .obj [(b!"z", .num b!"0"), (b!"b", .num b!"1")])] := by
  intro n v hm m hr old
  simp only [List.mem_cons, Prod.mk.injEq, List.not_mem_nil, or_false] at hm
  obtain ⟨rfl, rfl⟩ := hm
  have : resolve (exN.specs []) b!"p" = some 0 := by decide +kernel
  rw [this] at hr
  cases hr
  exact ⟨_, rfl⟩

/-- Reading members one after the other without error: the struct before, the members, the struct behind them, and the
names reported as missing and as unassigned on the way. A member the struct knows is read by its own handler, and its
reports (those of nested structs) are taken over; any other is passed over, and reported under its name, if this is
allowed. -/
inductive ReadsTo (s : CStruct T) (p : POpts) : T → List (Bytes × JVal) → T → List Bytes → List Bytes → Prop
  | nil (x : T) : ReadsTo s p x [] x [] []
  | known {x y : T} {n : Bytes} {v : JVal} {ms : List (Bytes × JVal)} {m : MemberSpec T} {q : Res T} {mis un : List Bytes}
      (hm : (resolve (s.specs []) n).bind ((s.specs [])[·]?) = some m) (hq : m.dec p x (.val (n, .string) v) = some q)
      (he : q.err = .noError) (h : ReadsTo s p q.val ms y mis un) :
      ReadsTo s p x ((n, v) :: ms) y (q.missing ++ mis) (q.unassigned ++ un)
  | unknown {x y : T} {n : Bytes} {v : JVal} {ms : List (Bytes × JVal)} {mis un : List Bytes}
      (hu : hasMember (s.specs []) n = false) (ha : p.allowMissing = true) (h : ReadsTo s p x ms y mis un) :
      ReadsTo s p x ((n, v) :: ms) y ((if p.track then [n] else []) ++ mis) un

theorem nested_noError {q : Res T} (h : q.nested.err = .noError) : q.err = .noError := by
  simp only [Res.nested] at h
  split at h <;> simp_all

theorem membersDec_cases (s : CStruct T) (p : POpts) (ms : List (Bytes × JVal)) (old : T) (r : Res T)
    (hr : membersDec (s.specs []) p old ms = some r) :
    (r.err = .noError ∧ ReadsTo s p old ms r.val r.missing r.unassigned) ∨
    (r.err ≠ .noError ∧ ∃ a n v b x mis un, ms = a ++ (n, v) :: b ∧ ReadsTo s p old a x mis un ∧
      ((hasMember (s.specs []) n = false ∧ p.allowMissing = false ∧
          r = ⟨.missingPropertyMember, x, mis ++ (if p.track then [n] else []), un⟩) ∨
        ∃ m q, (resolve (s.specs []) n).bind ((s.specs [])[·]?) = some m ∧ m.dec p x (.val (n, .string) v) = some q ∧
          q.err ≠ .noError ∧ r = ⟨q.nested.err, q.val, mis ++ q.missing, un ++ q.unassigned⟩)) := by
  induction ms generalizing old r with
  | nil => simp only [membersDec, Option.some.injEq] at hr; subst hr; exact .inl ⟨rfl, .nil _⟩
  | cons m ms ih =>
    obtain ⟨n, v⟩ := m
    rw [membersDec] at hr
    cases hs : (resolve (s.specs []) n).bind ((s.specs [])[·]?) with
    | some sp =>
      rw [hs] at hr
      simp only [Option.bind_eq_bind, Option.bind_eq_some_iff] at hr
      obtain ⟨q, hq, hr⟩ := hr
      by_cases he : q.nested.err = .noError
      · have he' := nested_noError he
        rw [Res.andThen_ok he, Option.map_eq_some_iff] at hr
        obtain ⟨r2, h2, rfl⟩ := hr
        rcases ih _ _ h2 with ⟨g1, g2⟩ | ⟨g1, a, n', v', b, x, mis, un, rfl, g2, g3⟩
        · exact .inl ⟨g1, .known (q := q) hs hq he' g2⟩
        · refine .inr ⟨g1, (n, v) :: a, n', v', b, x, _, _, rfl, .known hs hq he' g2, ?_⟩
          rcases g3 with ⟨k1, k2, k3⟩ | ⟨m', q', k1, k2, k3, k4⟩
          · exact .inl ⟨k1, k2, by subst k3; simp [Res.nested]⟩
          · exact .inr ⟨m', q', k1, k2, k3, by subst k4; simp [Res.nested]⟩
      · rw [Res.andThen_err he] at hr
        simp only [Option.some.injEq] at hr
        subst hr
        refine .inr ⟨he, [], n, v, ms, old, [], [], rfl, .nil _, .inr ⟨sp, q, hs, hq, ?_, by simp [Res.nested]⟩⟩
        intro h
        exact he (by simp [Res.nested, h])
    | none =>
      have hk := resolve_get.mp hs
      rw [hs] at hr
      cases ho : p.allowMissing with
      | true =>
        simp only [ho, if_true] at hr
        rw [Res.andThen_ok rfl, Option.map_eq_some_iff] at hr
        obtain ⟨r2, h2, rfl⟩ := hr
        rcases ih _ _ h2 with ⟨g1, g2⟩ | ⟨g1, a, n', v', b, x, mis, un, rfl, g2, g3⟩
        · exact .inl ⟨g1, .unknown hk ho g2⟩
        · refine .inr ⟨g1, (n, v) :: a, n', v', b, x, _, _, rfl, .unknown hk ho g2, ?_⟩
          rcases g3 with ⟨k1, k2, k3⟩ | ⟨m', q', k1, k2, k3, k4⟩
          · simp [ho] at k2
          · exact .inr ⟨m', q', k1, k2, k3, by subst k4; simp⟩
      | false =>
        simp only [ho, Bool.false_eq_true, if_false] at hr
        rw [Res.andThen_err (by simp)] at hr
        simp only [Option.some.injEq] at hr
        subst hr
        exact .inr ⟨by simp, [], n, v, ms, old, [], [], rfl, .nil _, .inl ⟨hk, rfl, by simp⟩⟩

/-- **C19** for every object, whether its members are read without error or not. Either all of them are: then the reports
are those made on the way, and behind them the required members of the struct that were not mentioned, which make the
call fail exactly if the option forbids them. Or the reading stops at a member: one the struct does not know, if that is
forbidden, or one it knows that is not read; then the reports are those up to this member and its own, and what
was read up to there stays in the struct. Missing: objects that give a string a container (the head of this file). -/
theorem C19_any_object_partial (init : T) (s : CStruct T) {o : Opts} (hn : o.newLines = false) (p : POpts)
    {ms : List (Bytes × JVal)} {t : Bytes} (ht : Doc (lenient o) (.obj ms) t) (old : T) {r : Res T}
    (hr : (CType.struct init s).dec p old (JVal.obj ms).root = some r) :
    Parses (CType.struct init s).handler o p old t r ∧
    ((∃ mis un, ReadsTo s p old ms r.val mis un ∧ r.missing = mis ∧
        r.unassigned = un ++ (if p.track then unassignedNames (s.specs []) ms else []) ∧
        r.err = if p.allowUnassigned = false ∧ unassignedNames (s.specs []) ms ≠ [] then .unassignedRequiredMember else .noError) ∨
     (∃ a n v b x mis un, ms = a ++ (n, v) :: b ∧ ReadsTo s p old a x mis un ∧
       ((hasMember (s.specs []) n = false ∧ p.allowMissing = false ∧
          r = ⟨.missingPropertyMember, x, mis ++ (if p.track then [n] else []), un⟩) ∨
        ∃ m q, (resolve (s.specs []) n).bind ((s.specs [])[·]?) = some m ∧ m.dec p x (.val (n, .string) v) = some q ∧
          q.err ≠ .noError ∧
          r = ⟨if q.err = .missingPropertyMember then .unknownPropertyMember else q.err, q.val, mis ++ q.missing, un ++ q.unassigned⟩))) := by
  refine ⟨parse_doc (CType.struct init s).sem hn p rfl ht hr, ?_⟩
  rcases struct_dec_inv hr with ⟨q, hq, hqe, rfl⟩ | ⟨h1, h2⟩
  · rcases membersDec_cases s p ms old q hq with ⟨_, g⟩ | ⟨g, _⟩
    · refine .inl ⟨_, _, g, rfl, rfl, ?_⟩
      cases p.allowUnassigned <;> simp
    · exact absurd hqe g
  · rcases membersDec_cases s p ms old r h2 with ⟨g, _⟩ | ⟨_, g⟩
    · exact absurd g h1
    · exact .inr g

/-- `{"z":0,"b":true,"a":1}`: the reading stops at "b", and "z" is reported. -/
example : (CType.struct (0, 0, 0) exS).dec {} (7, 7, 7) (JVal.obj [(b!"z", .num b!"0"), (b!"b", .bool true), (b!"a", .num b!"1")]).root =
    some ⟨.failedToParseInt, (7, 0, 7), [b!"z"], []⟩ := by decide +kernel

/-- What "the required members the object does not mention" are, if no two struct members share a name: those none of
whose names occurs in the object. -/
theorem C19_unassigned_spec (s : CStruct T) (ms : List (Bytes × JVal))
    (hd : (s.specs []).Pairwise fun a b => ∀ n, n ∈ a.names → n ∉ b.names) :
    unassignedNames (s.specs []) ms =
      ((s.specs []).filter fun m => !m.optional && !(ms.any fun e => m.names.contains e.1)).map (·.qname) := by
  have key : ∀ (i : Nat) m, (s.specs [])[i]? = some m → ∀ n, (resolve (s.specs []) n == some i) = m.names.contains n := by
    intro i m hm n
    rw [Bool.eq_iff_iff, beq_iff_eq, List.contains_iff_mem]
    constructor
    · intro h
      obtain ⟨m', h1, h2⟩ := resolve_some h
      rw [hm] at h1; cases h1; exact h2
    · intro h
      cases hr : resolve (s.specs []) n with
      | none => exact absurd h (resolve_none.mp hr m (List.mem_of_getElem? hm))
      | some j =>
        obtain ⟨m', h1, h2⟩ := resolve_some hr
        rcases Nat.lt_trichotomy i j with h3 | h3 | h3
        · obtain ⟨_, rfl⟩ := List.getElem?_eq_some_iff.mp hm
          obtain ⟨_, rfl⟩ := List.getElem?_eq_some_iff.mp h1
          exact absurd h2 (List.pairwise_iff_getElem.mp hd i j _ _ h3 n h)
        · rw [h3]
        · obtain ⟨_, rfl⟩ := List.getElem?_eq_some_iff.mp hm
          obtain ⟨_, rfl⟩ := List.getElem?_eq_some_iff.mp h1
          exact absurd h (List.pairwise_iff_getElem.mp hd j i _ _ h3 n h2)
  unfold unassignedNames
  generalize s.specs [] = specs at key
  have gen : ∀ (l : List (MemberSpec T)) k, (∀ (i : Nat) m, l[i]? = some m → ∀ n, (resolve specs n == some (k + i)) = m.names.contains n) →
      ((l.zipIdx k).filter fun p => !p.1.optional && !(ms.any fun m => resolve specs m.1 == some p.2)).map (·.1.qname) =
      (l.filter fun m => !m.optional && !(ms.any fun e => m.names.contains e.1)).map (·.qname) := by
    intro l
    induction l with
    | nil => intro k _; rfl
    | cons m l ih =>
      intro k h
      have h0 := h 0 m rfl
      have ih := ih (k + 1) (fun i m' hm n => by have := h (i + 1) m' (by simpa using hm) n; rw [← this]; congr 2; omega)
      simp only [Nat.add_zero] at h0
      simp only [List.zipIdx_cons, List.filter_cons, h0]
      split <;> simp [ih]
  exact gen specs 0 (by simpa using key)

/-- The hypotheses are met, all of them in one case: `{"u":[1],"c":3}` into the example struct. -/
example : ReadsClean exS {} [(b!"u", .arr [.num b!"1"]), (b!"c", .num b!"3")] ∧
    unknownNames exS [(b!"u", .arr [.num b!"1"]), (b!"c", .num b!"3")] = [b!"u"] ∧
    unassignedNames (exS.specs []) [(b!"u", .arr [.num b!"1"]), (b!"c", .num b!"3")] = [b!"b", b!"a"] ∧
    (exS.specs []).Pairwise fun a b => ∀ n, n ∈ a.names → n ∉ b.names := by
  refine ⟨?_, by decide +kernel, by decide +kernel, ?_⟩
  · intro n v hm m hr old
    simp only [List.mem_cons, Prod.mk.injEq, List.not_mem_nil, or_false] at hm
    rcases hm with ⟨rfl, rfl⟩ | ⟨rfl, rfl⟩
    · have : (resolve (exS.specs []) b!"u").isSome = false := by decide +kernel
      simp only [Option.isSome_eq_false_iff, Option.isNone_iff_eq_none] at this
      simp [this] at hr
    · have : resolve (exS.specs []) b!"c" = some 0 := by decide +kernel
      rw [this] at hr
      cases hr
      exact ⟨_, rfl⟩
  · simp [exS, CStruct.specs, CMembers.specs, CSupers.specs]

/-! ### C20 -/

/-- **C20**: two objects that differ only in members the struct does not know (their number, their places, their
names and their values) leave the same struct, return the same error and report the same unassigned members. Missing:
objects on which the decoder is not defined; `C20_false_strings_swallow` is one. -/
theorem C20_unknown_members_skipped_partial (init : T) (s : CStruct T) {o : Opts} (hn : o.newLines = false) (p : POpts) (ha : p.allowMissing = true)
    {ms ms' : List (Bytes × JVal)}
    (hk : ms.filter (fun m => hasMember (s.specs []) m.1) = ms'.filter (fun m => hasMember (s.specs []) m.1))
    {t t' : Bytes} (ht : Doc (lenient o) (.obj ms) t) (ht' : Doc (lenient o) (.obj ms') t')
    {old : T} {r : Res T} (hr : (CType.struct init s).dec p old (JVal.obj ms).root = some r) :
    Parses (CType.struct init s).handler o p old t r ∧
    ∃ r', Parses (CType.struct init s).handler o p old t' r' ∧ r'.err = r.err ∧ r'.val = r.val ∧ r'.unassigned = r.unassigned := by
  refine ⟨parse_doc (CType.struct init s).sem hn p rfl ht hr, ?_⟩
  have hu : unassignedNames (s.specs []) ms' = unassignedNames (s.specs []) ms := by
    rw [← unassignedNames_filter _ ms', ← hk, unassignedNames_filter]
  rcases struct_dec_inv hr with ⟨q, hq, hqe, rfl⟩ | ⟨h1, hq⟩
  · obtain ⟨q1, g1, g2, g3, g4⟩ := membersDec_known (s.specs []) p ha ms old q hq
    rw [hk] at g1
    obtain ⟨q', k1, k2, k3, k4⟩ := membersDec_known' (s.specs []) p ha ms' old q1 g1
    refine ⟨_, parse_doc (CType.struct init s).sem hn p rfl ht' (struct_dec_ok k1 (by rw [k2, g2, hqe])), ?_, ?_, ?_⟩
    · simp [hu]
    · simp [k3, g3]
    · simp [k4, g4, hu]
  · obtain ⟨q1, g1, g2, g3, g4⟩ := membersDec_known (s.specs []) p ha ms old r hq
    rw [hk] at g1
    obtain ⟨q', k1, k2, k3, k4⟩ := membersDec_known' (s.specs []) p ha ms' old q1 g1
    exact ⟨_, parse_doc (CType.struct init s).sem hn p rfl ht' (struct_dec_err k1 (by rw [k2, g2]; exact h1)),
      by rw [k2, g2], by rw [k3, g3], by rw [k4, g4]⟩

/-- The hypotheses are met by `{"u":{"a":5},"a":1}` and `{"a":1}`. -/
example : [(b!"u", JVal.obj [(b!"a", .num b!"5")]), (b!"a", .num b!"1")].filter (fun m => hasMember (exS.specs []) m.1) =
      [(b!"a", JVal.num b!"1")].filter (fun m => hasMember (exS.specs []) m.1) ∧
    (CType.struct (0, 0, 0) exS).dec {} (0, 0, 0) (JVal.obj [(b!"u", JVal.obj [(b!"a", .num b!"5")]), (b!"a", .num b!"1")]).root =
      some ⟨.noError, (1, 0, 0), [b!"u"], [b!"b"]⟩ := ⟨by rfl, by decide +kernel⟩

/-- `struct { std::string a[2]; JS_OBJ(a); };` -/
def exA : CStruct (List Bytes) := .mk (.cons [b!"a"] (.array 2 (.string .scalar)) id (fun x _ => x) .nil) .nil

/-- **C20** is false where strings take what is no string: `{"a":[]}` and `{"a":[],"x":[]}` differ by an unknown
member; the first is rejected, the second accepted, with brackets as the elements of `a`. -/
theorem C20_false_strings_swallow :
    ((parseTo (CType.struct [[], []] exA).handler 50 [[], []] (Ctx.onText {} {} b!"{\"a\":[]}")).map fun r => (r.1, r.2.1)) =
      some (.expectedArrayEnd, [b!"]", b!"}"]) ∧
    ((parseTo (CType.struct [[], []] exA).handler 50 [[], []] (Ctx.onText {} {} b!"{\"a\":[],\"x\":[]}")).map fun r => (r.1, r.2.1)) =
      some (.noError, [b!"]", b!"["]) := by
  constructor <;> decide +kernel

/-! ### C21 -/

/-- **C21**, the name is the primary name of a member: whatever has been read before (`r`), the value goes to that
member, the first one that has the primary name. Aliases do not matter. -/
theorem C21_primary_name (init : T) (s : CStruct T) {o : Opts} (hn : o.newLines = false) (p : POpts)
    {ms : List (Bytes × JVal)} {n : Bytes} {v : JVal} {t : Bytes} (ht : Doc (lenient o) (.obj (ms ++ [(n, v)])) t)
    {i : Nat} {m : MemberSpec T} (hi : (s.specs [])[i]? = some m) (hm : m.names.head? = some n)
    (hfirst : ∀ j m', j < i → (s.specs [])[j]? = some m' → m'.names.head? ≠ some n)
    {old : T} {r q : Res T} (hr : membersDec (s.specs []) p old ms = some r) (he : r.err = .noError)
    (hq : m.dec p r.val (.val (n, .string) v) = some q) :
    ∃ r', Parses (CType.struct init s).handler o p old t r' ∧ r'.val = q.val ∧ (q.err ≠ .noError → r'.err = q.nested.err) := by
  have hres : resolve (s.specs []) n = some i := by
    obtain ⟨hi', rfl⟩ := List.getElem?_eq_some_iff.mp hi
    have : (s.specs []).findIdx? (fun s => s.names.head? == some n) = some i := by
      rw [List.findIdx?_eq_some_iff_getElem]
      refine ⟨hi', by simpa using hm, fun j hj => ?_⟩
      simpa using hfirst j _ hj (List.getElem?_eq_getElem (by omega))
    simp [resolve, this]
  exact stored init s hn p ht (m := m) (by simp [hres, hi]) hr he hq

/-- **C21**, the name is nobody's primary name: the value goes to the first member that has it as an alias. -/
theorem C21_alias (init : T) (s : CStruct T) {o : Opts} (hn : o.newLines = false) (p : POpts)
    {ms : List (Bytes × JVal)} {n : Bytes} {v : JVal} {t : Bytes} (ht : Doc (lenient o) (.obj (ms ++ [(n, v)])) t)
    (hprim : ∀ m ∈ s.specs [], m.names.head? ≠ some n)
    {i : Nat} {m : MemberSpec T} (hi : (s.specs [])[i]? = some m) (hm : n ∈ m.names.tail)
    (hfirst : ∀ j m', j < i → (s.specs [])[j]? = some m' → n ∉ m'.names.tail)
    {old : T} {r q : Res T} (hr : membersDec (s.specs []) p old ms = some r) (he : r.err = .noError)
    (hq : m.dec p r.val (.val (n, .string) v) = some q) :
    ∃ r', Parses (CType.struct init s).handler o p old t r' ∧ r'.val = q.val ∧ (q.err ≠ .noError → r'.err = q.nested.err) := by
  have hres : resolve (s.specs []) n = some i := by
    obtain ⟨hi', rfl⟩ := List.getElem?_eq_some_iff.mp hi
    have h1 : (s.specs []).findIdx? (fun s => s.names.head? == some n) = none := by
      rw [List.findIdx?_eq_none_iff]
      intro m hm; simpa using hprim m hm
    have h2 : (s.specs []).findIdx? (fun s => s.names.tail.contains n) = some i := by
      rw [List.findIdx?_eq_some_iff_getElem]
      refine ⟨hi', by simpa using hm, fun j hj => ?_⟩
      simpa using hfirst j _ hj (List.getElem?_eq_getElem (by omega))
    simp only [resolve, h1, h2]
  exact stored init s hn p ht (m := m) (by simp [hres, hi]) hr he hq

/-- `struct { int a; int b; JS_OBJECT(JS_MEMBER_ALIASES(a, "b", "k"), JS_MEMBER_ALIASES(b, "k")) };`: "b" is the
primary name of the second member and an alias of the first; "k" is an alias of both. -/
def exB : CStruct (Int × Int) :=
  .mk (.cons [b!"a", b!"b", b!"k"] (.int i32) (·.1) (fun x t => (x, t.2)) (.cons [b!"b", b!"k"] (.int i32) (·.2) (fun x t => (t.1, x)) .nil)) .nil

/-- The hypotheses of both are met by the example: "b" means the second member, and so does "k". -/
example : ∃ m : MemberSpec (Int × Int), (exB.specs [])[0]? = some m ∧ m.names.head? = some b!"b" ∧ b!"k" ∈ m.names.tail ∧
    m.dec {} (1, 2) (.val (b!"b", .string) (.num b!"7")) = some ⟨.noError, (1, 7), [], []⟩ ∧
    (∀ m ∈ exB.specs [], m.names.head? ≠ some b!"k") ∧
    membersDec (exB.specs []) {} (0, 2) [(b!"a", .num b!"1")] = some ⟨.noError, (1, 2), [], []⟩ :=
  ⟨_, rfl, rfl, by decide, by decide +kernel, by simp [exB, CStruct.specs, CMembers.specs, CSupers.specs], by decide +kernel⟩

end JsonStruct
