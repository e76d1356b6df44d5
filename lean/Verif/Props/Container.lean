import Verif.Lemmas.Shape
import Verif.Props.RoundTrip

/-
Enumerations, arrays, tuples, sets, maps, pointers, raw tokens: C22, C35 to C40, C49, C50, and C52 about values of the
wrong shape. Texts are any that represent the JSON value (with white space, comments if allowed, and so on).

`t.dec p old item` (Spec/Decode.lean, Spec/Types.lean) is the outcome of reading an item into a variable holding
`old`. It is always defined for types without strings (`Stringless`).
-/

namespace JsonStruct

/-- A type without strings: reading any JSON value has a definite outcome. -/
theorem reads (t : CType T) (ht : t.Stringless) {o : Opts} (hn : o.newLines = false) (p : POpts) {v : JVal} (hv : v.isContainer = true)
    {text : Bytes} (hd : Doc (lenient o) v text) (old : T) : ∃ r, t.dec p old v.root = some r ∧ Parses t.handler o p old text r := by
  obtain ⟨r, hr⟩ := (t.strict ht).1 p old v.root
  exact ⟨r, hr, parse_doc t.sem hn p hv hd hr⟩

/-! ### C22 -/

/-- The JSON array of the names of enumerators. -/
def nameArray (names : List Bytes) (vs : List Int) : JVal := .arr (vs.filterMap fun v => (names[v.toNat]?).map .str)

/-- **C22**: enumerators, any number of them in an array, are written as their names, and parse back. -/
theorem C22_enum_round_trip (names : List Bytes) (U : IntTy) (hnd : names.Nodup) (hq : ∀ n ∈ names, Quotable n)
    (vs : List Int) (hvs : ∀ v ∈ vs, 0 ≤ v ∧ v < names.length) (pretty : Bool) (shift : Nat) (o : Opts)
    (p : POpts) (hp : p.allowUnassigned = true) (old : List Int) :
    let t : CType (List Int) := .vector (.enum names U)
    ∃ text un, serializeStruct t.handler vs (userOpts pretty shift 0) = some text ∧ Doc rfcBytes (nameArray names vs) text ∧
      Parses t.handler o p old text ⟨.noError, vs, [], un⟩ := by
  intro t
  have hdep : (nameArray names vs).depth ≤ 255 := by
    have : ∀ l : List Int, elemsDepth (l.filterMap fun v => (names[v.toNat]?).map JVal.str) = 0 := by
      intro l
      induction l with
      | nil => rfl
      | cons v l ih =>
        rw [List.filterMap_cons]
        split
        · exact ih
        · rename_i h
          obtain ⟨n, _, rfl⟩ := Option.map_eq_some_iff.mp h
          simp [elemsDepth, ih, JVal.depth]
    simp [nameArray, JVal.depth, this]
  refine C01_round_trip_partial t trivial vs ?_ (j := nameArray names vs) rfl rfl hdep pretty shift o p hp old trivial
  simp only [t, CType.Valid]
  intro x hx
  obtain ⟨h1, h2⟩ := hvs x hx
  have hl : x.toNat < names.length := by omega
  exact ⟨⟨hnd, hq, h1, h2⟩, by simp [CType.enc, List.getElem?_eq_getElem hl]⟩

/-- **C22**: a string that is no name of an enumerator is rejected with `IllegalDataValue`, whatever stands before
it (as long as it is accepted) and behind it. -/
theorem C22_unknown_name_rejected (names : List Bytes) (U : IntTy) {o : Opts} (hn : o.newLines = false) (p : POpts)
    (pre : List JVal) (hpre : ∀ v ∈ pre, ∃ n ∈ names, v = .str n) (s : Bytes) (hs : s ∉ names) (post : List JVal)
    {text : Bytes} (ht : Doc (lenient o) (.arr (pre ++ .str s :: post)) text) (old : List Int) :
    ∃ r, Parses (CType.vector (.enum names U)).handler o p old text r ∧ r.err = .illegalDataValue := by
  have h1 : ∀ v ∈ pre, ∃ q, (CType.enum names U).dec p (CType.enum names U).init (elem v) = some q ∧ q.err = .noError := by
    intro v hv
    obtain ⟨n, hn, rfl⟩ := hpre v hv
    have : (names.findIdx? (· = n)).isSome := by
      rw [List.findIdx?_isSome, List.any_eq_true]
      exact ⟨n, hn, by simp⟩
    obtain ⟨i, hi⟩ := Option.isSome_iff_exists.mp this
    refine ⟨⟨.noError, i, [], []⟩, ?_, rfl⟩
    simp [CType.dec, enumDec, scalarDec, elem, Item.first, Item.toks, JVal.toks, Item.isScalar, JVal.isContainer, hi]
  have h2 : (CType.enum names U).dec p (CType.enum names U).init (elem (.str s)) =
      some ⟨.illegalDataValue, (CType.enum names U).init, [], []⟩ := by
    have hi : names.findIdx? (· = s) = none := by
      rw [List.findIdx?_eq_none_iff]
      intro x hx
      simp only [decide_eq_false_iff_not]
      rintro rfl
      exact hs hx
    simp [CType.dec, enumDec, scalarDec, elem, Item.first, Item.toks, JVal.toks, Item.isScalar, JVal.isContainer, hi]
  obtain ⟨r, hr, he⟩ := elemsDec_err (init := (CType.enum names U).init) (ws := post) [] h1 h2 (by simp)
  exact ⟨r, parse_doc (CType.vector (.enum names U)).sem hn p rfl ht hr, he⟩

/-- Beyond C22: a number is taken without asking whether there is such an enumerator; writing it then reads behind the
list of names, which the model shows as an undefined outcome. -/
theorem C22_number_unchecked :
    let t : CType (List Int) := .vector (.enum [b!"red", b!"blue"] i32)
    Parses t.handler {} {} [] b!"[7]" ⟨.noError, [7], [], []⟩ ∧ serializeStruct t.handler [7] (userOpts false 0 0) = none :=
  ⟨parse_toks (v := .arr [.num b!"7"]) (CType.sem _) _ (by example_text) (by decide +kernel), by decide +kernel⟩

/-- The hypotheses are met. -/
example : [b!"red", b!"blue"].Nodup ∧ (∀ n ∈ [b!"red", b!"blue"], Quotable n) ∧ (∀ v ∈ [(1 : Int), 0, 1], 0 ≤ v ∧ v < [b!"red", b!"blue"].length) ∧
    serializeStruct (CType.vector (.enum [b!"red", b!"blue"] i32)).handler [1, 0, 1] (userOpts false 0 0) = some b!"[\"blue\",\"red\",\"blue\"]" ∧
    (∀ v ∈ [JVal.str b!"red"], ∃ n ∈ [b!"red", b!"blue"], v = .str n) ∧ b!"green" ∉ [b!"red", b!"blue"] := by
  refine ⟨by decide, ?_, by decide, by decide +kernel, by simp, by decide⟩
  intro n hn
  simp only [List.mem_cons, List.not_mem_nil, or_false] at hn
  rcases hn with rfl | rfl <;> quotable

/-! ### C35 -/

/-- **C35** for `T[N]` and `std::array<T, N>`, whatever the element type: where the outcome of reading the array is
defined, it is a success if and only if there are exactly `N` elements and each of them is accepted by its own
variable; then element `i` of the input is stored at index `i`. Missing: strings as elements, which may take the closing
bracket for a value (`C35_false_strings_swallow`). -/
theorem C35_array_partial (N : Nat) (t : CType T) {o : Opts} (hn : o.newLines = false) (p : POpts) (vs : List JVal) {text : Bytes}
    (ht : Doc (lenient o) (.arr vs) text) (old : List T) (ho : old.length = N) {r : Res (List T)}
    (hr : (CType.array N t).dec p old (JVal.arr vs).root = some r) :
    Parses (CType.array N t).handler o p old text r ∧ r.val.length = N ∧
    (r.err = .noError ↔ vs.length = N ∧ ∀ (i : Nat) (x : T) (v : JVal), old[i]? = some x → vs[i]? = some v →
      ∃ q, t.dec p x (elem v) = some q ∧ q.err = .noError ∧ r.val[i]? = some q.val) := by
  have := fixedDec_iff (d := t.dec) hr
  rw [ho] at this
  exact ⟨parse_doc (CType.array N t).sem hn p rfl ht hr, this⟩

/-- **C35** for arrays whose element type contains no strings: the outcome is always defined, so there are no further
assumptions on the input. -/
theorem C35_array_stringless (N : Nat) (t : CType T) (hs : t.Stringless) {o : Opts} (hn : o.newLines = false) (p : POpts) (vs : List JVal)
    {text : Bytes} (ht : Doc (lenient o) (.arr vs) text) (old : List T) (ho : old.length = N) :
    ∃ r, Parses (CType.array N t).handler o p old text r ∧ r.val.length = N ∧
    (r.err = .noError ↔ vs.length = N ∧ ∀ (i : Nat) (x : T) (v : JVal), old[i]? = some x → vs[i]? = some v →
      ∃ q, t.dec p x (elem v) = some q ∧ q.err = .noError ∧ r.val[i]? = some q.val) := by
  obtain ⟨r, hr⟩ := (CType.strict (.array N t) hs).1 p old (JVal.arr vs).root
  exact ⟨r, C35_array_partial N t hn p vs ht old ho hr⟩

/-- **C35** for tuples: a success if and only if there are as many elements as components and each is accepted by its
component; `CTypes.Stored` says that element `i` is stored in component `i`. -/
theorem C35_tuple_partial (ts : CTypes Ts) {o : Opts} (hn : o.newLines = false) (p : POpts) (vs : List JVal) {text : Bytes}
    (ht : Doc (lenient o) (.arr vs) text) (old : Ts) {r : Res Ts} (hr : (CType.tuple ts).dec p old (JVal.arr vs).root = some r) :
    Parses (CType.tuple ts).handler o p old text r ∧
    (r.err = .noError ↔ ts.Stored p old vs r.val) ∧ (r.err = .noError → vs.length = ts.size) := by
  have := tupleDec_iff ts hr
  exact ⟨parse_doc (CType.tuple ts).sem hn p rfl ht hr, this, fun he => CTypes.Stored.length ts (this.mp he)⟩

/-- The same without strings. -/
theorem C35_tuple_stringless (ts : CTypes Ts) (hs : ts.Stringless) {o : Opts} (hn : o.newLines = false) (p : POpts) (vs : List JVal)
    {text : Bytes} (ht : Doc (lenient o) (.arr vs) text) (old : Ts) :
    ∃ r, Parses (CType.tuple ts).handler o p old text r ∧
    (r.err = .noError ↔ ts.Stored p old vs r.val) ∧ (r.err = .noError → vs.length = ts.size) := by
  obtain ⟨r, hr⟩ := ts.total hs p old vs
  exact ⟨r, C35_tuple_partial ts hn p vs ht old hr⟩

/-- **C35** is false for strings: `struct { std::string a[2]; }` is read from `{"a":[],"x":[]}` without error. -/
theorem C35_false_strings_swallow :
    ((parseTo (CType.struct [[], []] exA).handler 50 [[], []] (Ctx.onText {} {} b!"{\"a\":[],\"x\":[]}")).map fun r => (r.1, r.2.1)) =
      some (.noError, [b!"]", b!"["]) := C20_false_strings_swallow.2

/-- The hypotheses are met: `[1,2,3]` into `int[3]`, and into `std::tuple<int, bool>` it is an error. -/
example : (CType.array 3 (.int i32)).dec {} [7, 7, 7] (JVal.arr [.num b!"1", .num b!"2", .num b!"3"]).root = some ⟨.noError, [1, 2, 3], [], []⟩ ∧
    (CType.int i32).Stringless ∧
    (CType.array 2 (.int i32)).dec {} [7, 7] (JVal.arr [.num b!"1", .num b!"2", .num b!"3"]).root = some ⟨.expectedArrayEnd, [1, 2], [], []⟩ ∧
    (CType.tuple (.cons (.int i32) (.cons .bool .nil))).dec {} (0, false, ()) (JVal.arr [.num b!"1", .bool true]).root =
      some ⟨.noError, (1, true, ()), [], []⟩ ∧
    (CType.tuple (.cons (.int i32) (.cons .bool .nil))).dec {} (0, false, ()) (JVal.arr [.num b!"1"]).root =
      some ⟨.failedToParseBoolean, (1, false, ()), [], []⟩ :=
  ⟨by decide +kernel, trivial, by decide +kernel, by decide +kernel, by decide +kernel⟩

/-! ### C36 -/

/-- **C36**, for fewer than `COUNT` elements: they are stored, the elements behind them stay, and the size is their
number. For any number: reading succeeds if and only if there are at most `COUNT` elements and each is accepted. Missing:
the size for exactly `COUNT` elements (`C36_false_when_full`), and inputs on which the outcome is not defined (strings). -/
theorem C36_variable_array_partial (count : Nat) (t : CType T) {o : Opts} (hn : o.newLines = false) (p : POpts) (vs : List JVal) {text : Bytes}
    (ht : Doc (lenient o) (.arr vs) text) (old : List T × Nat) (ho : old.1.length = count) {r : Res (List T × Nat)}
    (hr : (CType.arrayVariable count t).dec p old (JVal.arr vs).root = some r) :
    Parses (CType.arrayVariable count t).handler o p old text r ∧ r.val.1.length = count ∧
    (r.err = .noError ↔ vs.length ≤ count ∧ ∀ (i : Nat) (x : T) (v : JVal), old.1[i]? = some x → vs[i]? = some v →
      ∃ q, t.dec p x (elem v) = some q ∧ q.err = .noError ∧ r.val.1[i]? = some q.val) ∧
    (r.err = .noError → r.val.1.drop vs.length = old.1.drop vs.length ∧ (vs.length < count → r.val.2 = vs.length) ∧
      (vs.length = count → r.val.2 = old.2)) := by
  obtain ⟨h1, h2, h3⟩ := avcFixedDec_iff (d := t.dec) hr
  rw [ho] at h1 h2 h3
  refine ⟨parse_doc (CType.arrayVariable count t).sem hn p rfl ht hr, h1, h2, fun he => ?_⟩
  obtain ⟨h4, h5⟩ := h3 he
  refine ⟨h4, fun hlt => ?_, fun heq => ?_⟩
  · rw [h5, if_pos hlt]; omega
  · rw [h5, if_neg (by omega)]

/-- **C36**, more than `COUNT` elements: if those for which there is room are accepted, the error is
`ExpectedArrayEnd`. -/
theorem C36_too_many (count : Nat) (t : CType T) {o : Opts} (hn : o.newLines = false) (p : POpts) (vs : List JVal) {text : Bytes}
    (ht : Doc (lenient o) (.arr vs) text) (old : List T × Nat) (ho : old.1.length = count) (hl : count < vs.length)
    (h : ∀ (i : Nat) (x : T) (v : JVal), old.1[i]? = some x → vs[i]? = some v → ∃ q, t.dec p x (elem v) = some q ∧ q.err = .noError) :
    ∃ r, Parses (CType.arrayVariable count t).handler o p old text r ∧ r.err = .expectedArrayEnd := by
  obtain ⟨r, hr, he⟩ := avcFixedDec_many (d := t.dec) (p := p) (size := old.2) (i := 0) (old := old.1) (vs := vs) (by omega) h
  exact ⟨r, parse_doc (CType.arrayVariable count t).sem hn p rfl ht hr, he⟩

/-- **C36** is false for exactly `COUNT` elements: the size is not set. -/
theorem C36_false_when_full :
    let t : CType (List Int × Nat) := .arrayVariable 2 (.int i32)
    Parses t.handler {} {} ([0, 0], 0) b!"[5,6]" ⟨.noError, ([5, 6], 0), [], []⟩ :=
  parse_toks (v := .arr [.num b!"5", .num b!"6"]) (CType.sem _) _ (by example_text) (by decide +kernel)

/-- The hypotheses are met: `[5]` and `[5,6,7]` into `ArrayVariableContent<int, 2>`. -/
example : (CType.arrayVariable 2 (.int i32)).dec {} ([0, 9], 0) (JVal.arr [.num b!"5"]).root = some ⟨.noError, ([5, 9], 1), [], []⟩ ∧
    (CType.arrayVariable 2 (.int i32)).dec {} ([0, 9], 0) (JVal.arr [.num b!"5", .num b!"6", .num b!"7"]).root =
      some ⟨.expectedArrayEnd, ([5, 6], 0), [], []⟩ := ⟨by decide +kernel, by decide +kernel⟩

/-! ### C37 -/

/-- **C37**, for documents: an object read into a map without error. `xs` are its members in order, with unescaped
names and the values read. Afterwards the map has, for every key, the value of the last member with that key, or
what it had before if there is none; no key twice. Missing: inputs that are not documents, on which the library may not
even return (`C37_false_never_returns`), and those on which the outcome is not defined (strings). -/
theorem C37_last_value_partial (ins : List (Bytes × V) → Bytes × V → List (Bytes × V)) (hins : ∀ l x, (ins l x).Perm (x :: l)) (t : CType V)
    {o : Opts} (hn : o.newLines = false) (p : POpts) (ms : List (Bytes × JVal)) {text : Bytes} (ht : Doc (lenient o) (.obj ms) text)
    (old : List (Bytes × V)) (ho : (old.map Prod.fst).Nodup) {r : Res (List (Bytes × V))}
    (hr : (CType.map ins t).dec p old (JVal.obj ms).root = some r) :
    Parses (CType.map ins t).handler o p old text r ∧
    (r.err = .noError → ∃ xs : List (Bytes × V), xs.map Prod.fst = ms.map (fun m => escapesIn m.1) ∧
      (∀ (i : Nat) (n : Bytes) (v : JVal), ms[i]? = some (n, v) →
        ∃ q, t.dec p t.init (.val (n, .string) v) = some q ∧ q.err = .noError ∧ xs[i]? = some (escapesIn n, q.val)) ∧
      (r.val.map Prod.fst).Nodup ∧ ∀ k x, (k, x) ∈ r.val ↔ lastOf k (old ++ xs) = some x) :=
  ⟨parse_doc (CType.map ins t).sem hn p rfl ht hr, fun he => entriesDec_last hins ho hr he⟩

/-- The order of `std::map`: sorted by key (as bytes). -/
def sortedIns : List (Bytes × V) → Bytes × V → List (Bytes × V)
  | [], e => [e]
  | x :: xs, e => if x.1 < e.1 then x :: sortedIns xs e else e :: x :: xs

theorem sortedIns_perm (l : List (Bytes × V)) (e : Bytes × V) : (sortedIns l e).Perm (e :: l) := by
  induction l with
  | nil => exact .refl _
  | cons x xs ih =>
    simp only [sortedIns]
    split
    · exact (ih.cons x).trans (.swap e x xs)
    · exact .refl _

/-- `std::map<std::string, int>`. -/
def exMap : CType (List (Bytes × Int)) := .map sortedIns (.int i32)

/-- The hypotheses are met: `{"b":1,"a":2,"b":3}`. -/
example : exMap.dec {} [(b!"c", 9)] (JVal.obj [(b!"b", .num b!"1"), (b!"a", .num b!"2"), (b!"b", .num b!"3")]).root =
    some ⟨.noError, [(b!"a", 2), (b!"b", 3), (b!"c", 9)], [], []⟩ ∧
    lastOf b!"b" [(b!"c", (9 : Int)), (b!"b", 1), (b!"a", 2), (b!"b", 3)] = some 3 := ⟨by decide +kernel, by decide +kernel⟩

deriving instance DecidableEq for Ctx

/-- **C37** is false: for the text `{"a":1,` the handler of `std::map<std::string, int>` never returns, whatever number of
iterations is allowed. -/
theorem C37_false_never_returns (n : Nat) : parseTo exMap.handler n [] (Ctx.onText {} {} b!"{\"a\":1,") = none := by
  have h1 : (Ctx.onText {} {} b!"{\"a\":1,").next.error = .noError := by decide +kernel
  have h2 : (Ctx.onText {} {} b!"{\"a\":1,").next.token.valueType = .objectStart := by decide +kernel
  have h3 : (Ctx.onText {} {} b!"{\"a\":1,").next.next.error = .noError := by decide +kernel
  have h4 : (Ctx.onText {} {} b!"{\"a\":1,").next.next.token.valueType = .number := by decide +kernel
  have h5 : intTo i32 (Ctx.onText {} {} b!"{\"a\":1,").next.next.token.value.bytes = (.noError, 1) := by decide +kernel
  have h6 : (Ctx.onText {} {} b!"{\"a\":1,").next.next.next.token = (Ctx.onText {} {} b!"{\"a\":1,").next.next.token := by decide +kernel
  have h7 : (Ctx.onText {} {} b!"{\"a\":1,").next.next.next.next = (Ctx.onText {} {} b!"{\"a\":1,").next.next.next := by decide +kernel
  generalize (Ctx.onText {} {} b!"{\"a\":1,") = c at *
  have loop : ∀ (f m : Nat) (e : Err) (acc : List (Bytes × Int)), mapLoop sortedIns (intH i32) f m e acc c.next.next.next = none := by
    intro f m
    induction m with
    | zero => intros; rfl
    | succ m ih =>
      intro e acc
      simp [mapLoop, h6, h4, intH, h5, h7]
      exact ih _ _
  simp only [parseTo, h1, exMap, CType.handler, mapH, h2, h3]
  cases n with
  | zero => simp [mapLoop]
  | succ m =>
    have h8 : ∀ (f : Nat), (intH i32).to f (intH i32).init c.next.next = some (.noError, 1, c.next.next) := by
      intro f; simp [intH, h5]
    simp only [mapLoop, h4, CType.handler, h8]
    simp [loop]

/-! ### C38 -/

/-- **C38**, for keys that are not empty and need no escapes: a map with any entries is written as the object of these
entries, which parses back to a map with the same entries (in the order of the container, if it has one). Missing: other
keys; it is false for them, see below. -/
theorem C38_map_round_trip_partial (ins : List (Bytes × V) → Bytes × V → List (Bytes × V)) (hins : ∀ l x, (ins l x).Perm (x :: l))
    (t : CType V) (ht : t.Lawful) (m : List (Bytes × V)) (hk : (m.map Prod.fst).Nodup)
    (hkeys : ∀ e ∈ m, e.1 ≠ [] ∧ Quotable e.1 ∧ escapesIn e.1 = e.1) (hm : ∀ e ∈ m, t.Valid e.2 ∧ (t.enc e.2).isSome)
    (hd : (JVal.obj (m.filterMap fun e => (t.enc e.2).map (e.1, ·))).depth ≤ 255)
    (pretty : Bool) (shift : Nat) (o : Opts) (p : POpts) (hp : p.allowUnassigned = true) :
    ∃ text m' un, serializeStruct (CType.map ins t).handler m (userOpts pretty shift 0) = some text ∧
      Doc rfcBytes (.obj (m.filterMap fun e => (t.enc e.2).map (e.1, ·))) text ∧
      Parses (CType.map ins t).handler o p [] text ⟨.noError, m', [], un⟩ ∧ m'.Perm m := by
  have hg : (JVal.obj (m.filterMap fun e => (t.enc e.2).map (e.1, ·))).Good := good_obj fun x hx => by
    obtain ⟨e, he, h1⟩ := List.mem_filterMap.mp hx
    obtain ⟨j, h2, rfl⟩ := Option.map_eq_some_iff.mp h1
    obtain ⟨a1, a2, _⟩ := hkeys e he
    exact ⟨a2, a1, t.good ht e.2 (hm e he).1 j h2⟩
  obtain ⟨k, h1, _, _⟩ := putObject_sem (putEntries_sem (es := m) fun y hy => t.writes y.2 (hm y hy).1) {}
    (Ser.onString (userOpts pretty shift 0) (startString []).length) (.inl rfl) rfl
  have hw := written_text _ hg pretty shift 0 (by omega) []
  have hdoc : Doc rfcBytes (.obj (m.filterMap fun e => (t.enc e.2).map (e.1, ·)))
      (((Ser.onString (userOpts pretty shift 0) (startString []).length).writeAll
        (encToks [] (some (.obj (m.filterMap fun e => (t.enc e.2).map (e.1, ·)))))).2.flush (startString [])) := by
    simp only [encToks]
    rw [writeAll_names (a := .string) (b := .ascii) rfl (.inl rfl) (.inr rfl)]
    exact hw
  have hlines : Lines.LDoc rfcBytes false (.obj (m.filterMap fun e => (t.enc e.2).map (e.1, ·)))
      (((Ser.onString (userOpts pretty shift 0) (startString []).length).writeAll
        (encToks [] (some (.obj (m.filterMap fun e => (t.enc e.2).map (e.1, ·)))))).2.flush (startString [])) := by
    simp only [encToks]
    rw [writeAll_names (a := .string) (b := .ascii) rfl (.inl rfl) (.inr rfl)]
    exact lwritten_text false _ hg pretty shift 0 (by omega) []
  obtain ⟨un, hu, _⟩ := entriesDec_enc hins (t.roundTrips ht) (t.fresh_init ht) (.inl hp) m
    (fun e he => ⟨(hkeys e he).2.2, hm e he⟩) [] hk (by simp)
  refine ⟨_, m.foldl ins [], un, ?_, hdoc, parse_toks (CType.map ins t).sem p (delivers_written o rfl hdoc hlines) hu, ?_⟩
  · exact congrArg (fun x => (x.map Prod.snd).map (Ser.flush · (startString []))) h1
  · have : ∀ (l acc : List (Bytes × V)), (l.foldl ins acc).Perm (l ++ acc) := by
      intro l
      induction l with
      | nil => intro acc; exact .refl _
      | cons e l ih => intro acc; exact (ih _).trans (((hins acc e).append_left l).trans List.perm_middle)
    simpa using this m []

/-- The hypotheses are met by `{"b": 1, "ab": -2}`. -/
example : ([(b!"b", (1 : Int)), (b!"ab", -2)].map Prod.fst).Nodup ∧
    (∀ e ∈ [(b!"b", (1 : Int)), (b!"ab", -2)], e.1 ≠ [] ∧ Quotable e.1 ∧ escapesIn e.1 = e.1) ∧
    serializeStruct exMap.handler [(b!"b", 1), (b!"ab", -2)] (userOpts false 0 0) = some b!"{\"b\":1,\"ab\":-2}" := by
  refine ⟨by decide, ?_, by decide +kernel⟩
  intro e he
  simp only [List.mem_cons, List.not_mem_nil, or_false] at he
  rcases he with rfl | rfl
  · exact ⟨by decide, by quotable, by decide +kernel⟩
  · exact ⟨by decide, by quotable, by decide +kernel⟩

/-- **C38** is false for keys that need escapes: they are written as they are. A key with a quote makes the text
unreadable, one with a backslash is read back as another key, and the empty key is not written at all. -/
theorem C38_false_keys :
    serializeStruct exMap.handler [(b!"a\"b", 1)] (userOpts false 0 0) = some b!"{\"a\"b\":1}" ∧
    (parseTo exMap.handler 50 [] (Ctx.onText {} {} b!"{\"a\"b\":1}")).map (fun r => (r.1, r.2.1)) = some (.expectedDelimiter, []) ∧
    serializeStruct exMap.handler [(b!"\\n", 1)] (userOpts false 0 0) = some b!"{\"\\n\":1}" ∧
    Parses exMap.handler {} {} [] b!"{\"\\n\":1}" ⟨.noError, [(b!"\n", 1)], [], []⟩ ∧
    serializeStruct exMap.handler [([], 1)] (userOpts false 0 0) = some b!"{1}" := by
  refine ⟨by decide +kernel, ?_, by decide +kernel, ?_, by decide +kernel⟩
  · decide +kernel
  · exact parse_toks (v := .obj [(b!"\\n", .num b!"1")]) (CType.sem _) _ (by example_text) (by decide +kernel)

/-! ### C39 -/

/-- **C39**: an array whose elements are accepted one by one, `xs` being the values read. It is read into a set without
error if and only if they are pairwise different, and then the set holds exactly these; otherwise the error is
`DuplicateInSet`. -/
theorem C39_set [DecidableEq T] (ins : List T → T → List T) (hins : ∀ l x, (ins l x).Perm (x :: l)) (t : CType T)
    {o : Opts} (hn : o.newLines = false) (p : POpts) (vs : List JVal) {text : Bytes} (ht : Doc (lenient o) (.arr vs) text)
    (old xs : List T) (hl : xs.length = vs.length)
    (h : ∀ (i : Nat) (v : JVal), vs[i]? = some v → ∃ q, t.dec p t.init (elem v) = some q ∧ q.err = .noError ∧ xs[i]? = some q.val) :
    ∃ r, Parses (CType.set inferInstance ins t).handler o p old text r ∧ (r.err = .noError ∨ r.err = .duplicateInSet) ∧
      (r.err = .noError ↔ xs.Nodup) ∧ (r.err = .noError → r.val.Perm xs) := by
  obtain ⟨r, hr, h1, h2, h3⟩ := setElemsDec_iff (d := t.dec) (init := t.init) (p := p) hins hl h [] .nil
  exact ⟨r, parse_doc (CType.set inferInstance ins t).sem hn p rfl ht hr, h1, by simpa using h2, by simpa using h3⟩

/-- `std::set<int>`. -/
def exSet : CType (List Int) := .set inferInstance (fun l x => l ++ [x]) (.int i32)

/-- The hypotheses are met by `[2,1]` and `[2,2]`. -/
example : (∀ (l : List Int) (x : Int), (l ++ [x]).Perm (x :: l)) ∧
    (CType.int i32).dec {} (CType.int i32).init (elem (.num b!"2")) = some ⟨.noError, 2, [], []⟩ ∧
    exSet.dec {} [] (JVal.arr [.num b!"2", .num b!"1"]).root = some ⟨.noError, [2, 1], [], []⟩ ∧
    exSet.dec {} [] (JVal.arr [.num b!"2", .num b!"2"]).root = some ⟨.duplicateInSet, [2], [], []⟩ :=
  ⟨fun l x => List.perm_append_comm, by decide +kernel, by decide +kernel, by decide +kernel⟩

/-! ### C40 -/

/-- **C40**, reading: in an array read into `std::vector<std::shared_ptr<T>>` (or `unique_ptr`) without error, `null`
gives the empty pointer, and any other value a pointer to what `T` makes of it. -/
theorem C40_pointers_read (t : CType T) {o : Opts} (hn : o.newLines = false) (p : POpts) (vs : List JVal) {text : Bytes}
    (ht : Doc (lenient o) (.arr vs) text) (old : List (Option T)) {r : Res (List (Option T))}
    (hr : (CType.vector (.sharedPtr t)).dec p old (JVal.arr vs).root = some r) :
    Parses (CType.vector (.sharedPtr t)).handler o p old text r ∧ Parses (CType.vector (.uniquePtr t)).handler o p old text r ∧
    (r.err = .noError → r.val.length = vs.length ∧ ∀ (i : Nat) (v : JVal), vs[i]? = some v →
      (v = .null → r.val[i]? = some none) ∧
      (v ≠ .null → ∃ q, t.dec p t.init (elem v) = some q ∧ q.err = .noError ∧ r.val[i]? = some (some q.val))) := by
  refine ⟨parse_doc (CType.vector (.sharedPtr t)).sem hn p rfl ht hr, parse_doc (CType.vector (.uniquePtr t)).sem hn p rfl ht hr, fun he => ?_⟩
  obtain ⟨xs, h1, h2, h3⟩ := elemsDec_inv (d := (CType.sharedPtr t).dec) hr he
  rw [List.nil_append] at h1
  rw [h1]
  refine ⟨h2, fun i v hv => ?_⟩
  obtain ⟨q, hq, hqe, hx⟩ := h3 i v hv
  refine ⟨?_, fun hne => ?_⟩
  · rintro rfl
    simp only [CType.dec, ptrDec, elem, Option.some.injEq] at hq
    subst hq
    exact hx
  · have : (CType.sharedPtr t).dec p (CType.vector (.sharedPtr t)).handler.init.head?.join (elem v) = (t.dec p t.init (elem v)).map (Res.map some) := by
      cases v <;> first | (exact absurd rfl hne) | rfl
    have hq' : (t.dec p t.init (elem v)).map (Res.map some) = some q := by
      rw [← hq]; cases v <;> first | (exact absurd rfl hne) | rfl
    obtain ⟨q', h4, rfl⟩ := Option.map_eq_some_iff.mp hq'
    exact ⟨q', h4, hqe, hx⟩

/-- **C40**, reading: the same for `NullableChecked<T>`; the flag is `null`. -/
theorem C40_nullable_read (t : CType T) {o : Opts} (hn : o.newLines = false) (p : POpts) (vs : List JVal) {text : Bytes}
    (ht : Doc (lenient o) (.arr vs) text) (old : List (T × Bool)) {r : Res (List (T × Bool))}
    (hr : (CType.vector (.nullableChecked t)).dec p old (JVal.arr vs).root = some r) :
    Parses (CType.vector (.nullableChecked t)).handler o p old text r ∧
    (r.err = .noError → r.val.length = vs.length ∧ ∀ (i : Nat) (v : JVal), vs[i]? = some v →
      (v = .null → ∃ x, r.val[i]? = some (x, true)) ∧
      (v ≠ .null → ∃ q x, t.dec p x (elem v) = some q ∧ q.err = .noError ∧ r.val[i]? = some (q.val, false))) := by
  refine ⟨parse_doc (CType.vector (.nullableChecked t)).sem hn p rfl ht hr, fun he => ?_⟩
  obtain ⟨xs, h1, h2, h3⟩ := elemsDec_inv (d := (CType.nullableChecked t).dec) hr he
  rw [List.nil_append] at h1
  rw [h1]
  refine ⟨h2, fun i v hv => ?_⟩
  obtain ⟨q, hq, hqe, hx⟩ := h3 i v hv
  refine ⟨?_, fun hne => ?_⟩
  · rintro rfl
    simp only [CType.dec, nullableCheckedDec, elem, Option.some.injEq] at hq
    subst hq
    exact ⟨_, hx⟩
  · have hq' : (t.dec p (CType.nullableChecked t).init.1 (elem v)).map (Res.map (·, false)) = some q := by
      rw [← hq]; cases v <;> first | (exact absurd rfl hne) | rfl
    obtain ⟨q', h4, rfl⟩ := Option.map_eq_some_iff.mp hq'
    exact ⟨q', _, h4, hqe, hx⟩

/-- **C40**, writing: an array of pointers is written as the array in which every empty pointer is `null` and every
other one the value pointed to; the same for `NullableChecked` with its flag. -/
theorem C40_written (t : CType T) (ht : t.Lawful) (vs : List (Option T)) (hv : ∀ x, some x ∈ vs → t.Valid x ∧ t.Solid x)
    (hd : (JVal.arr (vs.map fun v => (v.bind t.enc).getD .null)).depth ≤ 255) (pretty : Bool) (shift : Nat) :
    (∃ text, serializeStruct (CType.vector (.sharedPtr t)).handler vs (userOpts pretty shift 0) = some text ∧
      Doc rfcBytes (.arr (vs.map fun v => (v.bind t.enc).getD .null)) text) ∧
    (∃ text, serializeStruct (CType.vector (.uniquePtr t)).handler vs (userOpts pretty shift 0) = some text ∧
      Doc rfcBytes (.arr (vs.map fun v => (v.bind t.enc).getD .null)) text) ∧
    (∃ text, serializeStruct (CType.vector (.nullableChecked t)).handler (vs.map fun v => (v.getD t.init, v.isNone)) (userOpts pretty shift 0) = some text ∧
      Doc rfcBytes (.arr (vs.map fun v => (v.bind t.enc).getD .null)) text) := by
  have key : ∀ v ∈ vs, (match v with | none => some JVal.null | some x => t.enc x) = some ((v.bind t.enc).getD .null) := by
    intro v hm
    cases v with
    | none => rfl
    | some x => obtain ⟨_, j, hj, _⟩ := hv x hm; simp [hj]
  have fm : ∀ (l : List (Option T)), (∀ v ∈ l, v ∈ vs) →
      l.filterMap (fun v => match v with | none => some JVal.null | some x => t.enc x) = l.map fun v => (v.bind t.enc).getD .null := by
    intro l hl
    induction l with
    | nil => rfl
    | cons v l ih =>
      rw [List.filterMap_cons, key v (hl v (by simp)), ih fun w hw => hl w (by simp [hw])]
      rfl
  have hsome : ∀ v ∈ vs, ∀ x, v = some x → t.Valid x ∧ t.Solid x := fun v hm x hx => hv x (hx ▸ hm)
  refine ⟨?_, ?_, ?_⟩
  · refine serialized (.vector (.sharedPtr t)) ht vs ?_ ?_ pretty shift 0 (by omega)
    · simp only [CType.Valid]
      exact fun v hm => ⟨hsome v hm, by simp only [CType.enc]; exact (congrArg Option.isSome (key v hm)).trans rfl⟩
    · simp only [CType.enc]; rw [← fm vs fun _ h => h]; rfl
  · refine serialized (.vector (.uniquePtr t)) ht vs ?_ ?_ pretty shift 0 (by omega)
    · simp only [CType.Valid]
      exact fun v hm => ⟨hsome v hm, by simp only [CType.enc]; exact (congrArg Option.isSome (key v hm)).trans rfl⟩
    · simp only [CType.enc]; rw [← fm vs fun _ h => h]; rfl
  · have key' : ∀ v ∈ vs, (CType.nullableChecked t).enc (v.getD t.init, v.isNone) = some ((v.bind t.enc).getD .null) := by
      intro v hm
      rw [← key v hm]
      cases v <;> simp [CType.enc]
    refine serialized (.vector (.nullableChecked t)) ht _ ?_ ?_ pretty shift 0 (by omega)
    · simp only [CType.Valid]
      intro y hy
      obtain ⟨v, hm, rfl⟩ := List.mem_map.mp hy
      refine ⟨?_, by rw [key' v hm]; rfl⟩
      cases v with
      | none => simp
      | some x => simpa using hv x hm
    · simp only [CType.enc]
      congr 2
      rw [List.filterMap_map]
      have : ∀ (l : List (Option T)), (∀ v ∈ l, v ∈ vs) →
          l.filterMap ((fun v => (CType.nullableChecked t).enc v) ∘ fun v => (v.getD t.init, v.isNone)) = l.map fun v => (v.bind t.enc).getD .null := by
        intro l hl
        induction l with
        | nil => rfl
        | cons v l ih =>
          rw [List.filterMap_cons, Function.comp, key' v (hl v (by simp)), ih fun w hw => hl w (by simp [hw])]
          rfl
      exact this vs fun _ h => h

/-- The hypotheses are met. -/
example : (CType.vector (.sharedPtr (.int i32))).dec {} [] (JVal.arr [.num b!"1", .null]).root = some ⟨.noError, [some 1, none], [], []⟩ ∧
    (CType.vector (.nullableChecked (.int i32))).dec {} [] (JVal.arr [.num b!"1", .null]).root = some ⟨.noError, [(1, false), (0, true)], [], []⟩ ∧
    (CType.int i32).Lawful ∧ (CType.int i32).Valid 1 ∧ (CType.int i32).Solid 1 ∧
    serializeStruct (CType.vector (.sharedPtr (.int i32))).handler [some 1, none] (userOpts false 0 0) = some b!"[1,null]" :=
  ⟨by decide +kernel, by decide +kernel, trivial, by simp [CType.Valid]; decide +kernel, ⟨.num b!"1", rfl, by simp⟩, by decide +kernel⟩

/-! ### C49 -/

/-- **C49**, reading: any array or object read into `JsonTokens` gives exactly its tokens. -/
theorem C49_tokens_read {o : Opts} (hn : o.newLines = false) (p : POpts) (v : JVal) (hv : v.isContainer = true) {text : Bytes}
    (ht : Doc (lenient o) v text) (old : List Tok) : Parses CType.tokens.handler o p old text ⟨.noError, v.docToks, [], []⟩ :=
  parse_doc CType.tokens.sem hn p hv ht (by simp [CType.dec, tokensDec, hv, Item.toks, JVal.docToks])

/-- **C49**, writing: a `JsonTokens` with any tokens is written as these tokens, one after the other. -/
theorem C49_tokens_written (ks : List Tok) (o : SerOpts) :
    serializeStruct CType.tokens.handler ks o = some (((Ser.fresh o 1 (fun _ => some 1)).writeAll ks).2.out) := by
  obtain ⟨k', h⟩ := putToks_writes ks {} (Ser.onString o (startString []).length)
  simp only [serializeStruct, serializeWith, CType.handler, tokensH, h, Option.map_some]
  rw [C48_flush_is_exact o [] ks 1]

/-- **C49**, together: a document read into `JsonTokens` and written again is a text of the same document. -/
theorem C49_round_trip {o : Opts} (hn : o.newLines = false) (p : POpts) (v : JVal) (hv : v.isContainer = true) (hwf : v.WF rfcBytes) (hnm : v.Named)
    (hd : v.depth ≤ 255) {text : Bytes} (ht : Doc (lenient o) v text) (old : List Tok) (pretty : Bool) (shift : Nat) :
    ∃ ks text', Parses CType.tokens.handler o p old text ⟨.noError, ks, [], []⟩ ∧
      serializeStruct CType.tokens.handler ks (userOpts pretty shift 0) = some text' ∧ Doc rfcBytes v text' := by
  refine ⟨v.docToks, _, C49_tokens_read hn p v hv ht old, C49_tokens_written _ _, ?_⟩
  have := written_text v ⟨hwf, hnm⟩ pretty shift 0 (by omega) []
  rw [C48_flush_is_exact (userOpts pretty shift 0) [] v.docToks 1] at this
  exact this

/-- The hypotheses are met. -/
example : sampleValue.isContainer = true ∧ sampleValue.Named ∧ sampleValue.depth ≤ 255 ∧
    serializeStruct CType.tokens.handler sampleValue.docToks (userOpts false 0 0) = some b!"{\"a\":[1,\"x y\",{}],\"b\":null}" :=
  ⟨rfl, sampleValue_ok.2.1, by decide, by decide +kernel⟩

/-! ### C50 -/

/-- `struct { OneOrMany<T> n; JS_OBJ(n); };` -/
def oneMember (n : Bytes) (t : CType T) : CType T := .struct t.init (.mk (.cons [n] t id (fun x _ => x) .nil) .nil)

theorem oneMember_dec (n : Bytes) (t : CType T) (p : POpts) (old : T) (v : JVal) (l : Lbl) {q : Res T}
    (hq : t.dec p old (.val (n, .string) v) = some q) :
    (oneMember n t).dec p old (.val l (.obj [(n, v)])) = some q.nested := by
  have hspec : (CStruct.mk (.cons [n] t id (fun x _ => x) .nil) .nil).specs [] = [⟨qualifiedName [] n, [n], t.isOptional, partDec id (fun x _ => x) t.dec⟩] := rfl
  have hres : resolve ([⟨qualifiedName [] n, [n], t.isOptional, partDec id (fun x _ => x) t.dec⟩] : List (MemberSpec T)) n = some 0 := by
    simp [resolve, List.findIdx?_cons]
  have hm : membersDec ((CStruct.mk (.cons [n] t id (fun x _ => x) .nil) .nil).specs []) p old [(n, v)] = some q.nested := by
    rw [membersDec, hspec, hres]
    simp only [Option.bind_some, List.getElem?_cons_zero, partDec, id, hq, Option.map_some, Option.bind_eq_bind]
    by_cases he : (Res.nested (Res.map (fun x => x) q)).err = .noError
    · rw [Res.andThen_ok he]
      simp only [membersDec, Option.map_some, List.append_nil]
      have : (Res.nested (Res.map (fun x => x) q)) = q.nested := rfl
      rw [this] at he ⊢
      rw [← he]
    · rw [Res.andThen_err he]; rfl
  by_cases he : q.nested.err = .noError
  · have hu : unassignedNames ((CStruct.mk (.cons [n] t id (fun x _ => x) .nil) .nil).specs []) [(n, v)] = [] := by
      simp [unassignedNames, hspec, hres]
    rw [oneMember, struct_dec_ok hm he, hu]
    simp only [true_or, if_true, ← he]
    split <;> simp
  · rw [oneMember, struct_dec_err hm he]

/-- **C50**, reading: as a member of a struct that is new, a `OneOrMany` reads a single value (not an array) and an array
with only this value alike: same error, same contents. Missing: variables that hold something already
(`C50_false_not_cleared`). -/
theorem C50_one_or_many_partial (n : Bytes) (t : CType T) {o : Opts} (hn : o.newLines = false) (p : POpts) (v : JVal)
    (hv : ∀ vs, v ≠ .arr vs) {q : Res T} (hq : ∀ l, t.dec p t.init (.val l v) = some q) {t1 t2 : Bytes}
    (h1 : Doc (lenient o) (.obj [(n, v)]) t1) (h2 : Doc (lenient o) (.obj [(n, .arr [v])]) t2) :
    ∃ r, Parses (oneMember n (.oneOrMany t)).handler o p [] t1 r ∧ Parses (oneMember n (.oneOrMany t)).handler o p [] t2 r ∧
      r.err = q.nested.err ∧ r.val = [q.val] := by
  have d1 : (CType.oneOrMany t).dec p [] (.val (n, .string) v) = some (q.map fun x => [x]) := by
    have : (CType.oneOrMany t).dec p [] (.val (n, .string) v) = (t.dec p t.init (.val (n, .string) v)).map (Res.map fun x => [] ++ [x]) := by
      cases v <;> first | (exact absurd rfl (hv _)) | rfl
    rw [this, hq]; rfl
  have d2 : (CType.oneOrMany t).dec p [] (.val (n, .string) (.arr [v])) = some (q.map fun x => [x]) := by
    have : (CType.oneOrMany t).dec p [] (.val (n, .string) (.arr [v])) = elemsDec t.init t.dec p [] [v] := rfl
    rw [this]
    simp only [elemsDec, elem, hq, Option.bind_eq_bind, Option.bind_some]
    by_cases he : q.err = .noError
    · rw [Res.andThen_ok he]; simp [Res.map, he]
    · rw [Res.andThen_err he]; rfl
  refine ⟨(q.map fun x => [x]).nested, parse_doc (oneMember n (.oneOrMany t)).sem hn p rfl h1 (oneMember_dec _ _ _ _ _ _ d1),
    parse_doc (oneMember n (.oneOrMany t)).sem hn p rfl h2 (oneMember_dec _ _ _ _ _ _ d2), rfl, rfl⟩

/-- **C50**, writing: contents with at least one element, which is not itself written as an array, parse back. -/
theorem C50_round_trip (n : Bytes) (hn0 : n ≠ []) (hnq : Quotable n) (t : CType T) (ht : t.Lawful) (vs : List T) (hne : vs ≠ [])
    (hv : ∀ x ∈ vs, t.Valid x ∧ (t.enc x).isSome) (hna : ∀ x ∈ vs, ∀ js, t.enc x ≠ some (.arr js))
    (hd : ∀ j, (oneMember n (.oneOrMany t)).enc vs = some j → j.depth ≤ 255) (pretty : Bool) (shift : Nat) (o : Opts) :
    ∃ text un, serializeStruct (oneMember n (.oneOrMany t)).handler vs (userOpts pretty shift 0) = some text ∧
      Parses (oneMember n (.oneOrMany t)).handler o {} [] text ⟨.noError, vs, [], un⟩ := by
  have hl : (oneMember n (.oneOrMany t)).Lawful := by
    simp only [oneMember, CType.Lawful, CStruct.Lawful, CMembers.Lawful, CSupers.Lawful, and_true]
    refine ⟨⟨?_, ?_, ?_, ?_, ?_⟩, ⟨by simp only [CMembers.Fresh, and_true]; exact (CType.oneOrMany t).fresh_init ht, trivial⟩, ht⟩
    · simp [CStruct.entries, CMembers.entries, CSupers.entries, hn0, hnq]
    · simp [CStruct.entries, CMembers.entries, CSupers.entries]
    · simp [CStruct.entries, CMembers.entries, CSupers.entries]
    · simp [CStruct.entries, CMembers.entries, CSupers.entries]
    · simp [CStruct.entries, CMembers.entries, CSupers.entries]
  have hvalid : (oneMember n (.oneOrMany t)).Valid vs := by
    simp only [oneMember, CType.Valid, CStruct.Valid, CMembers.Valid, CSupers.Valid, and_true, id]
    exact ⟨hv, fun x js h => hna x (by simp [h]) js⟩
  exact C01_round_trip_new_variable_partial _ hl vs hvalid (j := .obj _) rfl rfl (hd _ rfl) pretty shift o

/-- **C50** is false if the variable holds something: a single value is appended to it, an array replaces it. -/
theorem C50_false_not_cleared :
    let t : CType (List Int) := oneMember b!"x" (.oneOrMany (.int i32))
    Parses t.handler {} {} [7] b!"{\"x\":5}" ⟨.noError, [7, 5], [], []⟩ ∧ Parses t.handler {} {} [7] b!"{\"x\":[5]}" ⟨.noError, [5], [], []⟩ :=
  ⟨parse_toks (v := .obj [(b!"x", .num b!"5")]) (CType.sem _) _ (by example_text) (by decide +kernel),
   parse_toks (v := .obj [(b!"x", .arr [.num b!"5"])]) (CType.sem _) _ (by example_text) (by decide +kernel)⟩

/-- The hypotheses are met. -/
example : (∀ l, (CType.int i32).dec {} (CType.int i32).init (.val l (.num b!"5")) = some ⟨.noError, 5, [], []⟩) ∧
    (∀ j, (oneMember b!"x" (.oneOrMany (.int i32))).enc [5, 6] = some j → j.depth ≤ 255) ∧
    serializeStruct (oneMember b!"x" (.oneOrMany (.int i32))).handler [5] (userOpts false 0 0) = some b!"{\"x\":5}" ∧
    serializeStruct (oneMember b!"x" (.oneOrMany (.int i32))).handler [5, 6] (userOpts false 0 0) = some b!"{\"x\":[5,6]}" := by
  refine ⟨fun l => ?_, ?_, by decide +kernel, by decide +kernel⟩
  · have : intTo i32 b!"5" = (.noError, 5) := by decide +kernel
    simp [CType.dec, intDec, scalarDec, Item.first, Item.toks, JVal.toks, this, Item.isScalar, JVal.isContainer]
  · intro j hj
    cases hj
    decide +kernel

/-! ### C52 -/

/-- `struct { std::string s; int t; JS_OBJ(s, t); };` -/
def exST : CStruct (Bytes × Int) := .mk (.cons [b!"s"] (.string .scalar) (·.1) (fun x r => (x, r.2)) (.cons [b!"t"] (.int i32) (·.2) (fun x r => (r.1, x)) .nil)) .nil

/-- **C52** is false for strings: an object is accepted for the member `s`. Its opening brace is stored as the string,
its member `t` is taken for the member of the outer object, and its end for the end of the outer object; there is no
error. -/
theorem C52_false_wrong_shape_accepted :
    (parseTo (CType.struct ([], 0) exST).handler 50 ([], 0) (Ctx.onText {} {} b!"{\"s\":{\"t\":5},\"t\":1}")).map
      (fun r => (r.1, r.2.1)) = some (.noError, (b!"{", 5)) := by decide +kernel

/-- **C52** is false for numbers and booleans too: a string with the text of one is accepted. -/
theorem C52_false_strings_for_numbers :
    Parses (CType.vector (.int i32)).handler {} {} [] b!"[\"5\"]" ⟨.noError, [5], [], []⟩ ∧
    Parses (CType.vector .bool).handler {} {} [] b!"[\"true\"]" ⟨.noError, [true], [], []⟩ :=
  ⟨parse_toks (v := .arr [.str b!"5"]) (CType.sem _) _ (by example_text) (by decide +kernel),
   parse_toks (v := .arr [.str b!"true"]) (CType.sem _) _ (by example_text) (by decide +kernel)⟩

/-- **C52**, brackets only: a type without strings and any document. If reading reports no error, the document has the
shape of the type, at every depth; so an array or an object where the type has a number, a struct where it has an
array, and so on, is always an error. Missing: the kinds of scalars, and types with strings (false for them, see above). -/
theorem C52_shape_partial (t : CType T) (hs : t.Stringless) {o : Opts} (hn : o.newLines = false) (p : POpts) {v : JVal}
    (hv : v.isContainer = true) {text : Bytes} (hd : Doc (lenient o) v text) (old : T) :
    ∃ r, Parses t.handler o p old text r ∧ (r.err = .noError → t.Fits v) := by
  obtain ⟨r, h1, h2⟩ := reads t hs hn p hv hd old
  exact ⟨r, h2, fun he => t.fits h1 he⟩

/-- The same with strings, as far as the outcome is defined. -/
theorem C52_shape_with_strings_partial (t : CType T) {o : Opts} (hn : o.newLines = false) (p : POpts) {v : JVal}
    (hv : v.isContainer = true) {text : Bytes} (hd : Doc (lenient o) v text) (old : T) {r : Res T} (hr : t.dec p old v.root = some r) :
    Parses t.handler o p old text r ∧ (r.err = .noError → t.Fits v) :=
  ⟨parse_doc t.sem hn p hv hd hr, fun he => t.fits hr he⟩

/-- Non-vacuity: `[[1],[]]` has the shape of `std::vector<std::vector<int>>`, and `[[1],2]` has not. -/
example : (CType.vector (.vector (.int i32))).Stringless ∧ (CType.vector (.vector (.int i32))).Fits (.arr [.arr [.num b!"1"], .arr []]) ∧
    ¬ (CType.vector (.vector (.int i32))).Fits (.arr [.arr [.num b!"1"], .num b!"2"]) ∧
    (CType.vector (.vector (.int i32))).dec {} [] (JVal.arr [.arr [.num b!"1"], .num b!"2"]).root =
      some ⟨.expectedArrayStart, [[1], []], [], []⟩ := by
  refine ⟨trivial, ?_, ?_, by decide +kernel⟩
  · simp [CType.Fits, JVal.isContainer]
  · simp [CType.Fits]

end JsonStruct
