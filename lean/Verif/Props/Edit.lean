import Verif.Lemmas.Edit
import Verif.Props.Map

/-
C96: a struct can be edited by way of a `JS::Map`.
-/

namespace JsonStruct

theorem safe_ok : ∀ {as : List SetOp} {ms : List (Bytes × JVal)}, Safe as ms → ∀ a ∈ as, a.Ok
  | [], _, _, a, h => by cases h
  | b :: as, ms, hs, a, h => by
    rcases List.mem_cons.mp h with rfl | h
    · exact hs.1
    · exact safe_ok hs.2.2 a h

theorem primary_distinct {s : CStruct T} (h : s.Sensible) : (s.entries.map fun e => e.names.headD []).Nodup := by
  have hd := h.distinct
  have : (s.entries.map fun e => e.names.head?) = (s.entries.map fun e => e.names.headD []).map some := by
    rw [List.map_map]
    refine List.map_congr_left fun e he => ?_
    obtain ⟨n, h1, -⟩ := h.named e he
    rw [Function.comp, List.headD_eq_head?_getD, h1]
    rfl
  rw [this] at hd
  exact List.Nodup.of_map _ hd

/-- What the text of a struct, read into a map and edited there, stands for. -/
theorem edited_parts {init : T} {s : CStruct T} (hl : (CType.struct init s).Lawful) {v : T} (hv : (CType.struct init s).Valid v)
    (hd : (JVal.obj (s.enc v)).depth ≤ 255) {es : List (Edit T)} (hm : ∀ e ∈ es, e.member ∈ s.entries)
    (hs : ∀ a ∈ es.map Edit.op, a.Ok) :
    ∃ gs : List (Entry T), gs.Perm s.entries ∧ setMembers (es.map Edit.op) (s.enc v) = partsEnc gs (edited v es) ∧
      (∀ e ∈ gs, e.type.Valid (e.get (edited v es))) ∧ (JVal.obj (partsEnc gs (edited v es))).Good ∧
      (JVal.obj (partsEnc gs (edited v es))).depth ≤ 255 := by
  simp only [CType.Lawful] at hl
  simp only [CType.Valid] at hv
  obtain ⟨hsen, -, hls⟩ := hl
  have hok : ∀ e ∈ es, e.op.Ok := fun e he => hs _ (List.mem_map_of_mem he)
  have hhead : ∀ e ∈ s.entries, ∃ n, e.names.head? = some n ∧ e.names.headD [] = n ∧ n ≠ [] ∧ Quotable n := fun e he => by
    obtain ⟨n, h1, h2, h3⟩ := hsen.named e he
    exact ⟨n, h1, by rw [List.headD_eq_head?_getD, h1]; rfl, h2, h3⟩
  have hnd := primary_distinct hsen
  obtain ⟨gs, g1, g2⟩ := setMembers_parts hnd hsen.apart hsen.stored es (fun e he => ⟨hm e he, (hok e he).2.2.1⟩) s.entries (.refl _) v
  have henc : s.enc v = partsEnc s.entries v := s.enc_entries v
  have hval := edited_valid hsen.apart hsen.stored (fun e x => e.type.Valid x ∧ ∀ j, e.type.enc x = some j → j.depth ≤ 254) es
    (fun e he => ⟨hm e he, (hok e he).2.1, fun j hj => by
      have h := (hok e he).2.2
      have h1 : e.member.type.enc e.x = some e.j := h.1
      rw [hj] at h1
      cases h1
      exact Nat.le_of_lt_succ h.2.2.2⟩) v
    (fun e he => ⟨s.valid_entries v hv e he, fun j hj => by
      simp only [JVal.depth] at hd
      have hmem : (e.names.headD [], j) ∈ s.enc v := by
        rw [henc]
        exact List.mem_filterMap.mpr ⟨e, he, by rw [hj]; rfl⟩
      exact (membersDepth_le (n := 254)).mp (by omega) _ hmem⟩)
  refine ⟨gs, g1, henc ▸ g2, fun e he => (hval e (g1.mem_iff.mp he)).1, good_obj fun m hm => ?_, ?_⟩
  · obtain ⟨e, he, h1⟩ := List.mem_filterMap.mp hm
    obtain ⟨j, h2, rfl⟩ := Option.map_eq_some_iff.mp h1
    have he := g1.mem_iff.mp he
    obtain ⟨n, -, hh, h3, h4⟩ := hhead e he
    simp only [hh]
    exact ⟨h4, h3, s.good hls e he _ (hval e he).1 j h2⟩
  · have : membersDepth (partsEnc gs (edited v es)) ≤ 254 := membersDepth_le.mpr fun m hm => by
      obtain ⟨e, he, h1⟩ := List.mem_filterMap.mp hm
      obtain ⟨j, h2, rfl⟩ := Option.map_eq_some_iff.mp h1
      exact (hval e (g1.mem_iff.mp he)).2 j h2
    simp only [JVal.depth]
    omega

/-- What reading the edited object amounts to. -/
theorem edited_dec {init : T} {s : CStruct T} (hl : (CType.struct init s).Lawful) {v : T} (hv : (CType.struct init s).Valid v)
    (hd : (JVal.obj (s.enc v)).depth ≤ 255) {es : List (Edit T)} (hm : ∀ e ∈ es, e.member ∈ s.entries)
    (hs : ∀ a ∈ es.map Edit.op, a.Ok) {p' : POpts} (hp : p'.allowUnassigned = true) {old : T} (hold : (CType.struct init s).Fresh old) :
    ∃ un, (CType.struct init s).dec p' old (.val ([], .ascii) (.obj (setMembers (es.map Edit.op) (s.enc v)))) = some ⟨.noError, edited v es, [], un⟩ := by
  obtain ⟨gs, g1, g2, g3, g4, g5⟩ := edited_parts hl hv hd hm hs
  rw [g2]
  simp only [CType.Lawful] at hl
  simp only [CType.Fresh] at hold
  obtain ⟨hsen, -, hls⟩ := hl
  obtain ⟨a1, a2⟩ := s.specs_entries []
  have hdn : ((s.specs []).map fun m => m.names.head?).Nodup := by
    have : (s.specs []).map (fun m => m.names.head?) = ((s.specs []).map (·.names)).map List.head? := by simp
    rw [this]
    refine (a2.map _).nodup_iff.mpr ?_
    rw [List.map_map]
    exact hsen.distinct
  have hsym : ∀ {x y : Access T}, x.Apart y → y.Apart x := fun h => ⟨h.2.1, h.1, fun x y t => (h.2.2 y x t).symm⟩
  obtain ⟨x', un, q1, -, q3, -⟩ := membersDec_enc (specs := s.specs []) (p := p') (v := edited v es) gs (.inl hp) (fun e he => by
      have he := g1.mem_iff.mp he
      obtain ⟨m, hm, hm1, hm2⟩ := a1 e he
      obtain ⟨n, hn, _⟩ := hsen.named e he
      exact ⟨m, n, hn, resolve_primary hdn hm (hm1 ▸ hn), hm2⟩) (fun e he => s.roundTrips hls e (g1.mem_iff.mp he)) g3 old
    (fun e he => s.fresh_entries old hold e (g1.mem_iff.mp he)) (((g1.map Entry.access).pairwise_iff hsym).mpr hsen.apart)
    (fun e he => hsen.stored e (g1.mem_iff.mp he))
  obtain rfl : x' = edited v es := hsen.all _ _ fun e he => q3 e (g1.mem_iff.mpr he)
  have hdec := struct_dec_ok (init := init) (l := ([], .ascii)) q1 rfl
  rw [if_pos (.inr hp)] at hdec
  exact ⟨_, hdec⟩

/-- **C96**: A struct is written, the text is read into a `JS::Map`, members of the map are set any number of times, each with a value of the
declared type, the map is written, and the text is read into a new variable of the struct. No step reports an error, and the variable
holds the struct with those members assigned to.

Members may also be set that were not in the text (an empty `optional`, for instance). Missing: calls affected by the defect of `setValue`
shown in `C27_false_scalar_replaced`, for which it is false (`C96_false_scalars`); values that are written as nothing. -/
theorem C96_edited_partial (init : T) (s : CStruct T) (hl : (CType.struct init s).Lawful) (v : T) (hv : (CType.struct init s).Valid v)
    (hd : (JVal.obj (s.enc v)).depth ≤ 255) (es : List (Edit T)) (hm : ∀ e ∈ es, e.member ∈ s.entries)
    (hs : Safe (es.map Edit.op) (s.enc v)) (pretty pretty' : Bool) (shift shift' : Nat)
    {o o' : Opts} (ho : o.newLines = false) (ho' : o'.newLines = false) (p p' : POpts) (hp : p'.allowUnassigned = true)
    (oldMap : JMap) (old : T) (hold : (CType.struct init s).Fresh old) :
    ∃ text m N m' text' un,
      serializeStruct (CType.struct init s).handler v (userOpts pretty shift 0) = some text ∧
      Parses jmapH o p oldMap text ⟨.noError, m, [], []⟩ ∧
      (∀ n, N ≤ n → JMap.setAll n (es.map Edit.op) m = some m') ∧
      serializeStruct jmapH m' (userOpts pretty' shift' 0) = some text' ∧
      Parses (CType.struct init s).handler o' p' old text' ⟨.noError, edited v es, [], un⟩ := by
  obtain ⟨text, h1, h2⟩ := serialized (CType.struct init s) hl v hv rfl pretty shift 0 (by omega)
  obtain ⟨m, N, m', k1, k2, k3⟩ := C27_history_of_parsed_map_partial ho p (s.enc v) (doc_mono (rfcBytes_le o) h2) oldMap _ hs
  obtain ⟨gs, g1, g2, g3, g4, g5⟩ := edited_parts hl hv hd hm (safe_ok hs)
  rw [g2] at k3
  obtain ⟨text', w1, w2⟩ := k3.written g4.1 g4.2 g5 pretty' shift'
  obtain ⟨un, hdec⟩ := edited_dec hl hv hd hm (safe_ok hs) hp hold
  rw [g2] at hdec
  exact ⟨text, m, N, m', text', _, h1, k1, k2, w1,
    parse_doc (CType.struct init s).sem ho' p' rfl (doc_mono (rfcBytes_le o') w2) hdec⟩

/-- The same map asked for its members: `castToType` with the name of a declared member and a variable of its type gives the value the
member has in the edited struct. -/
theorem C96_members_partial (init : T) (s : CStruct T) (hl : (CType.struct init s).Lawful) (v : T) (hv : (CType.struct init s).Valid v)
    (hd : (JVal.obj (s.enc v)).depth ≤ 255) (es : List (Edit T)) (hm : ∀ e ∈ es, e.member ∈ s.entries)
    (hs : Safe (es.map Edit.op) (s.enc v)) (pretty : Bool) (shift : Nat) {o : Opts} (ho : o.newLines = false) (p : POpts) (oldMap : JMap) :
    ∃ text m N m',
      serializeStruct (CType.struct init s).handler v (userOpts pretty shift 0) = some text ∧
      Parses jmapH o p oldMap text ⟨.noError, m, [], []⟩ ∧
      (∀ n, N ≤ n → JMap.setAll n (es.map Edit.op) m = some m') ∧
      ∀ e ∈ s.entries, e.type.enc (e.get (edited v es)) ≠ none → ∀ c : Ctx, c.tz.scopes = [] → c.allowUnassigned = true →
        ∀ old, e.type.Fresh old → ∃ un, m'.Casts e.type.handler (e.names.headD []) c old ⟨.noError, e.get (edited v es), [], un⟩ := by
  obtain ⟨text, h1, h2⟩ := serialized (CType.struct init s) hl v hv rfl pretty shift 0 (by omega)
  obtain ⟨m, N, m', k1, k2, k3⟩ := C27_history_of_parsed_map_partial ho p (s.enc v) (doc_mono (rfcBytes_le o) h2) oldMap _ hs
  obtain ⟨gs, g1, g2, g3, g4, g5⟩ := edited_parts hl hv hd hm (safe_ok hs)
  rw [g2] at k3
  refine ⟨text, m, N, m', h1, k1, k2, fun e he hne c hc hu old hf => ?_⟩
  simp only [CType.Lawful] at hl
  obtain ⟨j, hj⟩ := Option.ne_none_iff_exists'.mp hne
  have heg := g1.mem_iff.mpr he
  obtain ⟨un, hun⟩ := (s.roundTrips hl.2.2 e he).some hj (g3 e heg) hf (p := ⟨c.allowMissing, c.allowUnassigned, c.track⟩) hu (e.names.headD [], .string)
  obtain ⟨pre, post, hh⟩ := List.append_of_mem heg
  refine ⟨un, k3.cast _ e.type (partsEnc pre (edited v es)) (e.names.headD []) j (partsEnc post (edited v es)) ?_ ?_ c old _ hc hun⟩
  · rw [hh]
    simp [partsEnc, hj]
  · intro hmem
    obtain ⟨f, hf, hn⟩ := partsEnc_names hmem
    have hnd := (g1.map fun e => e.names.headD []).nodup_iff.mpr (primary_distinct hl.1)
    rw [hh, List.map_append, List.map_cons, List.nodup_append] at hnd
    exact hnd.2.2 _ (List.mem_map_of_mem hf) _ (by simp) hn

theorem setMember_mem {name : Bytes} {j : JVal} {ms : List (Bytes × JVal)} {m : Bytes × JVal} (h : m ∈ setMember name j ms) : m ∈ ms ∨ m = (name, j) := by
  have key : ∀ ms : List (Bytes × JVal), ∀ m ∈ removeMember name ms, m ∈ ms := by
    intro ms
    induction ms with
    | nil => exact fun _ h => h
    | cons e ms ih =>
      obtain ⟨n, v⟩ := e
      intro m hm
      rw [removeMember] at hm
      split at hm
      · exact List.mem_cons_of_mem _ hm
      · rcases List.mem_cons.mp hm with rfl | hm
        · exact List.mem_cons_self
        · exact List.mem_cons_of_mem _ (ih m hm)
  rcases List.mem_append.mp h with h | h
  · exact .inl (key ms m h)
  · exact .inr (List.mem_singleton.mp h)

/-- No array or object anywhere: nothing is affected by the defect. -/
theorem safe_flat : ∀ {as : List SetOp} {ms : List (Bytes × JVal)}, (∀ m ∈ ms, m.2.isContainer = false) →
    (∀ a ∈ as, a.Ok ∧ a.j.isContainer = false) → Safe as ms
  | [], _, _, _ => trivial
  | a :: as, ms, hm, ha => by
    refine ⟨(ha a (by simp)).1, fun pre v post he _ => .inr fun e h => hm e (by rw [he]; simp [h]),
      safe_flat (fun m h => ?_) fun b hb => ha b (by simp [hb])⟩
    rcases setMember_mem h with h | rfl
    · exact hm m h
    · exact (ha a (by simp)).2

/-- Only arrays and objects are set, and only in the place of arrays and objects, or where nothing was. -/
theorem safe_containers : ∀ {as : List SetOp} {ms : List (Bytes × JVal)}, (∀ a ∈ as, ∀ v, (a.name, v) ∈ ms → v.isContainer = true) →
    (∀ a ∈ as, a.Ok ∧ a.j.isContainer = true) → Safe as ms
  | [], _, _, _ => trivial
  | a :: as, ms, hm, ha => by
    refine ⟨(ha a (by simp)).1, fun pre v post he _ => .inl (hm a (by simp) v (by rw [he]; simp)),
      safe_containers (fun b hb v h => ?_) fun b hb => ha b (by simp [hb])⟩
    rcases setMember_mem h with h | h
    · exact hm b (by simp [hb]) v h
    · rw [(Prod.mk.inj h).2]
      exact (ha a (by simp)).2

/-- **C96** for structs in which no member is written as an array or object, or of which only members are set that are: here the defect of
`setValue` does no harm, whatever is set, in whatever order and how often. -/
theorem C96_unharmed_partial (init : T) (s : CStruct T) (hl : (CType.struct init s).Lawful) (v : T) (hv : (CType.struct init s).Valid v)
    (hd : (JVal.obj (s.enc v)).depth ≤ 255) (es : List (Edit T)) (hm : ∀ e ∈ es, e.member ∈ s.entries) (hok : ∀ e ∈ es, e.op.Ok)
    (hh : ((∀ e ∈ s.entries, ∀ x j, e.type.enc x = some j → j.isContainer = false) ∨
      ∀ e ∈ es, ∀ x j, e.member.type.enc x = some j → j.isContainer = true))
    (pretty pretty' : Bool) (shift shift' : Nat)
    {o o' : Opts} (ho : o.newLines = false) (ho' : o'.newLines = false) (p p' : POpts) (hp : p'.allowUnassigned = true)
    (oldMap : JMap) (old : T) (hold : (CType.struct init s).Fresh old) :
    ∃ text m N m' text' un,
      serializeStruct (CType.struct init s).handler v (userOpts pretty shift 0) = some text ∧
      Parses jmapH o p oldMap text ⟨.noError, m, [], []⟩ ∧
      (∀ n, N ≤ n → JMap.setAll n (es.map Edit.op) m = some m') ∧
      serializeStruct jmapH m' (userOpts pretty' shift' 0) = some text' ∧
      Parses (CType.struct init s).handler o' p' old text' ⟨.noError, edited v es, [], un⟩ := by
  refine C96_edited_partial init s hl v hv hd es hm ?_ pretty pretty' shift shift' ho ho' p p' hp oldMap old hold
  have henc : s.enc v = partsEnc s.entries v := s.enc_entries v
  simp only [CType.Lawful] at hl
  rcases hh with hh | hh
  · refine safe_flat (fun m hm => ?_) fun a ha => ?_
    · rw [henc] at hm
      obtain ⟨e, he, h1⟩ := List.mem_filterMap.mp hm
      obtain ⟨j, h2, rfl⟩ := Option.map_eq_some_iff.mp h1
      exact hh e he _ j h2
    · obtain ⟨e, he, rfl⟩ := List.mem_map.mp ha
      exact ⟨hok e he, hh _ (hm e he) _ _ (hok e he).2.2.1⟩
  · refine safe_containers (fun a ha x hx => ?_) fun a ha => ?_
    · obtain ⟨e, he, rfl⟩ := List.mem_map.mp ha
      rw [henc] at hx
      obtain ⟨f, hf, h1⟩ := List.mem_filterMap.mp hx
      obtain ⟨j, h2, h3⟩ := Option.map_eq_some_iff.mp h1
      obtain ⟨hn, rfl⟩ := Prod.mk.inj h3
      obtain rfl := List.inj_on_of_nodup_map (primary_distinct hl.1) hf (hm e he) hn
      exact hh e he _ _ h2
    · obtain ⟨e, he, rfl⟩ := List.mem_map.mp ha
      exact ⟨hok e he, hh e he _ _ (hok e he).2.2.1⟩

/-! ### A case that meets the hypotheses, and one that does not -/

/-- `struct { std::vector<int> b; std::optional<bool> c; int a; }`, where `a` has an alias -/
abbrev ExEdited := List Int × Option Bool × Int

def exEditedB : Entry ExEdited := { names := [b!"b"], type := .vector (.int i32), get := (·.1), set := fun x t => (x, t.2) }
def exEditedC : Entry ExEdited := { names := [b!"c"], type := .stdOptional .bool, get := (·.2.1), set := fun x t => (t.1, x, t.2.2) }
def exEditedA : Entry ExEdited := { names := [b!"a", b!"alias"], type := .int i32, get := (·.2.2), set := fun x t => (t.1, t.2.1, x) }

def exEditedStruct : CStruct ExEdited :=
  .mk (.cons [b!"b"] (.vector (.int i32)) (·.1) (fun x t => (x, t.2))
    (.cons [b!"c"] (.stdOptional .bool) (·.2.1) (fun x t => (t.1, x, t.2.2))
      (.cons [b!"a", b!"alias"] (.int i32) (·.2.2) (fun x t => (t.1, t.2.1, x)) .nil))) .nil

theorem exEdited_entries : exEditedStruct.entries = [exEditedB, exEditedC, exEditedA] := rfl

theorem exEdited_lawful : (CType.struct ([], none, 0) exEditedStruct).Lawful := by
  refine ⟨⟨?_, ?_, ?_, ?_, ?_⟩, ?_, ?_⟩
  · intro e he
    simp only [exEdited_entries, List.mem_cons, List.not_mem_nil, or_false] at he
    rcases he with rfl | rfl | rfl
    · exact ⟨b!"b", rfl, by decide, by quotable⟩
    · exact ⟨b!"c", rfl, by decide, by quotable⟩
    · exact ⟨b!"a", rfl, by decide, by quotable⟩
  · simp only [exEdited_entries]; decide +kernel
  · simp [exEdited_entries, exEditedA, exEditedB, exEditedC, Access.Apart, Entry.access]
  · intro e he x t
    simp only [exEdited_entries, List.mem_cons, List.not_mem_nil, or_false] at he
    rcases he with rfl | rfl | rfl <;> rfl
  · intro a b h
    simp [exEdited_entries, exEditedA, exEditedB, exEditedC] at h
    exact Prod.ext h.1 (Prod.ext h.2.1 h.2.2)
  · simp [exEditedStruct, CStruct.Fresh, CMembers.Fresh, CSupers.Fresh, CType.Fresh]
  · simp [exEditedStruct, CStruct.Lawful, CMembers.Lawful, CSupers.Lawful, CType.Lawful]

/-- The array is replaced, the optional is set for the first time, the number is set twice. -/
def exEdits : List (Edit ExEdited) :=
  [⟨exEditedA, (5 : Int), .num b!"5"⟩, ⟨exEditedC, some true, .bool true⟩, ⟨exEditedA, (6 : Int), .num b!"6"⟩,
   ⟨exEditedB, ([9, 8] : List Int), .arr [.num b!"9", .num b!"8"]⟩]

example : (CType.struct ([], none, 0) exEditedStruct).Valid ([2], none, 1) ∧ (JVal.obj (exEditedStruct.enc ([2], none, 1))).depth ≤ 255 ∧
    (∀ e ∈ exEdits, e.member ∈ exEditedStruct.entries) ∧ Safe (exEdits.map Edit.op) (exEditedStruct.enc ([2], none, 1)) ∧
    edited ([2], none, 1) exEdits = ([9, 8], some true, 6) := by
  have h1 : ∀ x : Int, -10 ≤ x → x ≤ 10 → i32.Supported ∧ i32.InRange x := fun x h1 h2 =>
    ⟨by simp [IntTy.Supported, i32], by simp [IntTy.InRange, IntTy.min, IntTy.max, i32]; omega⟩
  have h2 : exEditedStruct.enc ([2], none, 1) = [(b!"b", .arr [.num b!"2"]), (b!"a", .num b!"1")] := rfl
  refine ⟨?_, ?_, ?_, ?_, rfl⟩
  · simp only [exEditedStruct, CType.Valid, CStruct.Valid, CMembers.Valid, CSupers.Valid]
    refine ⟨⟨?_, ?_, h1 1 (by decide) (by decide), trivial⟩, trivial⟩
    · intro x hx
      simp only [List.mem_cons, List.not_mem_nil, or_false] at hx
      subst hx
      exact ⟨h1 2 (by decide) (by decide), by decide +kernel⟩
    · simp
  · rw [h2]; decide +kernel
  · intro e he
    simp only [exEdits, List.mem_cons, List.not_mem_nil, or_false] at he
    rw [exEdited_entries]
    rcases he with rfl | rfl | rfl | rfl <;> simp
  · rw [h2]
    refine ⟨⟨trivial, h1 5 (by decide) (by decide), rfl, by decide, by quotable, by decide +kernel⟩, replaceable_of (by decide +kernel),
      ⟨trivial, ?_, rfl, by decide, by quotable, by decide +kernel⟩, replaceable_of (by decide +kernel),
      ⟨trivial, h1 6 (by decide) (by decide), rfl, by decide, by quotable, by decide +kernel⟩, replaceable_of (by decide +kernel),
      ⟨trivial, ?_, rfl, by decide, by quotable, by decide +kernel⟩, replaceable_of (by decide +kernel), trivial⟩
    · simp [Edit.op, exEditedC, CType.Valid, CType.enc]
    · intro x hx
      simp only [Edit.op, List.mem_cons, List.not_mem_nil, or_false] at hx
      rcases hx with rfl | rfl
      · exact ⟨h1 9 (by decide) (by decide), by decide +kernel⟩
      · exact ⟨h1 8 (by decide) (by decide), by decide +kernel⟩

/-- The hypotheses of `C96_unharmed_partial`, both alternatives: only the array is set; a struct of a number and a string. -/
example : (∀ e ∈ [(⟨exEditedB, ([9] : List Int), .arr [.num b!"9"]⟩ : Edit ExEdited)], ∀ x j, e.member.type.enc x = some j → j.isContainer = true) ∧
    ∀ e ∈ (CStruct.mk (T := Int × Bytes) (.cons [b!"a"] (.int i32) (·.1) (fun x t => (x, t.2))
      (.cons [b!"b"] (.string .scalar) (·.2) (fun x t => (t.1, x)) .nil)) .nil).entries, ∀ x j, e.type.enc x = some j → j.isContainer = false := by
  constructor
  · intro e he x j hj
    simp only [List.mem_singleton] at he
    subst he
    cases hj
    rfl
  · intro e he x j hj
    simp only [CStruct.entries, CMembers.entries, CSupers.entries, List.append_nil, List.mem_cons, List.not_mem_nil, or_false] at he
    rcases he with rfl | rfl
    · obtain ⟨t, _, rfl⟩ := Option.map_eq_some_iff.mp hj
      rfl
    · cases hj
      rfl

/-- It is false when a scalar in front of an array is set: `struct { int a; std::vector<int> b; }` with `a = 1` and `b = {2}`, read into a
map, where `a` is set to 5 and then `b` to `{9}`. What the map is written as is not JSON. -/
theorem C96_false_scalars :
    let s : CStruct (Int × List Int) := .mk (.cons [b!"a"] (.int i32) (·.1) (fun x t => (x, t.2))
      (.cons [b!"b"] (.vector (.int i32)) (·.2) (fun x t => (t.1, x)) .nil)) .nil
    let ops : List SetOp := [⟨.int i32, b!"a", 5, .num b!"5"⟩, ⟨.vector (.int i32), b!"b", [9], .arr [.num b!"9"]⟩]
    serializeStruct (CType.struct (0, []) s).handler (1, [2]) (userOpts false 0 0) = some b!"{\"a\":1,\"b\":[2]}" ∧
    (∀ old, Parses jmapH {} {} old b!"{\"a\":1,\"b\":[2]}"
      ⟨.noError, jmapOf ([], .ascii) (.obj [(b!"a", .num b!"1"), (b!"b", .arr [.num b!"2"])]), [], []⟩) ∧
    ((JMap.setAll 50 ops (jmapOf ([], .ascii) (.obj [(b!"a", .num b!"1"), (b!"b", .arr [.num b!"2"])]))).bind fun m =>
      serializeStruct jmapH m (userOpts false 0 0)) = some b!"{2],\"a\":5,\"b\":[9]" :=
  ⟨by decide +kernel, fun _ => parse_toks (v := .obj [(b!"a", .num b!"1"), (b!"b", .arr [.num b!"2"])]) jmap_sem _ (by example_text)
    (jmapDec_value _ _ _ rfl), by decide +kernel⟩

end JsonStruct
