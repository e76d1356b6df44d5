import Verif.Spec.Encode
import Verif.Spec.Absent
import Verif.Lemmas.Writes
import Verif.Lemmas.Members
import Verif.Props.Serializer
import Verif.Lemmas.Parse

namespace JsonStruct

/-- What is written for a value and read into a fresh variable gives the value back; where nothing is written, the
fresh variable has the value already. -/
def CType.RoundTrips (t : CType T) : Prop :=
  ∀ v, t.Valid v → ∀ old, t.Fresh old → ∀ p l, p.allowUnassigned = true ∨ t.WritesRequired →
    match t.enc v with
    | some j => ∃ un, t.dec p old (.val l j) = some ⟨.noError, v, [], un⟩ ∧ (t.WritesRequired → un = [])
    | none => old = v

theorem CType.RoundTrips.full {t : CType T} (h : t.RoundTrips) {v old : T} {j : JVal} (hj : t.enc v = .some j) (hv : t.Valid v)
    (hf : t.Fresh old) {p : POpts} (hp : p.allowUnassigned = true ∨ t.WritesRequired) (l : Lbl) :
    ∃ un, t.dec p old (.val l j) = .some ⟨.noError, v, [], un⟩ ∧ (t.WritesRequired → un = []) := by
  have := h v hv old hf p l hp
  rw [hj] at this
  exact this

theorem CType.RoundTrips.some {t : CType T} (h : t.RoundTrips) {v old : T} {j : JVal} (hj : t.enc v = .some j) (hv : t.Valid v)
    (hf : t.Fresh old) {p : POpts} (hp : p.allowUnassigned = true) (l : Lbl) :
    ∃ un, t.dec p old (.val l j) = .some ⟨.noError, v, [], un⟩ := by
  obtain ⟨un, h, _⟩ := h.full hj hv hf (.inl hp) l
  exact ⟨un, h⟩

theorem CType.RoundTrips.none {t : CType T} (h : t.RoundTrips) {v old : T} (hj : t.enc v = .none) (hv : t.Valid v)
    (hf : t.Fresh old) : old = v := by
  have := h v hv old hf {} ([], .ascii) (.inl rfl)
  rw [hj] at this
  exact this

/-! ### Value-initialised variables are fresh -/

mutual
theorem CType.fresh_init : {T : Type} → (t : CType T) → t.Lawful → t.Fresh t.init
  | _, .bool, _ | _, .int _, _ | _, .double, _ | _, .float, _ | _, .time _, _ | _, .string _, _ | _, .enum _ _, _ | _, .enumValue _, _ | _, .vector _, _ | _, .set _ _ _, _
  | _, .tokens, _ | _, .jmap, _ => by simp [CType.Fresh]
  | _, .nullable t, h => by
    simp only [CType.Lawful] at h
    simp only [CType.Fresh]
    exact t.fresh_init h
  | _, .nullableChecked t, _ => by simp only [CType.Fresh]; rfl
  | _, .optional t, h => by
    simp only [CType.Lawful] at h
    simp only [CType.Fresh]
    exact t.fresh_init h
  | _, .optionalChecked t, _ => by simp only [CType.Fresh]; rfl
  | _, .stdOptional t, _ => by simp only [CType.Fresh]; rfl
  | _, .sharedPtr t, _ => by simp only [CType.Fresh]; intro y hy; cases hy
  | _, .uniquePtr t, _ => by simp only [CType.Fresh]; intro y hy; cases hy
  | _, .silentString m, _ => by simp only [CType.Fresh]; rfl
  | _, .silentVector t, _ => by simp only [CType.Fresh]; rfl
  | _, .silentUniquePtr t, _ => by simp only [CType.Fresh]; rfl
  | _, .oneOrMany t, _ => by simp only [CType.Fresh]; rfl
  | _, .array N t, h => by
    simp only [CType.Lawful] at h
    simp only [CType.Fresh]
    have hi : (CType.array N t).init = List.replicate N t.init := rfl
    rw [hi]
    refine ⟨by simp, fun y hy => ?_⟩
    rw [(List.mem_replicate.mp hy).2]
    exact t.fresh_init h
  | _, .arrayVariable count t, _ => by
    simp only [CType.Fresh]
    exact ⟨rfl, fun _ => rfl⟩
  | _, .tuple ts, h => by
    simp only [CType.Lawful] at h
    simp only [CType.Fresh]
    exact ts.fresh_init h
  | _, .map ins t, _ => by simp only [CType.Fresh]; rfl
  | _, .struct init s, h => by
    simp only [CType.Lawful] at h
    simp only [CType.Fresh]
    exact h.2.1
theorem CTypes.fresh_init : {Ts : Type} → (ts : CTypes Ts) → ts.Lawful → ts.Fresh ts.handler.init
  | _, .nil, _ => trivial
  | _, .cons t ts, h => by
    simp only [CTypes.Lawful] at h
    exact ⟨t.fresh_init h.1, ts.fresh_init h.2⟩
end

/-! ### Scalars -/

theorem intDec_enc {I : IntTy} {v : Int} (hI : I.Supported) (hv : I.InRange v) (p : POpts) (old : Int) (l : Lbl) :
    ∃ txt, intFrom I v = some txt ∧ intDec I p old (.val l (.num txt)) = some ⟨.noError, v, [], []⟩ := by
  obtain ⟨txt, h1, h2⟩ := C14_integer_round_trip I hI v hv
  exact ⟨txt, h1, by simp [intDec, scalarDec, Item.first, Item.toks, JVal.toks, h2, Item.isScalar, JVal.isContainer]⟩

theorem stringDec_enc (m : Simd) (v : Bytes) (p : POpts) (old : Bytes) (l : Lbl) :
    stringDec p old (.val l (.str (escapesOut m v))) = some ⟨.noError, v, [], []⟩ := by
  simp [stringDec, scalarDec, Item.first, Item.toks, JVal.toks, C11_escape_round_trip, Item.isScalar, JVal.isContainer]

/-! ### Sequences -/

theorem elemsDec_enc {t : CType T} (h : t.RoundTrips) {init : T} (hi : t.Fresh init) {p : POpts} (hp : p.allowUnassigned = true ∨ t.WritesRequired)
    (vs : List T) (hv : ∀ x ∈ vs, t.Valid x ∧ (t.enc x).isSome) (acc : List T) :
    ∃ un, elemsDec init t.dec p acc (vs.filterMap t.enc) = some ⟨.noError, acc ++ vs, [], un⟩ ∧ (t.WritesRequired → un = []) := by
  induction vs generalizing acc with
  | nil => exact ⟨[], by simp [elemsDec], fun _ => rfl⟩
  | cons x vs ih =>
    obtain ⟨hx1, hx2⟩ := hv x (by simp)
    obtain ⟨j, hj⟩ := Option.isSome_iff_exists.mp hx2
    obtain ⟨u1, h1, k1⟩ := h.full hj hx1 hi hp ([], .ascii)
    obtain ⟨u2, h2, k2⟩ := ih (fun y hy => hv y (by simp [hy])) (acc ++ [x])
    refine ⟨u1 ++ u2, ?_, fun hc => by rw [k1 hc, k2 hc]; rfl⟩
    simp only [List.filterMap_cons, hj, elemsDec, elem, h1, Option.bind_eq_bind, Option.bind_some]
    rw [Res.andThen_ok rfl, h2]
    simp

theorem fixedDec_enc {t : CType T} (h : t.RoundTrips) {p : POpts} (hp : p.allowUnassigned = true ∨ t.WritesRequired)
    (vs : List T) (hv : ∀ x ∈ vs, t.Valid x ∧ (t.enc x).isSome) (old : List T) (hl : old.length = vs.length) (ho : ∀ y ∈ old, t.Fresh y) :
    ∃ un, fixedDec t.dec p old (vs.filterMap t.enc) = some ⟨.noError, vs, [], un⟩ ∧ (t.WritesRequired → un = []) := by
  induction vs generalizing old with
  | nil =>
    obtain rfl := List.length_eq_zero_iff.mp hl
    exact ⟨[], by simp [fixedDec], fun _ => rfl⟩
  | cons x vs ih =>
    cases old with
    | nil => simp at hl
    | cons y old =>
      obtain ⟨hx1, hx2⟩ := hv x (by simp)
      obtain ⟨j, hj⟩ := Option.isSome_iff_exists.mp hx2
      obtain ⟨u1, h1, k1⟩ := h.full hj hx1 (ho y (by simp)) hp ([], .ascii)
      obtain ⟨u2, h2, k2⟩ := ih (fun y hy => hv y (by simp [hy])) old (by simpa using hl) (fun z hz => ho z (by simp [hz]))
      refine ⟨u1 ++ u2, ?_, fun hc => by rw [k1 hc, k2 hc]; rfl⟩
      simp only [List.filterMap_cons, hj, fixedDec, elem, h1, Option.bind_eq_bind, Option.bind_some]
      rw [Res.andThen_ok rfl, h2]
      simp [Res.map]

theorem avcFixedDec_enc {t : CType T} (h : t.RoundTrips) {p : POpts} (hp : p.allowUnassigned = true ∨ t.WritesRequired)
    (vs : List T) (hv : ∀ x ∈ vs, t.Valid x ∧ (t.enc x).isSome) (old rest : List T) (hl : old.length = vs.length) (ho : ∀ y ∈ old, t.Fresh y)
    (size i : Nat) (hr : rest ≠ []) :
    ∃ un, avcFixedDec t.dec p size i (old ++ rest) (vs.filterMap t.enc) = some ⟨.noError, (vs ++ rest, i + vs.length), [], un⟩ ∧ (t.WritesRequired → un = []) := by
  induction vs generalizing old i with
  | nil =>
    obtain rfl := List.length_eq_zero_iff.mp hl
    cases rest with
    | nil => exact absurd rfl hr
    | cons z rest => exact ⟨[], by simp [avcFixedDec], fun _ => rfl⟩
  | cons x vs ih =>
    cases old with
    | nil => simp at hl
    | cons y old =>
      obtain ⟨hx1, hx2⟩ := hv x (by simp)
      obtain ⟨j, hj⟩ := Option.isSome_iff_exists.mp hx2
      obtain ⟨u1, h1, k1⟩ := h.full hj hx1 (ho y (by simp)) hp ([], .ascii)
      obtain ⟨u2, h2, k2⟩ := ih (fun y hy => hv y (by simp [hy])) old (by simpa using hl) (fun z hz => ho z (by simp [hz])) (i + 1)
      refine ⟨u1 ++ u2, ?_, fun hc => by rw [k1 hc, k2 hc]; rfl⟩
      simp only [List.filterMap_cons, hj, List.cons_append, avcFixedDec, elem, h1, Option.bind_eq_bind, Option.bind_some]
      rw [Res.andThen_ok rfl, h2]
      simp [Res.map]
      omega

theorem setElemsDec_enc [DecidableEq T] {ins : List T → T → List T} (hins : ∀ l x, (ins l x).Perm (x :: l))
    {t : CType T} (h : t.RoundTrips) {init : T} (hi : t.Fresh init) {p : POpts} (hp : p.allowUnassigned = true ∨ t.WritesRequired)
    (vs : List T) (hv : ∀ x ∈ vs, t.Valid x ∧ (t.enc x).isSome) (acc : List T) (hn : vs.Nodup) (hd : ∀ x ∈ vs, x ∉ acc) :
    ∃ un, setElemsDec ins init t.dec p acc (vs.filterMap t.enc) = some ⟨.noError, vs.foldl ins acc, [], un⟩ ∧ (t.WritesRequired → un = []) := by
  induction vs generalizing acc with
  | nil => exact ⟨[], by simp [setElemsDec], fun _ => rfl⟩
  | cons x vs ih =>
    obtain ⟨hx1, hx2⟩ := hv x (by simp)
    obtain ⟨j, hj⟩ := Option.isSome_iff_exists.mp hx2
    obtain ⟨u1, h1, k1⟩ := h.full hj hx1 hi hp ([], .ascii)
    rw [List.nodup_cons] at hn
    obtain ⟨u2, h2, k2⟩ := ih (fun y hy => hv y (by simp [hy])) (ins acc x) hn.2 (fun y hy hm => by
      rw [(hins acc x).mem_iff] at hm
      rcases List.mem_cons.mp hm with rfl | hm
      · exact hn.1 hy
      · exact hd y (by simp [hy]) hm)
    refine ⟨u1 ++ u2, ?_, fun hc => by rw [k1 hc, k2 hc]; rfl⟩
    simp only [List.filterMap_cons, hj, setElemsDec, elem, h1, Option.bind_eq_bind, Option.bind_some]
    rw [Res.andThen_ok rfl]
    simp only [hd x (by simp), if_false]
    rw [h2]
    simp

theorem mapSet_new {ins : List (Bytes × V) → Bytes × V → List (Bytes × V)} {acc : List (Bytes × V)} {n : Bytes} {x : V}
    (h : n ∉ acc.map Prod.fst) : mapSet ins acc n x = ins acc (n, x) := by
  rw [mapSet, if_neg h]

theorem entriesDec_enc {ins : List (Bytes × V) → Bytes × V → List (Bytes × V)} (hins : ∀ l x, (ins l x).Perm (x :: l))
    {t : CType V} (h : t.RoundTrips) {init : V} (hi : t.Fresh init) {p : POpts} (hp : p.allowUnassigned = true ∨ t.WritesRequired)
    (vs : List (Bytes × V)) (hv : ∀ e ∈ vs, escapesIn e.1 = e.1 ∧ t.Valid e.2 ∧ (t.enc e.2).isSome) (acc : List (Bytes × V))
    (hn : (vs.map Prod.fst).Nodup) (hd : ∀ e ∈ vs, e.1 ∉ acc.map Prod.fst) :
    ∃ un, entriesDec (mapSet ins) init t.dec p acc (vs.filterMap fun e => (t.enc e.2).map (e.1, ·)) =
      some ⟨.noError, vs.foldl ins acc, [], un⟩ ∧ (t.WritesRequired → un = []) := by
  induction vs generalizing acc with
  | nil => exact ⟨[], by simp [entriesDec], fun _ => rfl⟩
  | cons e vs ih =>
    obtain ⟨n, x⟩ := e
    obtain ⟨hx0, hx1, hx2⟩ := hv (n, x) (by simp)
    obtain ⟨j, hj⟩ := Option.isSome_iff_exists.mp hx2
    obtain ⟨u1, h1, k1⟩ := h.full hj hx1 hi hp (n, .string)
    rw [List.map_cons, List.nodup_cons] at hn
    obtain ⟨u2, h2, k2⟩ := ih (fun y hy => hv y (by simp [hy])) (ins acc (n, x)) hn.2 (fun y hy hm => by
      obtain ⟨z, hz, hzy⟩ := List.mem_map.mp hm
      rw [(hins acc (n, x)).mem_iff] at hz
      rcases List.mem_cons.mp hz with rfl | hm
      · exact hn.1 (hzy ▸ List.mem_map_of_mem hy)
      · exact hd y (by simp [hy]) (hzy ▸ List.mem_map_of_mem hm))
    refine ⟨u1 ++ u2, ?_, fun hc => by rw [k1 hc, k2 hc]; rfl⟩
    simp only at hj hx0
    simp only [List.filterMap_cons, hj, Option.map_some, entriesDec, h1, Option.bind_eq_bind, Option.bind_some]
    rw [Res.andThen_ok rfl]
    simp only [hx0]
    rw [mapSet_new (hd (n, x) (by simp)), h2]
    simp

/-! ### Structs -/

mutual
theorem CStruct.enc_entries : {T : Type} → (s : CStruct T) → ∀ v,
    s.enc v = s.entries.filterMap fun e => (e.type.enc (e.get v)).map (e.names.headD [], ·)
  | _, .mk ms ss, v => by simp only [CStruct.enc, CStruct.entries, List.filterMap_append, ms.enc_entries, ss.enc_entries]
theorem CMembers.enc_entries : {T : Type} → (ms : CMembers T) → ∀ v,
    ms.enc v = ms.entries.filterMap fun e => (e.type.enc (e.get v)).map (e.names.headD [], ·)
  | _, .nil, v => rfl
  | _, .cons names t get set ms, v => by
    simp only [CMembers.enc, CMembers.entries, List.filterMap_cons, ms.enc_entries]
    cases t.enc (get v) <;> rfl
theorem CSupers.enc_entries : {T : Type} → (ss : CSupers T) → ∀ v,
    ss.enc v = ss.entries.filterMap fun e => (e.type.enc (e.get v)).map (e.names.headD [], ·)
  | _, .nil, v => rfl
  | _, .cons name get set s ss, v => by
    simp only [CSupers.enc, CSupers.entries, List.filterMap_append, List.filterMap_map, s.enc_entries, ss.enc_entries]
    rfl
end

mutual
theorem CStruct.valid_entries : {T : Type} → (s : CStruct T) → ∀ v, s.Valid v → ∀ e ∈ s.entries, e.type.Valid (e.get v)
  | _, .mk ms ss, v, h, e, he => by
    simp only [CStruct.Valid] at h
    rcases List.mem_append.mp he with he | he
    · exact ms.valid_entries v h.1 e he
    · exact ss.valid_entries v h.2 e he
theorem CMembers.valid_entries : {T : Type} → (ms : CMembers T) → ∀ v, ms.Valid v → ∀ e ∈ ms.entries, e.type.Valid (e.get v)
  | _, .nil, v, _, e, he => by simp [CMembers.entries] at he
  | _, .cons names t get set ms, v, h, e, he => by
    simp only [CMembers.Valid] at h
    rcases List.mem_cons.mp he with rfl | he
    · exact h.1
    · exact ms.valid_entries v h.2 e he
theorem CSupers.valid_entries : {T : Type} → (ss : CSupers T) → ∀ v, ss.Valid v → ∀ e ∈ ss.entries, e.type.Valid (e.get v)
  | _, .nil, v, _, e, he => by simp [CSupers.entries] at he
  | _, .cons name get set s ss, v, h, e, he => by
    simp only [CSupers.Valid] at h
    rcases List.mem_append.mp he with he | he
    · obtain ⟨e', he', rfl⟩ := List.mem_map.mp he
      exact s.valid_entries (get v) h.1 e' he'
    · exact ss.valid_entries v h.2 e he
end

mutual
theorem CStruct.fresh_entries : {T : Type} → (s : CStruct T) → ∀ v, s.Fresh v → ∀ e ∈ s.entries, e.type.Fresh (e.get v)
  | _, .mk ms ss, v, h, e, he => by
    simp only [CStruct.Fresh] at h
    rcases List.mem_append.mp he with he | he
    · exact ms.fresh_entries v h.1 e he
    · exact ss.fresh_entries v h.2 e he
theorem CMembers.fresh_entries : {T : Type} → (ms : CMembers T) → ∀ v, ms.Fresh v → ∀ e ∈ ms.entries, e.type.Fresh (e.get v)
  | _, .nil, v, _, e, he => by simp [CMembers.entries] at he
  | _, .cons names t get set ms, v, h, e, he => by
    simp only [CMembers.Fresh] at h
    rcases List.mem_cons.mp he with rfl | he
    · exact h.1
    · exact ms.fresh_entries v h.2 e he
theorem CSupers.fresh_entries : {T : Type} → (ss : CSupers T) → ∀ v, ss.Fresh v → ∀ e ∈ ss.entries, e.type.Fresh (e.get v)
  | _, .nil, v, _, e, he => by simp [CSupers.entries] at he
  | _, .cons name get set s ss, v, h, e, he => by
    simp only [CSupers.Fresh] at h
    rcases List.mem_append.mp he with he | he
    · obtain ⟨e', he', rfl⟩ := List.mem_map.mp he
      exact s.fresh_entries (get v) h.1 e' he'
    · exact ss.fresh_entries v h.2 e he
end

theorem partDec_up (get : T → S) (set : S → T → T) (e : Entry S) :
    partDec get set (partDec e.get e.set e.type.dec) = partDec (e.up get set).get (e.up get set).set e.type.dec := by
  funext o old i
  simp only [partDec, Entry.up, Option.map_map]
  rfl

mutual
theorem CStruct.specs_entries (n : Bytes) : {T : Type} → (s : CStruct T) →
    (∀ e ∈ s.entries, ∃ m ∈ s.specs n, m.names = e.names ∧ m.dec = partDec e.get e.set e.type.dec) ∧
    ((s.specs n).map (·.names)).Perm (s.entries.map (·.names))
  | _, .mk ms ss => by
    obtain ⟨a1, a2⟩ := ms.specs_entries n
    obtain ⟨b1, b2⟩ := ss.specs_entries
    constructor
    · intro e he
      rcases List.mem_append.mp he with he | he
      · obtain ⟨m, hm, h⟩ := a1 e he
        exact ⟨m, by simp [CStruct.specs, hm], h⟩
      · obtain ⟨m, hm, h⟩ := b1 e he
        exact ⟨m, by simp [CStruct.specs, hm], h⟩
    · simp only [CStruct.specs, CStruct.entries, List.map_append, List.map_reverse]
      exact ((List.reverse_perm _).trans a2).append b2
theorem CMembers.specs_entries (n : Bytes) : {T : Type} → (ms : CMembers T) →
    (∀ e ∈ ms.entries, ∃ m ∈ ms.specs n, m.names = e.names ∧ m.dec = partDec e.get e.set e.type.dec) ∧
    ((ms.specs n).map (·.names)).Perm (ms.entries.map (·.names))
  | _, .nil => ⟨by simp [CMembers.entries], .refl _⟩
  | _, .cons names t get set ms => by
    obtain ⟨a1, a2⟩ := ms.specs_entries n
    constructor
    · intro e he
      rcases List.mem_cons.mp he with rfl | he
      · exact ⟨_, by simp only [CMembers.specs]; exact List.mem_cons_self .., rfl, rfl⟩
      · obtain ⟨m, hm, h⟩ := a1 e he
        exact ⟨m, by simp [CMembers.specs, hm], h⟩
    · exact a2.cons names
theorem CSupers.specs_entries : {T : Type} → (ss : CSupers T) →
    (∀ e ∈ ss.entries, ∃ m ∈ ss.specs, m.names = e.names ∧ m.dec = partDec e.get e.set e.type.dec) ∧
    (ss.specs.map (·.names)).Perm (ss.entries.map (·.names))
  | _, .nil => ⟨by simp [CSupers.entries], .refl _⟩
  | _, .cons name get set s ss => by
    obtain ⟨a1, a2⟩ := s.specs_entries name
    obtain ⟨b1, b2⟩ := ss.specs_entries
    constructor
    · intro e he
      rcases List.mem_append.mp he with he | he
      · obtain ⟨e', he', rfl⟩ := List.mem_map.mp he
        obtain ⟨m, hm, h1, h2⟩ := a1 e' he'
        refine ⟨m.up get set, by simp [CSupers.specs]; exact .inl ⟨m, hm, rfl⟩, h1, ?_⟩
        simp only [MemberSpec.up, h2, partDec_up]
        rfl
      · obtain ⟨m, hm, h⟩ := b1 e he
        exact ⟨m, by simp [CSupers.specs, hm], h⟩
    · simp only [CSupers.specs, CSupers.entries, List.map_append, List.map_map]
      exact a2.append b2
end

/-- The member with a primary name, if no other member has it. -/
theorem resolve_primary {specs : List (MemberSpec T)} (hd : (specs.map fun m => m.names.head?).Nodup) {m : MemberSpec T} (hm : m ∈ specs)
    {n : Bytes} (hn : m.names.head? = some n) : (resolve specs n).bind (specs[·]?) = some m := by
  have h1 : (specs.findIdx? fun s => s.names.head? == some n).isSome := by
    rw [List.findIdx?_isSome, List.any_eq_true]
    exact ⟨m, hm, by simp [hn]⟩
  obtain ⟨i, hi⟩ := Option.isSome_iff_exists.mp h1
  have h2 : resolve specs n = some i := by simp [resolve, hi]
  rw [h2, Option.bind_some]
  rw [List.findIdx?_eq_some_iff_getElem] at hi
  obtain ⟨hl, hi, _⟩ := hi
  obtain ⟨j, hj, rfl⟩ := List.getElem_of_mem hm
  have : i = j := by
    refine (List.getElem_inj (h₀ := by simpa using hl) (h₁ := by simpa using hj) hd).mp ?_
    simp only [List.getElem_map, hn]
    simpa using hi
  subst this
  simp

/-- All members of a struct, one after the other. -/
theorem membersDec_enc {specs : List (MemberSpec T)} {p : POpts} {v : T} (es : List (Entry T))
    (hp : p.allowUnassigned = true ∨ ∀ e ∈ es, e.type.WritesRequired)
    (hspec : ∀ e ∈ es, ∃ m n, e.names.head? = some n ∧ (resolve specs n).bind (specs[·]?) = some m ∧ m.dec = partDec e.get e.set e.type.dec)
    (hrt : ∀ e ∈ es, e.type.RoundTrips) (hv : ∀ e ∈ es, e.type.Valid (e.get v)) (x : T) (hf : ∀ e ∈ es, e.type.Fresh (e.get x))
    (hap : (es.map Entry.access).Pairwise Access.Apart) (hst : ∀ e ∈ es, ∀ y t, e.get (e.set y t) = y) :
    ∃ x' un, membersDec specs p x (es.filterMap fun e => (e.type.enc (e.get v)).map (e.names.headD [], ·)) = some ⟨.noError, x', [], un⟩ ∧
      ((∀ e ∈ es, e.type.WritesRequired) → un = []) ∧
      (∀ e ∈ es, e.get x' = e.get v) ∧ ∀ a : Access T, (∀ e ∈ es, a.Apart e.access) → a.get x' = a.get x := by
  induction es generalizing x with
  | nil => exact ⟨x, [], by simp [membersDec], fun _ => rfl, by simp, by simp⟩
  | cons e es ih =>
    obtain ⟨m, n, hn, hres, hdec⟩ := hspec e (by simp)
    rw [List.map_cons, List.pairwise_cons] at hap
    obtain ⟨hap1, hap2⟩ := hap
    have ih := fun x hf => ih (hp.imp_right fun h e he => h e (by simp [he])) (fun e he => hspec e (by simp [he])) (fun e he => hrt e (by simp [he])) (fun e he => hv e (by simp [he])) x hf
      hap2 (fun e he => hst e (by simp [he]))
    have hee : ∀ e' ∈ es, e.access.Apart e'.access := fun e' he' => hap1 _ (List.mem_map_of_mem he')
    cases hj : e.type.enc (e.get v) with
    | none =>
      obtain ⟨x', un, h1, h0, h2, h3⟩ := ih x (fun e he => hf e (by simp [he]))
      refine ⟨x', un, by simpa [List.filterMap_cons, hj] using h1, fun h => h0 fun e he => h e (by simp [he]), ?_, fun a ha => h3 a fun e he => ha e (by simp [he])⟩
      intro e' he'
      rcases List.mem_cons.mp he' with rfl | he'
      · have := h3 e'.access hee
        exact this.trans ((hrt e' (by simp)).none hj (hv e' (by simp)) (hf e' (by simp)))
      · exact h2 e' he'
    | some j =>
      obtain ⟨u1, k1, k0⟩ := (hrt e (by simp)).full hj (hv e (by simp)) (hf e (by simp)) (hp.imp_right fun h => h e (by simp)) (n, .string)
      have hq : m.dec p x (.val (n, .string) j) = some ⟨.noError, e.set (e.get v) x, [], u1⟩ := by
        simp [hdec, partDec, k1, Res.map]
      obtain ⟨x', un, h1, h0, h2, h3⟩ := ih (e.set (e.get v) x) (fun e' he' => by
        have := (hee e' he').2.1 (e.get v) x
        simp only [Entry.access] at this
        rw [this]
        exact hf e' (by simp [he']))
      refine ⟨x', u1 ++ un, ?_, fun h => by rw [k0 (h e (by simp)), h0 fun e he => h e (by simp [he])]; rfl, ?_, ?_⟩
      · have hh : e.names.headD [] = n := by rw [List.headD_eq_head?_getD, hn]; rfl
        simp only [List.filterMap_cons, hj, Option.map_some, hh]
        rw [membersDec_cons_ok hres hq rfl h1]
        simp
      · intro e' he'
        rcases List.mem_cons.mp he' with rfl | he'
        · have := h3 e'.access hee
          exact this.trans (hst e' (by simp) _ _)
        · exact h2 e' he'
      · intro a ha
        rw [h3 a fun e he => ha e (by simp [he])]
        exact (ha e (by simp)).1 _ _

theorem mayBeAbsent_iff (t : CType T) : t.isOptional = true ↔ t.MayBeAbsent := by
  cases t <;> simp [CType.isOptional, CType.MayBeAbsent]

mutual
theorem CStruct.complete_entries : {T : Type} → (s : CStruct T) → s.WritesRequired →
    ∀ e ∈ s.entries, (e.type.MayBeAbsent ∨ ∀ v, e.type.Valid v → (e.type.enc v).isSome) ∧ e.type.WritesRequired
  | _, .mk ms ss, h, e, he => by
    simp only [CStruct.WritesRequired] at h
    rcases List.mem_append.mp he with he | he
    · exact ms.complete_entries h.1 e he
    · exact ss.complete_entries h.2 e he
theorem CMembers.complete_entries : {T : Type} → (ms : CMembers T) → ms.WritesRequired →
    ∀ e ∈ ms.entries, (e.type.MayBeAbsent ∨ ∀ v, e.type.Valid v → (e.type.enc v).isSome) ∧ e.type.WritesRequired
  | _, .nil, _, e, he => by simp [CMembers.entries] at he
  | _, .cons names t get set ms, h, e, he => by
    simp only [CMembers.WritesRequired] at h
    rcases List.mem_cons.mp he with rfl | he
    · exact h.1
    · exact ms.complete_entries h.2 e he
theorem CSupers.complete_entries : {T : Type} → (ss : CSupers T) → ss.WritesRequired →
    ∀ e ∈ ss.entries, (e.type.MayBeAbsent ∨ ∀ v, e.type.Valid v → (e.type.enc v).isSome) ∧ e.type.WritesRequired
  | _, .nil, _, e, he => by simp [CSupers.entries] at he
  | _, .cons name get set s ss, h, e, he => by
    simp only [CSupers.WritesRequired] at h
    rcases List.mem_append.mp he with he | he
    · obtain ⟨e', he', rfl⟩ := List.mem_map.mp he
      exact s.complete_entries h.1 e' he'
    · exact ss.complete_entries h.2 e he
end

/-- The members a struct is searched for are the declared ones, in some order. -/
def SpecOf (m : MemberSpec T) (e : Entry T) : Prop :=
  m.names = e.names ∧ m.dec = partDec e.get e.set e.type.dec ∧ m.optional = e.type.isOptional

mutual
theorem CStruct.specs_of (n : Bytes) : {T : Type} → (s : CStruct T) → ∃ l, List.Forall₂ SpecOf (s.specs n) l ∧ l.Perm s.entries
  | _, .mk ms ss => by
    obtain ⟨l1, a1, a2⟩ := ms.specs_of n
    obtain ⟨l2, b1, b2⟩ := ss.specs_of
    exact ⟨l1.reverse ++ l2, List.rel_append (List.rel_reverse a1) b1, ((List.reverse_perm _).trans a2).append b2⟩
theorem CMembers.specs_of (n : Bytes) : {T : Type} → (ms : CMembers T) → ∃ l, List.Forall₂ SpecOf (ms.specs n) l ∧ l.Perm ms.entries
  | _, .nil => ⟨[], .nil, .refl _⟩
  | _, .cons names t get set ms => by
    obtain ⟨l1, a1, a2⟩ := ms.specs_of n
    exact ⟨{ names := names, type := t, get := get, set := set } :: l1, .cons ⟨rfl, rfl, rfl⟩ a1, a2.cons _⟩
theorem CSupers.specs_of : {T : Type} → (ss : CSupers T) → ∃ l, List.Forall₂ SpecOf ss.specs l ∧ l.Perm ss.entries
  | _, .nil => ⟨[], .nil, .refl _⟩
  | _, .cons name get set s ss => by
    obtain ⟨l1, a1, a2⟩ := s.specs_of name
    obtain ⟨l2, b1, b2⟩ := ss.specs_of
    refine ⟨l1.map (Entry.up get set) ++ l2, List.rel_append ?_ b1, (a2.map _).append b2⟩
    rw [List.forall₂_map_left_iff, List.forall₂_map_right_iff]
    refine a1.imp fun m e h => ⟨h.1, ?_, h.2.2⟩
    simp only [MemberSpec.up, h.2.1, partDec_up]
    rfl
end

theorem forall₂_get {R : α → β → Prop} {l : List α} {l' : List β} (h : List.Forall₂ R l l') {i : Nat} {a : α} (ha : l[i]? = some a) :
    ∃ b, l'[i]? = some b ∧ R a b := by
  induction h generalizing i with
  | nil => simp at ha
  | cons h1 _ ih =>
    cases i with
    | zero => simp at ha; subst ha; exact ⟨_, rfl, h1⟩
    | succ i => exact ih (by simpa using ha)

/-- If all members are complete, none that is required is left out. -/
theorem unassigned_enc {s : CStruct T} (hs : s.Sensible) (hc : s.WritesRequired) {v : T} (hv : s.Valid v) : unassignedNames (s.specs []) (s.enc v) = [] := by
  rw [unassignedNames, List.map_eq_nil_iff, List.filter_eq_nil_iff]
  rintro ⟨m, i⟩ hmi
  rw [List.mem_zipIdx_iff_getElem?] at hmi
  obtain ⟨l, h1, h2⟩ := s.specs_of []
  obtain ⟨e, k1, k2, k3, k4⟩ := forall₂_get h1 hmi
  simp only at hmi k1 k2 k4
  have he : e ∈ s.entries := h2.mem_iff.mp (List.mem_of_getElem? k1)
  simp only [Bool.and_eq_true, Bool.not_eq_true', not_and, Bool.not_eq_false, k4]
  intro ho
  rcases (s.complete_entries hc e he).1 with h | h
  · rw [(mayBeAbsent_iff _).mpr h] at ho; cases ho
  · obtain ⟨j, hj⟩ := Option.isSome_iff_exists.mp (h _ (s.valid_entries v hv e he))
    obtain ⟨n, hn, _⟩ := hs.named e he
    have hd : ((s.specs []).map fun m => m.names.head?).Nodup := by
      have g := ((s.specs_entries []).2).map List.head?
      simp only [List.map_map] at g
      exact g.symm.nodup hs.distinct
    rw [List.any_eq_true]
    refine ⟨(n, j), ?_, ?_⟩
    · rw [s.enc_entries, List.mem_filterMap]
      exact ⟨e, he, by rw [hj, List.headD_eq_head?_getD, hn]; rfl⟩
    · have := resolve_primary hd (List.mem_of_getElem? hmi) (k2 ▸ hn)
      obtain ⟨i', hi', hm'⟩ := Option.bind_eq_some_iff.mp this
      rw [hi', beq_iff_eq, Option.some.injEq]
      obtain ⟨a1, a2⟩ := List.getElem?_eq_some_iff.mp hm'
      obtain ⟨b1, b2⟩ := List.getElem?_eq_some_iff.mp hmi
      refine (List.getElem_inj (h₀ := by simpa using a1) (h₁ := by simpa using b1) hd).mp ?_
      simp only [List.getElem_map, a2, b2]

theorem structDec_enc {s : CStruct T} (hs : s.Sensible) (hrt : ∀ e ∈ s.entries, e.type.RoundTrips) {v : T} (hv : s.Valid v) {old : T}
    (hf : s.Fresh old) {p : POpts} (hp : p.allowUnassigned = true ∨ s.WritesRequired) (l : Lbl) :
    ∃ un, structDec (s.specs []) p old (.val l (.obj (s.enc v))) = some ⟨.noError, v, [], un⟩ ∧ (s.WritesRequired → un = []) := by
  obtain ⟨a1, a2⟩ := s.specs_entries []
  have hd : ((s.specs []).map fun m => m.names.head?).Nodup := by
    have h1 := a2.map List.head?
    simp only [List.map_map] at h1
    exact h1.symm.nodup hs.distinct
  obtain ⟨x', un, h1, h0, h2, _⟩ := membersDec_enc (specs := s.specs []) (v := v) s.entries (hp.imp_right fun h e he => (s.complete_entries h e he).2) (fun e he => by
      obtain ⟨m, hm, hm1, hm2⟩ := a1 e he
      obtain ⟨n, hn, _⟩ := hs.named e he
      exact ⟨m, n, hn, resolve_primary hd hm (hm1 ▸ hn), hm2⟩) hrt (s.valid_entries v hv) old (s.fresh_entries old hf) hs.apart hs.stored
  obtain rfl := hs.all _ _ h2
  have hok : unassignedNames (s.specs []) (s.enc x') = [] ∨ p.allowUnassigned = true := hp.symm.imp_left fun h => unassigned_enc hs h hv
  refine ⟨un ++ if p.track then unassignedNames (s.specs []) (s.enc x') else [], ?_, fun h => ?_⟩
  · rw [← s.enc_entries] at h1
    simp only [structDec, objectDec, h1, Option.bind_eq_bind, Option.bind_some]
    rw [Res.andThen_ok rfl]
    simp [hok]
  · rw [h0 fun e he => (s.complete_entries h e he).2, unassigned_enc hs h hv]
    simp

/-! ### All types -/

theorem CType.Solid.val {t : CType T} {v : T} (h : t.Solid v) : ∃ j, t.enc v = some j ∧ j ≠ .null := h

mutual
theorem CType.roundTrips : {T : Type} → (t : CType T) → t.Lawful → t.RoundTrips
  | _, .bool, _ => by
    intro v _ old _ p l hp
    refine ⟨[], ?_, fun _ => rfl⟩
    cases v <;> simp [CType.dec, boolDec, scalarDec, Item.first, Item.toks, JVal.toks, boolTo, Item.isScalar, JVal.isContainer] <;> decide
  | _, .int I, _ => by
    intro v hv old _ p l hp
    obtain ⟨txt, h1, h2⟩ := intDec_enc hv.1 hv.2 p old l
    simp only [CType.enc, h1, Option.map_some]
    exact ⟨[], h2, fun _ => rfl⟩
  | _, .double, _ => by
    intro v hv old _ p l hp
    simp only [CType.Valid] at hv
    obtain ⟨txt, h1, _, h2⟩ := C33_double_round_trip_partial v hv.1 hv.2.1 hv.2.2
    simp only [CType.enc, if_pos hv.2.1, h1, Option.map_some]
    exact ⟨[], by simp [CType.dec, doubleDec, scalarDec, Item.first, Item.toks, JVal.toks, h2, Item.isScalar, JVal.isContainer], fun _ => rfl⟩
  | _, .float, _ => by
    intro v hv old _ p l hp
    simp only [CType.Valid] at hv
    obtain ⟨txt, h1, _, h2⟩ := C33_float_round_trip v hv.1 hv.2
    simp only [CType.enc, if_pos hv.2, h1, Option.map_some]
    exact ⟨[], by simp [CType.dec, floatDec, scalarDec, Item.first, Item.toks, JVal.toks, h2, Item.isScalar, JVal.isContainer], fun _ => rfl⟩
  | _, .time C, _ => by
    intro v hv old _ p l hp
    obtain ⟨txt, h1, h2⟩ := time_trip hv old
    simp only [CType.enc, h1, Option.map_some]
    exact ⟨[], by simp [CType.dec, timeDec, scalarDec, Item.first, Item.toks, JVal.toks, h2, Item.isScalar, JVal.isContainer], fun _ => rfl⟩
  | _, .string m, _ => by
    intro v _ old _ p l hp
    exact ⟨[], stringDec_enc m v p old l, fun _ => rfl⟩
  | _, .enum names U, _ => by
    intro v hv old _ p l hp
    simp only [CType.Valid] at hv
    obtain ⟨hnd, _, h3, h4⟩ := hv
    have hl : v.toNat < names.length := by omega
    simp only [CType.enc, List.getElem?_eq_getElem hl, Option.map_some]
    refine ⟨[], ?_, fun _ => rfl⟩
    have hi : names.findIdx? (· = names[v.toNat]) = some v.toNat := by
      rw [List.findIdx?_eq_some_iff_getElem]
      refine ⟨hl, by simp, fun j hj => ?_⟩
      simp only [decide_eq_true_eq]
      intro he
      have := (List.getElem_inj (h₀ := by omega) (h₁ := hl) hnd).mp he
      omega
    simp [CType.dec, enumDec, scalarDec, Item.first, Item.toks, JVal.toks, hi, Item.isScalar, JVal.isContainer]
    omega
  | _, .enumValue U, _ => by
    intro v hv old _ p l hp
    obtain ⟨txt, h1, h2⟩ := C14_integer_round_trip U hv.1 v hv.2
    simp only [CType.enc, h1, Option.map_some]
    exact ⟨[], by simp [CType.dec, enumValueDec, scalarDec, Item.first, Item.toks, JVal.toks, h2, Item.isScalar, JVal.isContainer], fun _ => rfl⟩
  | _, .nullable t, h => by
    simp only [CType.Lawful] at h
    intro v hv old hf p l hp
    simp only [CType.WritesRequired] at hp ⊢
    simp only [CType.Valid] at hv
    simp only [CType.Fresh] at hf
    have := t.roundTrips h v hv.1 old hf p l hp
    simp only [CType.enc]
    cases hj : t.enc v with
    | none => rw [hj] at this; exact this
    | some j =>
      rw [hj] at this
      simp only at this ⊢
      obtain ⟨un, hu, hc⟩ := this
      refine ⟨un, ?_, hc⟩
      have hne : j ≠ .null := fun e => hv.2 (e ▸ hj)
      rw [← hu]
      simp only [CType.dec]
      cases j <;> first | rfl | exact absurd rfl hne
  | _, .nullableChecked t, h => by
    simp only [CType.Lawful] at h
    intro v hv old hf p l hp
    simp only [CType.WritesRequired] at hp ⊢
    obtain ⟨v, b⟩ := v
    simp only [CType.Valid] at hv
    simp only [CType.Fresh] at hf
    cases b with
    | true =>
      simp only [if_true] at hv
      simp only [CType.enc, if_true]
      exact ⟨[], by simp [CType.dec, nullableCheckedDec, hf, hv], fun _ => rfl⟩
    | false =>
      simp only [Bool.false_eq_true, if_false] at hv
      obtain ⟨hv, j, hj, hne⟩ := hv
      simp only [CType.enc, Bool.false_eq_true, if_false, hj]
      obtain ⟨un, hu, hc⟩ := (t.roundTrips h).full hj hv (old := old.1) (hf ▸ t.fresh_init h) hp l
      refine ⟨un, ?_, hc⟩
      simp only [CType.dec]
      cases j <;> first | (exact absurd rfl hne) | simp [nullableCheckedDec, hu, Res.map]
  | _, .optional t, h => by
    simp only [CType.Lawful] at h
    intro v hv old hf p l hp
    simp only [CType.WritesRequired] at hp ⊢
    simp only [CType.Valid] at hv
    simp only [CType.Fresh] at hf
    exact t.roundTrips h v hv old hf p l hp
  | _, .optionalChecked t, h => by
    simp only [CType.Lawful] at h
    intro v hv old hf p l hp
    simp only [CType.WritesRequired] at hp ⊢
    obtain ⟨v, b⟩ := v
    simp only [CType.Valid] at hv
    simp only [CType.Fresh] at hf
    subst hf
    cases b with
    | false =>
      simp only [Bool.false_eq_true, if_false] at hv
      simp [CType.enc, hv]
    | true =>
      simp only [if_true] at hv
      obtain ⟨j, hj⟩ := Option.isSome_iff_exists.mp hv.2
      simp only [CType.enc, if_true, hj]
      obtain ⟨un, hu, hc⟩ := (t.roundTrips h).full hj hv.1 (t.fresh_init h) hp l
      exact ⟨un, by simp [CType.dec, optionalCheckedDec, hu, Res.map], hc⟩
  | _, .stdOptional t, h => by
    simp only [CType.Lawful] at h
    intro v hv old hf p l hp
    simp only [CType.WritesRequired] at hp ⊢
    simp only [CType.Valid] at hv
    simp only [CType.Fresh] at hf
    subst hf
    cases v with
    | none => simp [CType.enc]
    | some v =>
      obtain ⟨hv1, hv2⟩ := hv v rfl
      obtain ⟨j, hj⟩ := Option.isSome_iff_exists.mp hv2
      simp only [CType.enc, Option.bind_some, hj]
      obtain ⟨un, hu, hc⟩ := (t.roundTrips h).full hj hv1 (t.fresh_init h) hp l
      exact ⟨un, by simp [CType.dec, stdOptionalDec, hu, Res.map], hc⟩
  | _, .sharedPtr t, h => by
    simp only [CType.Lawful] at h
    intro v hv old hf p l hp
    simp only [CType.WritesRequired] at hp ⊢
    simp only [CType.Valid] at hv
    simp only [CType.Fresh] at hf
    cases v with
    | none => exact ⟨[], by simp [CType.dec, ptrDec], fun _ => rfl⟩
    | some v =>
      obtain ⟨hv, j, hj, hne⟩ := hv v rfl
      simp only [CType.enc, hj]
      obtain ⟨un, hu, hc⟩ := (t.roundTrips h).full hj hv (old := old.getD t.init) (by
        cases old with
        | none => exact t.fresh_init h
        | some y => exact hf y rfl) hp l
      refine ⟨un, ?_, hc⟩
      simp only [CType.dec]
      cases j <;> first | (exact absurd rfl hne) | simp [ptrDec, hu, Res.map]
  | _, .uniquePtr t, h => by
    simp only [CType.Lawful] at h
    intro v hv old hf p l hp
    simp only [CType.WritesRequired] at hp ⊢
    simp only [CType.Valid] at hv
    simp only [CType.Fresh] at hf
    cases v with
    | none => exact ⟨[], by simp [CType.dec, ptrDec], fun _ => rfl⟩
    | some v =>
      obtain ⟨hv, j, hj, hne⟩ := hv v rfl
      simp only [CType.enc, hj]
      obtain ⟨un, hu, hc⟩ := (t.roundTrips h).full hj hv (old := old.getD t.init) (by
        cases old with
        | none => exact t.fresh_init h
        | some y => exact hf y rfl) hp l
      refine ⟨un, ?_, hc⟩
      simp only [CType.dec]
      cases j <;> first | (exact absurd rfl hne) | simp [ptrDec, hu, Res.map]
  | _, .silentString m, _ => by
    intro v _ old hf p l hp
    simp only [CType.Fresh] at hf
    simp only [CType.enc]
    by_cases hv : v = []
    · simp [hv, hf]
    · simp only [hv, if_false]
      exact ⟨[], stringDec_enc m v p old l, fun _ => rfl⟩
  | _, .silentVector t, h => by
    simp only [CType.Lawful] at h
    intro v hv old hf p l hp
    simp only [CType.WritesRequired] at hp ⊢
    simp only [CType.Valid] at hv
    simp only [CType.Fresh] at hf
    cases v with
    | nil => simp [CType.enc, hf]
    | cons x v =>
      simp only [CType.enc, List.isEmpty_cons, Bool.false_eq_true, if_false]
      exact elemsDec_enc (t.roundTrips h) (t.fresh_init h) hp (x :: v) hv []
  | _, .silentUniquePtr t, h => by
    simp only [CType.Lawful] at h
    intro v hv old hf p l hp
    simp only [CType.WritesRequired] at hp ⊢
    simp only [CType.Valid] at hv
    simp only [CType.Fresh] at hf
    subst hf
    cases v with
    | none => simp [CType.enc]
    | some v =>
      obtain ⟨hv, j, hj, hne⟩ := hv v rfl
      simp only [CType.enc, Option.bind_some, hj]
      obtain ⟨un, hu, hc⟩ := (t.roundTrips h).full hj hv (t.fresh_init h) hp l
      refine ⟨un, ?_, hc⟩
      simp only [CType.dec]
      cases j <;> first | (exact absurd rfl hne) | simp [ptrDec, hu, Res.map]
  | _, .vector t, h => by
    simp only [CType.Lawful] at h
    intro v hv old _ p l hp
    simp only [CType.WritesRequired] at hp ⊢
    simp only [CType.Valid] at hv
    exact elemsDec_enc (t.roundTrips h) (t.fresh_init h) hp v hv []
  | _, .oneOrMany t, h => by
    simp only [CType.Lawful] at h
    intro v hv old hf p l hp
    simp only [CType.WritesRequired] at hp ⊢
    simp only [CType.Valid] at hv
    simp only [CType.Fresh] at hf
    subst hf
    match v with
    | [] => simp [CType.enc]
    | [x] =>
      obtain ⟨hv1, hv2⟩ := hv.1 x (by simp)
      obtain ⟨j, hj⟩ := Option.isSome_iff_exists.mp hv2
      simp only [CType.enc, hj]
      obtain ⟨un, hu, hc⟩ := (t.roundTrips h).full hj hv1 (t.fresh_init h) hp l
      refine ⟨un, ?_, hc⟩
      have hna := hv.2 x
      simp only [CType.dec]
      cases j with
      | arr vs => exact absurd hj (hna vs rfl)
      | _ => simp [oneOrManyDec, hu, Res.map]
    | x :: y :: v =>
      simp only [CType.enc]
      exact elemsDec_enc (t.roundTrips h) (t.fresh_init h) hp (x :: y :: v) hv.1 []
  | _, .array N t, h => by
    simp only [CType.Lawful] at h
    intro v hv old hf p l hp
    simp only [CType.WritesRequired] at hp ⊢
    simp only [CType.Valid] at hv
    simp only [CType.Fresh] at hf
    exact fixedDec_enc (t.roundTrips h) hp v hv.2 old (by omega) hf.2
  | _, .arrayVariable count t, h => by
    simp only [CType.Lawful] at h
    intro v hv old hf p l hp
    simp only [CType.WritesRequired] at hp ⊢
    obtain ⟨v, n⟩ := v
    simp only [CType.Valid] at hv
    simp only [CType.Fresh] at hf
    obtain ⟨hl, hn, hv, hrest⟩ := hv
    simp only [CType.enc, CType.dec, avcDec, arrayDec]
    by_cases hc : count = 0
    · obtain rfl : n = 0 := by omega
      subst hc
      obtain rfl := List.length_eq_zero_iff.mp hl
      exact ⟨[], by simp [hf.1, hf.2 rfl, avcFixedDec], fun _ => rfl⟩
    · have hlt : n < count := by omega
      have hd : v.drop n = List.replicate (count - n) t.init := by
        rw [List.eq_replicate_iff]
        exact ⟨by simp [hl], hrest⟩
      obtain ⟨un, hu, hc⟩ := avcFixedDec_enc (t.roundTrips h) hp (v.take n) hv (List.replicate n t.init) (v.drop n)
        (by simp; omega) (fun y hy => (List.mem_replicate.mp hy).2 ▸ t.fresh_init h) old.2 0 (by rw [hd]; simp; omega)
      refine ⟨un, ?_, hc⟩
      have he : old.1 = List.replicate n t.init ++ v.drop n := by
        rw [hf.1, hd, List.replicate_append_replicate]
        congr 1
        omega
      rw [he, hu]
      simp
      omega
  | _, .tuple ts, h => by
    simp only [CType.Lawful] at h
    intro v hv old hf p l hp
    simp only [CType.WritesRequired] at hp ⊢
    simp only [CType.Valid] at hv
    simp only [CType.Fresh] at hf
    exact ts.roundTrips h v hv old hf p hp
  | _, .set eq ins t, h => by
    simp only [CType.Lawful] at h
    intro v hv old _ p l hp
    simp only [CType.WritesRequired] at hp ⊢
    simp only [CType.Valid] at hv
    obtain ⟨un, hu, hc⟩ := setElemsDec_enc h.1 (t.roundTrips h.2) (t.fresh_init h.2) hp v hv.2.2 [] hv.1 (by simp)
    exact ⟨un, by simp only [CType.dec, setDec, arrayDec]; rw [hu, hv.2.1], hc⟩
  | _, .map ins t, h => by
    simp only [CType.Lawful] at h
    intro v hv old hf p l hp
    simp only [CType.WritesRequired] at hp ⊢
    simp only [CType.Valid] at hv
    simp only [CType.Fresh] at hf
    subst hf
    obtain ⟨un, hu, hc⟩ := entriesDec_enc h.1 (t.roundTrips h.2) (t.fresh_init h.2) hp v (fun e he => (hv.2.2 e he).2.2) [] hv.1 (by simp)
    exact ⟨un, by simp only [CType.dec, mapDec, objectDec]; rw [hu, hv.2.1], hc⟩
  | _, .tokens, _ | _, .jmap, _ => by
    intro v hv
    simp only [CType.Valid] at hv
  | _, .struct init s, h => by
    simp only [CType.Lawful] at h
    intro v hv old hf p l hp
    simp only [CType.WritesRequired] at hp ⊢
    simp only [CType.Valid] at hv
    simp only [CType.Fresh] at hf
    exact structDec_enc h.1 (s.roundTrips h.2.2) hv hf hp l
theorem CTypes.roundTrips : {Ts : Type} → (ts : CTypes Ts) → ts.Lawful → ∀ v, ts.Valid v → ∀ old, ts.Fresh old → ∀ p : POpts,
    p.allowUnassigned = true ∨ ts.WritesRequired → ∃ un, ts.dec p old (ts.enc v) = some ⟨.noError, v, [], un⟩ ∧ (ts.WritesRequired → un = [])
  | _, .nil, _, v, _, old, _, p, _ => ⟨[], by simp [CTypes.dec, CTypes.enc, tupNilDec], fun _ => rfl⟩
  | _, .cons t ts, h, v, hv, old, hf, p, hp => by
    simp only [CTypes.Lawful] at h
    simp only [CTypes.Valid] at hv
    simp only [CTypes.Fresh] at hf
    obtain ⟨j, hj⟩ := Option.isSome_iff_exists.mp hv.1.2
    simp only [CTypes.WritesRequired] at hp
    obtain ⟨u1, h1, k1⟩ := (t.roundTrips h.1).full hj hv.1.1 hf.1 (hp.imp_right And.left) ([], .ascii)
    obtain ⟨u2, h2, k2⟩ := ts.roundTrips h.2 v.2 hv.2 old.2 hf.2 p (hp.imp_right And.right)
    refine ⟨u1 ++ u2, ?_, fun h => by rw [k1 (by simp only [CTypes.WritesRequired] at h; exact h.1), k2 (by simp only [CTypes.WritesRequired] at h; exact h.2)]; rfl⟩
    simp only [CTypes.dec, CTypes.enc, hj, Option.toList_some, List.singleton_append, tupConsDec, elem, h1, Option.bind_eq_bind, Option.bind_some]
    rw [Res.andThen_ok rfl, h2]
    simp [Res.map]
theorem CStruct.roundTrips : {T : Type} → (s : CStruct T) → s.Lawful → ∀ e ∈ s.entries, e.type.RoundTrips
  | _, .mk ms ss, h, e, he => by
    simp only [CStruct.Lawful] at h
    rcases List.mem_append.mp he with he | he
    · exact ms.roundTrips h.1 e he
    · exact ss.roundTrips h.2 e he
theorem CMembers.roundTrips : {T : Type} → (ms : CMembers T) → ms.Lawful → ∀ e ∈ ms.entries, e.type.RoundTrips
  | _, .nil, _, e, he => by simp [CMembers.entries] at he
  | _, .cons names t get set ms, h, e, he => by
    simp only [CMembers.Lawful] at h
    rcases List.mem_cons.mp he with rfl | he
    · exact t.roundTrips h.1
    · exact ms.roundTrips h.2 e he
theorem CSupers.roundTrips : {T : Type} → (ss : CSupers T) → ss.Lawful → ∀ e ∈ ss.entries, e.type.RoundTrips
  | _, .nil, _, e, he => by simp [CSupers.entries] at he
  | _, .cons name get set s ss, h, e, he => by
    simp only [CSupers.Lawful] at h
    rcases List.mem_append.mp he with he | he
    · obtain ⟨e', he', rfl⟩ := List.mem_map.mp he
      exact s.roundTrips h.1 e' he'
    · exact ss.roundTrips h.2 e he
end

/-! ### What is written is well formed -/

theorem rfcBytes_le (o : Opts) : rfcBytes.Le (lenient o) :=
  ⟨fun _ => strBody_of_quotable, fun _ => numTxt_of_json, fun _ => ws_gapO _, fun _ _ h => ⟨ws_gapO _ h, fun _ => ws_head h⟩,
    False.elim, fun _ => False.elim⟩

theorem wide_rfcBytes : rfcBytes.Wide Ws := ⟨fun _ h => h, fun _ _ h => h⟩

/-- Well formed and without empty names. -/
def JVal.Good (v : JVal) : Prop := v.WF rfcBytes ∧ v.Named

theorem good_arr {vs : List JVal} (h : ∀ v ∈ vs, v.Good) : (JVal.arr vs).Good := by
  simp only [JVal.Good, JVal.WF, JVal.Named]
  induction vs with
  | nil => exact ⟨trivial, trivial⟩
  | cons v vs ih =>
    have h1 := h v (by simp)
    have h2 := ih fun v hv => h v (by simp [hv])
    exact ⟨⟨h1.1, h2.1⟩, h1.2, h2.2⟩

theorem good_obj {ms : List (Bytes × JVal)} (h : ∀ m ∈ ms, Quotable m.1 ∧ m.1 ≠ [] ∧ m.2.Good) : (JVal.obj ms).Good := by
  simp only [JVal.Good, JVal.WF, JVal.Named]
  induction ms with
  | nil => exact ⟨trivial, trivial⟩
  | cons m ms ih =>
    obtain ⟨n, v⟩ := m
    obtain ⟨h0, h1, h2⟩ := h (n, v) (by simp)
    have h3 := ih fun v hv => h v (by simp [hv])
    exact ⟨⟨h0, h2.1, h3.1⟩, h1, h2.2, h3.2⟩

theorem good_int {I : IntTy} {v : Int} (hI : I.Supported) (hv : I.InRange v) {j : JVal} (h : (intFrom I v).map .num = some j) : j.Good := by
  obtain ⟨txt, h1, h2⟩ := C16_valid_number I hI v hv
  rw [h1] at h
  cases h
  exact ⟨h2, trivial⟩

theorem good_str {s : Bytes} (h : Quotable s) : (JVal.str s).Good := ⟨h, trivial⟩

theorem good_null : JVal.null.Good := ⟨trivial, trivial⟩

theorem good_filterMap {enc : T → Option JVal} {vs : List T} (h : ∀ x ∈ vs, ∀ j, enc x = some j → j.Good) : (JVal.arr (vs.filterMap enc)).Good :=
  good_arr fun v hv => by
    obtain ⟨x, hx, he⟩ := List.mem_filterMap.mp hv
    exact h x hx v he

mutual
theorem CType.good : {T : Type} → (t : CType T) → t.Lawful → ∀ v, t.Valid v → ∀ j, t.enc v = some j → j.Good
  | _, .bool, _, v, _, j, h => by cases h; exact ⟨trivial, trivial⟩
  | _, .int I, _, v, hv, j, h => good_int hv.1 hv.2 h
  | _, .double, _, v, hv, j, h => by
    simp only [CType.Valid] at hv
    obtain ⟨txt, h1, h2, _⟩ := C33_double_round_trip_partial v hv.1 hv.2.1 hv.2.2
    simp only [CType.enc, if_pos hv.2.1, h1, Option.map_some] at h
    cases h
    exact ⟨h2, trivial⟩
  | _, .float, _, v, hv, j, h => by
    simp only [CType.Valid] at hv
    obtain ⟨txt, h1, h2, _⟩ := C33_float_round_trip v hv.1 hv.2
    simp only [CType.enc, if_pos hv.2, h1, Option.map_some] at h
    cases h
    exact ⟨h2, trivial⟩
  | _, .time C, _, v, hv, j, h => good_int u64_supported (timeFrom_inRange C v) h
  | _, .string m, _, v, _, j, h => by cases h; exact good_str (C12_no_break_out m m v []).1
  | _, .enum names U, _, v, hv, j, h => by
    simp only [CType.Valid] at hv
    simp only [CType.enc, Option.map_eq_some_iff] at h
    obtain ⟨n, h1, rfl⟩ := h
    exact good_str (hv.2.1 n (List.mem_of_getElem? h1))
  | _, .enumValue U, _, v, hv, j, h => good_int hv.1 hv.2 h
  | _, .nullable t, hl, v, hv, j, h => by
    simp only [CType.Valid] at hv
    simp only [CType.Lawful] at hl
    exact t.good hl v hv.1 j h
  | _, .nullableChecked t, hl, v, hv, j, h => by
    simp only [CType.Valid] at hv
    simp only [CType.Lawful] at hl
    simp only [CType.enc] at h
    split at h
    · cases h; exact good_null
    · rename_i h2
      simp only [h2, if_false] at hv
      exact t.good hl v.1 hv.1 j h
  | _, .optional t, hl, v, hv, j, h => by
    simp only [CType.Valid] at hv
    simp only [CType.Lawful] at hl
    exact t.good hl v hv j h
  | _, .optionalChecked t, hl, v, hv, j, h => by
    simp only [CType.Valid] at hv
    simp only [CType.Lawful] at hl
    simp only [CType.enc] at h
    split at h
    · rename_i h2
      simp only [h2, if_true] at hv
      exact t.good hl v.1 hv.1 j h
    · cases h
  | _, .stdOptional t, hl, v, hv, j, h => by
    simp only [CType.Valid] at hv
    simp only [CType.Lawful] at hl
    cases v with
    | none => cases h
    | some v => exact t.good hl v (hv v rfl).1 j h
  | _, .sharedPtr t, hl, v, hv, j, h => by
    simp only [CType.Valid] at hv
    simp only [CType.Lawful] at hl
    cases v with
    | none => cases h; exact good_null
    | some v => exact t.good hl v (hv v rfl).1 j h
  | _, .uniquePtr t, hl, v, hv, j, h => by
    simp only [CType.Valid] at hv
    simp only [CType.Lawful] at hl
    cases v with
    | none => cases h; exact good_null
    | some v => exact t.good hl v (hv v rfl).1 j h
  | _, .silentString m, _, v, _, j, h => by
    simp only [CType.enc] at h
    split at h
    · cases h
    · cases h; exact good_str (C12_no_break_out m m v []).1
  | _, .silentVector t, hl, v, hv, j, h => by
    simp only [CType.Valid] at hv
    simp only [CType.Lawful] at hl
    simp only [CType.enc] at h
    split at h
    · cases h
    · cases h; exact good_filterMap fun x hx => t.good hl x (hv x hx).1
  | _, .silentUniquePtr t, hl, v, hv, j, h => by
    simp only [CType.Valid] at hv
    simp only [CType.Lawful] at hl
    cases v with
    | none => cases h
    | some v => exact t.good hl v (hv v rfl).1 j h
  | _, .vector t, hl, v, hv, j, h => by
    simp only [CType.Valid] at hv
    simp only [CType.Lawful] at hl
    cases h; exact good_filterMap fun x hx => t.good hl x (hv x hx).1
  | _, .oneOrMany t, hl, v, hv, j, h => by
    simp only [CType.Valid] at hv
    simp only [CType.Lawful] at hl
    match v with
    | [] => cases h
    | [x] => exact t.good hl x (hv.1 x (by simp)).1 j h
    | x :: y :: v => cases h; exact good_filterMap fun x hx => t.good hl x (hv.1 x hx).1
  | _, .array N t, hl, v, hv, j, h => by
    simp only [CType.Valid] at hv
    simp only [CType.Lawful] at hl
    cases h; exact good_filterMap fun x hx => t.good hl x (hv.2 x hx).1
  | _, .arrayVariable count t, hl, v, hv, j, h => by
    simp only [CType.Valid] at hv
    simp only [CType.Lawful] at hl
    cases h; exact good_filterMap fun x hx => t.good hl x (hv.2.2.1 x hx).1
  | _, .tuple ts, hl, v, hv, j, h => by
    simp only [CType.Valid] at hv
    simp only [CType.Lawful] at hl
    cases h; exact good_arr (ts.good hl v hv)
  | _, .set eq ins t, hl, v, hv, j, h => by
    simp only [CType.Valid] at hv
    simp only [CType.Lawful] at hl
    cases h; exact good_filterMap fun x hx => t.good hl.2 x (hv.2.2 x hx).1
  | _, .map ins t, hl, v, hv, j, h => by
    simp only [CType.Valid] at hv
    simp only [CType.Lawful] at hl
    cases h
    refine good_obj fun m hm => ?_
    obtain ⟨e, he, h1⟩ := List.mem_filterMap.mp hm
    obtain ⟨j, h2, rfl⟩ := Option.map_eq_some_iff.mp h1
    obtain ⟨a1, a2, _, a3, _⟩ := hv.2.2 e he
    exact ⟨a2, a1, t.good hl.2 e.2 a3 j h2⟩
  | _, .tokens, _, v, hv, j, h | _, .jmap, _, v, hv, j, h => by cases h
  | _, .struct init s, hl, v, hv, j, h => by
    simp only [CType.Valid] at hv
    simp only [CType.Lawful] at hl
    cases h
    refine good_obj fun m hm => ?_
    rw [s.enc_entries] at hm
    obtain ⟨e, he, h1⟩ := List.mem_filterMap.mp hm
    obtain ⟨j, h2, rfl⟩ := Option.map_eq_some_iff.mp h1
    obtain ⟨n, hn, hn1, hn2⟩ := hl.1.named e he
    have hh : e.names.headD [] = n := by rw [List.headD_eq_head?_getD, hn]; rfl
    simp only [hh]
    exact ⟨hn2, hn1, s.good hl.2.2 e he (e.get v) (s.valid_entries v hv e he) j h2⟩
theorem CTypes.good : {Ts : Type} → (ts : CTypes Ts) → ts.Lawful → ∀ v, ts.Valid v → ∀ j ∈ ts.enc v, j.Good
  | _, .nil, _, _, _, j, h => by simp [CTypes.enc] at h
  | _, .cons t ts, hl, v, hv, j, h => by
    simp only [CTypes.Valid] at hv
    simp only [CTypes.Lawful] at hl
    rcases List.mem_append.mp h with h | h
    · exact t.good hl.1 v.1 hv.1.1 j (Option.mem_toList.mp h)
    · exact ts.good hl.2 v.2 hv.2 j h
theorem CStruct.good : {T : Type} → (s : CStruct T) → s.Lawful → ∀ e ∈ s.entries, ∀ v, e.type.Valid v → ∀ j, e.type.enc v = some j → j.Good
  | _, .mk ms ss, h, e, he => by
    simp only [CStruct.Lawful] at h
    rcases List.mem_append.mp he with he | he
    · exact ms.good h.1 e he
    · exact ss.good h.2 e he
theorem CMembers.good : {T : Type} → (ms : CMembers T) → ms.Lawful → ∀ e ∈ ms.entries, ∀ v, e.type.Valid v → ∀ j, e.type.enc v = some j → j.Good
  | _, .nil, _, e, he => by simp [CMembers.entries] at he
  | _, .cons names t get set ms, h, e, he => by
    simp only [CMembers.Lawful] at h
    rcases List.mem_cons.mp he with rfl | he
    · exact t.good h.1
    · exact ms.good h.2 e he
theorem CSupers.good : {T : Type} → (ss : CSupers T) → ss.Lawful → ∀ e ∈ ss.entries, ∀ v, e.type.Valid v → ∀ j, e.type.enc v = some j → j.Good
  | _, .nil, _, e, he => by simp [CSupers.entries] at he
  | _, .cons name get set s ss, h, e, he => by
    simp only [CSupers.Lawful] at h
    rcases List.mem_append.mp he with he | he
    · obtain ⟨e', he', rfl⟩ := List.mem_map.mp he
      exact s.good h.1 e' he'
    · exact ss.good h.2 e he
end

/-! ### The text -/

theorem written_text (v : JVal) (hg : v.Good) (pretty : Bool) (shift depth : Nat) (hdep : depth + v.depth ≤ 255) (json : Bytes) :
    Doc rfcBytes v (((Ser.onString (userOpts pretty shift depth) (startString json).length).writeAll v.docToks).2.flush (startString json)) := by
  rw [C48_flush_is_exact (userOpts pretty shift depth) json v.docToks 1]
  have hdd : (userOpts pretty shift depth).depth = depth := by simp [userOpts, SerOpts.setDepth]; omega
  obtain ⟨⟨t, ht1, ht2⟩, ha, hf⟩ := written Ws rfcBytes wide_rfcBytes v { opt := userOpts pretty shift depth } [] .ascii
    (std_ws pretty shift depth (by omega)) (.inr rfl) (by simp only [hdd]; omega) hg.1 hg.2
  have hgd := fresh_good (userOpts pretty shift depth) 1 (fun _ => some 1) (fun n => ⟨1, rfl, by decide⟩)
  obtain ⟨r1, r2⟩ := writeAll_wrote (Ser.fresh (userOpts pretty shift depth) 1 (fun _ => some 1)) v.docToks hgd hf
  have hout := r2.out
  obtain ⟨w, hw, hfr⟩ := front_text { opt := userOpts pretty shift depth } (std_ws pretty shift depth (by omega)) false
  rw [hout]
  refine ⟨w, t, [], hw, ht2, ws_nil, ?_⟩
  have : (SerSt.mk (userOpts pretty shift depth) true true).texts v.docToks = _ := ht1
  rw [fresh_st, this, hfr]
  simp [nameText]; rfl

end JsonStruct
