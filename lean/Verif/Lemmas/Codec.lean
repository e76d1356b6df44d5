import Verif.Spec.Codec
import Verif.Lemmas.RoundTrip
import Verif.Model.Own

/-
For C89: the round trip for types built around handlers of users. As `Lemmas/Types.lean`, `Lemmas/Writes.lean` and `Lemmas/RoundTrip.lean`, for `KType`.
-/

set_option linter.unusedSectionVars false

namespace JsonStruct

/-! ### Reading -/

section

variable [EndCond]

theorem k_specs_qname (sn : Bytes) : {T : Type} → (ms : KMembers T) → ∀ s ∈ ms.specs sn, s.qname = qualifiedName sn (s.names.headD [])
  | _, .nil => by simp [KMembers.specs]
  | _, .cons names t get set ms => by
    simp only [KMembers.specs, List.mem_cons]
    rintro s (rfl | hs)
    · rfl
    · exact k_specs_qname sn ms s hs

mutual
theorem KType.sem : {T : Type} → (t : KType T) → t.Lawful → t.handler.Sem t.dec
  | _, .lib t, _ => CType.sem t
  | _, .own k, hl => by
    simp only [KType.Lawful] at hl
    exact hl.reads
  | _, .nullable t, hl => by
    simp only [KType.Lawful] at hl
    exact nullable_sem (t.sem hl)
  | _, .nullableChecked t, hl => by
    simp only [KType.Lawful] at hl
    exact nullableChecked_sem (t.sem hl)
  | _, .optional t, hl => by
    simp only [KType.Lawful] at hl
    exact optional_sem (t.sem hl)
  | _, .optionalChecked t, hl => by
    simp only [KType.Lawful] at hl
    exact optionalChecked_sem (t.sem hl)
  | _, .stdOptional t, hl => by
    simp only [KType.Lawful] at hl
    exact stdOptional_sem (t.sem hl)
  | _, .sharedPtr t, hl => by
    simp only [KType.Lawful] at hl
    exact ptr_sem (t.sem hl)
  | _, .uniquePtr t, hl => by
    simp only [KType.Lawful] at hl
    exact ptr_sem (t.sem hl)
  | _, .silentVector t, hl => by
    simp only [KType.Lawful] at hl
    exact silentVec_sem (t.sem hl)
  | _, .silentUniquePtr t, hl => by
    simp only [KType.Lawful] at hl
    exact silentPtr_sem (t.sem hl)
  | _, .vector t, hl => by
    simp only [KType.Lawful] at hl
    exact vec_sem (t.sem hl)
  | _, .oneOrMany t, hl => by
    simp only [KType.Lawful] at hl
    exact oneOrMany_sem (t.sem hl)
  | _, .array N t, hl => by
    simp only [KType.Lawful] at hl
    exact arr_sem N (t.sem hl)
  | _, .arrayVariable count t, hl => by
    simp only [KType.Lawful] at hl
    exact avc_sem count (t.sem hl)
  | _, .tuple ts, hl => by
    simp only [KType.Lawful] at hl
    exact tuple_sem (ts.sem hl)
  | _, .set _ ins t, hl => by
    simp only [KType.Lawful] at hl
    exact set_sem ins (t.sem hl.2)
  | _, .map ins t, hl => by
    simp only [KType.Lawful] at hl
    exact map_sem ins (t.sem hl.2)
  | _, .struct init s, hl => by
    simp only [KType.Lawful] at hl
    exact struct_sem (s.described hl.2.2 0 []) init
theorem KTypes.sem : {Ts : Type} → (ts : KTypes Ts) → ts.Lawful → ts.handler.Sem ts.dec
  | _, .nil, _ => tupNil_sem
  | _, .cons t ts, hl => by
    simp only [KTypes.Lawful] at hl
    exact tupCons_sem (t.sem hl.1) (ts.sem hl.2)
theorem KStruct.described : {T : Type} → (s : KStruct T) → s.Lawful → (page : Nat) → (sn : Bytes) → Described (s.meta.visit page sn) (s.specs sn)
  | _, .mk ms ss, hl, page, sn => by
    simp only [KStruct.Lawful] at hl
    simp only [KStruct.meta, Meta.visit, KStruct.specs]
    refine .append ((ms.fits hl.1 sn).reverse.described page sn fun s hs => ?_) (ss.described hl.2 _)
    exact k_specs_qname sn ms s (List.mem_reverse.mp hs)
theorem KMembers.fits : {T : Type} → (ms : KMembers T) → ms.Lawful → (sn : Bytes) → Fits ms.members (ms.specs sn)
  | _, .nil, _, _ => .nil
  | _, .cons names t get set ms, hl, sn => by
    simp only [KMembers.Lawful] at hl
    exact .cons rfl rfl (member_sem (t.sem hl.1) names t.isOptional get set) (ms.fits hl.2 sn)
theorem KSupers.described : {T : Type} → (ss : KSupers T) → ss.Lawful → (page : Nat) → Described (visitSupers page ss.supers) ss.specs
  | _, .nil, _, _ => .nil
  | _, .cons name get set s ss, hl, page => by
    simp only [KSupers.Lawful] at hl
    simp only [KSupers.supers, visitSupers, KSupers.specs, visit_up]
    exact .append ((s.described hl.1 page name).up get set) (ss.described hl.2 _)
end

end

/-! ### Writing -/

mutual
/-- Every handler writes the tokens of the JSON value of what it is given. -/
theorem KType.writes : {T : Type} → (t : KType T) → t.Lawful → ∀ v, t.Valid v → FromSem (t.handler.from_ v) fun n => encToks n (t.enc v)
  | _, .lib t, _, v, h => by
    simp only [KType.Valid] at h
    exact CType.writes t v h
  | _, .own k, hl, v, h => by
    simp only [KType.Lawful] at hl
    simp only [KType.Valid] at h
    exact hl.writes v h
  | _, .nullable t, hl, v, h => by
    simp only [KType.Lawful] at hl
    simp only [KType.Valid] at h
    exact t.writes hl v h.1
  | _, .nullableChecked t, hl, v, h => by
    simp only [KType.Lawful] at hl
    simp only [KType.Valid] at h
    simp only [KType.handler, nullableCheckedH, KType.enc]
    split
    · exact putNull_sem
    · rename_i h2
      simp only [h2] at h
      exact t.writes hl v.1 h.1
  | _, .optional t, hl, v, h => by
    simp only [KType.Lawful] at hl
    exact t.writes hl v h
  | _, .optionalChecked t, hl, v, h => by
    simp only [KType.Lawful] at hl
    simp only [KType.Valid] at h
    simp only [KType.handler, optionalCheckedH, KType.enc]
    split
    · rename_i h2
      simp only [h2, if_true] at h
      exact t.writes hl v.1 h.1
    · exact fromSem_nothing fun _ => rfl
  | _, .stdOptional t, hl, v, h => by
    simp only [KType.Lawful] at hl
    simp only [KType.Valid] at h
    simp only [KType.handler, stdOptionalH, KType.enc]
    cases v with
    | none => exact fromSem_nothing fun _ => rfl
    | some x => exact t.writes hl x (h x rfl).1
  | _, .sharedPtr t, hl, v, h => by
    simp only [KType.Lawful] at hl
    simp only [KType.Valid] at h
    simp only [KType.handler, ptrH, KType.enc]
    cases v with
    | none => exact putNull_sem
    | some x => exact t.writes hl x (h x rfl).1
  | _, .uniquePtr t, hl, v, h => by
    simp only [KType.Lawful] at hl
    simp only [KType.Valid] at h
    simp only [KType.handler, ptrH, KType.enc]
    cases v with
    | none => exact putNull_sem
    | some x => exact t.writes hl x (h x rfl).1
  | _, .silentVector t, hl, v, h => by
    simp only [KType.Lawful] at hl
    simp only [KType.Valid] at h
    simp only [KType.handler, silentVecH, KType.enc]
    cases v with
    | nil => exact fromSem_nothing fun _ => rfl
    | cons x v =>
      simp only [List.length_cons, ne_eq, Nat.add_eq_zero_iff, Nat.succ_ne_self, and_false, not_false_eq_true, if_true, List.isEmpty_cons,
        Bool.false_eq_true, if_false]
      exact putArray_sem (putElems_sem fun y hy => t.writes hl y (h y hy).1)
  | _, .silentUniquePtr t, hl, v, h => by
    simp only [KType.Lawful] at hl
    simp only [KType.Valid] at h
    simp only [KType.handler, silentPtrH, KType.enc]
    cases v with
    | none => exact fromSem_nothing fun _ => rfl
    | some x => exact t.writes hl x (h x rfl).1
  | _, .vector t, hl, v, h => by
    simp only [KType.Lawful] at hl
    simp only [KType.Valid] at h
    exact putArray_sem (putElems_sem fun y hy => t.writes hl y (h y hy).1)
  | _, .oneOrMany t, hl, v, h => by
    simp only [KType.Lawful] at hl
    simp only [KType.Valid] at h
    simp only [KType.handler, oneOrManyH, KType.enc]
    match v with
    | [] => exact fromSem_nothing fun _ => rfl
    | [x] => exact t.writes hl x (h.1 x (by simp)).1
    | x :: y :: v => exact putArray_sem (putElems_sem fun y hy => t.writes hl y (h.1 y hy).1)
  | _, .array N t, hl, v, h => by
    simp only [KType.Lawful] at hl
    simp only [KType.Valid] at h
    exact putArray_sem (putElems_sem fun y hy => t.writes hl y (h.2 y hy).1)
  | _, .arrayVariable count t, hl, v, h => by
    simp only [KType.Lawful] at hl
    simp only [KType.Valid] at h
    simp only [KType.handler, avcH, KType.enc]
    have hle : v.2 ≤ v.1.length := by omega
    simp only [hle, if_true]
    exact putArray_sem (putElems_sem fun y hy => t.writes hl y (h.2.2.1 y hy).1)
  | _, .tuple ts, hl, v, h => by
    simp only [KType.Lawful] at hl
    simp only [KType.Valid] at h
    exact putArray_sem (ts.writes hl v h)
  | _, .set eq ins t, hl, v, h => by
    simp only [KType.Lawful] at hl
    simp only [KType.Valid] at h
    exact putArray_sem (putElems_sem fun y hy => t.writes hl.2 y (h.2.2 y hy).1)
  | _, .map ins t, hl, v, h => by
    simp only [KType.Lawful] at hl
    simp only [KType.Valid] at h
    exact putObject_sem (putEntries_sem fun y hy => t.writes hl.2 y.2 (h.2.2 y hy).2.2.2.1)
  | _, .struct init st, hl, v, h => by
    simp only [KType.Lawful] at hl
    simp only [KType.Valid] at h
    exact putObject_sem (st.writes hl.2.2 v h)
theorem KTypes.writes : {Ts : Type} → (ts : KTypes Ts) → ts.Lawful → ∀ v, ts.Valid v → ElemSem (ts.handler.from_ v) (elemToks (ts.enc v))
  | _, .nil, _, _, _ => fun k _ hk hn _ => ⟨k, rfl, hn, hk⟩
  | _, .cons t ts, hl, v, h => by
    simp only [KTypes.Lawful] at hl
    simp only [KTypes.Valid] at h
    intro k s hk hn hc
    obtain ⟨k1, h1, h2, h3⟩ := t.writes hl.1 v.1 h.1.1 k s hn hc
    obtain ⟨k2, g1, g2, g3⟩ := ts.writes hl.2 v.2 h.2 k1 (s.writeAll (encToks k.name (t.enc v.1))).2 (h3 hk) h2 (writeAll_conv hc)
    refine ⟨k2, ?_, g2, g3⟩
    rw [hk] at g1
    simp only [KTypes.handler, TupleH.cons, h1, Option.bind_eq_bind, Option.bind_some, hk, g1, KTypes.enc]
    cases hx : t.enc v.1 with
    | none => simp [encToks, Ser.writeAll]
    | some j =>
      simp only [encToks, Option.toList_some, List.singleton_append, elemToks, writeAll_snd_append]
      rw [writeAll_names hc (.inl rfl) (.inr rfl)]
theorem KStruct.writes : {T : Type} → (st : KStruct T) → st.Lawful → ∀ v, st.Valid v → MembersSem (st.meta.serialize v) (st.enc v)
  | _, .mk ms ss, hl, v, h => by
    simp only [KStruct.Lawful] at hl
    simp only [KStruct.Valid] at h
    exact membersSem_append (ms.writes hl.1 v h.1) (ss.writes hl.2 v h.2)
theorem KMembers.writes : {T : Type} → (ms : KMembers T) → ms.Lawful → ∀ v, ms.Valid v → MembersSem (serializeMembers v ms.members) (ms.enc v)
  | _, .nil, _, _, _ => membersSem_nil
  | _, .cons names t get set ms, hl, v, h => by
    simp only [KMembers.Lawful] at hl
    simp only [KMembers.Valid] at h
    exact membersSem_append (membersSem_one (n := names.headD []) (nt := .ascii) (.inr rfl) (t.writes hl.1 (get v) h.1)) (ms.writes hl.2 v h.2)
theorem KSupers.writes : {T : Type} → (ss : KSupers T) → ss.Lawful → ∀ v, ss.Valid v → MembersSem (serializeSupers v ss.supers) (ss.enc v)
  | _, .nil, _, _, _ => membersSem_nil
  | _, .cons name get set st ss, hl, v, h => by
    simp only [KSupers.Lawful] at hl
    simp only [KSupers.Valid] at h
    have := membersSem_append (st.writes hl.1 (get v) h.1) (ss.writes hl.2 v h.2)
    intro k s hn hc
    obtain ⟨k', h1, h2⟩ := this k s hn hc
    refine ⟨k', ?_, h2⟩
    simp only [KSupers.supers, serializeSupers, Meta.serialize_up, KSupers.enc]
    exact h1
end

/-- What is written for a value and read into a fresh variable gives the value back; where nothing is written, the
fresh variable has the value already. -/
def KType.RoundTrips (t : KType T) : Prop :=
  ∀ v, t.Valid v → ∀ old, t.Fresh old → ∀ p l, p.allowUnassigned = true ∨ t.WritesRequired →
    match t.enc v with
    | some j => ∃ un, t.dec p old (.val l j) = some ⟨.noError, v, [], un⟩ ∧ (t.WritesRequired → un = [])
    | none => old = v

theorem KType.RoundTrips.full {t : KType T} (h : t.RoundTrips) {v old : T} {j : JVal} (hj : t.enc v = .some j) (hv : t.Valid v)
    (hf : t.Fresh old) {p : POpts} (hp : p.allowUnassigned = true ∨ t.WritesRequired) (l : Lbl) :
    ∃ un, t.dec p old (.val l j) = .some ⟨.noError, v, [], un⟩ ∧ (t.WritesRequired → un = []) := by
  have := h v hv old hf p l hp
  rw [hj] at this
  exact this

theorem KType.RoundTrips.some {t : KType T} (h : t.RoundTrips) {v old : T} {j : JVal} (hj : t.enc v = .some j) (hv : t.Valid v)
    (hf : t.Fresh old) {p : POpts} (hp : p.allowUnassigned = true) (l : Lbl) :
    ∃ un, t.dec p old (.val l j) = .some ⟨.noError, v, [], un⟩ := by
  obtain ⟨un, h, _⟩ := h.full hj hv hf (.inl hp) l
  exact ⟨un, h⟩

theorem KType.RoundTrips.none {t : KType T} (h : t.RoundTrips) {v old : T} (hj : t.enc v = .none) (hv : t.Valid v)
    (hf : t.Fresh old) : old = v := by
  have := h v hv old hf {} ([], .ascii) (.inl rfl)
  rw [hj] at this
  exact this

mutual
theorem KType.fresh_init : {T : Type} → (t : KType T) → t.Lawful → t.Fresh t.init
  | _, .lib t, h => by
    simp only [KType.Lawful] at h
    simp only [KType.Fresh]
    exact CType.fresh_init t h
  | _, .own k, h => by
    simp only [KType.Lawful] at h
    simp only [KType.Fresh]
    exact h.fresh_init
  | _, .vector _, _ | _, .set _ _ _, _ => by simp [KType.Fresh]
  | _, .nullable t, h => by
    simp only [KType.Lawful] at h
    simp only [KType.Fresh]
    exact t.fresh_init h
  | _, .nullableChecked t, _ => by simp only [KType.Fresh]; rfl
  | _, .optional t, h => by
    simp only [KType.Lawful] at h
    simp only [KType.Fresh]
    exact t.fresh_init h
  | _, .optionalChecked t, _ => by simp only [KType.Fresh]; rfl
  | _, .stdOptional t, _ => by simp only [KType.Fresh]; rfl
  | _, .sharedPtr t, _ => by simp only [KType.Fresh]; intro y hy; cases hy
  | _, .uniquePtr t, _ => by simp only [KType.Fresh]; intro y hy; cases hy
  | _, .silentVector t, _ => by simp only [KType.Fresh]; rfl
  | _, .silentUniquePtr t, _ => by simp only [KType.Fresh]; rfl
  | _, .oneOrMany t, _ => by simp only [KType.Fresh]; rfl
  | _, .array N t, h => by
    simp only [KType.Lawful] at h
    simp only [KType.Fresh]
    have hi : (KType.array N t).init = List.replicate N t.init := rfl
    rw [hi]
    refine ⟨by simp, fun y hy => ?_⟩
    rw [(List.mem_replicate.mp hy).2]
    exact t.fresh_init h
  | _, .arrayVariable count t, _ => by
    simp only [KType.Fresh]
    exact ⟨rfl, fun _ => rfl⟩
  | _, .tuple ts, h => by
    simp only [KType.Lawful] at h
    simp only [KType.Fresh]
    exact ts.fresh_init h
  | _, .map ins t, _ => by simp only [KType.Fresh]; rfl
  | _, .struct init s, h => by
    simp only [KType.Lawful] at h
    simp only [KType.Fresh]
    exact h.2.1
theorem KTypes.fresh_init : {Ts : Type} → (ts : KTypes Ts) → ts.Lawful → ts.Fresh ts.handler.init
  | _, .nil, _ => trivial
  | _, .cons t ts, h => by
    simp only [KTypes.Lawful] at h
    exact ⟨t.fresh_init h.1, ts.fresh_init h.2⟩
end

/-! ### Sequences -/

theorem k_elemsDec_enc {t : KType T} (h : t.RoundTrips) {init : T} (hi : t.Fresh init) {p : POpts} (hp : p.allowUnassigned = true ∨ t.WritesRequired)
    (vs : List T) (hv : ∀ x ∈ vs, t.Valid x ∧ (t.enc x).isSome) (acc : List T) :
    ∃ un, elemsDec init t.dec p acc (vs.filterMap t.enc) = some ⟨.noError, acc ++ vs, [], un⟩ ∧ (t.WritesRequired → un = []) := by
  induction vs generalizing acc with
  | nil => exact ⟨[], by simp [elemsDec], fun _ => rfl⟩
  | cons x vs ih =>
    obtain ⟨hx1, hx2⟩ := hv x (by simp)
    obtain ⟨j, hj⟩ := Option.isSome_iff_exists.mp hx2
    obtain ⟨u1, h1, k1⟩ := h.full hj hx1 hi hp ([], .ascii)
    obtain ⟨u2, h2, k2⟩ := ih (fun y hy => hv y (by simp [hy])) (acc ++ [x])
    refine ⟨u1 ++ u2, ?_, fun hc => by rw [k1 hc, k2 hc]; rfl⟩
    simp only [List.filterMap_cons, hj, elemsDec, elem, h1, Option.bind_eq_bind, Option.bind_some]
    rw [Res.andThen_ok rfl, h2]
    simp

theorem k_fixedDec_enc {t : KType T} (h : t.RoundTrips) {p : POpts} (hp : p.allowUnassigned = true ∨ t.WritesRequired)
    (vs : List T) (hv : ∀ x ∈ vs, t.Valid x ∧ (t.enc x).isSome) (old : List T) (hl : old.length = vs.length) (ho : ∀ y ∈ old, t.Fresh y) :
    ∃ un, fixedDec t.dec p old (vs.filterMap t.enc) = some ⟨.noError, vs, [], un⟩ ∧ (t.WritesRequired → un = []) := by
  induction vs generalizing old with
  | nil =>
    obtain rfl := List.length_eq_zero_iff.mp hl
    exact ⟨[], by simp [fixedDec], fun _ => rfl⟩
  | cons x vs ih =>
    cases old with
    | nil => simp at hl
    | cons y old =>
      obtain ⟨hx1, hx2⟩ := hv x (by simp)
      obtain ⟨j, hj⟩ := Option.isSome_iff_exists.mp hx2
      obtain ⟨u1, h1, k1⟩ := h.full hj hx1 (ho y (by simp)) hp ([], .ascii)
      obtain ⟨u2, h2, k2⟩ := ih (fun y hy => hv y (by simp [hy])) old (by simpa using hl) (fun z hz => ho z (by simp [hz]))
      refine ⟨u1 ++ u2, ?_, fun hc => by rw [k1 hc, k2 hc]; rfl⟩
      simp only [List.filterMap_cons, hj, fixedDec, elem, h1, Option.bind_eq_bind, Option.bind_some]
      rw [Res.andThen_ok rfl, h2]
      simp [Res.map]

theorem k_avcFixedDec_enc {t : KType T} (h : t.RoundTrips) {p : POpts} (hp : p.allowUnassigned = true ∨ t.WritesRequired)
    (vs : List T) (hv : ∀ x ∈ vs, t.Valid x ∧ (t.enc x).isSome) (old rest : List T) (hl : old.length = vs.length) (ho : ∀ y ∈ old, t.Fresh y)
    (size i : Nat) (hr : rest ≠ []) :
    ∃ un, avcFixedDec t.dec p size i (old ++ rest) (vs.filterMap t.enc) = some ⟨.noError, (vs ++ rest, i + vs.length), [], un⟩ ∧ (t.WritesRequired → un = []) := by
  induction vs generalizing old i with
  | nil =>
    obtain rfl := List.length_eq_zero_iff.mp hl
    cases rest with
    | nil => exact absurd rfl hr
    | cons z rest => exact ⟨[], by simp [avcFixedDec], fun _ => rfl⟩
  | cons x vs ih =>
    cases old with
    | nil => simp at hl
    | cons y old =>
      obtain ⟨hx1, hx2⟩ := hv x (by simp)
      obtain ⟨j, hj⟩ := Option.isSome_iff_exists.mp hx2
      obtain ⟨u1, h1, k1⟩ := h.full hj hx1 (ho y (by simp)) hp ([], .ascii)
      obtain ⟨u2, h2, k2⟩ := ih (fun y hy => hv y (by simp [hy])) old (by simpa using hl) (fun z hz => ho z (by simp [hz])) (i + 1)
      refine ⟨u1 ++ u2, ?_, fun hc => by rw [k1 hc, k2 hc]; rfl⟩
      simp only [List.filterMap_cons, hj, List.cons_append, avcFixedDec, elem, h1, Option.bind_eq_bind, Option.bind_some]
      rw [Res.andThen_ok rfl, h2]
      simp [Res.map]
      omega

theorem k_setElemsDec_enc [DecidableEq T] {ins : List T → T → List T} (hins : ∀ l x, (ins l x).Perm (x :: l))
    {t : KType T} (h : t.RoundTrips) {init : T} (hi : t.Fresh init) {p : POpts} (hp : p.allowUnassigned = true ∨ t.WritesRequired)
    (vs : List T) (hv : ∀ x ∈ vs, t.Valid x ∧ (t.enc x).isSome) (acc : List T) (hn : vs.Nodup) (hd : ∀ x ∈ vs, x ∉ acc) :
    ∃ un, setElemsDec ins init t.dec p acc (vs.filterMap t.enc) = some ⟨.noError, vs.foldl ins acc, [], un⟩ ∧ (t.WritesRequired → un = []) := by
  induction vs generalizing acc with
  | nil => exact ⟨[], by simp [setElemsDec], fun _ => rfl⟩
  | cons x vs ih =>
    obtain ⟨hx1, hx2⟩ := hv x (by simp)
    obtain ⟨j, hj⟩ := Option.isSome_iff_exists.mp hx2
    obtain ⟨u1, h1, k1⟩ := h.full hj hx1 hi hp ([], .ascii)
    rw [List.nodup_cons] at hn
    obtain ⟨u2, h2, k2⟩ := ih (fun y hy => hv y (by simp [hy])) (ins acc x) hn.2 (fun y hy hm => by
      rw [(hins acc x).mem_iff] at hm
      rcases List.mem_cons.mp hm with rfl | hm
      · exact hn.1 hy
      · exact hd y (by simp [hy]) hm)
    refine ⟨u1 ++ u2, ?_, fun hc => by rw [k1 hc, k2 hc]; rfl⟩
    simp only [List.filterMap_cons, hj, setElemsDec, elem, h1, Option.bind_eq_bind, Option.bind_some]
    rw [Res.andThen_ok rfl]
    simp only [hd x (by simp), if_false]
    rw [h2]
    simp

theorem k_entriesDec_enc {ins : List (Bytes × V) → Bytes × V → List (Bytes × V)} (hins : ∀ l x, (ins l x).Perm (x :: l))
    {t : KType V} (h : t.RoundTrips) {init : V} (hi : t.Fresh init) {p : POpts} (hp : p.allowUnassigned = true ∨ t.WritesRequired)
    (vs : List (Bytes × V)) (hv : ∀ e ∈ vs, escapesIn e.1 = e.1 ∧ t.Valid e.2 ∧ (t.enc e.2).isSome) (acc : List (Bytes × V))
    (hn : (vs.map Prod.fst).Nodup) (hd : ∀ e ∈ vs, e.1 ∉ acc.map Prod.fst) :
    ∃ un, entriesDec (mapSet ins) init t.dec p acc (vs.filterMap fun e => (t.enc e.2).map (e.1, ·)) =
      some ⟨.noError, vs.foldl ins acc, [], un⟩ ∧ (t.WritesRequired → un = []) := by
  induction vs generalizing acc with
  | nil => exact ⟨[], by simp [entriesDec], fun _ => rfl⟩
  | cons e vs ih =>
    obtain ⟨n, x⟩ := e
    obtain ⟨hx0, hx1, hx2⟩ := hv (n, x) (by simp)
    obtain ⟨j, hj⟩ := Option.isSome_iff_exists.mp hx2
    obtain ⟨u1, h1, k1⟩ := h.full hj hx1 hi hp (n, .string)
    rw [List.map_cons, List.nodup_cons] at hn
    obtain ⟨u2, h2, k2⟩ := ih (fun y hy => hv y (by simp [hy])) (ins acc (n, x)) hn.2 (fun y hy hm => by
      obtain ⟨z, hz, hzy⟩ := List.mem_map.mp hm
      rw [(hins acc (n, x)).mem_iff] at hz
      rcases List.mem_cons.mp hz with rfl | hm
      · exact hn.1 (hzy ▸ List.mem_map_of_mem hy)
      · exact hd y (by simp [hy]) (hzy ▸ List.mem_map_of_mem hm))
    refine ⟨u1 ++ u2, ?_, fun hc => by rw [k1 hc, k2 hc]; rfl⟩
    simp only at hj hx0
    simp only [List.filterMap_cons, hj, Option.map_some, entriesDec, h1, Option.bind_eq_bind, Option.bind_some]
    rw [Res.andThen_ok rfl]
    simp only [hx0]
    rw [mapSet_new (hd (n, x) (by simp)), h2]
    simp

/-! ### Structs -/

mutual
theorem KStruct.enc_entries : {T : Type} → (s : KStruct T) → ∀ v,
    s.enc v = s.entries.filterMap fun e => (e.type.enc (e.get v)).map (e.names.headD [], ·)
  | _, .mk ms ss, v => by simp only [KStruct.enc, KStruct.entries, List.filterMap_append, ms.enc_entries, ss.enc_entries]
theorem KMembers.enc_entries : {T : Type} → (ms : KMembers T) → ∀ v,
    ms.enc v = ms.entries.filterMap fun e => (e.type.enc (e.get v)).map (e.names.headD [], ·)
  | _, .nil, v => rfl
  | _, .cons names t get set ms, v => by
    simp only [KMembers.enc, KMembers.entries, List.filterMap_cons, ms.enc_entries]
    cases t.enc (get v) <;> rfl
theorem KSupers.enc_entries : {T : Type} → (ss : KSupers T) → ∀ v,
    ss.enc v = ss.entries.filterMap fun e => (e.type.enc (e.get v)).map (e.names.headD [], ·)
  | _, .nil, v => rfl
  | _, .cons name get set s ss, v => by
    simp only [KSupers.enc, KSupers.entries, List.filterMap_append, List.filterMap_map, s.enc_entries, ss.enc_entries]
    rfl
end

mutual
theorem KStruct.valid_entries : {T : Type} → (s : KStruct T) → ∀ v, s.Valid v → ∀ e ∈ s.entries, e.type.Valid (e.get v)
  | _, .mk ms ss, v, h, e, he => by
    simp only [KStruct.Valid] at h
    rcases List.mem_append.mp he with he | he
    · exact ms.valid_entries v h.1 e he
    · exact ss.valid_entries v h.2 e he
theorem KMembers.valid_entries : {T : Type} → (ms : KMembers T) → ∀ v, ms.Valid v → ∀ e ∈ ms.entries, e.type.Valid (e.get v)
  | _, .nil, v, _, e, he => by simp [KMembers.entries] at he
  | _, .cons names t get set ms, v, h, e, he => by
    simp only [KMembers.Valid] at h
    rcases List.mem_cons.mp he with rfl | he
    · exact h.1
    · exact ms.valid_entries v h.2 e he
theorem KSupers.valid_entries : {T : Type} → (ss : KSupers T) → ∀ v, ss.Valid v → ∀ e ∈ ss.entries, e.type.Valid (e.get v)
  | _, .nil, v, _, e, he => by simp [KSupers.entries] at he
  | _, .cons name get set s ss, v, h, e, he => by
    simp only [KSupers.Valid] at h
    rcases List.mem_append.mp he with he | he
    · obtain ⟨e', he', rfl⟩ := List.mem_map.mp he
      exact s.valid_entries (get v) h.1 e' he'
    · exact ss.valid_entries v h.2 e he
end

mutual
theorem KStruct.fresh_entries : {T : Type} → (s : KStruct T) → ∀ v, s.Fresh v → ∀ e ∈ s.entries, e.type.Fresh (e.get v)
  | _, .mk ms ss, v, h, e, he => by
    simp only [KStruct.Fresh] at h
    rcases List.mem_append.mp he with he | he
    · exact ms.fresh_entries v h.1 e he
    · exact ss.fresh_entries v h.2 e he
theorem KMembers.fresh_entries : {T : Type} → (ms : KMembers T) → ∀ v, ms.Fresh v → ∀ e ∈ ms.entries, e.type.Fresh (e.get v)
  | _, .nil, v, _, e, he => by simp [KMembers.entries] at he
  | _, .cons names t get set ms, v, h, e, he => by
    simp only [KMembers.Fresh] at h
    rcases List.mem_cons.mp he with rfl | he
    · exact h.1
    · exact ms.fresh_entries v h.2 e he
theorem KSupers.fresh_entries : {T : Type} → (ss : KSupers T) → ∀ v, ss.Fresh v → ∀ e ∈ ss.entries, e.type.Fresh (e.get v)
  | _, .nil, v, _, e, he => by simp [KSupers.entries] at he
  | _, .cons name get set s ss, v, h, e, he => by
    simp only [KSupers.Fresh] at h
    rcases List.mem_append.mp he with he | he
    · obtain ⟨e', he', rfl⟩ := List.mem_map.mp he
      exact s.fresh_entries (get v) h.1 e' he'
    · exact ss.fresh_entries v h.2 e he
end

theorem k_partDec_up (get : T → S) (set : S → T → T) (e : KEntry S) :
    partDec get set (partDec e.get e.set e.type.dec) = partDec (e.up get set).get (e.up get set).set e.type.dec := by
  funext o old i
  simp only [partDec, KEntry.up, Option.map_map]
  rfl

mutual
theorem KStruct.specs_entries (n : Bytes) : {T : Type} → (s : KStruct T) →
    (∀ e ∈ s.entries, ∃ m ∈ s.specs n, m.names = e.names ∧ m.dec = partDec e.get e.set e.type.dec) ∧
    ((s.specs n).map (·.names)).Perm (s.entries.map (·.names))
  | _, .mk ms ss => by
    obtain ⟨a1, a2⟩ := ms.specs_entries n
    obtain ⟨b1, b2⟩ := ss.specs_entries
    constructor
    · intro e he
      rcases List.mem_append.mp he with he | he
      · obtain ⟨m, hm, h⟩ := a1 e he
        exact ⟨m, by simp [KStruct.specs, hm], h⟩
      · obtain ⟨m, hm, h⟩ := b1 e he
        exact ⟨m, by simp [KStruct.specs, hm], h⟩
    · simp only [KStruct.specs, KStruct.entries, List.map_append, List.map_reverse]
      exact ((List.reverse_perm _).trans a2).append b2
theorem KMembers.specs_entries (n : Bytes) : {T : Type} → (ms : KMembers T) →
    (∀ e ∈ ms.entries, ∃ m ∈ ms.specs n, m.names = e.names ∧ m.dec = partDec e.get e.set e.type.dec) ∧
    ((ms.specs n).map (·.names)).Perm (ms.entries.map (·.names))
  | _, .nil => ⟨by simp [KMembers.entries], .refl _⟩
  | _, .cons names t get set ms => by
    obtain ⟨a1, a2⟩ := ms.specs_entries n
    constructor
    · intro e he
      rcases List.mem_cons.mp he with rfl | he
      · exact ⟨_, by simp only [KMembers.specs]; exact List.mem_cons_self .., rfl, rfl⟩
      · obtain ⟨m, hm, h⟩ := a1 e he
        exact ⟨m, by simp [KMembers.specs, hm], h⟩
    · exact a2.cons names
theorem KSupers.specs_entries : {T : Type} → (ss : KSupers T) →
    (∀ e ∈ ss.entries, ∃ m ∈ ss.specs, m.names = e.names ∧ m.dec = partDec e.get e.set e.type.dec) ∧
    (ss.specs.map (·.names)).Perm (ss.entries.map (·.names))
  | _, .nil => ⟨by simp [KSupers.entries], .refl _⟩
  | _, .cons name get set s ss => by
    obtain ⟨a1, a2⟩ := s.specs_entries name
    obtain ⟨b1, b2⟩ := ss.specs_entries
    constructor
    · intro e he
      rcases List.mem_append.mp he with he | he
      · obtain ⟨e', he', rfl⟩ := List.mem_map.mp he
        obtain ⟨m, hm, h1, h2⟩ := a1 e' he'
        refine ⟨m.up get set, by simp [KSupers.specs]; exact .inl ⟨m, hm, rfl⟩, h1, ?_⟩
        simp only [MemberSpec.up, h2, k_partDec_up]
        rfl
      · obtain ⟨m, hm, h⟩ := b1 e he
        exact ⟨m, by simp [KSupers.specs, hm], h⟩
    · simp only [KSupers.specs, KSupers.entries, List.map_append, List.map_map]
      exact a2.append b2
end

/-- All members of a struct, one after the other. -/
theorem k_membersDec_enc {specs : List (MemberSpec T)} {p : POpts} {v : T} (es : List (KEntry T))
    (hp : p.allowUnassigned = true ∨ ∀ e ∈ es, e.type.WritesRequired)
    (hspec : ∀ e ∈ es, ∃ m n, e.names.head? = some n ∧ (resolve specs n).bind (specs[·]?) = some m ∧ m.dec = partDec e.get e.set e.type.dec)
    (hrt : ∀ e ∈ es, e.type.RoundTrips) (hv : ∀ e ∈ es, e.type.Valid (e.get v)) (x : T) (hf : ∀ e ∈ es, e.type.Fresh (e.get x))
    (hap : (es.map KEntry.access).Pairwise Access.Apart) (hst : ∀ e ∈ es, ∀ y t, e.get (e.set y t) = y) :
    ∃ x' un, membersDec specs p x (es.filterMap fun e => (e.type.enc (e.get v)).map (e.names.headD [], ·)) = some ⟨.noError, x', [], un⟩ ∧
      ((∀ e ∈ es, e.type.WritesRequired) → un = []) ∧
      (∀ e ∈ es, e.get x' = e.get v) ∧ ∀ a : Access T, (∀ e ∈ es, a.Apart e.access) → a.get x' = a.get x := by
  induction es generalizing x with
  | nil => exact ⟨x, [], by simp [membersDec], fun _ => rfl, by simp, by simp⟩
  | cons e es ih =>
    obtain ⟨m, n, hn, hres, hdec⟩ := hspec e (by simp)
    rw [List.map_cons, List.pairwise_cons] at hap
    obtain ⟨hap1, hap2⟩ := hap
    have ih := fun x hf => ih (hp.imp_right fun h e he => h e (by simp [he])) (fun e he => hspec e (by simp [he])) (fun e he => hrt e (by simp [he])) (fun e he => hv e (by simp [he])) x hf
      hap2 (fun e he => hst e (by simp [he]))
    have hee : ∀ e' ∈ es, e.access.Apart e'.access := fun e' he' => hap1 _ (List.mem_map_of_mem he')
    cases hj : e.type.enc (e.get v) with
    | none =>
      obtain ⟨x', un, h1, h0, h2, h3⟩ := ih x (fun e he => hf e (by simp [he]))
      refine ⟨x', un, by simpa [List.filterMap_cons, hj] using h1, fun h => h0 fun e he => h e (by simp [he]), ?_, fun a ha => h3 a fun e he => ha e (by simp [he])⟩
      intro e' he'
      rcases List.mem_cons.mp he' with rfl | he'
      · have := h3 e'.access hee
        exact this.trans ((hrt e' (by simp)).none hj (hv e' (by simp)) (hf e' (by simp)))
      · exact h2 e' he'
    | some j =>
      obtain ⟨u1, k1, k0⟩ := (hrt e (by simp)).full hj (hv e (by simp)) (hf e (by simp)) (hp.imp_right fun h => h e (by simp)) (n, .string)
      have hq : m.dec p x (.val (n, .string) j) = some ⟨.noError, e.set (e.get v) x, [], u1⟩ := by
        simp [hdec, partDec, k1, Res.map]
      obtain ⟨x', un, h1, h0, h2, h3⟩ := ih (e.set (e.get v) x) (fun e' he' => by
        have := (hee e' he').2.1 (e.get v) x
        simp only [KEntry.access] at this
        rw [this]
        exact hf e' (by simp [he']))
      refine ⟨x', u1 ++ un, ?_, fun h => by rw [k0 (h e (by simp)), h0 fun e he => h e (by simp [he])]; rfl, ?_, ?_⟩
      · have hh : e.names.headD [] = n := by rw [List.headD_eq_head?_getD, hn]; rfl
        simp only [List.filterMap_cons, hj, Option.map_some, hh]
        rw [membersDec_cons_ok hres hq rfl h1]
        simp
      · intro e' he'
        rcases List.mem_cons.mp he' with rfl | he'
        · have := h3 e'.access hee
          exact this.trans (hst e' (by simp) _ _)
        · exact h2 e' he'
      · intro a ha
        rw [h3 a fun e he => ha e (by simp [he])]
        exact (ha e (by simp)).1 _ _

mutual
theorem KStruct.complete_entries : {T : Type} → (s : KStruct T) → s.WritesRequired →
    ∀ e ∈ s.entries, (e.type.isOptional = true ∨ ∀ v, e.type.Valid v → (e.type.enc v).isSome) ∧ e.type.WritesRequired
  | _, .mk ms ss, h, e, he => by
    simp only [KStruct.WritesRequired] at h
    rcases List.mem_append.mp he with he | he
    · exact ms.complete_entries h.1 e he
    · exact ss.complete_entries h.2 e he
theorem KMembers.complete_entries : {T : Type} → (ms : KMembers T) → ms.WritesRequired →
    ∀ e ∈ ms.entries, (e.type.isOptional = true ∨ ∀ v, e.type.Valid v → (e.type.enc v).isSome) ∧ e.type.WritesRequired
  | _, .nil, _, e, he => by simp [KMembers.entries] at he
  | _, .cons names t get set ms, h, e, he => by
    simp only [KMembers.WritesRequired] at h
    rcases List.mem_cons.mp he with rfl | he
    · exact h.1
    · exact ms.complete_entries h.2 e he
theorem KSupers.complete_entries : {T : Type} → (ss : KSupers T) → ss.WritesRequired →
    ∀ e ∈ ss.entries, (e.type.isOptional = true ∨ ∀ v, e.type.Valid v → (e.type.enc v).isSome) ∧ e.type.WritesRequired
  | _, .nil, _, e, he => by simp [KSupers.entries] at he
  | _, .cons name get set s ss, h, e, he => by
    simp only [KSupers.WritesRequired] at h
    rcases List.mem_append.mp he with he | he
    · obtain ⟨e', he', rfl⟩ := List.mem_map.mp he
      exact s.complete_entries h.1 e' he'
    · exact ss.complete_entries h.2 e he
end

/-- The members a struct is searched for are the declared ones, in some order. -/
def KSpecOf (m : MemberSpec T) (e : KEntry T) : Prop :=
  m.names = e.names ∧ m.dec = partDec e.get e.set e.type.dec ∧ m.optional = e.type.isOptional

mutual
theorem KStruct.specs_of (n : Bytes) : {T : Type} → (s : KStruct T) → ∃ l, List.Forall₂ KSpecOf (s.specs n) l ∧ l.Perm s.entries
  | _, .mk ms ss => by
    obtain ⟨l1, a1, a2⟩ := ms.specs_of n
    obtain ⟨l2, b1, b2⟩ := ss.specs_of
    exact ⟨l1.reverse ++ l2, List.rel_append (List.rel_reverse a1) b1, ((List.reverse_perm _).trans a2).append b2⟩
theorem KMembers.specs_of (n : Bytes) : {T : Type} → (ms : KMembers T) → ∃ l, List.Forall₂ KSpecOf (ms.specs n) l ∧ l.Perm ms.entries
  | _, .nil => ⟨[], .nil, .refl _⟩
  | _, .cons names t get set ms => by
    obtain ⟨l1, a1, a2⟩ := ms.specs_of n
    exact ⟨{ names := names, type := t, get := get, set := set } :: l1, .cons ⟨rfl, rfl, rfl⟩ a1, a2.cons _⟩
theorem KSupers.specs_of : {T : Type} → (ss : KSupers T) → ∃ l, List.Forall₂ KSpecOf ss.specs l ∧ l.Perm ss.entries
  | _, .nil => ⟨[], .nil, .refl _⟩
  | _, .cons name get set s ss => by
    obtain ⟨l1, a1, a2⟩ := s.specs_of name
    obtain ⟨l2, b1, b2⟩ := ss.specs_of
    refine ⟨l1.map (KEntry.up get set) ++ l2, List.rel_append ?_ b1, (a2.map _).append b2⟩
    rw [List.forall₂_map_left_iff, List.forall₂_map_right_iff]
    refine a1.imp fun m e h => ⟨h.1, ?_, h.2.2⟩
    simp only [MemberSpec.up, h.2.1, k_partDec_up]
    rfl
end

/-- If all members are complete, none that is required is left out. -/
theorem k_unassigned_enc {s : KStruct T} (hs : s.Sensible) (hc : s.WritesRequired) {v : T} (hv : s.Valid v) : unassignedNames (s.specs []) (s.enc v) = [] := by
  rw [unassignedNames, List.map_eq_nil_iff, List.filter_eq_nil_iff]
  rintro ⟨m, i⟩ hmi
  rw [List.mem_zipIdx_iff_getElem?] at hmi
  obtain ⟨l, h1, h2⟩ := s.specs_of []
  obtain ⟨e, k1, k2, k3, k4⟩ := forall₂_get h1 hmi
  simp only at hmi k1 k2 k4
  have he : e ∈ s.entries := h2.mem_iff.mp (List.mem_of_getElem? k1)
  simp only [Bool.and_eq_true, Bool.not_eq_true', not_and, Bool.not_eq_false, k4]
  intro ho
  rcases (s.complete_entries hc e he).1 with h | h
  · rw [h] at ho; cases ho
  · obtain ⟨j, hj⟩ := Option.isSome_iff_exists.mp (h _ (s.valid_entries v hv e he))
    obtain ⟨n, hn, _⟩ := hs.named e he
    have hd : ((s.specs []).map fun m => m.names.head?).Nodup := by
      have g := ((s.specs_entries []).2).map List.head?
      simp only [List.map_map] at g
      exact g.symm.nodup hs.distinct
    rw [List.any_eq_true]
    refine ⟨(n, j), ?_, ?_⟩
    · rw [s.enc_entries, List.mem_filterMap]
      exact ⟨e, he, by rw [hj, List.headD_eq_head?_getD, hn]; rfl⟩
    · have := resolve_primary hd (List.mem_of_getElem? hmi) (k2 ▸ hn)
      obtain ⟨i', hi', hm'⟩ := Option.bind_eq_some_iff.mp this
      rw [hi', beq_iff_eq, Option.some.injEq]
      obtain ⟨a1, a2⟩ := List.getElem?_eq_some_iff.mp hm'
      obtain ⟨b1, b2⟩ := List.getElem?_eq_some_iff.mp hmi
      refine (List.getElem_inj (h₀ := by simpa using a1) (h₁ := by simpa using b1) hd).mp ?_
      simp only [List.getElem_map, a2, b2]

theorem k_structDec_enc {s : KStruct T} (hs : s.Sensible) (hrt : ∀ e ∈ s.entries, e.type.RoundTrips) {v : T} (hv : s.Valid v) {old : T}
    (hf : s.Fresh old) {p : POpts} (hp : p.allowUnassigned = true ∨ s.WritesRequired) (l : Lbl) :
    ∃ un, structDec (s.specs []) p old (.val l (.obj (s.enc v))) = some ⟨.noError, v, [], un⟩ ∧ (s.WritesRequired → un = []) := by
  obtain ⟨a1, a2⟩ := s.specs_entries []
  have hd : ((s.specs []).map fun m => m.names.head?).Nodup := by
    have h1 := a2.map List.head?
    simp only [List.map_map] at h1
    exact h1.symm.nodup hs.distinct
  obtain ⟨x', un, h1, h0, h2, _⟩ := k_membersDec_enc (specs := s.specs []) (v := v) s.entries (hp.imp_right fun h e he => (s.complete_entries h e he).2) (fun e he => by
      obtain ⟨m, hm, hm1, hm2⟩ := a1 e he
      obtain ⟨n, hn, _⟩ := hs.named e he
      exact ⟨m, n, hn, resolve_primary hd hm (hm1 ▸ hn), hm2⟩) hrt (s.valid_entries v hv) old (s.fresh_entries old hf) hs.apart hs.stored
  obtain rfl := hs.all _ _ h2
  have hok : unassignedNames (s.specs []) (s.enc x') = [] ∨ p.allowUnassigned = true := hp.symm.imp_left fun h => k_unassigned_enc hs h hv
  refine ⟨un ++ if p.track then unassignedNames (s.specs []) (s.enc x') else [], ?_, fun h => ?_⟩
  · rw [← s.enc_entries] at h1
    simp only [structDec, objectDec, h1, Option.bind_eq_bind, Option.bind_some]
    rw [Res.andThen_ok rfl]
    simp [hok]
  · rw [h0 fun e he => (s.complete_entries h e he).2, k_unassigned_enc hs h hv]
    simp

mutual
theorem KType.roundTrips : {T : Type} → (t : KType T) → t.Lawful → t.RoundTrips
  | _, .lib t, h => by
    simp only [KType.Lawful] at h
    intro v hv old hf p l hp
    simp only [KType.WritesRequired] at hp ⊢
    simp only [KType.Valid] at hv
    simp only [KType.Fresh] at hf
    exact CType.roundTrips t h v hv old hf p l hp
  | _, .own k, h => by
    simp only [KType.Lawful] at h
    intro v hv old hf p l hp
    simp only [KType.WritesRequired] at hp ⊢
    simp only [KType.Valid] at hv
    simp only [KType.Fresh] at hf
    exact h.back v hv old hf p l hp
  | _, .nullable t, h => by
    simp only [KType.Lawful] at h
    intro v hv old hf p l hp
    simp only [KType.WritesRequired] at hp ⊢
    simp only [KType.Valid] at hv
    simp only [KType.Fresh] at hf
    have := t.roundTrips h v hv.1 old hf p l hp
    simp only [KType.enc]
    cases hj : t.enc v with
    | none => rw [hj] at this; exact this
    | some j =>
      rw [hj] at this
      simp only at this ⊢
      obtain ⟨un, hu, hc⟩ := this
      refine ⟨un, ?_, hc⟩
      have hne : j ≠ .null := fun e => hv.2 (e ▸ hj)
      rw [← hu]
      simp only [KType.dec]
      cases j <;> first | rfl | exact absurd rfl hne
  | _, .nullableChecked t, h => by
    simp only [KType.Lawful] at h
    intro v hv old hf p l hp
    simp only [KType.WritesRequired] at hp ⊢
    obtain ⟨v, b⟩ := v
    simp only [KType.Valid] at hv
    simp only [KType.Fresh] at hf
    cases b with
    | true =>
      simp only [if_true] at hv
      simp only [KType.enc, if_true]
      exact ⟨[], by simp [KType.dec, nullableCheckedDec, hf, hv], fun _ => rfl⟩
    | false =>
      simp only [Bool.false_eq_true, if_false] at hv
      obtain ⟨hv, j, hj, hne⟩ := hv
      simp only [KType.enc, Bool.false_eq_true, if_false, hj]
      obtain ⟨un, hu, hc⟩ := (t.roundTrips h).full hj hv (old := old.1) (hf ▸ t.fresh_init h) hp l
      refine ⟨un, ?_, hc⟩
      simp only [KType.dec]
      cases j <;> first | (exact absurd rfl hne) | simp [nullableCheckedDec, hu, Res.map]
  | _, .optional t, h => by
    simp only [KType.Lawful] at h
    intro v hv old hf p l hp
    simp only [KType.WritesRequired] at hp ⊢
    simp only [KType.Valid] at hv
    simp only [KType.Fresh] at hf
    exact t.roundTrips h v hv old hf p l hp
  | _, .optionalChecked t, h => by
    simp only [KType.Lawful] at h
    intro v hv old hf p l hp
    simp only [KType.WritesRequired] at hp ⊢
    obtain ⟨v, b⟩ := v
    simp only [KType.Valid] at hv
    simp only [KType.Fresh] at hf
    subst hf
    cases b with
    | false =>
      simp only [Bool.false_eq_true, if_false] at hv
      simp [KType.enc, hv]
    | true =>
      simp only [if_true] at hv
      obtain ⟨j, hj⟩ := Option.isSome_iff_exists.mp hv.2
      simp only [KType.enc, if_true, hj]
      obtain ⟨un, hu, hc⟩ := (t.roundTrips h).full hj hv.1 (t.fresh_init h) hp l
      exact ⟨un, by simp [KType.dec, optionalCheckedDec, hu, Res.map], hc⟩
  | _, .stdOptional t, h => by
    simp only [KType.Lawful] at h
    intro v hv old hf p l hp
    simp only [KType.WritesRequired] at hp ⊢
    simp only [KType.Valid] at hv
    simp only [KType.Fresh] at hf
    subst hf
    cases v with
    | none => simp [KType.enc]
    | some v =>
      obtain ⟨hv1, hv2⟩ := hv v rfl
      obtain ⟨j, hj⟩ := Option.isSome_iff_exists.mp hv2
      simp only [KType.enc, Option.bind_some, hj]
      obtain ⟨un, hu, hc⟩ := (t.roundTrips h).full hj hv1 (t.fresh_init h) hp l
      exact ⟨un, by simp [KType.dec, stdOptionalDec, hu, Res.map], hc⟩
  | _, .sharedPtr t, h => by
    simp only [KType.Lawful] at h
    intro v hv old hf p l hp
    simp only [KType.WritesRequired] at hp ⊢
    simp only [KType.Valid] at hv
    simp only [KType.Fresh] at hf
    cases v with
    | none => exact ⟨[], by simp [KType.dec, ptrDec], fun _ => rfl⟩
    | some v =>
      obtain ⟨hv, j, hj, hne⟩ := hv v rfl
      simp only [KType.enc, hj]
      obtain ⟨un, hu, hc⟩ := (t.roundTrips h).full hj hv (old := old.getD t.init) (by
        cases old with
        | none => exact t.fresh_init h
        | some y => exact hf y rfl) hp l
      refine ⟨un, ?_, hc⟩
      simp only [KType.dec]
      cases j <;> first | (exact absurd rfl hne) | simp [ptrDec, hu, Res.map]
  | _, .uniquePtr t, h => by
    simp only [KType.Lawful] at h
    intro v hv old hf p l hp
    simp only [KType.WritesRequired] at hp ⊢
    simp only [KType.Valid] at hv
    simp only [KType.Fresh] at hf
    cases v with
    | none => exact ⟨[], by simp [KType.dec, ptrDec], fun _ => rfl⟩
    | some v =>
      obtain ⟨hv, j, hj, hne⟩ := hv v rfl
      simp only [KType.enc, hj]
      obtain ⟨un, hu, hc⟩ := (t.roundTrips h).full hj hv (old := old.getD t.init) (by
        cases old with
        | none => exact t.fresh_init h
        | some y => exact hf y rfl) hp l
      refine ⟨un, ?_, hc⟩
      simp only [KType.dec]
      cases j <;> first | (exact absurd rfl hne) | simp [ptrDec, hu, Res.map]
  | _, .silentVector t, h => by
    simp only [KType.Lawful] at h
    intro v hv old hf p l hp
    simp only [KType.WritesRequired] at hp ⊢
    simp only [KType.Valid] at hv
    simp only [KType.Fresh] at hf
    cases v with
    | nil => simp [KType.enc, hf]
    | cons x v =>
      simp only [KType.enc, List.isEmpty_cons, Bool.false_eq_true, if_false]
      exact k_elemsDec_enc (t.roundTrips h) (t.fresh_init h) hp (x :: v) hv []
  | _, .silentUniquePtr t, h => by
    simp only [KType.Lawful] at h
    intro v hv old hf p l hp
    simp only [KType.WritesRequired] at hp ⊢
    simp only [KType.Valid] at hv
    simp only [KType.Fresh] at hf
    subst hf
    cases v with
    | none => simp [KType.enc]
    | some v =>
      obtain ⟨hv, j, hj, hne⟩ := hv v rfl
      simp only [KType.enc, Option.bind_some, hj]
      obtain ⟨un, hu, hc⟩ := (t.roundTrips h).full hj hv (t.fresh_init h) hp l
      refine ⟨un, ?_, hc⟩
      simp only [KType.dec]
      cases j <;> first | (exact absurd rfl hne) | simp [ptrDec, hu, Res.map]
  | _, .vector t, h => by
    simp only [KType.Lawful] at h
    intro v hv old _ p l hp
    simp only [KType.WritesRequired] at hp ⊢
    simp only [KType.Valid] at hv
    exact k_elemsDec_enc (t.roundTrips h) (t.fresh_init h) hp v hv []
  | _, .oneOrMany t, h => by
    simp only [KType.Lawful] at h
    intro v hv old hf p l hp
    simp only [KType.WritesRequired] at hp ⊢
    simp only [KType.Valid] at hv
    simp only [KType.Fresh] at hf
    subst hf
    match v with
    | [] => simp [KType.enc]
    | [x] =>
      obtain ⟨hv1, hv2⟩ := hv.1 x (by simp)
      obtain ⟨j, hj⟩ := Option.isSome_iff_exists.mp hv2
      simp only [KType.enc, hj]
      obtain ⟨un, hu, hc⟩ := (t.roundTrips h).full hj hv1 (t.fresh_init h) hp l
      refine ⟨un, ?_, hc⟩
      have hna := hv.2 x
      simp only [KType.dec]
      cases j with
      | arr vs => exact absurd hj (hna vs rfl)
      | _ => simp [oneOrManyDec, hu, Res.map]
    | x :: y :: v =>
      simp only [KType.enc]
      exact k_elemsDec_enc (t.roundTrips h) (t.fresh_init h) hp (x :: y :: v) hv.1 []
  | _, .array N t, h => by
    simp only [KType.Lawful] at h
    intro v hv old hf p l hp
    simp only [KType.WritesRequired] at hp ⊢
    simp only [KType.Valid] at hv
    simp only [KType.Fresh] at hf
    exact k_fixedDec_enc (t.roundTrips h) hp v hv.2 old (by omega) hf.2
  | _, .arrayVariable count t, h => by
    simp only [KType.Lawful] at h
    intro v hv old hf p l hp
    simp only [KType.WritesRequired] at hp ⊢
    obtain ⟨v, n⟩ := v
    simp only [KType.Valid] at hv
    simp only [KType.Fresh] at hf
    obtain ⟨hl, hn, hv, hrest⟩ := hv
    simp only [KType.enc, KType.dec, avcDec, arrayDec]
    by_cases hc : count = 0
    · obtain rfl : n = 0 := by omega
      subst hc
      obtain rfl := List.length_eq_zero_iff.mp hl
      exact ⟨[], by simp [hf.1, hf.2 rfl, avcFixedDec], fun _ => rfl⟩
    · have hlt : n < count := by omega
      have hd : v.drop n = List.replicate (count - n) t.init := by
        rw [List.eq_replicate_iff]
        exact ⟨by simp [hl], hrest⟩
      obtain ⟨un, hu, hc⟩ := k_avcFixedDec_enc (t.roundTrips h) hp (v.take n) hv (List.replicate n t.init) (v.drop n)
        (by simp; omega) (fun y hy => (List.mem_replicate.mp hy).2 ▸ t.fresh_init h) old.2 0 (by rw [hd]; simp; omega)
      refine ⟨un, ?_, hc⟩
      have he : old.1 = List.replicate n t.init ++ v.drop n := by
        rw [hf.1, hd, List.replicate_append_replicate]
        congr 1
        omega
      rw [he, hu]
      simp
      omega
  | _, .tuple ts, h => by
    simp only [KType.Lawful] at h
    intro v hv old hf p l hp
    simp only [KType.WritesRequired] at hp ⊢
    simp only [KType.Valid] at hv
    simp only [KType.Fresh] at hf
    exact ts.roundTrips h v hv old hf p hp
  | _, .set eq ins t, h => by
    simp only [KType.Lawful] at h
    intro v hv old _ p l hp
    simp only [KType.WritesRequired] at hp ⊢
    simp only [KType.Valid] at hv
    obtain ⟨un, hu, hc⟩ := k_setElemsDec_enc h.1 (t.roundTrips h.2) (t.fresh_init h.2) hp v hv.2.2 [] hv.1 (by simp)
    exact ⟨un, by simp only [KType.dec, setDec, arrayDec]; rw [hu, hv.2.1], hc⟩
  | _, .map ins t, h => by
    simp only [KType.Lawful] at h
    intro v hv old hf p l hp
    simp only [KType.WritesRequired] at hp ⊢
    simp only [KType.Valid] at hv
    simp only [KType.Fresh] at hf
    subst hf
    obtain ⟨un, hu, hc⟩ := k_entriesDec_enc h.1 (t.roundTrips h.2) (t.fresh_init h.2) hp v (fun e he => (hv.2.2 e he).2.2) [] hv.1 (by simp)
    exact ⟨un, by simp only [KType.dec, mapDec, objectDec]; rw [hu, hv.2.1], hc⟩
  | _, .struct init s, h => by
    simp only [KType.Lawful] at h
    intro v hv old hf p l hp
    simp only [KType.WritesRequired] at hp ⊢
    simp only [KType.Valid] at hv
    simp only [KType.Fresh] at hf
    exact k_structDec_enc h.1 (s.roundTrips h.2.2) hv hf hp l
theorem KTypes.roundTrips : {Ts : Type} → (ts : KTypes Ts) → ts.Lawful → ∀ v, ts.Valid v → ∀ old, ts.Fresh old → ∀ p : POpts,
    p.allowUnassigned = true ∨ ts.WritesRequired → ∃ un, ts.dec p old (ts.enc v) = some ⟨.noError, v, [], un⟩ ∧ (ts.WritesRequired → un = [])
  | _, .nil, _, v, _, old, _, p, _ => ⟨[], by simp [KTypes.dec, KTypes.enc, tupNilDec], fun _ => rfl⟩
  | _, .cons t ts, h, v, hv, old, hf, p, hp => by
    simp only [KTypes.Lawful] at h
    simp only [KTypes.Valid] at hv
    simp only [KTypes.Fresh] at hf
    obtain ⟨j, hj⟩ := Option.isSome_iff_exists.mp hv.1.2
    simp only [KTypes.WritesRequired] at hp
    obtain ⟨u1, h1, k1⟩ := (t.roundTrips h.1).full hj hv.1.1 hf.1 (hp.imp_right And.left) ([], .ascii)
    obtain ⟨u2, h2, k2⟩ := ts.roundTrips h.2 v.2 hv.2 old.2 hf.2 p (hp.imp_right And.right)
    refine ⟨u1 ++ u2, ?_, fun h => by rw [k1 (by simp only [KTypes.WritesRequired] at h; exact h.1), k2 (by simp only [KTypes.WritesRequired] at h; exact h.2)]; rfl⟩
    simp only [KTypes.dec, KTypes.enc, hj, Option.toList_some, List.singleton_append, tupConsDec, elem, h1, Option.bind_eq_bind, Option.bind_some]
    rw [Res.andThen_ok rfl, h2]
    simp [Res.map]
theorem KStruct.roundTrips : {T : Type} → (s : KStruct T) → s.Lawful → ∀ e ∈ s.entries, e.type.RoundTrips
  | _, .mk ms ss, h, e, he => by
    simp only [KStruct.Lawful] at h
    rcases List.mem_append.mp he with he | he
    · exact ms.roundTrips h.1 e he
    · exact ss.roundTrips h.2 e he
theorem KMembers.roundTrips : {T : Type} → (ms : KMembers T) → ms.Lawful → ∀ e ∈ ms.entries, e.type.RoundTrips
  | _, .nil, _, e, he => by simp [KMembers.entries] at he
  | _, .cons names t get set ms, h, e, he => by
    simp only [KMembers.Lawful] at h
    rcases List.mem_cons.mp he with rfl | he
    · exact t.roundTrips h.1
    · exact ms.roundTrips h.2 e he
theorem KSupers.roundTrips : {T : Type} → (ss : KSupers T) → ss.Lawful → ∀ e ∈ ss.entries, e.type.RoundTrips
  | _, .nil, _, e, he => by simp [KSupers.entries] at he
  | _, .cons name get set s ss, h, e, he => by
    simp only [KSupers.Lawful] at h
    rcases List.mem_append.mp he with he | he
    · obtain ⟨e', he', rfl⟩ := List.mem_map.mp he
      exact s.roundTrips h.1 e' he'
    · exact ss.roundTrips h.2 e he
end

mutual
theorem KType.good : {T : Type} → (t : KType T) → t.Lawful → ∀ v, t.Valid v → ∀ j, t.enc v = some j → j.Good
  | _, .lib t, hl, v, hv, j, h => by
    simp only [KType.Valid] at hv
    simp only [KType.Lawful] at hl
    exact CType.good t hl v hv j h
  | _, .own k, hl, v, hv, j, h => by
    simp only [KType.Valid] at hv
    simp only [KType.Lawful] at hl
    exact hl.good v hv j h
  | _, .nullable t, hl, v, hv, j, h => by
    simp only [KType.Valid] at hv
    simp only [KType.Lawful] at hl
    exact t.good hl v hv.1 j h
  | _, .nullableChecked t, hl, v, hv, j, h => by
    simp only [KType.Valid] at hv
    simp only [KType.Lawful] at hl
    simp only [KType.enc] at h
    split at h
    · cases h; exact good_null
    · rename_i h2
      simp only [h2] at hv
      exact t.good hl v.1 hv.1 j h
  | _, .optional t, hl, v, hv, j, h => by
    simp only [KType.Valid] at hv
    simp only [KType.Lawful] at hl
    exact t.good hl v hv j h
  | _, .optionalChecked t, hl, v, hv, j, h => by
    simp only [KType.Valid] at hv
    simp only [KType.Lawful] at hl
    simp only [KType.enc] at h
    split at h
    · rename_i h2
      simp only [h2, if_true] at hv
      exact t.good hl v.1 hv.1 j h
    · cases h
  | _, .stdOptional t, hl, v, hv, j, h => by
    simp only [KType.Valid] at hv
    simp only [KType.Lawful] at hl
    cases v with
    | none => cases h
    | some v => exact t.good hl v (hv v rfl).1 j h
  | _, .sharedPtr t, hl, v, hv, j, h => by
    simp only [KType.Valid] at hv
    simp only [KType.Lawful] at hl
    cases v with
    | none => cases h; exact good_null
    | some v => exact t.good hl v (hv v rfl).1 j h
  | _, .uniquePtr t, hl, v, hv, j, h => by
    simp only [KType.Valid] at hv
    simp only [KType.Lawful] at hl
    cases v with
    | none => cases h; exact good_null
    | some v => exact t.good hl v (hv v rfl).1 j h
  | _, .silentVector t, hl, v, hv, j, h => by
    simp only [KType.Valid] at hv
    simp only [KType.Lawful] at hl
    simp only [KType.enc] at h
    split at h
    · cases h
    · cases h; exact good_filterMap fun x hx => t.good hl x (hv x hx).1
  | _, .silentUniquePtr t, hl, v, hv, j, h => by
    simp only [KType.Valid] at hv
    simp only [KType.Lawful] at hl
    cases v with
    | none => cases h
    | some v => exact t.good hl v (hv v rfl).1 j h
  | _, .vector t, hl, v, hv, j, h => by
    simp only [KType.Valid] at hv
    simp only [KType.Lawful] at hl
    cases h; exact good_filterMap fun x hx => t.good hl x (hv x hx).1
  | _, .oneOrMany t, hl, v, hv, j, h => by
    simp only [KType.Valid] at hv
    simp only [KType.Lawful] at hl
    match v with
    | [] => cases h
    | [x] => exact t.good hl x (hv.1 x (by simp)).1 j h
    | x :: y :: v => cases h; exact good_filterMap fun x hx => t.good hl x (hv.1 x hx).1
  | _, .array N t, hl, v, hv, j, h => by
    simp only [KType.Valid] at hv
    simp only [KType.Lawful] at hl
    cases h; exact good_filterMap fun x hx => t.good hl x (hv.2 x hx).1
  | _, .arrayVariable count t, hl, v, hv, j, h => by
    simp only [KType.Valid] at hv
    simp only [KType.Lawful] at hl
    cases h; exact good_filterMap fun x hx => t.good hl x (hv.2.2.1 x hx).1
  | _, .tuple ts, hl, v, hv, j, h => by
    simp only [KType.Valid] at hv
    simp only [KType.Lawful] at hl
    cases h; exact good_arr (ts.good hl v hv)
  | _, .set eq ins t, hl, v, hv, j, h => by
    simp only [KType.Valid] at hv
    simp only [KType.Lawful] at hl
    cases h; exact good_filterMap fun x hx => t.good hl.2 x (hv.2.2 x hx).1
  | _, .map ins t, hl, v, hv, j, h => by
    simp only [KType.Valid] at hv
    simp only [KType.Lawful] at hl
    cases h
    refine good_obj fun m hm => ?_
    obtain ⟨e, he, h1⟩ := List.mem_filterMap.mp hm
    obtain ⟨j, h2, rfl⟩ := Option.map_eq_some_iff.mp h1
    obtain ⟨a1, a2, _, a3, _⟩ := hv.2.2 e he
    exact ⟨a2, a1, t.good hl.2 e.2 a3 j h2⟩
  | _, .struct init s, hl, v, hv, j, h => by
    simp only [KType.Valid] at hv
    simp only [KType.Lawful] at hl
    cases h
    refine good_obj fun m hm => ?_
    rw [s.enc_entries] at hm
    obtain ⟨e, he, h1⟩ := List.mem_filterMap.mp hm
    obtain ⟨j, h2, rfl⟩ := Option.map_eq_some_iff.mp h1
    obtain ⟨n, hn, hn1, hn2⟩ := hl.1.named e he
    have hh : e.names.headD [] = n := by rw [List.headD_eq_head?_getD, hn]; rfl
    simp only [hh]
    exact ⟨hn2, hn1, s.good hl.2.2 e he (e.get v) (s.valid_entries v hv e he) j h2⟩
theorem KTypes.good : {Ts : Type} → (ts : KTypes Ts) → ts.Lawful → ∀ v, ts.Valid v → ∀ j ∈ ts.enc v, j.Good
  | _, .nil, _, _, _, j, h => by simp [KTypes.enc] at h
  | _, .cons t ts, hl, v, hv, j, h => by
    simp only [KTypes.Valid] at hv
    simp only [KTypes.Lawful] at hl
    rcases List.mem_append.mp h with h | h
    · exact t.good hl.1 v.1 hv.1.1 j (Option.mem_toList.mp h)
    · exact ts.good hl.2 v.2 hv.2 j h
theorem KStruct.good : {T : Type} → (s : KStruct T) → s.Lawful → ∀ e ∈ s.entries, ∀ v, e.type.Valid v → ∀ j, e.type.enc v = some j → j.Good
  | _, .mk ms ss, h, e, he => by
    simp only [KStruct.Lawful] at h
    rcases List.mem_append.mp he with he | he
    · exact ms.good h.1 e he
    · exact ss.good h.2 e he
theorem KMembers.good : {T : Type} → (ms : KMembers T) → ms.Lawful → ∀ e ∈ ms.entries, ∀ v, e.type.Valid v → ∀ j, e.type.enc v = some j → j.Good
  | _, .nil, _, e, he => by simp [KMembers.entries] at he
  | _, .cons names t get set ms, h, e, he => by
    simp only [KMembers.Lawful] at h
    rcases List.mem_cons.mp he with rfl | he
    · exact t.good h.1
    · exact ms.good h.2 e he
theorem KSupers.good : {T : Type} → (ss : KSupers T) → ss.Lawful → ∀ e ∈ ss.entries, ∀ v, e.type.Valid v → ∀ j, e.type.enc v = some j → j.Good
  | _, .nil, _, e, he => by simp [KSupers.entries] at he
  | _, .cons name get set s ss, h, e, he => by
    simp only [KSupers.Lawful] at h
    rcases List.mem_append.mp he with he | he
    · obtain ⟨e', he', rfl⟩ := List.mem_map.mp he
      exact s.good h.1 e' he'
    · exact ss.good h.2 e he
end

/-! ### The handler in examples/01 -/

/-- What comes after the loop in examples/01. -/
def moduleFin (r : Err × (Nat × List M × Nat) × Ctx) : Option (Err × (List M × Nat) × Ctx) :=
  if r.1 ≠ .noError then some (r.1, r.2.1.2, r.2.2)
  else if r.2.2.token.valueType ≠ .arrayEnd then some (.expectedArrayEnd, r.2.1.2, r.2.2) else some (r.1, r.2.1.2, r.2.2)

/-- The body of the loop in examples/01. -/
def moduleBody (N : Nat) (h : Handler M) (s : Nat × List M × Nat) (n : Nat) (c : Ctx) : Option (Err × (Bool × Nat × List M × Nat) × Ctx) :=
  if c.token.valueType = .arrayEnd then some (.noError, (false, s.1, s.2.1, s.1), c)
  else (h.to n (s.2.1.getD s.1 h.init) c).bind fun r =>
    if r.1 ≠ .noError then some (r.1, (false, s.1, s.2.1.set s.1 r.2.1, s.2.2), { r.2.2 with error := r.1 })
    else if s.1 + 1 = N then
      (if ({ r.2.2 with error := r.1 } : Ctx).next.token.valueType ≠ .arrayEnd then
        some (.expectedArrayEnd, (false, s.1 + 1, s.2.1.set s.1 r.2.1, s.2.2), ({ r.2.2 with error := r.1 } : Ctx).next)
      else some (({ r.2.2 with error := r.1 } : Ctx).next.error, (false, s.1 + 1, s.2.1.set s.1 r.2.1, s.2.2), ({ r.2.2 with error := r.1 } : Ctx).next))
    else some (.noError, (true, s.1 + 1, s.2.1.set s.1 r.2.1, s.2.2), { r.2.2 with error := r.1 })

theorem module_body_run (N : Nat) (t : OType M) (s : Nat × List M × Nat) (n : Nat) (c : Ctx) :
    OProg.run ((fun s tok =>
        if tok.valueType = .arrayEnd then .ret .noError (false, s.1, s.2.1, s.1)
        else .call t (s.2.1.getD s.1 t.handler.init) fun e v _ => .store e
          (if e ≠ .noError then .ret e (false, s.1, s.2.1.set s.1 v, s.2.2)
          else if s.1 + 1 = N then .next fun e tok =>
            if tok.valueType ≠ .arrayEnd then .ret .expectedArrayEnd (false, s.1 + 1, s.2.1.set s.1 v, s.2.2)
            else .ret e (false, s.1 + 1, s.2.1.set s.1 v, s.2.2)
          else .ret .noError (true, s.1 + 1, s.2.1.set s.1 v, s.2.2)) : Nat × List M × Nat → Tok → OProg (Bool × Nat × List M × Nat)) s c.token.tok) n c =
      moduleBody N t.handler s n c := by
  beta_reduce
  unfold moduleBody
  show OProg.run (if c.token.valueType = .arrayEnd then _ else _) n c = _
  split
  · simp only [OProg.run]
  · simp only [OProg.run]
    congr 1
    funext r
    split
    · simp only [OProg.run]
    · split
      · simp only [OProg.run]
        show OProg.run (if ({ r.2.2 with error := r.1 } : Ctx).next.token.valueType ≠ .arrayEnd then _ else _) n _ = _
        split <;> simp only [OProg.run]
      · simp only [OProg.run]

theorem module_run (N : Nat) (t : OType M) (n : Nat) (old : List M × Nat) (c : Ctx) :
    (moduleList N t).handler.to n old c =
      if c.token.valueType ≠ .arrayStart then some (.expectedArrayStart, old, c)
      else if N = 0 then (if c.next.token.valueType ≠ .arrayEnd then some (.expectedArrayEnd, old, c.next) else some (c.next.error, old, c.next))
      else if c.next.error ≠ .noError then some (c.next.error, old, c.next)
      else (eachTo (moduleBody N t.handler) n n (0, old) c.next).bind moduleFin := by
  show (moduleListTo N t old c.token.tok).run n c = _
  unfold moduleListTo
  show OProg.run (if c.token.valueType ≠ .arrayStart then _ else _) n c = _
  split
  · simp only [OProg.run]
  · simp only [OProg.run]
    split
    · show OProg.run (if c.next.token.valueType ≠ .arrayEnd then _ else _) n c.next = _
      split <;> simp only [OProg.run]
    · split
      · simp only [OProg.run]
      · simp only [OProg.run]
        have hb := fun s n c => module_body_run N t s n c
        simp only at hb
        have hb' : (fun (s : Nat × List M × Nat) (n : Nat) (c : Ctx) => moduleBody N t.handler s n c) = moduleBody N t.handler := rfl
        simp only [hb, hb']
        congr 1
        funext r
        unfold moduleFin
        split
        · simp only [OProg.run]
        · show OProg.run (if r.2.2.token.valueType ≠ .arrayEnd then _ else _) n r.2.2 = _
          split <;> simp only [OProg.run]

/-- The loop in examples/01 does what that of `ArrayVariableContent` does. -/
theorem module_loop (N : Nat) (h : Handler M) (f size : Nat) :
    ∀ (m i : Nat) (xs : List M) (c : Ctx), xs.length = N → i < N → N ≤ m + i → c.error = .noError →
      (eachTo (moduleBody N h) f m (i, xs, size) c).bind moduleFin =
        (avcLoop h f size i (xs.drop i) c).bind fun w => avcFin (w.1, xs.take i ++ w.2.1, w.2.2) := by
  intro m
  induction m with
  | zero => intros; omega
  | succ m ih =>
    intro i xs c hl hi hm he
    have hx : xs.drop i = xs[i]'(by omega) :: xs.drop (i + 1) := List.drop_eq_getElem_cons (by omega)
    have hg : xs.getD i h.init = xs[i]'(by omega) := by simp [List.getD_eq_getElem?_getD, List.getElem?_eq_getElem (show i < xs.length by omega)]
    have hs : ∀ v, xs.set i v = xs.take i ++ v :: xs.drop (i + 1) := fun v => List.set_eq_take_append_cons_drop.trans (if_pos (by omega))
    rw [hx]
    simp only [eachTo, moduleBody, avcLoop, he, ne_eq, not_true_eq_false, if_false, hg]
    by_cases ht : c.token.valueType = .arrayEnd
    · simp [ht, moduleFin, avcFin, he, ← hx]
    · simp only [ht, if_false]
      cases hr : h.to f (xs[i]'(by omega)) c with
      | none => simp
      | some r =>
        obtain ⟨e, v, c1⟩ := r
        simp only [Option.bind_some, Option.bind_eq_bind]
        by_cases h1 : e = .noError
        · subst h1
          simp only [not_true_eq_false, if_false]
          by_cases h2 : i + 1 = N
          · simp only [h2, if_true]
            have hd : xs.drop N = [] := List.drop_eq_nil_of_le (by omega)
            rw [h2] at hs
            simp only [hd, avcLoop, Option.bind_some]
            by_cases h3 : ({ c1 with error := .noError } : Ctx).next.token.valueType = .arrayEnd
            · by_cases h4 : ({ c1 with error := .noError } : Ctx).next.error = .noError <;> simp [h3, h4, moduleFin, avcFin, hs, hd]
            · simp [h3, moduleFin, avcFin, hs, hd]
          · simp only [h2, if_false, Option.bind_some, Bool.true_eq_false, or_false, not_true_eq_false]
            have hx2 : xs.drop (i + 1) = xs[i + 1]'(by omega) :: xs.drop (i + 2) := List.drop_eq_getElem_cons (by omega)
            by_cases h4 : ({ c1 with error := .noError } : Ctx).next.error = .noError
            · simp only [h4, not_true_eq_false, if_false]
              rw [ih (i + 1) (xs.set i v) _ (by simpa using hl) (by omega) (by omega) h4, List.drop_set_of_lt (by omega)]
              have ht : (xs.set i v).take (i + 1) = xs.take i ++ [v] := by
                rw [hs, List.take_append]
                simp [show min i xs.length = i by omega, show i + 1 - i = 1 by omega]
              simp only [ht]
              cases avcLoop h f size (i + 1) (xs.drop (i + 1)) ({ c1 with error := .noError } : Ctx).next with
              | none => rfl
              | some w => simp
            · generalize xs[i + 1]'(by omega) = y at hx2
              generalize xs.drop (i + 2) = ys at hx2
              simp [h4, moduleFin, avcFin, hs, avcLoop, hx2]
        · simp [h1, moduleFin, avcFin, hs]

/-- The handler in examples/01 reads as that of `ArrayVariableContent`. -/
theorem module_avc (N : Nat) (t : OType M) {n : Nat} (hn : N ≤ n) (old : List M × Nat) (ho : old.1.length = N) (c : Ctx) :
    (moduleList N t).handler.to n old c = (avcH N t.handler).to n old c := by
  rw [module_run]
  simp only [avcH]
  by_cases h1 : c.token.valueType = .arrayStart
  · simp only [h1, ne_eq, not_true_eq_false, if_false]
    have hfin : (avcLoop t.handler n old.2 0 old.1 c.next).bind avcFin = _ := rfl
    by_cases h2 : N = 0
    · subst h2
      have hnil := List.length_eq_zero_iff.mp ho
      obtain ⟨xs, size⟩ := old
      simp only at hnil
      subst hnil
      simp only [if_true, avcLoop, Option.bind_eq_bind, Option.bind_some]
    · simp only [h2, if_false]
      by_cases h3 : c.next.error = .noError
      · simp only [h3, not_true_eq_false, if_false]
        obtain ⟨xs, size⟩ := old
        rw [module_loop N t.handler n size n 0 xs c.next ho (by omega) (by omega) h3]
        simp only [List.drop_zero, List.take_zero, List.nil_append]
        rfl
      · simp only [h3, not_false_eq_true, if_true]
        obtain ⟨xs, size⟩ := old
        cases xs with
        | nil => exact absurd ho.symm (by simpa using h2)
        | cons x xs => simp [avcLoop, h3]
  · simp [h1]

end JsonStruct
