import Verif.Spec.RawWritten
import Verif.Lemmas.Writable
import Verif.Lemmas.SourceText

/-
For C92: the round trip for types with raw captures. As `Lemmas/Writes.lean` and `Lemmas/RoundTrip.lean`, for `RType`.
-/

set_option linter.unusedSectionVars false

namespace JsonStruct

variable {d : Dialect}

/-! ### Writing -/

theorem write_verbatim (s : Ser) (n : Bytes) (nt : Ty) (v : Bytes) : s.write ⟨n, nt, v, .verbatim⟩ = s.write ⟨n, nt, v, .number⟩ := rfl

theorem fromSem_verbatim {v : Bytes} : FromSem (fun k s => putTok { k with value := v, valueType := .verbatim } s) fun n => [⟨n, .string, v, .number⟩] := by
  intro k s hn hc
  obtain ⟨k', h1, _, h3⟩ := fromSem_put (val := v) (ty := .number) (e := fun n => [⟨n, .string, v, .number⟩]) (fun _ => rfl) k s hn hc
  refine ⟨{ k with value := v, valueType := .verbatim }, ?_, hn, fun h => h⟩
  have h2 : putTok { k with value := v, valueType := .number } s = some (k', _) := h1
  simp only [putTok, Option.some.injEq, Prod.mk.injEq] at h2 ⊢
  exact ⟨trivial, h2.2⟩

mutual
/-- Every handler writes the tokens of the JSON value of what it is given. -/
theorem RType.writes : {T : Type} → (t : RType T) → t.Lawful → ∀ v, t.Valid d v → FromSem (t.handler.from_ v) fun n => encToks n (t.enc v)
  | _, .lib t, _, v, h => by
    simp only [RType.Valid] at h
    exact CType.writes t v h
  | _, .raw k addr, _, v, _ => by
    simp only [RType.enc, encToks, JVal.toks]
    exact fromSem_verbatim
  | _, .rawRef k, _, v, _ => by
    simp only [RType.enc, encToks, JVal.toks]
    exact fromSem_verbatim
  | _, .nullable t, hl, v, h => by
    simp only [RType.Lawful] at hl
    simp only [RType.Valid] at h
    exact t.writes hl v h.1
  | _, .nullableChecked t, hl, v, h => by
    simp only [RType.Lawful] at hl
    simp only [RType.Valid] at h
    simp only [RType.handler, RType.build, nullableCheckedH, RType.enc]
    split
    · exact putNull_sem
    · rename_i h2
      simp only [h2] at h
      exact t.writes hl v.1 h.1
  | _, .optional t, hl, v, h => by
    simp only [RType.Lawful] at hl
    exact t.writes hl v h
  | _, .optionalChecked t, hl, v, h => by
    simp only [RType.Lawful] at hl
    simp only [RType.Valid] at h
    simp only [RType.handler, RType.build, optionalCheckedH, RType.enc]
    split
    · rename_i h2
      simp only [h2, if_true] at h
      exact t.writes hl v.1 h.1
    · exact fromSem_nothing fun _ => rfl
  | _, .stdOptional t, hl, v, h => by
    simp only [RType.Lawful] at hl
    simp only [RType.Valid] at h
    simp only [RType.handler, RType.build, stdOptionalH, RType.enc]
    cases v with
    | none => exact fromSem_nothing fun _ => rfl
    | some x => exact t.writes hl x (h x rfl).1
  | _, .sharedPtr t, hl, v, h => by
    simp only [RType.Lawful] at hl
    simp only [RType.Valid] at h
    simp only [RType.handler, RType.build, ptrH, RType.enc]
    cases v with
    | none => exact putNull_sem
    | some x => exact t.writes hl x (h x rfl).1
  | _, .uniquePtr t, hl, v, h => by
    simp only [RType.Lawful] at hl
    simp only [RType.Valid] at h
    simp only [RType.handler, RType.build, ptrH, RType.enc]
    cases v with
    | none => exact putNull_sem
    | some x => exact t.writes hl x (h x rfl).1
  | _, .silentVector t, hl, v, h => by
    simp only [RType.Lawful] at hl
    simp only [RType.Valid] at h
    simp only [RType.handler, RType.build, silentVecH, RType.enc]
    cases v with
    | nil => exact fromSem_nothing fun _ => rfl
    | cons x v =>
      simp only [List.length_cons, ne_eq, Nat.add_eq_zero_iff, Nat.succ_ne_self, and_false, not_false_eq_true, if_true, List.isEmpty_cons,
        Bool.false_eq_true, if_false]
      exact putArray_sem (putElems_sem fun y hy => t.writes hl y (h y hy).1)
  | _, .silentUniquePtr t, hl, v, h => by
    simp only [RType.Lawful] at hl
    simp only [RType.Valid] at h
    simp only [RType.handler, RType.build, silentPtrH, RType.enc]
    cases v with
    | none => exact fromSem_nothing fun _ => rfl
    | some x => exact t.writes hl x (h x rfl).1
  | _, .vector t, hl, v, h => by
    simp only [RType.Lawful] at hl
    simp only [RType.Valid] at h
    exact putArray_sem (putElems_sem fun y hy => t.writes hl y (h y hy).1)
  | _, .oneOrMany t, hl, v, h => by
    simp only [RType.Lawful] at hl
    simp only [RType.Valid] at h
    simp only [RType.handler, RType.build, oneOrManyH, RType.enc]
    match v with
    | [] => exact fromSem_nothing fun _ => rfl
    | [x] => exact t.writes hl x (h.1 x (by simp)).1
    | x :: y :: v => exact putArray_sem (putElems_sem fun y hy => t.writes hl y (h.1 y hy).1)
  | _, .array N t, hl, v, h => by
    simp only [RType.Lawful] at hl
    simp only [RType.Valid] at h
    exact putArray_sem (putElems_sem fun y hy => t.writes hl y (h.2 y hy).1)
  | _, .arrayVariable count t, hl, v, h => by
    simp only [RType.Lawful] at hl
    simp only [RType.Valid] at h
    simp only [RType.handler, RType.build, avcH, RType.enc]
    have hle : v.2 ≤ v.1.length := by omega
    simp only [hle, if_true]
    exact putArray_sem (putElems_sem fun y hy => t.writes hl y (h.2.2.1 y hy).1)
  | _, .tuple ts, hl, v, h => by
    simp only [RType.Lawful] at hl
    simp only [RType.Valid] at h
    exact putArray_sem (ts.writes hl v h)
  | _, .set eq ins t, hl, v, h => by
    simp only [RType.Lawful] at hl
    simp only [RType.Valid] at h
    exact putArray_sem (putElems_sem fun y hy => t.writes hl.2 y (h.2.2 y hy).1)
  | _, .map ins t, hl, v, h => by
    simp only [RType.Lawful] at hl
    simp only [RType.Valid] at h
    exact putObject_sem (putEntries_sem fun y hy => t.writes hl.2 y.2 (h.2.2 y hy).2.2.2.1)
  | _, .struct init st, hl, v, h => by
    simp only [RType.Lawful] at hl
    simp only [RType.Valid] at h
    exact putObject_sem (st.writes hl.2.2 v h)
theorem RTypes.writes : {Ts : Type} → (ts : RTypes Ts) → ts.Lawful → ∀ v, ts.Valid d v → ElemSem ((ts.build rawH).from_ v) (elemToks (ts.enc v))
  | _, .nil, _, _, _ => fun k _ hk hn _ => ⟨k, rfl, hn, hk⟩
  | _, .cons t ts, hl, v, h => by
    simp only [RTypes.Lawful] at hl
    simp only [RTypes.Valid] at h
    intro k s hk hn hc
    obtain ⟨k1, h1, h2, h3⟩ := t.writes hl.1 v.1 h.1.1 k s hn hc
    obtain ⟨k2, g1, g2, g3⟩ := ts.writes hl.2 v.2 h.2 k1 (s.writeAll (encToks k.name (t.enc v.1))).2 (h3 hk) h2 (writeAll_conv hc)
    refine ⟨k2, ?_, g2, g3⟩
    rw [hk] at g1
    change (t.build rawH).from_ v.1 k s = _ at h1
    simp only [RTypes.build, TupleH.cons, h1, Option.bind_eq_bind, Option.bind_some, hk, g1, RTypes.enc]
    cases hx : t.enc v.1 with
    | none => simp [encToks, Ser.writeAll]
    | some j =>
      simp only [encToks, Option.toList_some, List.singleton_append, elemToks, writeAll_snd_append]
      rw [writeAll_names hc (.inl rfl) (.inr rfl)]
theorem RStruct.writes : {T : Type} → (st : RStruct T) → st.Lawful → ∀ v, st.Valid d v → MembersSem ((st.meta rawH).serialize v) (st.enc v)
  | _, .mk ms ss, hl, v, h => by
    simp only [RStruct.Lawful] at hl
    simp only [RStruct.Valid] at h
    exact membersSem_append (ms.writes hl.1 v h.1) (ss.writes hl.2 v h.2)
theorem RMembers.writes : {T : Type} → (ms : RMembers T) → ms.Lawful → ∀ v, ms.Valid d v → MembersSem (serializeMembers v (ms.members rawH)) (ms.enc v)
  | _, .nil, _, _, _ => membersSem_nil
  | _, .cons names t get set ms, hl, v, h => by
    simp only [RMembers.Lawful] at hl
    simp only [RMembers.Valid] at h
    exact membersSem_append (membersSem_one (n := names.headD []) (nt := .ascii) (.inr rfl) (t.writes hl.1 (get v) h.1)) (ms.writes hl.2 v h.2)
theorem RSupers.writes : {T : Type} → (ss : RSupers T) → ss.Lawful → ∀ v, ss.Valid d v → MembersSem (serializeSupers v (ss.supers rawH)) (ss.enc v)
  | _, .nil, _, _, _ => membersSem_nil
  | _, .cons name get set st ss, hl, v, h => by
    simp only [RSupers.Lawful] at hl
    simp only [RSupers.Valid] at h
    have := membersSem_append (st.writes hl.1 (get v) h.1) (ss.writes hl.2 v h.2)
    intro k s hn hc
    obtain ⟨k', h1, h2⟩ := this k s hn hc
    refine ⟨k', ?_, h2⟩
    simp only [RSupers.supers, serializeSupers, Meta.serialize_up, RSupers.enc]
    exact h1
end

/-! ### Entries -/

mutual
theorem RStruct.enc_entries : {T : Type} → (s : RStruct T) → ∀ v,
    s.enc v = s.entries.filterMap fun e => (e.type.enc (e.get v)).map (e.names.headD [], ·)
  | _, .mk ms ss, v => by simp only [RStruct.enc, RStruct.entries, List.filterMap_append, ms.enc_entries, ss.enc_entries]
theorem RMembers.enc_entries : {T : Type} → (ms : RMembers T) → ∀ v,
    ms.enc v = ms.entries.filterMap fun e => (e.type.enc (e.get v)).map (e.names.headD [], ·)
  | _, .nil, v => rfl
  | _, .cons names t get set ms, v => by
    simp only [RMembers.enc, RMembers.entries, List.filterMap_cons, ms.enc_entries]
    cases t.enc (get v) <;> rfl
theorem RSupers.enc_entries : {T : Type} → (ss : RSupers T) → ∀ v,
    ss.enc v = ss.entries.filterMap fun e => (e.type.enc (e.get v)).map (e.names.headD [], ·)
  | _, .nil, v => rfl
  | _, .cons name get set s ss, v => by
    simp only [RSupers.enc, RSupers.entries, List.filterMap_append, List.filterMap_map, s.enc_entries, ss.enc_entries]
    rfl
end

mutual
theorem RStruct.valid_entries : {T : Type} → (s : RStruct T) → ∀ v, s.Valid d v → ∀ e ∈ s.entries, e.type.Valid d (e.get v)
  | _, .mk ms ss, v, h, e, he => by
    simp only [RStruct.Valid] at h
    rcases List.mem_append.mp he with he | he
    · exact ms.valid_entries v h.1 e he
    · exact ss.valid_entries v h.2 e he
theorem RMembers.valid_entries : {T : Type} → (ms : RMembers T) → ∀ v, ms.Valid d v → ∀ e ∈ ms.entries, e.type.Valid d (e.get v)
  | _, .nil, v, _, e, he => by simp [RMembers.entries] at he
  | _, .cons names t get set ms, v, h, e, he => by
    simp only [RMembers.Valid] at h
    rcases List.mem_cons.mp he with rfl | he
    · exact h.1
    · exact ms.valid_entries v h.2 e he
theorem RSupers.valid_entries : {T : Type} → (ss : RSupers T) → ∀ v, ss.Valid d v → ∀ e ∈ ss.entries, e.type.Valid d (e.get v)
  | _, .nil, v, _, e, he => by simp [RSupers.entries] at he
  | _, .cons name get set s ss, v, h, e, he => by
    simp only [RSupers.Valid] at h
    rcases List.mem_append.mp he with he | he
    · obtain ⟨e', he', rfl⟩ := List.mem_map.mp he
      exact s.valid_entries (get v) h.1 e' he'
    · exact ss.valid_entries v h.2 e he
end

mutual
theorem RStruct.fresh_entries : {T : Type} → (s : RStruct T) → ∀ v, s.Fresh v → ∀ e ∈ s.entries, e.type.Fresh (e.get v)
  | _, .mk ms ss, v, h, e, he => by
    simp only [RStruct.Fresh] at h
    rcases List.mem_append.mp he with he | he
    · exact ms.fresh_entries v h.1 e he
    · exact ss.fresh_entries v h.2 e he
theorem RMembers.fresh_entries : {T : Type} → (ms : RMembers T) → ∀ v, ms.Fresh v → ∀ e ∈ ms.entries, e.type.Fresh (e.get v)
  | _, .nil, v, _, e, he => by simp [RMembers.entries] at he
  | _, .cons names t get set ms, v, h, e, he => by
    simp only [RMembers.Fresh] at h
    rcases List.mem_cons.mp he with rfl | he
    · exact h.1
    · exact ms.fresh_entries v h.2 e he
theorem RSupers.fresh_entries : {T : Type} → (ss : RSupers T) → ∀ v, ss.Fresh v → ∀ e ∈ ss.entries, e.type.Fresh (e.get v)
  | _, .nil, v, _, e, he => by simp [RSupers.entries] at he
  | _, .cons name get set s ss, v, h, e, he => by
    simp only [RSupers.Fresh] at h
    rcases List.mem_append.mp he with he | he
    · obtain ⟨e', he', rfl⟩ := List.mem_map.mp he
      exact s.fresh_entries (get v) h.1 e' he'
    · exact ss.fresh_entries v h.2 e he
end

/-! ### Texts -/

/-- RFC 8259 with any bytes in strings; texts of arrays and objects may stand for numbers. -/
def rawTexts (d : Dialect) : Dialect := { rfcBytes with num := fun n => JsonNumber n ∨ ∃ j, Text d j n ∧ j.isContainer = true }

theorem wide_rawTexts : (rawTexts d).Wide Ws := ⟨fun _ h => h, fun _ _ h => h⟩

theorem takes_container {k : RawKind} {j : JVal} (h : k.Takes j) : j.isContainer = true := by
  cases k <;> cases j <;> simp_all [RawKind.Takes, JVal.isContainer]

theorem takes_text {k : RawKind} {v : Bytes} (h : ∃ j, Text d j v ∧ k.Takes j) : ∃ j, Text d j v ∧ j.isContainer = true := by
  obtain ⟨j, h1, h2⟩ := h
  exact ⟨j, h1, takes_container h2⟩

theorem bracket_head {j : JVal} {v : Bytes} (h : Text d j v) (hc : j.isContainer = true) :
    (v.head? = some 0x5B ∧ ∃ vs, j = .arr vs) ∨ (v.head? = some 0x7B ∧ ∃ ms, j = .obj ms) := by
  cases h with
  | null | tru | fls | num | str => cases hc
  | arrEmpty | arr => exact .inl ⟨rfl, _, rfl⟩
  | objEmpty | obj => exact .inr ⟨rfl, _, rfl⟩

theorem takes_nonempty {k : RawKind} {v : Bytes} (h : ∃ j, Text d j v ∧ k.Takes j) : v ≠ [] := by
  obtain ⟨j, h1, h2⟩ := h
  rcases bracket_head h1 (takes_container h2) with ⟨h, _⟩ | ⟨h, _⟩ <;> rintro rfl <;> cases h

theorem JVal.Good.raw {j : JVal} (h : j.Good) : j.GoodIn (rawTexts d) := by
  refine ⟨?_, h.2⟩
  have key : (∀ j : JVal, j.WF rfcBytes → j.WF (rawTexts d)) := by
    intro j
    refine JVal.rec (motive_1 := fun j => j.WF rfcBytes → j.WF (rawTexts d)) (motive_2 := fun vs => elemsWF rfcBytes vs → elemsWF (rawTexts d) vs)
      (motive_3 := fun ms => membersWF rfcBytes ms → membersWF (rawTexts d) ms)
      (motive_4 := fun m => rfcBytes.str m.1 ∧ m.2.WF rfcBytes → (rawTexts d).str m.1 ∧ m.2.WF (rawTexts d)) ?_ ?_ ?_ ?_ ?_ ?_ ?_ ?_ ?_ ?_ ?_ j
    · exact fun _ => trivial
    · exact fun _ _ => trivial
    · exact fun _ h => .inl h
    · exact fun _ h => h
    · exact fun _ ih h => by simp only [JVal.WF] at h ⊢; exact ih h
    · exact fun _ ih h => by simp only [JVal.WF] at h ⊢; exact ih h
    · exact fun _ => trivial
    · exact fun _ _ ih1 ih2 h => ⟨ih1 h.1, ih2 h.2⟩
    · exact fun _ => trivial
    · rintro ⟨n, v⟩ ms ih1 ih2 h
      simp only [membersWF] at h ⊢
      exact ⟨h.1, (ih1 ⟨h.1, h.2.1⟩).2, ih2 h.2.2⟩
    · exact fun n v ih h => ⟨h.1, ih h.2⟩
  exact key j h.1

theorem r_good_filterMap {enc : T → Option JVal} {vs : List T} (h : ∀ x ∈ vs, ∀ j, enc x = some j → j.GoodIn (rawTexts d)) :
    (JVal.arr (vs.filterMap enc)).GoodIn (rawTexts d) :=
  goodIn_arr fun v hv => by
    obtain ⟨x, hx, he⟩ := List.mem_filterMap.mp hv
    exact h x hx v he

mutual
theorem RType.good : {T : Type} → (t : RType T) → t.Lawful → ∀ v, t.Valid d v → ∀ j, t.enc v = some j → j.GoodIn (rawTexts d)
  | _, .lib t, hl, v, hv, j, h => by
    simp only [RType.Valid] at hv
    simp only [RType.Lawful] at hl
    exact (CType.good t hl v hv j h).raw
  | _, .raw k _, _, v, hv, j, h => by
    simp only [RType.Valid] at hv
    cases h
    rw [if_neg (takes_nonempty hv)]
    exact ⟨.inr (takes_text hv), trivial⟩
  | _, .rawRef k, _, v, hv, j, h => by
    simp only [RType.Valid] at hv
    cases h
    exact ⟨.inr (takes_text hv), trivial⟩
  | _, .nullable t, hl, v, hv, j, h => by
    simp only [RType.Valid] at hv
    simp only [RType.Lawful] at hl
    exact t.good hl v hv.1 j h
  | _, .nullableChecked t, hl, v, hv, j, h => by
    simp only [RType.Valid] at hv
    simp only [RType.Lawful] at hl
    simp only [RType.enc] at h
    split at h
    · cases h; exact ⟨trivial, trivial⟩
    · rename_i h2
      simp only [h2] at hv
      exact t.good hl v.1 hv.1 j h
  | _, .optional t, hl, v, hv, j, h => by
    simp only [RType.Valid] at hv
    simp only [RType.Lawful] at hl
    exact t.good hl v hv j h
  | _, .optionalChecked t, hl, v, hv, j, h => by
    simp only [RType.Valid] at hv
    simp only [RType.Lawful] at hl
    simp only [RType.enc] at h
    split at h
    · rename_i h2
      simp only [h2, if_true] at hv
      exact t.good hl v.1 hv.1 j h
    · cases h
  | _, .stdOptional t, hl, v, hv, j, h => by
    simp only [RType.Valid] at hv
    simp only [RType.Lawful] at hl
    cases v with
    | none => cases h
    | some v => exact t.good hl v (hv v rfl).1 j h
  | _, .sharedPtr t, hl, v, hv, j, h => by
    simp only [RType.Valid] at hv
    simp only [RType.Lawful] at hl
    cases v with
    | none => cases h; exact ⟨trivial, trivial⟩
    | some v => exact t.good hl v (hv v rfl).1 j h
  | _, .uniquePtr t, hl, v, hv, j, h => by
    simp only [RType.Valid] at hv
    simp only [RType.Lawful] at hl
    cases v with
    | none => cases h; exact ⟨trivial, trivial⟩
    | some v => exact t.good hl v (hv v rfl).1 j h
  | _, .silentVector t, hl, v, hv, j, h => by
    simp only [RType.Valid] at hv
    simp only [RType.Lawful] at hl
    simp only [RType.enc] at h
    split at h
    · cases h
    · cases h; exact r_good_filterMap fun x hx => t.good hl x (hv x hx).1
  | _, .silentUniquePtr t, hl, v, hv, j, h => by
    simp only [RType.Valid] at hv
    simp only [RType.Lawful] at hl
    cases v with
    | none => cases h
    | some v => exact t.good hl v (hv v rfl).1 j h
  | _, .vector t, hl, v, hv, j, h => by
    simp only [RType.Valid] at hv
    simp only [RType.Lawful] at hl
    cases h; exact r_good_filterMap fun x hx => t.good hl x (hv x hx).1
  | _, .oneOrMany t, hl, v, hv, j, h => by
    simp only [RType.Valid] at hv
    simp only [RType.Lawful] at hl
    match v with
    | [] => cases h
    | [x] => exact t.good hl x (hv.1 x (by simp)).1 j h
    | x :: y :: v => cases h; exact r_good_filterMap fun x hx => t.good hl x (hv.1 x hx).1
  | _, .array N t, hl, v, hv, j, h => by
    simp only [RType.Valid] at hv
    simp only [RType.Lawful] at hl
    cases h; exact r_good_filterMap fun x hx => t.good hl x (hv.2 x hx).1
  | _, .arrayVariable count t, hl, v, hv, j, h => by
    simp only [RType.Valid] at hv
    simp only [RType.Lawful] at hl
    cases h; exact r_good_filterMap fun x hx => t.good hl x (hv.2.2.1 x hx).1
  | _, .tuple ts, hl, v, hv, j, h => by
    simp only [RType.Valid] at hv
    simp only [RType.Lawful] at hl
    cases h; exact goodIn_arr (ts.good hl v hv)
  | _, .set eq ins t, hl, v, hv, j, h => by
    simp only [RType.Valid] at hv
    simp only [RType.Lawful] at hl
    cases h; exact r_good_filterMap fun x hx => t.good hl.2 x (hv.2.2 x hx).1
  | _, .map ins t, hl, v, hv, j, h => by
    simp only [RType.Valid] at hv
    simp only [RType.Lawful] at hl
    cases h
    refine goodIn_obj fun m hm => ?_
    obtain ⟨e, he, h1⟩ := List.mem_filterMap.mp hm
    obtain ⟨j, h2, rfl⟩ := Option.map_eq_some_iff.mp h1
    obtain ⟨a1, a2, _, a3, _⟩ := hv.2.2 e he
    exact ⟨⟨a1, a2⟩, t.good hl.2 e.2 a3 j h2⟩
  | _, .struct init s, hl, v, hv, j, h => by
    simp only [RType.Valid] at hv
    simp only [RType.Lawful] at hl
    cases h
    refine goodIn_obj fun m hm => ?_
    rw [s.enc_entries] at hm
    obtain ⟨e, he, h1⟩ := List.mem_filterMap.mp hm
    obtain ⟨j, h2, rfl⟩ := Option.map_eq_some_iff.mp h1
    obtain ⟨n, hn, hn1, hn2⟩ := hl.1.named e he
    have hh : e.names.headD [] = n := by rw [List.headD_eq_head?_getD, hn]; rfl
    simp only [hh]
    exact ⟨⟨hn1, hn2⟩, s.good hl.2.2 e he (e.get v) (s.valid_entries v hv e he) j h2⟩
theorem RTypes.good : {Ts : Type} → (ts : RTypes Ts) → ts.Lawful → ∀ v, ts.Valid d v → ∀ j ∈ ts.enc v, j.GoodIn (rawTexts d)
  | _, .nil, _, _, _, j, h => by simp [RTypes.enc] at h
  | _, .cons t ts, hl, v, hv, j, h => by
    simp only [RTypes.Valid] at hv
    simp only [RTypes.Lawful] at hl
    rcases List.mem_append.mp h with h | h
    · exact t.good hl.1 v.1 hv.1.1 j (Option.mem_toList.mp h)
    · exact ts.good hl.2 v.2 hv.2 j h
theorem RStruct.good : {T : Type} → (s : RStruct T) → s.Lawful → ∀ e ∈ s.entries, ∀ v, e.type.Valid d v → ∀ j, e.type.enc v = some j → j.GoodIn (rawTexts d)
  | _, .mk ms ss, h, e, he => by
    simp only [RStruct.Lawful] at h
    rcases List.mem_append.mp he with he | he
    · exact ms.good h.1 e he
    · exact ss.good h.2 e he
theorem RMembers.good : {T : Type} → (ms : RMembers T) → ms.Lawful → ∀ e ∈ ms.entries, ∀ v, e.type.Valid d v → ∀ j, e.type.enc v = some j → j.GoodIn (rawTexts d)
  | _, .nil, _, e, he => by simp [RMembers.entries] at he
  | _, .cons names t get set ms, h, e, he => by
    simp only [RMembers.Lawful] at h
    rcases List.mem_cons.mp he with rfl | he
    · exact t.good h.1
    · exact ms.good h.2 e he
theorem RSupers.good : {T : Type} → (ss : RSupers T) → ss.Lawful → ∀ e ∈ ss.entries, ∀ v, e.type.Valid d v → ∀ j, e.type.enc v = some j → j.GoodIn (rawTexts d)
  | _, .nil, _, e, he => by simp [RSupers.entries] at he
  | _, .cons name get set s ss, h, e, he => by
    simp only [RSupers.Lawful] at h
    rcases List.mem_append.mp he with he | he
    · obtain ⟨e', he', rfl⟩ := List.mem_map.mp he
      exact s.good h.1 e' he'
    · exact ss.good h.2 e he
end

end JsonStruct
