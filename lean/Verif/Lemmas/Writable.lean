import Verif.Spec.Writable
import Verif.Lemmas.RoundTrip

/- What the `from` functions write for values that need not be represented exactly. -/

namespace JsonStruct

/-- Every finite double is written as a number. -/
theorem double_text_good (v : Nat) (h : v < 2 ^ 64) (hf : Finite 52 11 v) : ∃ text, floatFrom f64 v = some text ∧ JsonNumber text := by
  by_cases hm : magnitude 52 11 v = 0x3730000000000000
  · have : v = 0x3730000000000000 ∨ v = 0xB730000000000000 := by unfold magnitude at hm; omega
    rcases this with rfl | rfl
    · exact ⟨b!"7.174648137343063e-43", by decide +kernel, [], b!"7", b!".174648137343063", b!"e-43", rfl, .inl rfl,
        .inr ⟨by unfold Digits; decide, by decide⟩, .inr ⟨_, rfl, by unfold Digits; decide⟩, .inr ⟨101, b!"-", b!"43", rfl, by decide, by decide, by unfold Digits; decide⟩⟩
    · exact ⟨b!"-7.174648137343063e-43", by decide +kernel, b!"-", b!"7", b!".174648137343063", b!"e-43", rfl, .inr rfl,
        .inr ⟨by unfold Digits; decide, by decide⟩, .inr ⟨_, rfl, by unfold Digits; decide⟩, .inr ⟨101, b!"-", b!"43", rfl, by decide, by decide, by unfold Digits; decide⟩⟩
  · obtain ⟨text, h1, h2, _⟩ := C33_double_round_trip_partial v h hf hm
    exact ⟨text, h1, h2⟩

/-- Well formed in a dialect and without empty names. -/
def JVal.GoodIn (d : Dialect) (v : JVal) : Prop := v.WF d ∧ v.Named

theorem goodIn_arr {d : Dialect} {vs : List JVal} (h : ∀ v ∈ vs, v.GoodIn d) : (JVal.arr vs).GoodIn d := by
  simp only [JVal.GoodIn, JVal.WF, JVal.Named]
  induction vs with
  | nil => exact ⟨trivial, trivial⟩
  | cons v vs ih =>
    have h1 := h v (by simp)
    have h2 := ih fun v hv => h v (by simp [hv])
    exact ⟨⟨h1.1, h2.1⟩, h1.2, h2.2⟩

theorem goodIn_obj {d : Dialect} {ms : List (Bytes × JVal)} (h : ∀ m ∈ ms, (m.1 ≠ [] ∧ d.str m.1) ∧ m.2.GoodIn d) : (JVal.obj ms).GoodIn d := by
  simp only [JVal.GoodIn, JVal.WF, JVal.Named]
  induction ms with
  | nil => exact ⟨trivial, trivial⟩
  | cons m ms ih =>
    obtain ⟨n, v⟩ := m
    obtain ⟨⟨h1, h0⟩, h2⟩ := h (n, v) (by simp)
    have h3 := ih fun v hv => h v (by simp [hv])
    exact ⟨⟨h0, h2.1, h3.1⟩, h1, h2.2, h3.2⟩

theorem textsOf_num {b : Bool} {s : Bytes} (h : JsonNumber s) : (textsOf b).num s := by cases b <;> exact h

theorem wide_textsOf (b : Bool) : (textsOf b).Wide Ws := by cases b; exacts [wide_rfcBytes, wide_rfc]

theorem textsOf_str {b : Bool} {m : Simd} {s : Bytes} (h : b = true → NoControls s) : (textsOf b).str (escapesOut m s) := by
  cases b with
  | false => exact (C12_no_break_out m m s []).1
  | true => exact (C51_valid_string_partial m s).mpr (h rfl)

/-- What is written for one value. -/
def WrittenAs (b : Bool) (f : Tok → Ser → Option (Tok × Ser)) (e : Option JVal) : Prop :=
  FromSem f (fun n => encToks n e) ∧ ∀ j, e = some j → j.GoodIn (textsOf b)

theorem written_scalar {b : Bool} {val : Bytes} {ty : Ty} {j : JVal} (hj : ∀ n, j.toks n .string = [⟨n, .string, val, ty⟩])
    (hg : j.GoodIn (textsOf b)) : WrittenAs b (fun k s => putTok { k with value := val, valueType := ty } s) (some j) :=
  ⟨fromSem_put fun n => hj n, fun _ h => by cases h; exact hg⟩

theorem written_null {b : Bool} : WrittenAs b putNull (some .null) := ⟨putNull_sem, fun _ h => by cases h; exact ⟨trivial, trivial⟩⟩

theorem written_nothing {b : Bool} : WrittenAs b (fun k s => some (k, s)) none := ⟨fromSem_nothing fun _ => rfl, fun _ h => by cases h⟩

theorem written_int {b : Bool} {I : IntTy} {v : Int} (hI : I.Supported) (hv : I.InRange v) :
    WrittenAs b ((intH I).from_ v) ((intFrom I v).map .num) := by
  refine ⟨intH_sem hI hv, fun j h => ?_⟩
  obtain ⟨txt, h1, h2⟩ := C16_valid_number I hI v hv
  rw [h1] at h
  cases h
  exact ⟨textsOf_num h2, trivial⟩

theorem written_string {b : Bool} {m : Simd} {v : Bytes} (h : b = true → NoControls v) :
    WrittenAs b ((stringH m).from_ v) (some (.str (escapesOut m v))) :=
  ⟨stringH_sem m v, fun _ e => by cases e; exact ⟨textsOf_str h, trivial⟩⟩

theorem written_float {b : Bool} {T : FloatTy} {v : Nat} (h : Finite T.mant T.expw v → ∃ text, floatFrom T v = some text ∧ JsonNumber text)
    (h0 : ¬ Finite T.mant T.expw v → floatFrom T v = some b!"null") (h1 : ¬ Finite T.mant T.expw v → (isNan T v || isInf T v) = true) :
    WrittenAs b (floatPut T v) (if Finite T.mant T.expw v then (floatFrom T v).map .num else some .null) := by
  by_cases hf : Finite T.mant T.expw v
  · obtain ⟨text, a1, a2⟩ := h hf
    rw [if_pos hf, a1]
    exact ⟨floatPut_sem hf a1, fun _ e => by cases e; exact ⟨textsOf_num a2, trivial⟩⟩
  · rw [if_neg hf]
    refine ⟨?_, fun _ e => by cases e; exact ⟨trivial, trivial⟩⟩
    unfold floatPut
    simp only [h0 hf, h1 hf]
    exact fromSem_put fun n => by simp [encToks, JVal.toks]

theorem not_finite_special {T : FloatTy} {f : Nat} (h : ¬ Finite T.mant T.expw f) : (isNan T f || isInf T f) = true := by
  unfold Finite magnitude at h
  rw [Decidable.not_not, Nat.add_comm, pow_add, Nat.mul_comm, Nat.mod_mul_right_div_self] at h
  unfold isNan isInf getParts
  simp only [h, beq_self_eq_true, Bool.true_and, Bool.or_eq_true, decide_eq_true_eq, beq_iff_eq]
  omega

theorem written_elems {b : Bool} {h : Handler T} {enc : T → Option JVal} {vs : List T} (hs : ∀ x ∈ vs, WrittenAs b (h.from_ x) (enc x)) :
    WrittenAs b (putArray (putElems h vs)) (some (.arr (vs.filterMap enc))) :=
  ⟨putArray_sem (putElems_sem fun x hx => (hs x hx).1), fun _ e => by
    cases e
    refine goodIn_arr fun v hv => ?_
    obtain ⟨x, hx, he⟩ := List.mem_filterMap.mp hv
    exact (hs x hx).2 v he⟩

/-- What is written for the members of an object. -/
def MembersAs (b : Bool) (f : Tok → Ser → Option (Tok × Ser)) (ms : List (Bytes × JVal)) : Prop :=
  MembersSem f ms ∧ ∀ m ∈ ms, GoodName b m.1 ∧ m.2.GoodIn (textsOf b)

theorem membersAs_append {b : Bool} {f g : Tok → Ser → Option (Tok × Ser)} {as bs : List (Bytes × JVal)} (hf : MembersAs b f as) (hg : MembersAs b g bs) :
    MembersAs b (fun k s => (f k s).bind fun r => g r.1 r.2) (as ++ bs) :=
  ⟨membersSem_append hf.1 hg.1, fun m hm => (List.mem_append.mp hm).elim (hf.2 m) (hg.2 m)⟩

theorem membersAs_one {b : Bool} {f : Tok → Ser → Option (Tok × Ser)} {e : Option JVal} {n : Bytes} {nt : Ty} (hnt : NameTy nt)
    (hn : GoodName b n) (h : WrittenAs b f e) :
    MembersAs b (fun k s => f { k with name := n, nameType := nt } s) (e.map (n, ·)).toList := by
  refine ⟨membersSem_one hnt h.1, fun m hm => ?_⟩
  obtain ⟨j, hj, rfl⟩ := Option.map_eq_some_iff.mp (Option.mem_toList.mp hm)
  exact ⟨hn, h.2 j hj⟩

mutual
theorem CType.written {b : Bool} : {T : Type} → (t : CType T) → ∀ v, t.Writable b v → WrittenAs b (t.handler.from_ v) (t.enc v)
  | _, .bool, v, _ => by
    cases v <;> exact written_scalar (fun n => by simp [JVal.toks, boolText]) ⟨trivial, trivial⟩
  | _, .int I, v, h => written_int h.1 h.2
  | _, .double, v, h => by
    simp only [CType.Writable] at h
    exact written_float (T := f64) (double_text_good v h) (C33_nonfinite_null v).1 not_finite_special
  | _, .float, v, h => by
    simp only [CType.Writable] at h
    refine written_float (T := f32) (fun hf => ?_) (C33_nonfinite_null v).2 not_finite_special
    obtain ⟨text, h1, h2, _⟩ := C33_float_round_trip v h hf
    exact ⟨text, h1, h2⟩
  | _, .time C, v, _ => written_int u64_supported (timeFrom_inRange C v)
  | _, .string m, v, h => written_string h
  | _, .enum names U, v, h => by
    simp only [CType.Writable] at h
    obtain ⟨h1, n, h2, h3⟩ := h
    simp only [CType.handler, enumH, CType.enc, h1, if_true, h2]
    exact written_scalar (fun n => by simp [JVal.toks]) ⟨h3, trivial⟩
  | _, .enumValue U, v, h => written_int h.1 h.2
  | _, .nullable t, v, h => t.written v h
  | _, .nullableChecked t, v, h => by
    simp only [CType.Writable] at h
    simp only [CType.handler, nullableCheckedH, CType.enc]
    split
    · exact written_null
    · rename_i h2
      exact t.written v.1 (h (by simpa using h2))
  | _, .optional t, v, h => t.written v h
  | _, .optionalChecked t, v, h => by
    simp only [CType.Writable] at h
    simp only [CType.handler, optionalCheckedH, CType.enc]
    split
    · rename_i h2
      exact t.written v.1 (h h2)
    · exact written_nothing
  | _, .stdOptional t, v, h => by
    simp only [CType.Writable] at h
    simp only [CType.handler, stdOptionalH, CType.enc]
    cases v with
    | none => exact written_nothing
    | some x => exact t.written x (h x rfl)
  | _, .sharedPtr t, v, h => by
    simp only [CType.Writable] at h
    simp only [CType.handler, ptrH, CType.enc]
    cases v with
    | none => exact written_null
    | some x => exact t.written x (h x rfl)
  | _, .uniquePtr t, v, h => by
    simp only [CType.Writable] at h
    simp only [CType.handler, ptrH, CType.enc]
    cases v with
    | none => exact written_null
    | some x => exact t.written x (h x rfl)
  | _, .silentString m, v, h => by
    simp only [CType.Writable] at h
    simp only [CType.handler, silentStringH, CType.enc]
    cases v with
    | nil => exact written_nothing
    | cons c v =>
      simp only [List.length_cons, ne_eq, Nat.add_eq_zero_iff, Nat.succ_ne_self, and_false, not_false_eq_true, if_true, reduceCtorEq, if_false]
      exact written_string h
  | _, .silentVector t, v, h => by
    simp only [CType.Writable] at h
    simp only [CType.handler, silentVecH, CType.enc]
    cases v with
    | nil => exact written_nothing
    | cons x v =>
      simp only [List.length_cons, ne_eq, Nat.add_eq_zero_iff, Nat.succ_ne_self, and_false, not_false_eq_true, if_true, List.isEmpty_cons,
        Bool.false_eq_true, if_false]
      exact written_elems fun y hy => t.written y (h y hy)
  | _, .silentUniquePtr t, v, h => by
    simp only [CType.Writable] at h
    simp only [CType.handler, silentPtrH, CType.enc]
    cases v with
    | none => exact written_nothing
    | some x => exact t.written x (h x rfl)
  | _, .vector t, v, h => by
    simp only [CType.Writable] at h
    exact written_elems fun y hy => t.written y (h y hy)
  | _, .oneOrMany t, v, h => by
    simp only [CType.Writable] at h
    simp only [CType.handler, oneOrManyH, CType.enc]
    match v with
    | [] => exact written_nothing
    | [x] => exact t.written x (h x (by simp))
    | x :: y :: v => exact written_elems fun y hy => t.written y (h y hy)
  | _, .array N t, v, h => by
    simp only [CType.Writable] at h
    exact written_elems fun y hy => t.written y (h y hy)
  | _, .arrayVariable count t, v, h => by
    simp only [CType.Writable] at h
    simp only [CType.handler, avcH, CType.enc, h.1, if_true]
    exact written_elems fun y hy => t.written y (h.2 y hy)
  | _, .tuple ts, v, h => by
    simp only [CType.Writable] at h
    exact ⟨putArray_sem (ts.written v h).1, fun _ e => by cases e; exact goodIn_arr (ts.written v h).2⟩
  | _, .set eq ins t, v, h => by
    simp only [CType.Writable] at h
    exact written_elems fun y hy => t.written y (h y hy)
  | _, .map ins t, v, h => by
    simp only [CType.Writable] at h
    refine ⟨putObject_sem (putEntries_sem fun y hy => (t.written y.2 (h y hy).2).1), fun _ e => ?_⟩
    cases e
    refine goodIn_obj fun m hm => ?_
    obtain ⟨e, he, h1⟩ := List.mem_filterMap.mp hm
    obtain ⟨j, h2, rfl⟩ := Option.map_eq_some_iff.mp h1
    exact ⟨(h e he).1, (t.written e.2 (h e he).2).2 j h2⟩
  | _, .tokens, v, h | _, .jmap, v, h => by simp only [CType.Writable] at h
  | _, .struct init st, v, h => by
    simp only [CType.Writable] at h
    exact ⟨putObject_sem (st.written v h).1, fun _ e => by cases e; exact goodIn_obj (st.written v h).2⟩
theorem CTypes.written {b : Bool} : {Ts : Type} → (ts : CTypes Ts) → ∀ v, ts.Writable b v →
    ElemSem (ts.handler.from_ v) (elemToks (ts.enc v)) ∧ ∀ j ∈ ts.enc v, j.GoodIn (textsOf b)
  | _, .nil, _, _ => ⟨fun k _ hk hn _ => ⟨k, rfl, hn, hk⟩, fun _ h => by simp [CTypes.enc] at h⟩
  | _, .cons t ts, v, h => by
    simp only [CTypes.Writable] at h
    refine ⟨?_, fun j hj => ?_⟩
    · intro k s hk hn hc
      obtain ⟨k1, h1, h2, h3⟩ := (t.written v.1 h.1).1 k s hn hc
      obtain ⟨k2, g1, g2, g3⟩ := (ts.written v.2 h.2).1 k1 (s.writeAll (encToks k.name (t.enc v.1))).2 (h3 hk) h2 (writeAll_conv hc)
      refine ⟨k2, ?_, g2, g3⟩
      rw [hk] at g1
      simp only [CTypes.handler, TupleH.cons, h1, Option.bind_eq_bind, Option.bind_some, hk, g1, CTypes.enc]
      cases hx : t.enc v.1 with
      | none => simp [encToks, Ser.writeAll]
      | some j =>
        simp only [encToks, Option.toList_some, List.singleton_append, elemToks, writeAll_snd_append]
        rw [writeAll_names hc (.inl rfl) (.inr rfl)]
    · rcases List.mem_append.mp hj with hj | hj
      · exact (t.written v.1 h.1).2 j (Option.mem_toList.mp hj)
      · exact (ts.written v.2 h.2).2 j hj
theorem CStruct.written {b : Bool} : {T : Type} → (st : CStruct T) → ∀ v, st.Writable b v → MembersAs b (st.meta.serialize v) (st.enc v)
  | _, .mk ms ss, v, h => by
    simp only [CStruct.Writable] at h
    exact membersAs_append (ms.written v h.1) (ss.written v h.2)
theorem CMembers.written {b : Bool} : {T : Type} → (ms : CMembers T) → ∀ v, ms.Writable b v → MembersAs b (serializeMembers v ms.members) (ms.enc v)
  | _, .nil, _, _ => ⟨membersSem_nil, fun _ h => by simp [CMembers.enc] at h⟩
  | _, .cons names t get set ms, v, h => by
    simp only [CMembers.Writable] at h
    exact membersAs_append (membersAs_one (n := names.headD []) (nt := .ascii) (.inr rfl) h.1 (t.written (get v) h.2.1)) (ms.written v h.2.2)
theorem CSupers.written {b : Bool} : {T : Type} → (ss : CSupers T) → ∀ v, ss.Writable b v → MembersAs b (serializeSupers v ss.supers) (ss.enc v)
  | _, .nil, _, _ => ⟨membersSem_nil, fun _ h => by simp [CSupers.enc] at h⟩
  | _, .cons name get set st ss, v, h => by
    simp only [CSupers.Writable] at h
    have := membersAs_append (st.written (get v) h.1) (ss.written v h.2)
    refine ⟨?_, this.2⟩
    intro k s hn hc
    obtain ⟨k', h1, h2⟩ := this.1 k s hn hc
    refine ⟨k', ?_, h2⟩
    simp only [CSupers.supers, serializeSupers, Meta.serialize_up, CSupers.enc]
    exact h1
end

/-- As `written_text`, for any dialect. -/
theorem written_text_in {d : Dialect} (hd : d.Wide Ws) (v : JVal) (hg : v.GoodIn d) (pretty : Bool) (shift depth : Nat) (hdep : depth + v.depth ≤ 255) (json : Bytes) :
    Doc d v (((Ser.onString (userOpts pretty shift depth) (startString json).length).writeAll v.docToks).2.flush (startString json)) := by
  rw [C48_flush_is_exact (userOpts pretty shift depth) json v.docToks 1]
  have hdd : (userOpts pretty shift depth).depth = depth := by simp [userOpts, SerOpts.setDepth]; omega
  obtain ⟨⟨t, ht1, ht2⟩, ha, hf⟩ := written Ws d hd v { opt := userOpts pretty shift depth } [] .ascii
    (std_ws pretty shift depth (by omega)) (.inr rfl) (by simp only [hdd]; omega) hg.1 hg.2
  have hgd := fresh_good (userOpts pretty shift depth) 1 (fun _ => some 1) (fun n => ⟨1, rfl, by decide⟩)
  obtain ⟨r1, r2⟩ := writeAll_wrote (Ser.fresh (userOpts pretty shift depth) 1 (fun _ => some 1)) v.docToks hgd hf
  have hout := r2.out
  obtain ⟨w, hw, hfr⟩ := front_text { opt := userOpts pretty shift depth } (std_ws pretty shift depth (by omega)) false
  rw [hout]
  refine ⟨w, t, [], ?_, ht2, ?_, ?_⟩
  · exact hd.gap _ hw
  · exact hd.after _ _ ws_nil
  · have : (SerSt.mk (userOpts pretty shift depth) true true).texts v.docToks = _ := ht1
    rw [fresh_st, this, hfr]
    simp [nameText]; rfl

end JsonStruct
