import Verif.Lemmas.Time
import Verif.Props.Float32
import Verif.Spec.Encode
import Verif.Lemmas.Serializer
import Verif.Props.Integer
import Verif.Props.Escape

/- What the `from` functions of the handlers write. -/

namespace JsonStruct

/-! ### The serializer and the types of names -/

theorem andThen_opt {r : WRes × Ser} {f : Ser → WRes × Ser} {c : Bool} (h1 : r.2.opt.convertAscii = c)
    (h2 : ∀ s, s.opt.convertAscii = c → (f s).2.opt.convertAscii = c) : (WRes.andThen r f).2.opt.convertAscii = c := by
  unfold WRes.andThen
  split
  · exact h2 _ h1
  · exact h1

theorem andThen_congr {r : WRes × Ser} {f g : Ser → WRes × Ser} (h : f r.2 = g r.2) : WRes.andThen r f = WRes.andThen r g := by
  unfold WRes.andThen
  split <;> simp [h]

theorem writeLoop_opt (n : Nat) (s : Ser) (d : Bytes) : (Ser.writeLoop n s d).2.opt = s.opt := by
  induction n generalizing s d with
  | zero => cases d <;> rfl
  | succ n ih =>
    cases d with
    | nil => rfl
    | cons c d =>
      have hm : (if s.buf.free = 0 then s.markFull else s).opt = s.opt := by split <;> rfl
      rw [Ser.writeLoop]
      · simp only
        generalize (if s.buf.free = 0 then s.markFull else s) = s' at hm ⊢
        split
        · exact hm
        · split
          · exact hm
          · rw [ih]; exact hm
      · simp

theorem writeBytes_opt (s : Ser) (d : Bytes) : (s.writeBytes d).2.opt = s.opt := writeLoop_opt _ _ _

theorem writeLit_opt (s : Ser) (d : Bytes) : (s.writeLit d).2.opt = s.opt := by
  unfold Ser.writeLit
  split
  · exact writeBytes_opt _ _
  · split <;> rfl

theorem writeTyped_conv {s : Ser} {ty : Ty} {d : Bytes} {c : Bool} (h : s.opt.convertAscii = c) : (s.writeTyped ty d).2.opt.convertAscii = c := by
  have hs : (s.writeAsString d).2.opt.convertAscii = c := by
    unfold Ser.writeAsString
    exact andThen_opt (by rw [writeLit_opt]; exact h) fun s hs => andThen_opt (by rw [writeBytes_opt]; exact hs) fun s hs => by
      rw [writeLit_opt]; exact hs
  unfold Ser.writeTyped
  split
  · exact hs
  · split
    · exact hs
    · rw [writeBytes_opt]; exact h
  · rw [writeBytes_opt]; exact h
  · rw [writeBytes_opt]; exact h

theorem shortcut_conv {s : Ser} {e : Bool} {c : Bool} (h : s.opt.convertAscii = c) : (s.shortcut e).2.2.opt.convertAscii = c := by
  unfold Ser.shortcut
  split
  · simp only
    split
    · exact h
    · simp only; rw [writeLit_opt]; exact h
  · exact h

theorem front_conv {s : Ser} {e : Bool} {c : Bool} (h : s.opt.convertAscii = c) : (s.front e).2.opt.convertAscii = c := by
  unfold Ser.front
  refine andThen_opt ?_ fun s hs => andThen_opt ?_ fun s hs => ?_
  · split
    · rw [writeLit_opt]; exact h
    · exact h
  · split
    · exact hs
    · split
      · exact hs
      · rw [writeBytes_opt]; exact hs
  · split
    · exact hs
    · rw [writeBytes_opt]; exact hs

theorem body_conv {s : Ser} {k : Tok} {c : Bool} (h : s.opt.convertAscii = c) : (s.body k).2.opt.convertAscii = c := by
  unfold Ser.body
  refine andThen_opt ?_ fun s hs => andThen_opt (writeTyped_conv hs) fun s hs => ?_
  · split
    · exact h
    · exact andThen_opt (writeTyped_conv h) fun s hs => by rw [writeLit_opt]; exact hs
  · dsimp only
    split
    · exact hs
    · exact hs

theorem write_conv {s : Ser} {k : Tok} {c : Bool} (h : s.opt.convertAscii = c) : (s.write k).2.opt.convertAscii = c := by
  unfold Ser.write
  simp only
  split
  · exact h
  · have h' : (if (decide (k.valueType = .objectEnd ∨ k.valueType = .arrayEnd)) = true then
        { s with opt := s.opt.setDepth (s.opt.depth - 1) } else s).opt.convertAscii = c := by
      split
      · exact h
      · exact h
    generalize (if (decide (k.valueType = .objectEnd ∨ k.valueType = .arrayEnd)) = true then
        { s with opt := s.opt.setDepth (s.opt.depth - 1) } else s) = s' at h' ⊢
    split
    · exact shortcut_conv h'
    · refine andThen_opt ?_ fun s hs => body_conv hs
      split
      · exact shortcut_conv h'
      · exact front_conv (shortcut_conv h')

theorem writeAll_conv {ks : List Tok} {s : Ser} {c : Bool} (h : s.opt.convertAscii = c) : (s.writeAll ks).2.opt.convertAscii = c := by
  induction ks generalizing s with
  | nil => exact h
  | cons k ks ih => exact ih (write_conv h)

theorem body_names {s : Ser} (h : s.opt.convertAscii = true) {a b : Ty} (ha : NameTy a) (hb : NameTy b) (n v : Bytes) (ty : Ty) :
    s.body ⟨n, a, v, ty⟩ = s.body ⟨n, b, v, ty⟩ := by
  have : s.writeTyped a n = s.writeTyped b n := by
    rcases ha with rfl | rfl <;> rcases hb with rfl | rfl <;> simp [Ser.writeTyped, h]
  unfold Ser.body
  simp only [this]

theorem write_names {s : Ser} (h : s.opt.convertAscii = true) {a b : Ty} (ha : NameTy a) (hb : NameTy b) (n v : Bytes) (ty : Ty) :
    s.write ⟨n, a, v, ty⟩ = s.write ⟨n, b, v, ty⟩ := by
  unfold Ser.write
  simp only
  split
  · rfl
  · have h' : (if (decide (ty = .objectEnd ∨ ty = .arrayEnd)) = true then
        { s with opt := s.opt.setDepth (s.opt.depth - 1) } else s).opt.convertAscii = true := by
      split
      · exact h
      · exact h
    generalize (if (decide (ty = .objectEnd ∨ ty = .arrayEnd)) = true then
        { s with opt := s.opt.setDepth (s.opt.depth - 1) } else s) = s' at h' ⊢
    split
    · rfl
    · refine andThen_congr (body_names ?_ ha hb _ _ _)
      split
      · exact shortcut_conv h'
      · exact front_conv (shortcut_conv h')

/-- The first token of a value may carry its name as a string or as `Ascii`. -/
theorem writeAll_names {s : Ser} (h : s.opt.convertAscii = true) {a b : Ty} (ha : NameTy a) (hb : NameTy b) (j : JVal) (n : Bytes) :
    s.writeAll (j.toks n a) = s.writeAll (j.toks n b) := by
  match j with
  | .null | .bool true | .bool false | .num _ | .str _ => simp only [JVal.toks, Ser.writeAll, write_names h ha hb]
  | .arr vs => simp only [JVal.toks, Ser.writeAll, write_names h ha hb]
  | .obj ms => simp only [JVal.toks, Ser.writeAll, write_names h ha hb]

/-! ### Handlers -/

/-- The tokens of what is written, under a name. -/
def encToks (n : Bytes) : Option JVal → List Tok
  | none => []
  | some j => j.toks n .string

/-- Writing amounts to writing the tokens of `e` under the name handed down; the name of the token is not set to
something else if it is empty. -/
def FromSem (f : Tok → Ser → Option (Tok × Ser)) (e : Bytes → List Tok) : Prop :=
  ∀ k s, NameTy k.nameType → s.opt.convertAscii = true →
    ∃ k', f k s = some (k', (s.writeAll (e k.name)).2) ∧ NameTy k'.nameType ∧ (k.name = [] → k'.name = [])

theorem writeAll_snd_append (s : Ser) (a b : List Tok) : (s.writeAll (a ++ b)).2 = ((s.writeAll a).2.writeAll b).2 := by
  rw [writeAll_append]

theorem fromSem_put {val : Bytes} {ty : Ty} {e : Bytes → List Tok} (he : ∀ n, e n = [⟨n, .string, val, ty⟩]) :
    FromSem (fun k s => putTok { k with value := val, valueType := ty } s) e := by
  intro k s hn hc
  refine ⟨{ k with value := val, valueType := ty }, ?_, hn, id⟩
  simp only [putTok, he, Ser.writeAll]
  rw [write_names hc hn (.inl rfl)]

theorem fromSem_nothing {e : Bytes → List Tok} (he : ∀ n, e n = []) : FromSem (fun k s => some (k, s)) e := by
  intro k s hn hc
  exact ⟨k, by simp [he, Ser.writeAll], hn, id⟩

/-- Writing the elements of an array: no name is handed down. -/
def ElemSem (f : Tok → Ser → Option (Tok × Ser)) (ks : List Tok) : Prop :=
  ∀ k s, k.name = [] → NameTy k.nameType → s.opt.convertAscii = true →
    ∃ k', f k s = some (k', (s.writeAll ks).2) ∧ NameTy k'.nameType ∧ k'.name = []

theorem putArray_sem {f : Tok → Ser → Option (Tok × Ser)} {vs : List JVal} (h : ElemSem f (elemToks vs)) :
    FromSem (putArray f) fun n => encToks n (some (.arr vs)) := by
  intro k s hn hc
  obtain ⟨k1, h1, h2, h3⟩ := h { k with name := [], value := b!"[", valueType := .arrayStart }
    (s.write { k with value := b!"[", valueType := .arrayStart }).2 rfl hn (write_conv hc)
  refine ⟨{ k1 with name := [], value := b!"]", valueType := .arrayEnd }, ?_, h2, fun _ => rfl⟩
  simp only [putArray, putTok, Option.bind_eq_bind, Option.bind_some, h1]
  simp only [encToks, JVal.toks, Ser.writeAll, writeAll_snd_append]
  rw [write_names hc hn (.inl rfl), write_names (writeAll_conv (write_conv hc)) h2 (.inr rfl)]

theorem putElems_sem {h : Handler T} {enc : T → Option JVal} {vs : List T} (hs : ∀ x ∈ vs, FromSem (h.from_ x) fun n => encToks n (enc x)) :
    ElemSem (putElems h vs) (elemToks (vs.filterMap enc)) := by
  induction vs with
  | nil => intro k s hk hn hc; exact ⟨k, rfl, hn, hk⟩
  | cons x vs ih =>
    intro k s hk hn hc
    obtain ⟨k1, h1, h2, h3⟩ := hs x (by simp) k s hn hc
    obtain ⟨k2, g1, g2, g3⟩ := ih (fun y hy => hs y (by simp [hy])) k1 (s.writeAll (encToks k.name (enc x))).2 (h3 hk) h2 (writeAll_conv hc)
    refine ⟨k2, ?_, g2, g3⟩
    rw [hk] at g1
    simp only [putElems, h1, Option.bind_eq_bind, Option.bind_some, hk, g1]
    cases hx : enc x with
    | none => simp [encToks, List.filterMap_cons, hx, Ser.writeAll]
    | some j =>
      simp only [encToks, List.filterMap_cons, hx, elemToks, writeAll_snd_append]
      rw [writeAll_names hc (.inl rfl) (.inr rfl)]

/-- Writing the members of an object: each sets its own name. -/
def MembersSem (f : Tok → Ser → Option (Tok × Ser)) (ms : List (Bytes × JVal)) : Prop :=
  ∀ k s, NameTy k.nameType → s.opt.convertAscii = true →
    ∃ k', f k s = some (k', (s.writeAll (memberToks ms)).2) ∧ NameTy k'.nameType

theorem membersSem_nil : MembersSem (fun k s => some (k, s)) [] := fun k _ hn _ => ⟨k, rfl, hn⟩

theorem memberToks_append (a b : List (Bytes × JVal)) : memberToks (a ++ b) = memberToks a ++ memberToks b := by
  induction a with
  | nil => rfl
  | cons m a ih => obtain ⟨n, v⟩ := m; simp [memberToks, ih]

theorem membersSem_append {f g : Tok → Ser → Option (Tok × Ser)} {a b : List (Bytes × JVal)} (hf : MembersSem f a) (hg : MembersSem g b) :
    MembersSem (fun k s => (f k s).bind fun r => g r.1 r.2) (a ++ b) := by
  intro k s hn hc
  obtain ⟨k1, h1, h2⟩ := hf k s hn hc
  obtain ⟨k2, g1, g2⟩ := hg k1 (s.writeAll (memberToks a)).2 h2 (writeAll_conv hc)
  exact ⟨k2, by simp [h1, g1, memberToks_append, writeAll_snd_append], g2⟩

theorem membersSem_one {f : Tok → Ser → Option (Tok × Ser)} {e : Option JVal} {n : Bytes} {nt : Ty} (hnt : NameTy nt)
    (h : FromSem f fun n => encToks n e) :
    MembersSem (fun k s => f { k with name := n, nameType := nt } s) (e.map (n, ·)).toList := by
  intro k s _ hc
  obtain ⟨k1, h1, h2, _⟩ := h { k with name := n, nameType := nt } s hnt hc
  refine ⟨k1, ?_, h2⟩
  simp only [h1]
  cases e <;> simp [encToks, memberToks]

theorem putObject_sem {f : Tok → Ser → Option (Tok × Ser)} {ms : List (Bytes × JVal)} (h : MembersSem f ms) :
    FromSem (fun k s => do
      let (k, s) ← putTok { k with value := b!"{", valueType := .objectStart } s
      let (k, s) ← f k s
      putTok { k with name := [], nameType := .string, value := b!"}", valueType := .objectEnd } s)
      fun n => encToks n (some (.obj ms)) := by
  intro k s hn hc
  obtain ⟨k1, h1, h2⟩ := h { k with value := b!"{", valueType := .objectStart }
    (s.write { k with value := b!"{", valueType := .objectStart }).2 hn (write_conv hc)
  refine ⟨{ k1 with name := [], nameType := .string, value := b!"}", valueType := .objectEnd }, ?_, .inl rfl, fun _ => rfl⟩
  simp only [putTok, Option.bind_eq_bind, Option.bind_some, h1]
  simp only [encToks, JVal.toks, Ser.writeAll, writeAll_snd_append]
  rw [write_names hc hn (.inl rfl), write_names (a := .string) (writeAll_conv (write_conv hc)) (.inl rfl) (.inr rfl)]

theorem putEntries_sem {h : Handler V} {enc : V → Option JVal} {es : List (Bytes × V)}
    (hs : ∀ e ∈ es, FromSem (h.from_ e.2) fun n => encToks n (enc e.2)) :
    MembersSem (putEntries h es) (es.filterMap fun e => (enc e.2).map (e.1, ·)) := by
  induction es with
  | nil => exact membersSem_nil
  | cons e es ih =>
    have := membersSem_append (membersSem_one (n := e.1) (nt := .string) (.inl rfl) (hs e (by simp))) (ih fun x hx => hs x (by simp [hx]))
    have he : (e :: es).filterMap (fun e => (enc e.2).map (e.1, ·)) =
        ((enc e.2).map (e.1, ·)).toList ++ es.filterMap (fun e => (enc e.2).map (e.1, ·)) := by
      simp only [List.filterMap_cons]
      cases enc e.2 <;> rfl
    rw [he]
    exact this

/-! ### All types -/

theorem Meta.up_serialize (get : T → S) (set : S → T → T) :
    (∀ (ms : List (Member S)) (v : T) (k : Tok) (s : Ser), serializeMembers v (ms.map (Member.up get set)) k s = serializeMembers (get v) ms k s) := by
  intro ms
  induction ms with
  | nil => intros; rfl
  | cons m ms ih =>
    intro v k s
    simp only [List.map_cons, serializeMembers, Member.up]
    congr 1
    funext r
    exact ih _ _ _

mutual
theorem Meta.serialize_up (get : T → S) (set : S → T → T) (m : Meta S) (v : T) (k : Tok) (s : Ser) :
    (m.up get set).serialize v k s = m.serialize (get v) k s := by
  match m with
  | .mk ms ss =>
    simp only [Meta.up, Meta.serialize, Meta.up_serialize]
    congr 1
    funext r
    exact serializeSupers_up get set ss v _ _
theorem serializeSupers_up (get : T → S) (set : S → T → T) (ss : List (Bytes × Meta S)) (v : T) (k : Tok) (s : Ser) :
    serializeSupers v (supersUp get set ss) k s = serializeSupers (get v) ss k s := by
  match ss with
  | [] => rfl
  | (n, m) :: ss =>
    simp only [supersUp, serializeSupers]
    rw [Meta.serialize_up get set m v k s]
    congr 1
    funext r
    exact serializeSupers_up get set ss v _ _
end

theorem intH_sem {I : IntTy} {v : Int} (hI : I.Supported) (hv : I.InRange v) :
    FromSem ((intH I).from_ v) fun n => encToks n ((intFrom I v).map .num) := by
  obtain ⟨txt, h1, _⟩ := C16_valid_number I hI v hv
  simp only [intH, h1]
  exact fromSem_put fun n => by simp [encToks, JVal.toks]

theorem finite_not_special {T : FloatTy} {f : Nat} (h : Finite T.mant T.expw f) : (isNan T f || isInf T f) = false := by
  unfold Finite magnitude at h
  rw [Nat.add_comm, pow_add, Nat.mul_comm, Nat.mod_mul_right_div_self] at h
  unfold isNan isInf getParts
  simp [h]

theorem floatPut_sem {T : FloatTy} {v : Nat} {text : Bytes} (hf : Finite T.mant T.expw v) (h : floatFrom T v = some text) :
    FromSem (floatPut T v) fun n => encToks n (some (.num text)) := by
  unfold floatPut
  simp only [h, finite_not_special hf]
  exact fromSem_put fun n => by simp [encToks, JVal.toks]

theorem stringH_sem (m : Simd) (v : Bytes) : FromSem ((stringH m).from_ v) fun n => encToks n (some (.str (escapesOut m v))) :=
  fromSem_put fun n => by simp [encToks, JVal.toks]

theorem putNull_sem : FromSem putNull fun n => encToks n (some .null) := fromSem_put fun n => by simp [encToks, JVal.toks]

mutual
/-- Every handler writes the tokens of the JSON value of what it is given. -/
theorem CType.writes : {T : Type} → (t : CType T) → ∀ v, t.Valid v → FromSem (t.handler.from_ v) fun n => encToks n (t.enc v)
  | _, .bool, v, _ => by
    cases v <;> exact fromSem_put fun n => by simp [encToks, CType.enc, JVal.toks, boolText]
  | _, .int I, v, h => intH_sem h.1 h.2
  | _, .double, v, h => by
    simp only [CType.Valid] at h
    obtain ⟨text, h1, _⟩ := C33_double_round_trip_partial v h.1 h.2.1 h.2.2
    simp only [CType.handler, doubleH, CType.enc, if_pos h.2.1, h1, Option.map_some]
    exact floatPut_sem (T := f64) h.2.1 h1
  | _, .float, v, h => by
    simp only [CType.Valid] at h
    obtain ⟨text, h1, _⟩ := C33_float_round_trip v h.1 h.2
    simp only [CType.handler, floatH, CType.enc, if_pos h.2, h1, Option.map_some]
    exact floatPut_sem (T := f32) h.2 h1
  | _, .time C, v, _ => intH_sem u64_supported (timeFrom_inRange C v)
  | _, .string m, v, _ => stringH_sem m v
  | _, .enum names U, v, h => by
    simp only [CType.Valid] at h
    obtain ⟨_, _, h3, h4⟩ := h
    have hl : v.toNat < names.length := by omega
    simp only [CType.handler, enumH, CType.enc, h3, if_true, List.getElem?_eq_getElem hl]
    exact fromSem_put fun n => by simp [encToks, JVal.toks]
  | _, .enumValue U, v, h => intH_sem h.1 h.2
  | _, .nullable t, v, h => by
    simp only [CType.Valid] at h
    exact t.writes v h.1
  | _, .nullableChecked t, v, h => by
    simp only [CType.Valid] at h
    simp only [CType.handler, nullableCheckedH, CType.enc]
    split
    · exact putNull_sem
    · rename_i h2
      simp only [h2] at h
      exact t.writes v.1 h.1
  | _, .optional t, v, h => t.writes v h
  | _, .optionalChecked t, v, h => by
    simp only [CType.Valid] at h
    simp only [CType.handler, optionalCheckedH, CType.enc]
    split
    · rename_i h2
      simp only [h2, if_true] at h
      exact t.writes v.1 h.1
    · exact fromSem_nothing fun _ => rfl
  | _, .stdOptional t, v, h => by
    simp only [CType.Valid] at h
    simp only [CType.handler, stdOptionalH, CType.enc]
    cases v with
    | none => exact fromSem_nothing fun _ => rfl
    | some x => exact t.writes x (h x rfl).1
  | _, .sharedPtr t, v, h => by
    simp only [CType.Valid] at h
    simp only [CType.handler, ptrH, CType.enc]
    cases v with
    | none => exact putNull_sem
    | some x => exact t.writes x (h x rfl).1
  | _, .uniquePtr t, v, h => by
    simp only [CType.Valid] at h
    simp only [CType.handler, ptrH, CType.enc]
    cases v with
    | none => exact putNull_sem
    | some x => exact t.writes x (h x rfl).1
  | _, .silentString m, v, _ => by
    simp only [CType.handler, silentStringH, CType.enc]
    cases v with
    | nil => exact fromSem_nothing fun _ => rfl
    | cons c v =>
      simp only [List.length_cons, ne_eq, Nat.add_eq_zero_iff, Nat.succ_ne_self, and_false, not_false_eq_true, if_true, reduceCtorEq, if_false]
      exact stringH_sem m (c :: v)
  | _, .silentVector t, v, h => by
    simp only [CType.Valid] at h
    simp only [CType.handler, silentVecH, CType.enc]
    cases v with
    | nil => exact fromSem_nothing fun _ => rfl
    | cons x v =>
      simp only [List.length_cons, ne_eq, Nat.add_eq_zero_iff, Nat.succ_ne_self, and_false, not_false_eq_true, if_true, List.isEmpty_cons,
        Bool.false_eq_true, if_false]
      exact putArray_sem (putElems_sem fun y hy => t.writes y (h y hy).1)
  | _, .silentUniquePtr t, v, h => by
    simp only [CType.Valid] at h
    simp only [CType.handler, silentPtrH, CType.enc]
    cases v with
    | none => exact fromSem_nothing fun _ => rfl
    | some x => exact t.writes x (h x rfl).1
  | _, .vector t, v, h => by
    simp only [CType.Valid] at h
    exact putArray_sem (putElems_sem fun y hy => t.writes y (h y hy).1)
  | _, .oneOrMany t, v, h => by
    simp only [CType.Valid] at h
    simp only [CType.handler, oneOrManyH, CType.enc]
    match v with
    | [] => exact fromSem_nothing fun _ => rfl
    | [x] => exact t.writes x (h.1 x (by simp)).1
    | x :: y :: v => exact putArray_sem (putElems_sem fun y hy => t.writes y (h.1 y hy).1)
  | _, .array N t, v, h => by
    simp only [CType.Valid] at h
    exact putArray_sem (putElems_sem fun y hy => t.writes y (h.2 y hy).1)
  | _, .arrayVariable count t, v, h => by
    simp only [CType.Valid] at h
    simp only [CType.handler, avcH, CType.enc]
    have hle : v.2 ≤ v.1.length := by omega
    simp only [hle, if_true]
    exact putArray_sem (putElems_sem fun y hy => t.writes y (h.2.2.1 y hy).1)
  | _, .tuple ts, v, h => by
    simp only [CType.Valid] at h
    exact putArray_sem (ts.writes v h)
  | _, .set eq ins t, v, h => by
    simp only [CType.Valid] at h
    exact putArray_sem (putElems_sem fun y hy => t.writes y (h.2.2 y hy).1)
  | _, .map ins t, v, h => by
    simp only [CType.Valid] at h
    exact putObject_sem (putEntries_sem fun y hy => t.writes y.2 (h.2.2 y hy).2.2.2.1)
  | _, .tokens, v, h | _, .jmap, v, h => by simp only [CType.Valid] at h
  | _, .struct init st, v, h => by
    simp only [CType.Valid] at h
    exact putObject_sem (st.writes v h)
theorem CTypes.writes : {Ts : Type} → (ts : CTypes Ts) → ∀ v, ts.Valid v → ElemSem (ts.handler.from_ v) (elemToks (ts.enc v))
  | _, .nil, _, _ => fun k _ hk hn _ => ⟨k, rfl, hn, hk⟩
  | _, .cons t ts, v, h => by
    simp only [CTypes.Valid] at h
    intro k s hk hn hc
    obtain ⟨k1, h1, h2, h3⟩ := t.writes v.1 h.1.1 k s hn hc
    obtain ⟨k2, g1, g2, g3⟩ := ts.writes v.2 h.2 k1 (s.writeAll (encToks k.name (t.enc v.1))).2 (h3 hk) h2 (writeAll_conv hc)
    refine ⟨k2, ?_, g2, g3⟩
    rw [hk] at g1
    simp only [CTypes.handler, TupleH.cons, h1, Option.bind_eq_bind, Option.bind_some, hk, g1, CTypes.enc]
    cases hx : t.enc v.1 with
    | none => simp [encToks, Ser.writeAll]
    | some j =>
      simp only [encToks, Option.toList_some, List.singleton_append, elemToks, writeAll_snd_append]
      rw [writeAll_names hc (.inl rfl) (.inr rfl)]
theorem CStruct.writes : {T : Type} → (st : CStruct T) → ∀ v, st.Valid v → MembersSem (st.meta.serialize v) (st.enc v)
  | _, .mk ms ss, v, h => by
    simp only [CStruct.Valid] at h
    exact membersSem_append (ms.writes v h.1) (ss.writes v h.2)
theorem CMembers.writes : {T : Type} → (ms : CMembers T) → ∀ v, ms.Valid v → MembersSem (serializeMembers v ms.members) (ms.enc v)
  | _, .nil, _, _ => membersSem_nil
  | _, .cons names t get set ms, v, h => by
    simp only [CMembers.Valid] at h
    exact membersSem_append (membersSem_one (n := names.headD []) (nt := .ascii) (.inr rfl) (t.writes (get v) h.1)) (ms.writes v h.2)
theorem CSupers.writes : {T : Type} → (ss : CSupers T) → ∀ v, ss.Valid v → MembersSem (serializeSupers v ss.supers) (ss.enc v)
  | _, .nil, _, _ => membersSem_nil
  | _, .cons name get set st ss, v, h => by
    simp only [CSupers.Valid] at h
    have := membersSem_append (st.writes (get v) h.1) (ss.writes v h.2)
    intro k s hn hc
    obtain ⟨k', h1, h2⟩ := this k s hn hc
    refine ⟨k', ?_, h2⟩
    simp only [CSupers.supers, serializeSupers, Meta.serialize_up, CSupers.enc]
    exact h1
end

theorem putToks_writes (ks : List Tok) (k : Tok) (s : Ser) : ∃ k', putToks ks k s = some (k', (s.writeAll ks).2) := by
  induction ks generalizing k s with
  | nil => exact ⟨k, rfl⟩
  | cons t ks ih =>
    obtain ⟨k', h⟩ := ih t (s.write t).2
    exact ⟨k', by simp [putToks, putTok, Option.bind_eq_bind, h, Ser.writeAll]⟩

end JsonStruct
