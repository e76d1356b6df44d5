import Verif.Lemmas.Deliver

/- Every handler does what its decoder says. -/

set_option linter.unusedSimpArgs false
set_option linter.unusedVariables false

set_option linter.unusedSectionVars false

namespace JsonStruct

variable [EndCond]

theorem Ctx.Stream.next' {c : Ctx} {k : Tok} {ks : List Tok} (h : c.Stream (k :: ks)) (hne : ks ≠ []) :
    c.next.Stream ks ∧ c.Adds [] [] c.next := by
  cases ks with
  | nil => exact absurd rfl hne
  | cons k' ks => exact h.next

theorem first_val (l : Lbl) (v : JVal) : (Item.val l v).first.valueType ≠ .arrayEnd ∧ (Item.val l v).first.valueType ≠ .objectEnd ∧
    (Item.val l v).first.name = l.1 := by
  cases v with
  | bool b => cases b <;> simp [Item.first, Item.toks, JVal.toks]
  | _ => simp [Item.first, Item.toks, JVal.toks]

theorem first_null (i : Item) : i.first.valueType = .null ↔ ∃ l, i = .val l .null := by
  cases i with
  | val l v =>
    cases v with
    | bool b => cases b <;> simp [Item.first, Item.toks, JVal.toks]
    | _ => simp [Item.first, Item.toks, JVal.toks]
  | close => simp [Item.first, Item.toks, closeTok]

theorem first_arr (i : Item) : i.first.valueType = .arrayStart ↔ ∃ l vs, i = .val l (.arr vs) := by
  cases i with
  | val l v =>
    cases v with
    | bool b => cases b <;> simp [Item.first, Item.toks, JVal.toks]
    | _ => simp [Item.first, Item.toks, JVal.toks]
  | close => simp [Item.first, Item.toks, closeTok]

theorem first_obj (i : Item) : i.first.valueType = .objectStart ↔ ∃ l ms, i = .val l (.obj ms) := by
  cases i with
  | val l v =>
    cases v with
    | bool b => cases b <;> simp [Item.first, Item.toks, JVal.toks]
    | _ => simp [Item.first, Item.toks, JVal.toks]
  | close => simp [Item.first, Item.toks, closeTok]

theorem Ctx.Stream.item {c : Ctx} {i : Item} {rest : List Tok} (h : c.Stream (i.toks ++ rest)) :
    c.token.valueType = i.first.valueType ∧ c.token.value.bytes = i.first.value ∧ c.token.name.bytes = i.first.name ∧ c.token.tok = i.first := by
  obtain ⟨ks, hk⟩ := item_first (i := i)
  rw [hk] at h
  exact ⟨h.valueType, h.value, h.name, h.tok⟩

/-! ### Simulation -/

theorem Does.pure {P : Nat → Option (Err × T × Ctx)} {c : Ctx} {e : Err} {v : T} {post : Ctx → Prop}
    (h : ∀ n, P n = some (e, v, c)) (hp : e = .noError → post c) : Does P c ⟨e, v, [], []⟩ post :=
  ⟨0, c, fun n _ => h n, Ctx.Adds.refl c, hp⟩

theorem Does.map {P : Nat → Option (Err × A × Ctx)} {Q : Nat → Option (Err × B × Ctx)} {c : Ctx} {r : Res A} {g : A → B}
    {post : Ctx → Prop} (h : Does P c r post) (hq : ∀ n, Q n = (P n).map fun x => (x.1, g x.2.1, x.2.2)) :
    Does Q c (r.map g) post := by
  obtain ⟨N, c', h1, h2, h3⟩ := h
  exact ⟨N, c', fun n hn => by rw [hq, h1 n hn]; rfl, h2, h3⟩

/-! ### Scalars -/

theorem scalar_sem {h : Handler T} {f : T → Tok → Err × T}
    (hto : ∀ n old c, h.to n old c = some ((f old c.token.tok).1, (f old c.token.tok).2, c)) : h.Sem (scalarDec f) := by
  intro c old i rest r hs hd
  have hk := hs.item.2.2.2
  simp only [scalarDec] at hd
  split at hd
  · rename_i hc
    cases hd
    refine Does.pure (fun n => by rw [hto, hk]) ?_
    intro he
    rcases hc with hc | hc
    · obtain ⟨h1, h2⟩ := item_scalar hc
      rw [h2]; rw [h1] at hs; exact hs
    · exact absurd he hc
  · cases hd

theorem bool_sem : boolH.Sem boolDec := scalar_sem fun _ _ _ => rfl
theorem int_sem (I : IntTy) : (intH I).Sem (intDec I) := scalar_sem fun _ _ _ => rfl
theorem double_sem : doubleH.Sem doubleDec := scalar_sem fun _ old c => by
  simp only [doubleH, Token.tok, floatOut]; cases doubleTo c.token.value.bytes <;> rfl
theorem float_sem : floatH.Sem floatDec := scalar_sem fun _ old c => by
  simp only [floatH, Token.tok, floatOut]; cases floatTo c.token.value.bytes <;> rfl
theorem time_sem (C : Clock) : (timeH C).Sem (timeDec C) := scalar_sem fun _ _ _ => rfl
theorem string_sem (m : Simd) : (stringH m).Sem stringDec := scalar_sem fun _ _ _ => rfl

theorem enum_sem (names : List Bytes) (U : IntTy) : (enumH names U).Sem (enumDec names U) := by
  refine scalar_sem fun n old c => ?_
  simp only [enumH, Token.tok]
  by_cases h1 : c.token.valueType = .string
  · simp only [h1, if_true]
    let F : Option Nat → Err × Int := fun o => match o with | some i => (.noError, i) | none => (.illegalDataValue, old)
    change _ = some ((F (names.findIdx? (· = c.token.value.bytes))).1, (F (names.findIdx? (· = c.token.value.bytes))).2, c)
    cases names.findIdx? (· = c.token.value.bytes) <;> rfl
  · by_cases h2 : c.token.valueType = .number
    · simp only [h1, h2, if_true, if_false, reduceCtorEq]
      by_cases hr : (intTo U c.token.value.bytes).1 = .noError <;> simp [hr]
    · simp only [h1, h2, if_false]

theorem enumValue_sem (U : IntTy) : (enumValueH U).Sem (enumValueDec U) := by
  refine scalar_sem fun n old c => ?_
  simp only [enumValueH, Token.tok]
  by_cases hr : (intTo U c.token.value.bytes).1 = .noError <;> simp [hr]

/-! ### Wrappers -/

theorem null_stream {c : Ctx} {i : Item} {rest : List Tok} (h : c.Stream (i.toks ++ rest)) (hn : ∃ l, i = .val l .null) :
    c.Stream (i.last :: rest) := by
  obtain ⟨l, rfl⟩ := hn; exact h

theorem nullable_sem {h : Handler T} {d : Dec T} (hs : h.Sem d) : (nullableH h).Sem (nullableDec d) := by
  intro c old i rest r hst hd
  have ht := hst.item.1
  by_cases hn : i.first.valueType = .null
  · have hn' := (first_null i).mp hn
    have hd' : r = ⟨.noError, old, [], []⟩ := by
      obtain ⟨l, rfl⟩ := hn'; simp [nullableDec] at hd; exact hd.symm
    subst hd'
    exact Does.pure (fun n => by simp [nullableH, ht, hn]) fun _ => null_stream hst hn'
  · have hd' : d c.popts old i = some r := by
      unfold nullableDec at hd
      split at hd
      · exact absurd ((first_null _).mpr ⟨_, rfl⟩) hn
      · exact hd
    obtain ⟨N, c', h1, h2, h3⟩ := hs c old i rest r hst hd'
    exact ⟨N, c', fun n hn' => by simp only [nullableH, ht, hn, if_false]; exact h1 n hn', h2, h3⟩

theorem nullableChecked_sem {h : Handler T} {d : Dec T} (hs : h.Sem d) : (nullableCheckedH h).Sem (nullableCheckedDec d) := by
  intro c old i rest r hst hd
  have ht := hst.item.1
  by_cases hn : i.first.valueType = .null
  · have hn' := (first_null i).mp hn
    have hd' : r = ⟨.noError, (old.1, true), [], []⟩ := by
      obtain ⟨l, rfl⟩ := hn'; simp [nullableCheckedDec] at hd; exact hd.symm
    subst hd'
    exact Does.pure (fun n => by simp [nullableCheckedH, ht, hn]) fun _ => null_stream hst hn'
  · have hd' : (d c.popts old.1 i).map (Res.map (·, false)) = some r := by
      unfold nullableCheckedDec at hd
      split at hd
      · exact absurd ((first_null _).mpr ⟨_, rfl⟩) hn
      · exact hd
    obtain ⟨q, hq, rfl⟩ := Option.map_eq_some_iff.mp hd'
    exact (hs c old.1 i rest q hst hq).map fun n => by simp only [nullableCheckedH, ht, hn, if_false]

theorem optional_sem {h : Handler T} {d : Dec T} (hs : h.Sem d) : (optionalH h).Sem d := hs

theorem optionalChecked_sem {h : Handler T} {d : Dec T} (hs : h.Sem d) : (optionalCheckedH h).Sem (optionalCheckedDec d) := by
  intro c old i rest r hst hd
  obtain ⟨q, hq, rfl⟩ := Option.map_eq_some_iff.mp hd
  exact (hs c old.1 i rest q hst hq).map fun n => rfl

theorem stdOptional_sem {h : Handler T} {d : Dec T} (hs : h.Sem d) : (stdOptionalH h).Sem (stdOptionalDec h.init d) := by
  intro c old i rest r hst hd
  obtain ⟨q, hq, rfl⟩ := Option.map_eq_some_iff.mp hd
  exact (hs c h.init i rest q hst hq).map fun n => rfl

theorem ptr_sem {h : Handler T} {d : Dec T} (hs : h.Sem d) : (ptrH h).Sem (ptrDec h.init d) := by
  intro c old i rest r hst hd
  have ht := hst.item.1
  by_cases hn : i.first.valueType = .null
  · have hn' := (first_null i).mp hn
    have hd' : r = ⟨.noError, none, [], []⟩ := by
      obtain ⟨l, rfl⟩ := hn'; simp [ptrDec] at hd; exact hd.symm
    subst hd'
    exact Does.pure (fun n => by simp [ptrH, ht, hn]) fun _ => null_stream hst hn'
  · have hd' : (d c.popts (old.getD h.init) i).map (Res.map some) = some r := by
      unfold ptrDec at hd
      split at hd
      · exact absurd ((first_null _).mpr ⟨_, rfl⟩) hn
      · exact hd
    obtain ⟨q, hq, rfl⟩ := Option.map_eq_some_iff.mp hd'
    exact (hs c _ i rest q hst hq).map fun n => by simp only [ptrH, ht, hn, ne_eq, not_false_eq_true, if_true]

theorem silentString_sem (m : Simd) : (silentStringH m).Sem stringDec := string_sem m
theorem silentPtr_sem {h : Handler T} {d : Dec T} (hs : h.Sem d) : (silentPtrH h).Sem (ptrDec h.init d) := ptr_sem hs

/-! ### Loops -/

/-- As `Does`, with a second counter for the loop itself. -/
def Does2 (P : Nat → Nat → Option (Err × T × Ctx)) (c : Ctx) (r : Res T) (post : Ctx → Prop) : Prop :=
  ∃ N c', (∀ f n, N ≤ f → N ≤ n → P f n = some (r.err, r.val, c')) ∧ c.Adds r.missing r.unassigned c' ∧ (r.err = .noError → post c')

theorem Does2.diag {P : Nat → Nat → Option (Err × T × Ctx)} {c : Ctx} {r : Res T} {post : Ctx → Prop} (h : Does2 P c r post) :
    Does (fun n => P n n) c r post := by
  obtain ⟨N, c', h1, h2, h3⟩ := h
  exact ⟨N, c', fun n hn => h1 n n hn hn, h2, h3⟩

/-- What `andThen` says, when the first part has the outcome `r`. -/
theorem andThen_cases {r : Res A} {stop : A → B} {f : A → Option (Res B)} {q : Res B} (h : r.andThen stop f = some q) :
    (r.err ≠ .noError ∧ q = ⟨r.err, stop r.val, r.missing, r.unassigned⟩) ∨
    (r.err = .noError ∧ ∃ p, f r.val = some p ∧ q = { p with missing := r.missing ++ p.missing, unassigned := r.unassigned ++ p.unassigned }) := by
  unfold Res.andThen at h
  split at h
  · left; cases h; exact ⟨‹_›, rfl⟩
  · right
    obtain ⟨p, hp, rfl⟩ := Option.map_eq_some_iff.mp h
    exact ⟨by simp_all, p, hp, rfl⟩

/-- Rejecting what is not an array. -/
theorem arrayDec_cases {f : POpts → T → List JVal → Option (Res T)} {o : POpts} {old : T} {i : Item} {r : Res T}
    (h : arrayDec f o old i = some r) :
    (i.first.valueType ≠ .arrayStart ∧ r = ⟨.expectedArrayStart, old, [], []⟩) ∨
    ∃ l vs, i = .val l (.arr vs) ∧ f o old vs = some r := by
  unfold arrayDec at h
  split at h
  · exact Or.inr ⟨_, _, rfl, h⟩
  · left
    rename_i hne
    refine ⟨fun h => ?_, (Option.some.inj h).symm⟩
    obtain ⟨l, vs, rfl⟩ := (first_arr _).mp h
    exact hne _ _ rfl

theorem objectDec_cases {f : POpts → T → List (Bytes × JVal) → Option (Res T)} {o : POpts} {old : T} {i : Item} {r : Res T}
    (h : objectDec f o old i = some r) :
    (i.first.valueType ≠ .objectStart ∧ r = ⟨.expectedObjectStart, old, [], []⟩) ∨
    ∃ l vs, i = .val l (.obj vs) ∧ f o old vs = some r := by
  unfold objectDec at h
  split at h
  · exact Or.inr ⟨_, _, rfl, h⟩
  · left
    rename_i hne
    refine ⟨fun h => ?_, (Option.some.inj h).symm⟩
    obtain ⟨l, vs, rfl⟩ := (first_obj _).mp h
    exact hne _ _ rfl

theorem Does.after {P : Nat → Option (Err × T × Ctx)} {c c1 : Ctx} {r : Res T} {post : Ctx → Prop} (h : Does P c1 r post)
    (ha : c.Adds [] [] c1) : Does P c r post := by
  obtain ⟨N, c', h1, h2, h3⟩ := h
  exact ⟨N, c', h1, by simpa using ha.trans h2, h3⟩

theorem Does.congr {P Q : Nat → Option (Err × T × Ctx)} {c : Ctx} {r : Res T} {post : Ctx → Prop} (h : Does P c r post)
    (hq : ∀ n, Q n = P n) : Does Q c r post := by
  obtain ⟨N, c', h1, h2⟩ := h
  exact ⟨N, c', fun n hn => by rw [hq, h1 n hn], h2⟩

theorem arr_stream {c : Ctx} {l : Lbl} {vs : List JVal} {rest : List Tok} (h : c.Stream ((Item.val l (.arr vs)).toks ++ rest)) :
    c.token.valueType = .arrayStart ∧ c.next.Stream (elemToks vs ++ closeTok :: rest) ∧ c.Adds [] [] c.next ∧ c.next.error = .noError ∧
    (Item.val l (.arr vs)).last = closeTok := by
  have h0 := h.item.1
  simp only [Item.toks, JVal.toks, List.cons_append, List.append_assoc, List.singleton_append] at h
  obtain ⟨h1, h2⟩ := h.next' (by simp)
  refine ⟨?_, h1, h2, h1.err, ?_⟩
  · rw [h0]; rfl
  · simp only [Item.last, Item.toks, JVal.toks]; rw [List.getLastD_eq_getLast?, ← List.cons_append, List.getLast?_concat]; rfl

/-- An element of an array, and the token behind it. -/
theorem elem_step {h : Handler T} {d : Dec T} (hs : h.Sem d) {c : Ctx} {old : T} {i : Item} {rest : List Tok} {r : Res T}
    (hst : c.Stream (i.toks ++ rest)) (hne : rest ≠ []) (hd : d c.popts old i = some r) :
    ∃ N c', (∀ n, N ≤ n → h.to n old c = some (r.err, r.val, c')) ∧ c.Adds r.missing r.unassigned c' ∧
      (r.err = .noError → c'.error = .noError ∧ c'.next.Stream rest ∧ c.Adds r.missing r.unassigned c'.next ∧ c'.next.error = .noError) := by
  obtain ⟨N, c', h1, h2, h3⟩ := hs c old i rest r hst hd
  refine ⟨N, c', h1, h2, fun he => ?_⟩
  obtain ⟨h4, h5⟩ := (h3 he).next' hne
  exact ⟨(h3 he).err, h4, by simpa using h2.trans h5, h4.err⟩

theorem vecLoop_sim {h : Handler T} {d : Dec T} (hs : h.Sem d) (rest : List Tok) (vs : List JVal) :
    ∀ (c : Ctx) (acc : List T) (r : Res (List T)), c.Stream (elemToks vs ++ closeTok :: rest) →
      elemsDec h.init d c.popts acc vs = some r →
      Does2 (fun f n => vecLoop h f n acc c) c r (fun c' => c'.Stream (closeTok :: rest)) := by
  induction vs with
  | nil =>
    intro c acc r hst hd
    simp only [elemsDec, Option.some.injEq] at hd
    subst hd
    refine ⟨1, c, fun f n _ hn => ?_, Ctx.Adds.refl c, fun _ => hst⟩
    obtain ⟨n, rfl⟩ : ∃ m, n = m + 1 := ⟨n - 1, by omega⟩
    have : c.token.valueType = .arrayEnd := hst.valueType
    simp [vecLoop, this]
  | cons v vs ih =>
    intro c acc r hst hd
    rw [elemsDec] at hd
    obtain ⟨q, hq, hd⟩ := Option.bind_eq_some_iff.mp hd
    have hst' : c.Stream ((elem v).toks ++ (elemToks vs ++ closeTok :: rest)) := by
      simpa [elemToks, elem, Item.toks] using hst
    have hna : c.token.valueType ≠ .arrayEnd := by rw [hst'.item.1]; exact (first_val _ _).1
    obtain ⟨N, c1, h1, h2, h3⟩ := elem_step hs hst' (by simp) hq
    rcases andThen_cases hd with ⟨he, rfl⟩ | ⟨he, p, hp, rfl⟩
    · refine ⟨N + 1, c1, fun f n hf hn => ?_, h2, fun h => absurd h he⟩
      obtain ⟨n, rfl⟩ : ∃ m, n = m + 1 := ⟨n - 1, by omega⟩
      simp [vecLoop, hna, h1 f (by omega), he]
    · obtain ⟨_, h5, h6, h7⟩ := h3 he
      obtain ⟨N', c', h8, h9, h10⟩ := ih c1.next (acc ++ [q.val]) p h5 (by rw [h6.opts]; exact hp)
      refine ⟨N + N' + 1, c', fun f n hf hn => ?_, h6.trans h9, h10⟩
      obtain ⟨n, rfl⟩ : ∃ m, n = m + 1 := ⟨n - 1, by omega⟩
      simp [vecLoop, hna, h1 f (by omega), he, h7, h8 f n (by omega) (by omega)]

theorem vec_sem {h : Handler T} {d : Dec T} (hs : h.Sem d) : (vecH h).Sem (vecDec h.init d) := by
  intro c old i rest r hst hd
  have ht := hst.item.1
  rcases arrayDec_cases hd with ⟨hn, rfl⟩ | ⟨l, vs, rfl, hf⟩
  · refine Does.pure (fun n => by simp [vecH, ht, hn]) (by simp)
  · obtain ⟨h1, h2, h3, h4, h5⟩ := arr_stream hst
    rw [h5]
    refine ((vecLoop_sim hs rest vs c.next [] r h2 (by rw [h3.opts]; exact hf)).diag.after h3).congr fun n => ?_
    simp [vecH, h1, h4]

theorem silentVec_sem {h : Handler T} {d : Dec T} (hs : h.Sem d) : (silentVecH h).Sem (vecDec h.init d) := vec_sem hs

theorem oneOrMany_sem {h : Handler T} {d : Dec T} (hs : h.Sem d) : (oneOrManyH h).Sem (oneOrManyDec h.init d) := by
  intro c old i rest r hst hd
  have ht := hst.item.1
  by_cases ha : i.first.valueType = .arrayStart
  · have hd' : vecDec h.init d c.popts old i = some r := by
      obtain ⟨l, vs, rfl⟩ := (first_arr i).mp ha; exact hd
    obtain ⟨N, c', h1, h2, h3⟩ := vec_sem hs c old i rest r hst hd'
    refine ⟨N, { c' with error := r.err }, fun n hn => ?_, ⟨h2.opts, h2.missing, h2.unassigned⟩, fun he => ?_⟩
    · simp [oneOrManyH, ht, ha, h1 n hn]
    · rw [he, Ctx.set_error (h3 he).err]; exact h3 he
  · have hd' : (d c.popts h.init i).map (Res.map fun x => old ++ [x]) = some r := by
      unfold oneOrManyDec at hd
      split at hd
      · exact absurd ((first_arr _).mpr ⟨_, _, rfl⟩) ha
      · exact hd
    obtain ⟨q, hq, rfl⟩ := Option.map_eq_some_iff.mp hd'
    obtain ⟨N, c', h1, h2, h3⟩ := hs c h.init i rest q hst hq
    refine ⟨N, { c' with error := q.err }, fun n hn => ?_, ⟨h2.opts, h2.missing, h2.unassigned⟩, fun he => ?_⟩
    · simp [oneOrManyH, ht, ha, h1 n hn, Res.map]
    · have he : q.err = .noError := he
      rw [he, Ctx.set_error (h3 he).err]; exact h3 he

/-- The end of the array handlers. -/
def arrFin (x : Option Err × List T × Ctx) : Option (Err × List T × Ctx) :=
  match x.1 with
  | some e => some (e, x.2.1, x.2.2)
  | none =>
    if x.2.2.token.valueType ≠ .arrayEnd then some (.expectedArrayEnd, x.2.1, x.2.2) else some (x.2.2.error, x.2.1, x.2.2)

theorem arrFin_cons (r : Option Err) (x : T) (xs : List T) (c : Ctx) :
    arrFin (r, x :: xs, c) = (arrFin (r, xs, c)).map fun q => (q.1, x :: q.2.1, q.2.2) := by
  cases r <;> simp only [arrFin]
  · split <;> rfl
  · rfl

theorem failed_some {r q : Res T} (h : r.failed = some q) : q = r ∧ r.err ≠ .noError := by
  unfold Res.failed at h
  split at h
  · cases h; exact ⟨rfl, ‹_›⟩
  · cases h

theorem elem_first (v : JVal) (vs : List JVal) (rest : List Tok) :
    elemToks (v :: vs) ++ rest = (elem v).toks ++ (elemToks vs ++ rest) := by
  simp [elemToks, elem, Item.toks]

theorem elem_not_close {c : Ctx} {v : JVal} {rest : List Tok} (h : c.Stream ((elem v).toks ++ rest)) :
    c.token.valueType ≠ .arrayEnd := by
  rw [h.item.1]; exact (first_val _ _).1

theorem arrLoop_sim {h : Handler T} {d : Dec T} (hs : h.Sem d) (rest : List Tok) (xs : List T) :
    ∀ (c : Ctx) (vs : List JVal) (r : Res (List T)), c.Stream (elemToks vs ++ closeTok :: rest) →
      fixedDec d c.popts xs vs = some r →
      Does (fun n => (arrLoop h n xs c).bind arrFin) c r (fun c' => c'.Stream (closeTok :: rest)) := by
  induction xs with
  | nil =>
    intro c vs r hst hd
    cases vs with
    | nil =>
      simp only [fixedDec, Option.some.injEq] at hd
      subst hd
      have ht : c.token.valueType = .arrayEnd := hst.valueType
      refine Does.pure (fun n => ?_) fun _ => hst
      simp [arrLoop, arrFin, ht, hst.err]
    | cons v vs =>
      simp only [fixedDec, Option.some.injEq] at hd
      subst hd
      rw [elem_first] at hst
      refine Does.pure (fun n => ?_) (by simp)
      simp [arrLoop, arrFin, elem_not_close hst]
  | cons x xs ih =>
    intro c vs r hst hd
    cases vs with
    | nil =>
      simp only [fixedDec] at hd
      obtain ⟨q, hq, rfl⟩ := Option.map_eq_some_iff.mp hd
      obtain ⟨q', hq', hf⟩ := Option.bind_eq_some_iff.mp hq
      obtain ⟨rfl, he⟩ := failed_some hf
      obtain ⟨N, c', h1, h2, _⟩ := hs c x .close rest q hst hq'
      refine ⟨N, { c' with error := q.err }, fun n hn => ?_, ⟨h2.opts, h2.missing, h2.unassigned⟩, fun h => absurd h he⟩
      have he' : q.err ≠ .noError := he
      simp [arrLoop, hst.err, h1 n hn, he', arrFin, Res.map]
    | cons v vs =>
      rw [fixedDec] at hd
      obtain ⟨q, hq, hd⟩ := Option.bind_eq_some_iff.mp hd
      have he := hst.err
      rw [elem_first] at hst
      obtain ⟨N, c1, h1, h2, h3⟩ := elem_step hs hst (by simp) hq
      rcases andThen_cases hd with ⟨he', rfl⟩ | ⟨he', p, hp, rfl⟩
      · refine ⟨N, { c1 with error := q.err }, fun n hn => ?_, ⟨h2.opts, h2.missing, h2.unassigned⟩, fun h => absurd h he'⟩
        simp [arrLoop, he, h1 n hn, he', arrFin]
      · obtain ⟨p, hp', rfl⟩ := Option.map_eq_some_iff.mp hp
        obtain ⟨h4, h5, h6, h7⟩ := h3 he'
        obtain ⟨N', c', h8, h9, h10⟩ := ih c1.next vs p h5 (by rw [h6.opts]; exact hp')
        refine ⟨N + N', c', fun n hn => ?_, h6.trans h9, h10⟩
        have h8 := h8 n (by omega)
        dsimp only at h8
        simp only [arrLoop, he, ne_eq, not_true_eq_false, if_false, h1 n (by omega), Option.bind_eq_bind, Option.bind_some, he', Ctx.set_error h4]
        cases hl : arrLoop h n xs c1.next with
        | none => rw [hl] at h8; cases h8
        | some w =>
          obtain ⟨w1, w2, w3⟩ := w
          rw [hl] at h8
          simp only [Option.bind_some] at h8 ⊢
          rw [arrFin_cons, h8]; rfl

theorem arr_sem (N : Nat) {h : Handler T} {d : Dec T} (hs : h.Sem d) : (arrH N h).Sem (arrDec d) := by
  intro c old i rest r hst hd
  have ht := hst.item.1
  rcases arrayDec_cases hd with ⟨hn, rfl⟩ | ⟨l, vs, rfl, hf⟩
  · exact Does.pure (fun n => by simp [arrH, ht, hn]) (by simp)
  · obtain ⟨h1, h2, h3, h4, h5⟩ := arr_stream hst
    rw [h5]
    refine ((arrLoop_sim hs rest old c.next vs r h2 (by rw [h3.opts]; exact hf)).after h3).congr fun n => ?_
    simp only [arrH, h1, ne_eq, not_true_eq_false, if_false]
    rfl

/-- The end of the handler of `ArrayVariableContent`. -/
def avcFin (x : Option Err × List T × Nat × Ctx) : Option (Err × (List T × Nat) × Ctx) :=
  match x.1 with
  | some e => some (e, (x.2.1, x.2.2.1), x.2.2.2)
  | none =>
    if x.2.2.2.token.valueType ≠ .arrayEnd then some (.expectedArrayEnd, (x.2.1, x.2.2.1), x.2.2.2)
    else some (x.2.2.2.error, (x.2.1, x.2.2.1), x.2.2.2)

theorem avcFin_cons (r : Option Err) (x : T) (xs : List T) (s : Nat) (c : Ctx) :
    avcFin (r, x :: xs, s, c) = (avcFin (r, xs, s, c)).map fun q => (q.1, (x :: q.2.1.1, q.2.1.2), q.2.2) := by
  cases r <;> simp only [avcFin]
  · split <;> rfl
  · rfl

theorem avcLoop_sim {h : Handler T} {d : Dec T} (hs : h.Sem d) (rest : List Tok) (size : Nat) (xs : List T) :
    ∀ (c : Ctx) (i : Nat) (vs : List JVal) (r : Res (List T × Nat)), c.Stream (elemToks vs ++ closeTok :: rest) →
      avcFixedDec d c.popts size i xs vs = some r →
      Does (fun n => (avcLoop h n size i xs c).bind avcFin) c r (fun c' => c'.Stream (closeTok :: rest)) := by
  induction xs with
  | nil =>
    intro c i vs r hst hd
    cases vs with
    | nil =>
      simp only [avcFixedDec, Option.some.injEq] at hd
      subst hd
      have ht : c.token.valueType = .arrayEnd := hst.valueType
      refine Does.pure (fun n => ?_) fun _ => hst
      simp [avcLoop, avcFin, ht, hst.err]
    | cons v vs =>
      simp only [avcFixedDec, Option.some.injEq] at hd
      subst hd
      rw [elem_first] at hst
      refine Does.pure (fun n => ?_) (by simp)
      simp [avcLoop, avcFin, elem_not_close hst]
  | cons x xs ih =>
    intro c i vs r hst hd
    cases vs with
    | nil =>
      simp only [avcFixedDec, Option.some.injEq] at hd
      subst hd
      have ht : c.token.valueType = .arrayEnd := hst.valueType
      refine Does.pure (fun n => ?_) fun _ => hst
      simp [avcLoop, avcFin, ht, hst.err]
    | cons v vs =>
      rw [avcFixedDec] at hd
      obtain ⟨q, hq, hd⟩ := Option.bind_eq_some_iff.mp hd
      have he := hst.err
      rw [elem_first] at hst
      have hnc := elem_not_close hst
      obtain ⟨N, c1, h1, h2, h3⟩ := elem_step hs hst (by simp) hq
      rcases andThen_cases hd with ⟨he', rfl⟩ | ⟨he', p, hp, rfl⟩
      · refine ⟨N, { c1 with error := q.err }, fun n hn => ?_, ⟨h2.opts, h2.missing, h2.unassigned⟩, fun h => absurd h he'⟩
        simp [avcLoop, he, h1 n hn, he', avcFin, hnc]
      · obtain ⟨p, hp', rfl⟩ := Option.map_eq_some_iff.mp hp
        obtain ⟨h4, h5, h6, h7⟩ := h3 he'
        obtain ⟨N', c', h8, h9, h10⟩ := ih c1.next (i + 1) vs p h5 (by rw [h6.opts]; exact hp')
        refine ⟨N + N', c', fun n hn => ?_, h6.trans h9, h10⟩
        have h8 := h8 n (by omega)
        dsimp only at h8
        simp only [avcLoop, he, hnc, ne_eq, not_true_eq_false, if_false, h1 n (by omega), Option.bind_eq_bind, Option.bind_some, he', Ctx.set_error h4]
        cases hl : avcLoop h n size (i + 1) xs c1.next with
        | none => rw [hl] at h8; cases h8
        | some w =>
          obtain ⟨w1, w2, w3, w4⟩ := w
          rw [hl] at h8
          simp only [Option.bind_some] at h8 ⊢
          rw [avcFin_cons, h8]; rfl

theorem avc_sem (count : Nat) {h : Handler T} {d : Dec T} (hs : h.Sem d) : (avcH count h).Sem (avcDec d) := by
  intro c old i rest r hst hd
  have ht := hst.item.1
  rcases arrayDec_cases hd with ⟨hn, rfl⟩ | ⟨l, vs, rfl, hf⟩
  · exact Does.pure (fun n => by simp [avcH, ht, hn]) (by simp)
  · obtain ⟨h1, h2, h3, h4, h5⟩ := arr_stream hst
    rw [h5]
    refine ((avcLoop_sim hs rest old.2 old.1 c.next 0 vs r h2 (by rw [h3.opts]; exact hf)).after h3).congr fun n => ?_
    simp only [avcH, h1, ne_eq, not_true_eq_false, if_false]
    rfl

/-! ### Tuples -/

/-- The end of the tuple handlers. -/
def tupFin (x : Err × Ts × Ctx) : Option (Err × Ts × Ctx) :=
  if x.1 ≠ .noError then some x
  else if x.2.2.token.valueType ≠ .arrayEnd then some (.expectedArrayEnd, x.2.1, x.2.2)
  else some (.noError, x.2.1, x.2.2)

/-- The elements of a tuple, together with the check for the end of the array, do what the decoder says. -/
def TupleH.Sem (t : TupleH Ts) (d : TupDec Ts) : Prop :=
  ∀ (c : Ctx) (old : Ts) (vs : List JVal) (rest : List Tok) (r : Res Ts), c.Stream (elemToks vs ++ closeTok :: rest) →
    d c.popts old vs = some r →
    Does (fun n => (t.to n old c).bind tupFin) c r (fun c' => c'.Stream (closeTok :: rest))

theorem tupNil_sem : TupleH.nil.Sem tupNilDec := by
  intro c old vs rest r hst hd
  simp only [tupNilDec, Option.some.injEq] at hd
  subst hd
  cases vs with
  | nil =>
    have ht : c.token.valueType = .arrayEnd := hst.valueType
    exact Does.pure (fun n => by simp [TupleH.nil, tupFin, ht]) fun _ => hst
  | cons v vs =>
    rw [elem_first] at hst
    exact Does.pure (fun n => by simp [TupleH.nil, tupFin, elem_not_close hst]) (by simp)

theorem tupFin_pair (x : T) (q : Err × Ts × Ctx) :
    tupFin (q.1, (x, q.2.1), q.2.2) = (tupFin q).map fun r => (r.1, (x, r.2.1), r.2.2) := by
  simp only [tupFin]
  split
  · rfl
  · split <;> rfl

theorem tupCons_sem {h : Handler T} {d : Dec T} {t : TupleH Ts} {td : TupDec Ts} (hs : h.Sem d) (hts : t.Sem td) :
    (TupleH.cons h t).Sem (tupConsDec d td) := by
  intro c old vs rest r hst hd
  cases vs with
  | nil =>
    simp only [tupConsDec] at hd
    obtain ⟨q, hq, rfl⟩ := Option.map_eq_some_iff.mp hd
    obtain ⟨q', hq', hf⟩ := Option.bind_eq_some_iff.mp hq
    obtain ⟨rfl, he⟩ := failed_some hf
    obtain ⟨N, c', h1, h2, _⟩ := hs c old.1 .close rest q hst hq'
    refine ⟨N, c', fun n hn => ?_, h2, fun h => absurd h he⟩
    simp [TupleH.cons, h1 n hn, he, tupFin, Res.map]
  | cons v vs =>
    simp only [tupConsDec] at hd
    obtain ⟨q, hq, hd⟩ := Option.bind_eq_some_iff.mp hd
    rw [elem_first] at hst
    obtain ⟨N, c1, h1, h2, h3⟩ := elem_step hs hst (by simp) hq
    rcases andThen_cases hd with ⟨he', rfl⟩ | ⟨he', p, hp, rfl⟩
    · refine ⟨N, c1, fun n hn => ?_, h2, fun h => absurd h he'⟩
      simp [TupleH.cons, h1 n hn, he', tupFin]
    · obtain ⟨p, hp', rfl⟩ := Option.map_eq_some_iff.mp hp
      obtain ⟨h4, h5, h6, h7⟩ := h3 he'
      obtain ⟨N', c', h8, h9, h10⟩ := hts c1.next old.2 vs rest p h5 (by rw [h6.opts]; exact hp')
      refine ⟨N + N', c', fun n hn => ?_, h6.trans h9, h10⟩
      have h8 := h8 n (by omega)
      dsimp only at h8
      simp only [TupleH.cons, h1 n (by omega), Option.bind_eq_bind, Option.bind_some, he', ne_eq, not_true_eq_false, if_false, h7]
      cases hl : t.to n old.2 c1.next with
      | none => rw [hl] at h8; cases h8
      | some w =>
        rw [hl] at h8
        simp only [Option.bind_some, Option.map_some] at h8 ⊢
        rw [tupFin_pair, h8]; rfl

theorem tuple_sem {t : TupleH Ts} {td : TupDec Ts} (hts : t.Sem td) : (tupleH t).Sem (tupleDec td) := by
  intro c old i rest r hst hd
  have ht := hst.item.1
  rcases arrayDec_cases hd with ⟨hn, rfl⟩ | ⟨l, vs, rfl, hf⟩
  · exact Does.pure (fun n => by simp [tupleH, ht, hn]) (by simp)
  · obtain ⟨h1, h2, h3, h4, h5⟩ := arr_stream hst
    rw [h5]
    refine ((hts c.next old vs rest r h2 (by rw [h3.opts]; exact hf)).after h3).congr fun n => ?_
    simp only [tupleH, h1, h4, ne_eq, not_true_eq_false, if_false]
    rfl

/-! ### Sets and maps -/

theorem setLoop_sim [DecidableEq T] (ins : List T → T → List T) {h : Handler T} {d : Dec T} (hs : h.Sem d) (rest : List Tok) (vs : List JVal) :
    ∀ (c : Ctx) (acc : List T) (r : Res (List T)), c.Stream (elemToks vs ++ closeTok :: rest) →
      setElemsDec ins h.init d c.popts acc vs = some r →
      Does2 (fun f n => setLoop ins h f n acc c) c r (fun c' => c'.Stream (closeTok :: rest)) := by
  induction vs with
  | nil =>
    intro c acc r hst hd
    simp only [setElemsDec, Option.some.injEq] at hd
    subst hd
    refine ⟨1, c, fun f n _ hn => ?_, Ctx.Adds.refl c, fun _ => hst⟩
    obtain ⟨n, rfl⟩ : ∃ m, n = m + 1 := ⟨n - 1, by omega⟩
    have : c.token.valueType = .arrayEnd := hst.valueType
    simp [setLoop, this]
  | cons v vs ih =>
    intro c acc r hst hd
    rw [setElemsDec] at hd
    obtain ⟨q, hq, hd⟩ := Option.bind_eq_some_iff.mp hd
    rw [elem_first] at hst
    have hna := elem_not_close hst
    obtain ⟨N, c1, h1, h2, h3⟩ := elem_step hs hst (by simp) hq
    rcases andThen_cases hd with ⟨he, rfl⟩ | ⟨he, p, hp, rfl⟩
    · refine ⟨N + 1, c1, fun f n hf hn => ?_, h2, fun h => absurd h he⟩
      obtain ⟨n, rfl⟩ : ∃ m, n = m + 1 := ⟨n - 1, by omega⟩
      simp [setLoop, hna, h1 f (by omega), he]
    · split at hp
      · rename_i hin
        cases hp
        refine ⟨N + 1, c1, fun f n hf hn => ?_, by simpa using h2, fun h => by cases h⟩
        obtain ⟨n, rfl⟩ : ∃ m, n = m + 1 := ⟨n - 1, by omega⟩
        simp [setLoop, hna, h1 f (by omega), he, hin]
      · rename_i hin
        obtain ⟨_, h5, h6, h7⟩ := h3 he
        obtain ⟨N', c', h8, h9, h10⟩ := ih c1.next (ins acc q.val) p h5 (by rw [h6.opts]; exact hp)
        refine ⟨N + N' + 1, c', fun f n hf hn => ?_, h6.trans h9, h10⟩
        obtain ⟨n, rfl⟩ : ∃ m, n = m + 1 := ⟨n - 1, by omega⟩
        simp [setLoop, hna, h1 f (by omega), he, hin, h7, h8 f n (by omega) (by omega)]

theorem set_sem [DecidableEq T] (ins : List T → T → List T) {h : Handler T} {d : Dec T} (hs : h.Sem d) : (setH ins h).Sem (setDec ins h.init d) := by
  intro c old i rest r hst hd
  have ht := hst.item.1
  rcases arrayDec_cases hd with ⟨hn, rfl⟩ | ⟨l, vs, rfl, hf⟩
  · exact Does.pure (fun n => by simp [setH, ht, hn]) (by simp)
  · obtain ⟨h1, h2, h3, h4, h5⟩ := arr_stream hst
    rw [h5]
    refine ((setLoop_sim ins hs rest vs c.next [] r h2 (by rw [h3.opts]; exact hf)).diag.after h3).congr fun n => ?_
    simp [setH, h1, h4]

/-- The token of the bracket closing an object. -/
def closeObj : Tok := ⟨[], .ascii, b!"}", .objectEnd⟩

theorem obj_stream {c : Ctx} {l : Lbl} {ms : List (Bytes × JVal)} {rest : List Tok} (h : c.Stream ((Item.val l (.obj ms)).toks ++ rest)) :
    c.token.valueType = .objectStart ∧ c.next.Stream (memberToks ms ++ closeObj :: rest) ∧ c.Adds [] [] c.next ∧ c.next.error = .noError ∧
    (Item.val l (.obj ms)).last = closeObj := by
  have h0 := h.item.1
  simp only [Item.toks, JVal.toks, List.cons_append, List.append_assoc, List.singleton_append] at h
  obtain ⟨h1, h2⟩ := h.next' (by simp)
  refine ⟨?_, h1, h2, h1.err, ?_⟩
  · rw [h0]; rfl
  · simp only [Item.last, Item.toks, JVal.toks]; rw [List.getLastD_eq_getLast?, ← List.cons_append, List.getLast?_concat]; rfl

theorem member_first (n : Bytes) (v : JVal) (ms : List (Bytes × JVal)) (rest : List Tok) :
    memberToks ((n, v) :: ms) ++ rest = (Item.val (n, .string) v).toks ++ (memberToks ms ++ rest) := by
  simp [memberToks, Item.toks]

theorem member_not_close {c : Ctx} {l : Lbl} {v : JVal} {rest : List Tok} (h : c.Stream ((Item.val l v).toks ++ rest)) :
    c.token.valueType ≠ .objectEnd ∧ c.token.name.bytes = l.1 := by
  rw [h.item.1, h.item.2.2.1]; exact (first_val _ _).2

theorem mapLoop_sim (ins : List (Bytes × V) → Bytes × V → List (Bytes × V)) {h : Handler V} {d : Dec V} (hs : h.Sem d) (rest : List Tok)
    (ms : List (Bytes × JVal)) :
    ∀ (c : Ctx) (acc : List (Bytes × V)) (r : Res (List (Bytes × V))), c.Stream (memberToks ms ++ closeObj :: rest) →
      entriesDec (mapSet ins) h.init d c.popts acc ms = some r →
      Does2 (fun f n => mapLoop ins h f n .noError acc c) c r (fun c' => c'.Stream (closeObj :: rest)) := by
  induction ms with
  | nil =>
    intro c acc r hst hd
    simp only [entriesDec, Option.some.injEq] at hd
    subst hd
    refine ⟨1, c, fun f n _ hn => ?_, Ctx.Adds.refl c, fun _ => hst⟩
    obtain ⟨n, rfl⟩ : ∃ m, n = m + 1 := ⟨n - 1, by omega⟩
    have : c.token.valueType = .objectEnd := hst.valueType
    simp [mapLoop, this]
  | cons m ms ih =>
    obtain ⟨n, v⟩ := m
    intro c acc r hst hd
    rw [entriesDec] at hd
    obtain ⟨q, hq, hd⟩ := Option.bind_eq_some_iff.mp hd
    rw [member_first] at hst
    obtain ⟨hna, hnm⟩ := member_not_close hst
    obtain ⟨N, c1, h1, h2, h3⟩ := elem_step hs hst (by simp) hq
    rcases andThen_cases hd with ⟨he, rfl⟩ | ⟨he, p, hp, rfl⟩
    · refine ⟨N + 1, c1, fun f n hf hn => ?_, h2, fun h => absurd h he⟩
      obtain ⟨n, rfl⟩ : ∃ m, n = m + 1 := ⟨n - 1, by omega⟩
      simp [mapLoop, hna, h1 f (by omega), he, hnm]
    · obtain ⟨_, h5, h6, h7⟩ := h3 he
      obtain ⟨N', c', h8, h9, h10⟩ := ih c1.next _ p h5 (by rw [h6.opts]; exact hp)
      refine ⟨N + N' + 1, c', fun f n hf hn => ?_, h6.trans h9, h10⟩
      obtain ⟨n, rfl⟩ : ∃ m, n = m + 1 := ⟨n - 1, by omega⟩
      simp [mapLoop, hna, h1 f (by omega), he, h7, hnm, h8 f n (by omega) (by omega)]

theorem map_sem (ins : List (Bytes × V) → Bytes × V → List (Bytes × V)) {h : Handler V} {d : Dec V} (hs : h.Sem d) :
    (mapH ins h).Sem (mapDec (mapSet ins) h.init d) := by
  intro c old i rest r hst hd
  have ht := hst.item.1
  rcases objectDec_cases hd with ⟨hn, rfl⟩ | ⟨l, vs, rfl, hf⟩
  · exact Does.pure (fun n => by simp [mapH, ht, hn]) (by simp)
  · obtain ⟨h1, h2, h3, h4, h5⟩ := obj_stream hst
    rw [h5]
    refine ((mapLoop_sim ins hs rest vs c.next old r h2 (by rw [h3.opts]; exact hf)).diag.after h3).congr fun n => ?_
    simp [mapH, h1, h4]

end JsonStruct
