import Verif.Spec.Stringless
import Verif.Lemmas.Members

namespace JsonStruct

/-- Defined everywhere. -/
def Dec.Total (d : Dec T) : Prop := ∀ p old i, ∃ r, d p old i = some r

/-- The bracket closing an array is rejected. -/
def Dec.NotClose (d : Dec T) : Prop := ∀ p old, ∃ r, d p old .close = some r ∧ r.err ≠ .noError

def Dec.Strict (d : Dec T) : Prop := d.Total ∧ d.NotClose

theorem andThen_total {r : Res A} {stop : A → B} {f : A → Option (Res B)} (h : ∀ a, ∃ q, f a = some q) : ∃ q, r.andThen stop f = some q := by
  by_cases he : r.err = .noError
  · obtain ⟨q, hq⟩ := h r.val
    rw [Res.andThen_ok he, hq]
    exact ⟨_, rfl⟩
  · rw [Res.andThen_err he]
    exact ⟨_, rfl⟩

/-- A scalar handler that rejects the texts of the four brackets. -/
theorem scalar_strict {f : T → Tok → Err × T} (h : ∀ old n nt c ty, (c, ty) ∈ [(b!"[", .arrayStart), (b!"]", .arrayEnd), (b!"{", .objectStart)] →
    (f old ⟨n, nt, c, ty⟩).1 ≠ .noError) : (scalarDec f).Strict := by
  constructor
  · intro p old i
    simp only [scalarDec]
    split
    · exact ⟨_, rfl⟩
    · rename_i hh
      exfalso
      apply hh
      cases i with
      | close => exact .inr (h old [] .ascii b!"]" .arrayEnd (by simp))
      | val l v =>
        cases v with
        | arr vs => exact .inr (h old l.1 l.2 b!"[" .arrayStart (by simp))
        | obj ms => exact .inr (h old l.1 l.2 b!"{" .objectStart (by simp))
        | _ => exact .inl rfl
  · intro p old
    have := h old [] .ascii b!"]" .arrayEnd (by simp)
    refine ⟨⟨(f old closeTok).1, (f old closeTok).2, [], []⟩, ?_, this⟩
    simp only [scalarDec]
    rw [if_pos (.inr this)]
    rfl

theorem intTo_bracket (I : IntTy) {c : Bytes} (h : c ∈ [b!"[", b!"]", b!"{"]) : (intTo I c).1 ≠ .noError := by
  have hm : ∀ m ∈ [2 ^ 64, 2 ^ 128], ∀ c ∈ [b!"[", b!"]", b!"{"], (parseNumber m true c).1 ≠ .ok ∨ (parseNumber m true c).2.rest ≠ [] := by
    decide +kernel
  have := hm I.modulus (by unfold IntTy.modulus; split <;> simp) c h
  simp only [intTo]
  rw [if_pos this]
  simp

theorem bool_strict : boolDec.Strict := scalar_strict fun old n nt c ty h => by
  simp only [List.mem_cons, Prod.mk.injEq, List.not_mem_nil, or_false] at h
  rcases h with ⟨rfl, rfl⟩ | ⟨rfl, rfl⟩ | ⟨rfl, rfl⟩ <;> cases old <;> simp only <;> decide

theorem int_strict (I : IntTy) : (intDec I).Strict := scalar_strict fun old n nt c ty h => by
  apply intTo_bracket
  simp only [List.mem_cons, Prod.mk.injEq, List.not_mem_nil, or_false] at h ⊢
  rcases h with ⟨rfl, rfl⟩ | ⟨rfl, rfl⟩ | ⟨rfl, rfl⟩ <;> simp

theorem double_strict : doubleDec.Strict := scalar_strict fun old n nt c ty h => by
  have g : ∀ c ∈ [b!"[", b!"]", b!"{"], (doubleTo c).map Prod.fst = some .failedToParseDouble := by decide +kernel
  have hc : c ∈ [b!"[", b!"]", b!"{"] := by
    simp only [List.mem_cons, Prod.mk.injEq, List.not_mem_nil, or_false] at h ⊢
    rcases h with ⟨rfl, rfl⟩ | ⟨rfl, rfl⟩ | ⟨rfl, rfl⟩ <;> simp
  obtain ⟨r, h1, h2⟩ := Option.map_eq_some_iff.mp (g c hc)
  simp [h1, h2]

theorem float_strict : floatDec.Strict := scalar_strict fun old n nt c ty h => by
  have g : ∀ c ∈ [b!"[", b!"]", b!"{"], (floatTo c).map Prod.fst = some .failedToParseFloat := by decide +kernel
  have hc : c ∈ [b!"[", b!"]", b!"{"] := by
    simp only [List.mem_cons, Prod.mk.injEq, List.not_mem_nil, or_false] at h ⊢
    rcases h with ⟨rfl, rfl⟩ | ⟨rfl, rfl⟩ | ⟨rfl, rfl⟩ <;> simp
  obtain ⟨r, h1, h2⟩ := Option.map_eq_some_iff.mp (g c hc)
  simp [h1, h2]

theorem time_strict (C : Clock) : (timeDec C).Strict := scalar_strict fun old n nt c ty h => by
  have : (intTo ⟨64, false⟩ c).1 ≠ .noError := by
    apply intTo_bracket
    simp only [List.mem_cons, Prod.mk.injEq, List.not_mem_nil, or_false] at h ⊢
    rcases h with ⟨rfl, rfl⟩ | ⟨rfl, rfl⟩ | ⟨rfl, rfl⟩ <;> simp
  simp [timeTo, this]

theorem enum_strict (names : List Bytes) (I : IntTy) : (enumDec names I).Strict := scalar_strict fun old n nt c ty h => by
  simp only [List.mem_cons, Prod.mk.injEq, List.not_mem_nil, or_false] at h
  rcases h with ⟨rfl, rfl⟩ | ⟨rfl, rfl⟩ | ⟨rfl, rfl⟩ <;> simp

theorem enumValue_strict (I : IntTy) : (enumValueDec I).Strict := scalar_strict fun old n nt c ty h => by
  have : (intTo I c).1 ≠ .noError := by
    apply intTo_bracket
    simp only [List.mem_cons, Prod.mk.injEq, List.not_mem_nil, or_false] at h ⊢
    rcases h with ⟨rfl, rfl⟩ | ⟨rfl, rfl⟩ | ⟨rfl, rfl⟩ <;> simp
  simp [this]

theorem nullable_strict {d : Dec T} (h : d.Strict) : (nullableDec d).Strict := by
  refine ⟨fun p old i => ?_, fun p old => h.2 p old⟩
  cases i with
  | close => exact h.1 p old _
  | val l v => cases v <;> first | exact ⟨_, rfl⟩ | exact h.1 p old _

theorem nullableChecked_strict {d : Dec T} (h : d.Strict) : (nullableCheckedDec d).Strict := by
  refine ⟨fun p old i => ?_, fun p old => ?_⟩
  · cases i with
    | close => obtain ⟨r, hr⟩ := h.1 p old.1 .close; exact ⟨_, by simp only [nullableCheckedDec, hr]; rfl⟩
    | val l v =>
      cases v <;> first
        | exact ⟨_, rfl⟩
        | (obtain ⟨r, hr⟩ := h.1 p old.1 (.val l _); exact ⟨_, by simp only [nullableCheckedDec]; rw [hr]; rfl⟩)
  · obtain ⟨r, hr, he⟩ := h.2 p old.1
    exact ⟨_, by simp only [nullableCheckedDec, hr]; rfl, he⟩

theorem optionalChecked_strict {d : Dec T} (h : d.Strict) : (optionalCheckedDec d).Strict := by
  refine ⟨fun p old i => ?_, fun p old => ?_⟩
  · obtain ⟨r, hr⟩ := h.1 p old.1 i
    exact ⟨_, by simp only [optionalCheckedDec, hr]; rfl⟩
  · obtain ⟨r, hr, he⟩ := h.2 p old.1
    exact ⟨_, by simp only [optionalCheckedDec, hr]; rfl, he⟩

theorem stdOptional_strict {d : Dec T} {init : T} (h : d.Strict) : (stdOptionalDec init d).Strict := by
  refine ⟨fun p old i => ?_, fun p old => ?_⟩
  · obtain ⟨r, hr⟩ := h.1 p init i
    exact ⟨_, by simp only [stdOptionalDec, hr]; rfl⟩
  · obtain ⟨r, hr, he⟩ := h.2 p init
    exact ⟨_, by simp only [stdOptionalDec, hr]; rfl, he⟩

theorem ptr_strict {d : Dec T} {init : T} (h : d.Strict) : (ptrDec init d).Strict := by
  refine ⟨fun p old i => ?_, fun p old => ?_⟩
  · cases i with
    | close => obtain ⟨r, hr⟩ := h.1 p (old.getD init) .close; exact ⟨_, by simp only [ptrDec, hr]; rfl⟩
    | val l v =>
      cases v <;> first
        | exact ⟨_, rfl⟩
        | (obtain ⟨r, hr⟩ := h.1 p (old.getD init) (.val l _); exact ⟨_, by simp only [ptrDec]; rw [hr]; rfl⟩)
  · obtain ⟨r, hr, he⟩ := h.2 p (old.getD init)
    exact ⟨_, by simp only [ptrDec, hr]; rfl, he⟩

theorem array_strict {f : POpts → T → List JVal → Option (Res T)} (h : ∀ p old vs, ∃ r, f p old vs = some r) : (arrayDec f).Strict := by
  refine ⟨fun p old i => ?_, fun p old => ⟨_, rfl, by simp⟩⟩
  cases i with
  | close => exact ⟨_, rfl⟩
  | val l v => cases v <;> first | exact ⟨_, rfl⟩ | exact h p old _

theorem object_strict {f : POpts → T → List (Bytes × JVal) → Option (Res T)} (h : ∀ p old vs, ∃ r, f p old vs = some r) : (objectDec f).Strict := by
  refine ⟨fun p old i => ?_, fun p old => ⟨_, rfl, by simp⟩⟩
  cases i with
  | close => exact ⟨_, rfl⟩
  | val l v => cases v <;> first | exact ⟨_, rfl⟩ | exact h p old _

theorem elems_total {d : Dec T} {init : T} (h : d.Strict) (p : POpts) (acc : List T) (vs : List JVal) : ∃ r, elemsDec init d p acc vs = some r := by
  induction vs generalizing acc with
  | nil => exact ⟨_, rfl⟩
  | cons v vs ih =>
    obtain ⟨r, hr⟩ := h.1 p init (elem v)
    simp only [elemsDec, hr, Option.bind_eq_bind, Option.bind_some]
    exact andThen_total fun a => ih _

theorem failed_total {d : Dec T} (h : d.Strict) (p : POpts) (x : T) : ∃ r, (d p x .close).bind Res.failed = some r := by
  obtain ⟨r, hr, he⟩ := h.2 p x
  exact ⟨r, by simp [hr, Res.failed, he]⟩

theorem fixed_total {d : Dec T} (h : d.Strict) (p : POpts) (old : List T) (vs : List JVal) : ∃ r, fixedDec d p old vs = some r := by
  induction old generalizing vs with
  | nil => cases vs <;> exact ⟨_, rfl⟩
  | cons x old ih =>
    cases vs with
    | nil =>
      obtain ⟨r, hr⟩ := failed_total h p x
      exact ⟨_, by simp only [fixedDec, hr]; rfl⟩
    | cons v vs =>
      obtain ⟨r, hr⟩ := h.1 p x (elem v)
      simp only [fixedDec, hr, Option.bind_eq_bind, Option.bind_some]
      exact andThen_total fun a => by obtain ⟨q, hq⟩ := ih vs; exact ⟨_, by rw [hq]; rfl⟩

theorem avcFixed_total {d : Dec T} (h : d.Strict) (p : POpts) (size i : Nat) (old : List T) (vs : List JVal) :
    ∃ r, avcFixedDec d p size i old vs = some r := by
  induction old generalizing vs i with
  | nil => cases vs <;> exact ⟨_, rfl⟩
  | cons x old ih =>
    cases vs with
    | nil => exact ⟨_, rfl⟩
    | cons v vs =>
      obtain ⟨r, hr⟩ := h.1 p x (elem v)
      simp only [avcFixedDec, hr, Option.bind_eq_bind, Option.bind_some]
      exact andThen_total fun a => by obtain ⟨q, hq⟩ := ih (i + 1) vs; exact ⟨_, by rw [hq]; rfl⟩

theorem tupCons_total {d : Dec T} {t : TupDec Ts} (h : d.Strict) (ht : ∀ p old vs, ∃ r, t p old vs = some r) (p : POpts) (old : T × Ts)
    (vs : List JVal) : ∃ r, tupConsDec d t p old vs = some r := by
  cases vs with
  | nil =>
    obtain ⟨r, hr⟩ := failed_total h p old.1
    exact ⟨_, by simp only [tupConsDec, hr]; rfl⟩
  | cons v vs =>
    obtain ⟨r, hr⟩ := h.1 p old.1 (elem v)
    simp only [tupConsDec, hr, Option.bind_eq_bind, Option.bind_some]
    exact andThen_total fun a => by obtain ⟨q, hq⟩ := ht p old.2 vs; exact ⟨_, by rw [hq]; rfl⟩

theorem setElems_total [DecidableEq T] {ins : List T → T → List T} {d : Dec T} {init : T} (h : d.Strict) (p : POpts) (acc : List T) (vs : List JVal) :
    ∃ r, setElemsDec ins init d p acc vs = some r := by
  induction vs generalizing acc with
  | nil => exact ⟨_, rfl⟩
  | cons v vs ih =>
    obtain ⟨r, hr⟩ := h.1 p init (elem v)
    simp only [setElemsDec, hr, Option.bind_eq_bind, Option.bind_some]
    refine andThen_total fun a => ?_
    split
    · exact ⟨_, rfl⟩
    · exact ih _

theorem entries_total {put : List (Bytes × V) → Bytes → V → List (Bytes × V)} {d : Dec V} {init : V} (h : d.Strict) (p : POpts)
    (acc : List (Bytes × V)) (ms : List (Bytes × JVal)) : ∃ r, entriesDec put init d p acc ms = some r := by
  induction ms generalizing acc with
  | nil => exact ⟨_, rfl⟩
  | cons m ms ih =>
    obtain ⟨n, v⟩ := m
    obtain ⟨r, hr⟩ := h.1 p init (.val (n, .string) v)
    simp only [entriesDec, hr, Option.bind_eq_bind, Option.bind_some]
    exact andThen_total fun a => ih _

theorem members_total {specs : List (MemberSpec T)} (h : ∀ m ∈ specs, m.dec.Total) (p : POpts) (old : T) (ms : List (Bytes × JVal)) :
    ∃ r, membersDec specs p old ms = some r := by
  induction ms generalizing old with
  | nil => exact ⟨_, rfl⟩
  | cons m ms ih =>
    obtain ⟨n, v⟩ := m
    rw [membersDec]
    cases hs : (resolve specs n).bind (specs[·]?) with
    | none => exact andThen_total fun a => ih _
    | some m =>
      obtain ⟨r, hr⟩ := h m (mem_of_resolve hs).1 p old (.val (n, .string) v)
      simp only [hr, Option.bind_eq_bind, Option.bind_some]
      exact andThen_total fun a => ih _

theorem struct_strict {specs : List (MemberSpec T)} (h : ∀ m ∈ specs, m.dec.Total) : (structDec specs).Strict := by
  refine object_strict fun p old ms => ?_
  obtain ⟨r, hr⟩ := members_total h p old ms
  simp only [hr, Option.bind_eq_bind, Option.bind_some]
  exact andThen_total fun a => ⟨_, rfl⟩

theorem part_total {d : Dec M} (h : d.Total) (get : T → M) (set : M → T → T) : (partDec get set d).Total := by
  intro p old i
  obtain ⟨r, hr⟩ := h p (get old) i
  exact ⟨_, by simp only [partDec, hr]; rfl⟩

mutual
/-- The decoders of types without strings are defined everywhere, and reject closing brackets. -/
theorem CType.strict : {T : Type} → (t : CType T) → t.Stringless → t.dec.Strict
  | _, .bool, _ => bool_strict
  | _, .int I, _ => int_strict I
  | _, .double, _ => double_strict
  | _, .float, _ => float_strict
  | _, .time C, _ => time_strict C
  | _, .string _, h => by simp only [CType.Stringless] at h
  | _, .enum names U, _ => enum_strict names U
  | _, .enumValue U, _ => enumValue_strict U
  | _, .nullable t, h => by
    simp only [CType.Stringless] at h
    exact nullable_strict (t.strict h)
  | _, .nullableChecked t, h => by
    simp only [CType.Stringless] at h
    exact nullableChecked_strict (t.strict h)
  | _, .optional t, h => by
    simp only [CType.Stringless] at h
    exact t.strict h
  | _, .optionalChecked t, h => by
    simp only [CType.Stringless] at h
    exact optionalChecked_strict (t.strict h)
  | _, .stdOptional t, h => by
    simp only [CType.Stringless] at h
    exact stdOptional_strict (t.strict h)
  | _, .sharedPtr t, h => by
    simp only [CType.Stringless] at h
    exact ptr_strict (t.strict h)
  | _, .uniquePtr t, h => by
    simp only [CType.Stringless] at h
    exact ptr_strict (t.strict h)
  | _, .silentString _, h => by simp only [CType.Stringless] at h
  | _, .silentVector t, h => by
    simp only [CType.Stringless] at h
    exact array_strict fun p _ vs => elems_total (t.strict h) p [] vs
  | _, .silentUniquePtr t, h => by
    simp only [CType.Stringless] at h
    exact ptr_strict (t.strict h)
  | _, .vector t, h => by
    simp only [CType.Stringless] at h
    exact array_strict fun p _ vs => elems_total (t.strict h) p [] vs
  | _, .oneOrMany t, h => by
    simp only [CType.Stringless] at h
    have hs := t.strict h
    refine ⟨fun p old i => ?_, fun p old => ?_⟩
    · cases i with
      | close => obtain ⟨r, hr⟩ := hs.1 p t.init .close; exact ⟨_, by simp only [CType.dec, oneOrManyDec, hr]; rfl⟩
      | val l v =>
        cases v with
        | arr vs => exact elems_total hs p [] vs
        | _ => obtain ⟨r, hr⟩ := hs.1 p t.init (.val l _); exact ⟨_, by simp only [CType.dec, oneOrManyDec]; rw [hr]; rfl⟩
    · obtain ⟨r, hr, he⟩ := hs.2 p t.init
      exact ⟨_, by simp only [CType.dec, oneOrManyDec, hr]; rfl, he⟩
  | _, .array N t, h => by
    simp only [CType.Stringless] at h
    exact array_strict fun p old vs => fixed_total (t.strict h) p old vs
  | _, .arrayVariable count t, h => by
    simp only [CType.Stringless] at h
    exact array_strict fun p old vs => avcFixed_total (t.strict h) p old.2 0 old.1 vs
  | _, .tuple ts, h => by
    simp only [CType.Stringless] at h
    exact array_strict (ts.total h)
  | _, .set eq ins t, h => by
    simp only [CType.Stringless] at h
    exact array_strict fun p _ vs => setElems_total (t.strict h) p [] vs
  | _, .map ins t, h => by
    simp only [CType.Stringless] at h
    exact object_strict fun p old vs => entries_total (t.strict h) p old vs
  | _, .tokens, h | _, .jmap, h => by simp only [CType.Stringless] at h
  | _, .struct init s, h => by
    simp only [CType.Stringless] at h
    exact struct_strict (s.total h [])
theorem CTypes.total : {Ts : Type} → (ts : CTypes Ts) → ts.Stringless → ∀ p old vs, ∃ r, ts.dec p old vs = some r
  | _, .nil, _, _, _, _ => ⟨_, rfl⟩
  | _, .cons t ts, h, p, old, vs => by
    simp only [CTypes.Stringless] at h
    exact tupCons_total (t.strict h.1) (ts.total h.2) p old vs
theorem CStruct.total : {T : Type} → (s : CStruct T) → s.Stringless → ∀ n, ∀ m ∈ s.specs n, m.dec.Total
  | _, .mk ms ss, h, n, m, hm => by
    simp only [CStruct.Stringless] at h
    rcases List.mem_append.mp hm with hm | hm
    · exact ms.total h.1 n m (List.mem_reverse.mp hm)
    · exact ss.total h.2 m hm
theorem CMembers.total : {T : Type} → (ms : CMembers T) → ms.Stringless → ∀ n, ∀ m ∈ ms.specs n, m.dec.Total
  | _, .nil, _, n, m, hm => by simp [CMembers.specs] at hm
  | _, .cons names t get set ms, h, n, m, hm => by
    simp only [CMembers.Stringless] at h
    rcases List.mem_cons.mp hm with rfl | hm
    · exact part_total (t.strict h.1).1 get set
    · exact ms.total h.2 n m hm
theorem CSupers.total : {T : Type} → (ss : CSupers T) → ss.Stringless → ∀ m ∈ ss.specs, m.dec.Total
  | _, .nil, _, m, hm => by simp [CSupers.specs] at hm
  | _, .cons name get set s ss, h, m, hm => by
    simp only [CSupers.Stringless] at h
    rcases List.mem_append.mp hm with hm | hm
    · obtain ⟨m', hm', rfl⟩ := List.mem_map.mp hm
      exact part_total (s.total h.1 name m' hm') get set
    · exact ss.total h.2 m hm
end

end JsonStruct
