import Verif.Spec.Shape
import Verif.Lemmas.Container

namespace JsonStruct

theorem map_res_inv {r : Option (Res A)} {g : A → B} {q : Res B} (h : r.map (Res.map g) = some q) (he : q.err = .noError) :
    ∃ q', r = some q' ∧ q'.err = .noError := by
  obtain ⟨q', h1, rfl⟩ := Option.map_eq_some_iff.mp h
  exact ⟨q', h1, he⟩

/-- If the whole is without error, so is the first part. -/
theorem andThen_inv {r : Res A} {stop : A → B} {f : A → Option (Res B)} {q : Res B} (h : r.andThen stop f = some q) (he : q.err = .noError) :
    r.err = .noError ∧ ∃ q', f r.val = some q' ∧ q'.err = .noError := by
  by_cases hr : r.err = .noError
  · rw [Res.andThen_ok hr] at h
    obtain ⟨q', h1, rfl⟩ := Option.map_eq_some_iff.mp h
    exact ⟨hr, q', h1, he⟩
  · rw [Res.andThen_err hr, Option.some.injEq] at h
    subst h
    exact absurd he hr

theorem scalar_fits {f : T → Tok → Err × T} {p : POpts} {old : T} {l : Lbl} {v : JVal} {r : Res T}
    (h : scalarDec f p old (.val l v) = some r) (he : r.err = .noError) : v.isContainer = false := by
  simp only [scalarDec] at h
  split at h
  · rename_i hh
    rw [Option.some.injEq] at h
    subst h
    rcases hh with hh | hh
    · simpa [Item.isScalar] using hh
    · exact absurd he hh
  · cases h

theorem arrayDec_inv {f : POpts → T → List JVal → Option (Res T)} {p : POpts} {old : T} {l : Lbl} {v : JVal} {r : Res T}
    (h : arrayDec f p old (.val l v) = some r) (he : r.err = .noError) : ∃ vs, v = .arr vs ∧ f p old vs = some r := by
  unfold arrayDec at h
  split at h
  · rename_i heq; cases heq; exact ⟨_, rfl, h⟩
  · rw [Option.some.injEq] at h
    subst h
    simp at he

theorem objectDec_inv {f : POpts → T → List (Bytes × JVal) → Option (Res T)} {p : POpts} {old : T} {l : Lbl} {v : JVal} {r : Res T}
    (h : objectDec f p old (.val l v) = some r) (he : r.err = .noError) : ∃ vs, v = .obj vs ∧ f p old vs = some r := by
  unfold objectDec at h
  split at h
  · rename_i heq; cases heq; exact ⟨_, rfl, h⟩
  · rw [Option.some.injEq] at h
    subst h
    simp at he

/-- What is read without error has a property. -/
def Dec.Only (d : Dec T) (P : JVal → Prop) : Prop := ∀ ⦃p old l v r⦄, d p old (.val l v) = some r → r.err = .noError → P v

theorem elems_only {d : Dec T} {P : JVal → Prop} (hd : d.Only P) {init : T} {p : POpts} {acc : List T} {vs : List JVal} {r : Res (List T)}
    (h : elemsDec init d p acc vs = some r) (he : r.err = .noError) : ∀ w ∈ vs, P w := by
  induction vs generalizing acc r with
  | nil => simp
  | cons v vs ih =>
    simp only [elemsDec, Option.bind_eq_bind, Option.bind_eq_some_iff] at h
    obtain ⟨q, h1, h2⟩ := h
    obtain ⟨h3, q', h4, h5⟩ := andThen_inv h2 he
    intro w hw
    rcases List.mem_cons.mp hw with rfl | hw
    · exact hd h1 h3
    · exact ih h4 h5 w hw

theorem set_only [DecidableEq T] {d : Dec T} {P : JVal → Prop} (hd : d.Only P) {ins : List T → T → List T} {init : T} {p : POpts} {acc : List T}
    {vs : List JVal} {r : Res (List T)} (h : setElemsDec ins init d p acc vs = some r) (he : r.err = .noError) : ∀ w ∈ vs, P w := by
  induction vs generalizing acc r with
  | nil => simp
  | cons v vs ih =>
    simp only [setElemsDec, Option.bind_eq_bind, Option.bind_eq_some_iff] at h
    obtain ⟨q, h1, h2⟩ := h
    obtain ⟨h3, q', h4, h5⟩ := andThen_inv h2 he
    intro w hw
    rcases List.mem_cons.mp hw with rfl | hw
    · exact hd h1 h3
    · split at h4
      · cases h4; simp at h5
      · exact ih h4 h5 w hw

theorem entries_only {d : Dec V} {P : JVal → Prop} (hd : d.Only P) {put : List (Bytes × V) → Bytes → V → List (Bytes × V)} {init : V} {p : POpts}
    {acc : List (Bytes × V)} {ms : List (Bytes × JVal)} {r : Res (List (Bytes × V))} (h : entriesDec put init d p acc ms = some r)
    (he : r.err = .noError) : ∀ e ∈ ms, P e.2 := by
  induction ms generalizing acc r with
  | nil => simp
  | cons e ms ih =>
    obtain ⟨n, v⟩ := e
    simp only [entriesDec, Option.bind_eq_bind, Option.bind_eq_some_iff] at h
    obtain ⟨q, h1, h2⟩ := h
    obtain ⟨h3, q', h4, h5⟩ := andThen_inv h2 he
    intro w hw
    rcases List.mem_cons.mp hw with rfl | hw
    · exact hd h1 h3
    · exact ih h4 h5 w hw

theorem fixed_only {d : Dec T} {P : JVal → Prop} (hd : d.Only P) {p : POpts} {old : List T} {vs : List JVal} {r : Res (List T)}
    (h : fixedDec d p old vs = some r) (he : r.err = .noError) : ∀ w ∈ vs, P w := by
  obtain ⟨_, h2⟩ := fixedDec_iff h
  obtain ⟨h3, h4⟩ := h2.mp he
  intro w hw
  obtain ⟨i, hi, rfl⟩ := List.mem_iff_getElem.mp hw
  obtain ⟨q, hq, hqe, _⟩ := h4 i old[i] vs[i] (by simp) (by simp)
  exact hd hq hqe

theorem avc_only {d : Dec T} {P : JVal → Prop} (hd : d.Only P) {p : POpts} {s i : Nat} {old : List T} {vs : List JVal} {r : Res (List T × Nat)}
    (h : avcFixedDec d p s i old vs = some r) (he : r.err = .noError) : ∀ w ∈ vs, P w := by
  obtain ⟨_, h2, _⟩ := avcFixedDec_iff h
  obtain ⟨h3, h4⟩ := h2.mp he
  intro w hw
  obtain ⟨i, hi, rfl⟩ := List.mem_iff_getElem.mp hw
  obtain ⟨q, hq, hqe, _⟩ := h4 i old[i] vs[i] (by simp) (by simp)
  exact hd hq hqe

theorem membersDec_inv {specs : List (MemberSpec T)} {p : POpts} {old : T} {ms : List (Bytes × JVal)} {r : Res T}
    (h : membersDec specs p old ms = some r) (he : r.err = .noError) :
    ∀ e ∈ ms, (∀ m ∈ specs, e.1 ∉ m.names) ∨
      ∃ m ∈ specs, e.1 ∈ m.names ∧ ∃ old' q, m.dec p old' (.val (e.1, .string) e.2) = some q ∧ q.err = .noError := by
  induction ms generalizing old r with
  | nil => simp
  | cons e ms ih =>
    obtain ⟨n, v⟩ := e
    have tail : ∀ {old' : T} {r' : Res T}, membersDec specs p old' ms = some r' → r'.err = .noError →
        ((∀ m ∈ specs, n ∉ m.names) ∨ ∃ m ∈ specs, n ∈ m.names ∧ ∃ old' q, m.dec p old' (.val (n, .string) v) = some q ∧ q.err = .noError) →
        ∀ e ∈ (n, v) :: ms, (∀ m ∈ specs, e.1 ∉ m.names) ∨
          ∃ m ∈ specs, e.1 ∈ m.names ∧ ∃ old' q, m.dec p old' (.val (e.1, .string) e.2) = some q ∧ q.err = .noError := by
      intro old' r' h1 h2 h3 w hw
      rcases List.mem_cons.mp hw with rfl | hw
      · exact h3
      · exact ih h1 h2 w hw
    unfold membersDec at h
    split at h
    · rename_i s hs
      simp only [Option.bind_eq_bind, Option.bind_eq_some_iff] at h
      obtain ⟨q, h1, h2⟩ := h
      obtain ⟨h3, q', h4, h5⟩ := andThen_inv h2 he
      refine tail h4 h5 (.inr ?_)
      obtain ⟨i, hi, hsi⟩ := Option.bind_eq_some_iff.mp hs
      obtain ⟨m, hm, hmn⟩ := resolve_some hi
      rw [hm] at hsi
      cases hsi
      refine ⟨s, List.mem_of_getElem? hm, hmn, old, q, h1, ?_⟩
      simp only [Res.nested] at h3
      split at h3
      · cases h3
      · exact h3
    · rename_i hs
      obtain ⟨h3, q', h4, h5⟩ := andThen_inv h he
      refine tail h4 h5 (.inl ?_)
      have := resolve_get.mp hs
      rw [hasMember_resolve] at this
      exact resolve_none.mp (by simpa using this)

theorem nullable_only {P : JVal → Prop} {d : Dec A} {f : POpts → B → A} {g : A → B} {e : Dec B} (hd : d.Only P)
    (he : ∀ p old l v, v ≠ .null → e p old (.val l v) = (d p (f p old) (.val l v)).map (Res.map g)) : e.Only fun v => v = .null ∨ P v := by
  intro p old l v r h hr
  by_cases hv : v = .null
  · exact .inl hv
  · rw [he p old l v hv] at h
    obtain ⟨q, h1, h2⟩ := map_res_inv h hr
    exact .inr (hd h1 h2)

mutual
theorem CType.fits : {T : Type} → (t : CType T) → t.dec.Only t.Fits
  | _, .bool, _, _, _, _, _, h, he => by simp only [CType.dec, CType.Fits] at *; exact scalar_fits h he
  | _, .int _, _, _, _, _, _, h, he => by simp only [CType.dec, CType.Fits] at *; exact scalar_fits h he
  | _, .double, _, _, _, _, _, h, he => by simp only [CType.dec, CType.Fits] at *; exact scalar_fits h he
  | _, .float, _, _, _, _, _, h, he => by simp only [CType.dec, CType.Fits] at *; exact scalar_fits h he
  | _, .time _, _, _, _, _, _, h, he => by simp only [CType.dec, CType.Fits] at *; exact scalar_fits h he
  | _, .string _, _, _, _, _, _, h, he => by simp only [CType.dec, CType.Fits] at *; exact scalar_fits h he
  | _, .silentString _, _, _, _, _, _, h, he => by simp only [CType.dec, CType.Fits] at *; exact scalar_fits h he
  | _, .enum _ _, _, _, _, _, _, h, he => by simp only [CType.dec, CType.Fits] at *; exact scalar_fits h he
  | _, .enumValue _, _, _, _, _, _, h, he => by simp only [CType.dec, CType.Fits] at *; exact scalar_fits h he
  | _, .nullable t, _, _, _, v, _, h, he => by
    simp only [CType.dec, CType.Fits] at *
    cases v <;> first | exact .inl rfl | exact .inr (t.fits h he)
  | _, .nullableChecked t, _, _, _, _, _, h, he => by
    simp only [CType.dec, CType.Fits] at *
    exact nullable_only (f := fun _ o => o.1) (g := (·, false)) t.fits (fun p old l v hv => by cases v <;> first | (exact absurd rfl hv) | rfl) h he
  | _, .sharedPtr t, _, _, _, _, _, h, he => by
    simp only [CType.dec, CType.Fits] at *
    exact nullable_only (f := fun _ o => o.getD t.init) (g := some) t.fits (fun p old l v hv => by cases v <;> first | (exact absurd rfl hv) | rfl) h he
  | _, .uniquePtr t, _, _, _, _, _, h, he => by
    simp only [CType.dec, CType.Fits] at *
    exact nullable_only (f := fun _ o => o.getD t.init) (g := some) t.fits (fun p old l v hv => by cases v <;> first | (exact absurd rfl hv) | rfl) h he
  | _, .silentUniquePtr t, _, _, _, _, _, h, he => by
    simp only [CType.dec, CType.Fits] at *
    exact nullable_only (f := fun _ o => o.getD t.init) (g := some) t.fits (fun p old l v hv => by cases v <;> first | (exact absurd rfl hv) | rfl) h he
  | _, .optional t, _, _, _, _, _, h, he => by simp only [CType.dec, CType.Fits] at *; exact t.fits h he
  | _, .optionalChecked t, _, _, _, _, _, h, he => by
    simp only [CType.dec, CType.Fits] at *
    obtain ⟨q, h1, h2⟩ := map_res_inv h he
    exact t.fits h1 h2
  | _, .stdOptional t, _, _, _, _, _, h, he => by
    simp only [CType.dec, CType.Fits] at *
    obtain ⟨q, h1, h2⟩ := map_res_inv h he
    exact t.fits h1 h2
  | _, .vector t, _, _, _, _, _, h, he => by
    simp only [CType.dec, CType.Fits] at *
    obtain ⟨vs, h1, h2⟩ := arrayDec_inv h he
    exact ⟨vs, h1, elems_only t.fits h2 he⟩
  | _, .silentVector t, _, _, _, _, _, h, he => by
    simp only [CType.dec, CType.Fits] at *
    obtain ⟨vs, h1, h2⟩ := arrayDec_inv h he
    exact ⟨vs, h1, elems_only t.fits h2 he⟩
  | _, .array _ t, _, _, _, _, _, h, he => by
    simp only [CType.dec, CType.Fits] at *
    obtain ⟨vs, h1, h2⟩ := arrayDec_inv h he
    exact ⟨vs, h1, fixed_only t.fits h2 he⟩
  | _, .arrayVariable _ t, _, _, _, _, _, h, he => by
    simp only [CType.dec, CType.Fits] at *
    obtain ⟨vs, h1, h2⟩ := arrayDec_inv h he
    exact ⟨vs, h1, avc_only t.fits h2 he⟩
  | _, .set _ _ t, _, _, _, _, _, h, he => by
    simp only [CType.dec, CType.Fits] at *
    obtain ⟨vs, h1, h2⟩ := arrayDec_inv h he
    exact ⟨vs, h1, set_only t.fits h2 he⟩
  | _, .oneOrMany t, _, _, _, v, _, h, he => by
    simp only [CType.dec, CType.Fits] at *
    cases v with
    | arr vs => exact .inl ⟨vs, rfl, elems_only t.fits h he⟩
    | _ =>
      obtain ⟨q, h1, h2⟩ := map_res_inv h he
      exact .inr (t.fits h1 h2)
  | _, .tuple ts, _, _, _, _, _, h, he => by
    simp only [CType.dec, CType.Fits] at *
    obtain ⟨vs, h1, h2⟩ := arrayDec_inv h he
    exact ⟨vs, h1, ts.fits h2 he⟩
  | _, .map _ t, _, _, _, _, _, h, he => by
    simp only [CType.dec, CType.Fits] at *
    obtain ⟨ms, h1, h2⟩ := objectDec_inv h he
    exact ⟨ms, h1, entries_only t.fits h2 he⟩
  | _, .tokens, _, _, _, _, _, _, _ | _, .jmap, _, _, _, _, _, _, _ => by simp only [CType.Fits]
  | _, .struct _ s, p, _, _, _, _, h, he => by
    simp only [CType.dec, CType.Fits] at *
    obtain ⟨ms, h1, h2⟩ := objectDec_inv h he
    refine ⟨ms, h1, fun e hm hk => ?_⟩
    simp only [Option.bind_eq_bind, Option.bind_eq_some_iff] at h2
    obtain ⟨q, h3, h4⟩ := h2
    obtain ⟨h5, _, _, _⟩ := andThen_inv h4 he
    rcases membersDec_inv h3 h5 e hm with h6 | ⟨m, hms, hmn, _, _, hq, hqe⟩
    · obtain ⟨m, hms, hmn⟩ := s.knows [] e.1 hk
      exact absurd hmn (h6 m hms)
    · exact s.takes [] m hms hmn hq hqe
theorem CTypes.fits : {Ts : Type} → (ts : CTypes Ts) → ∀ {p old vs r}, ts.dec p old vs = some r → r.err = .noError → ts.Fits vs
  | _, .nil, p, old, vs, r, h, he => by
    simp only [CTypes.dec, tupNilDec, Option.some.injEq] at h
    subst h
    simp only [CTypes.Fits]
    cases vs with
    | nil => rfl
    | cons v vs => simp at he
  | _, .cons t ts, p, old, vs, r, h, he => by
    simp only [CTypes.Fits]
    cases vs with
    | nil =>
      simp only [CTypes.dec, tupConsDec] at h
      obtain ⟨q, h1, h2⟩ := map_res_inv h he
      obtain ⟨q', h3, h4⟩ := Option.bind_eq_some_iff.mp h1
      unfold Res.failed at h4
      split at h4
      · cases h4; contradiction
      · cases h4
    | cons v vs =>
      simp only [CTypes.dec, tupConsDec, Option.bind_eq_bind, Option.bind_eq_some_iff] at h
      obtain ⟨q, h1, h2⟩ := h
      obtain ⟨h3, q', h4, h5⟩ := andThen_inv h2 he
      obtain ⟨q'', h6, h7⟩ := map_res_inv h4 h5
      exact ⟨v, vs, rfl, t.fits h1 h3, ts.fits h6 h7⟩
theorem CStruct.knows : {T : Type} → (s : CStruct T) → ∀ sn n, s.Knows n → ∃ m ∈ s.specs sn, n ∈ m.names
  | _, .mk ms ss, sn, n, h => by
    simp only [CStruct.Knows] at h
    simp only [CStruct.specs, List.mem_append, List.mem_reverse]
    rcases h with h | h
    · obtain ⟨m, h1, h2⟩ := ms.knows sn n h
      exact ⟨m, .inl h1, h2⟩
    · obtain ⟨m, h1, h2⟩ := ss.knows n h
      exact ⟨m, .inr h1, h2⟩
theorem CMembers.knows : {T : Type} → (s : CMembers T) → ∀ sn n, s.Knows n → ∃ m ∈ s.specs sn, n ∈ m.names
  | _, .nil, _, _, h => by simp only [CMembers.Knows] at h
  | _, .cons names t get set ms, sn, n, h => by
    simp only [CMembers.Knows] at h
    simp only [CMembers.specs, List.mem_cons]
    rcases h with h | h
    · exact ⟨_, .inl rfl, h⟩
    · obtain ⟨m, h1, h2⟩ := ms.knows sn n h
      exact ⟨m, .inr h1, h2⟩
theorem CSupers.knows : {T : Type} → (s : CSupers T) → ∀ n, s.Knows n → ∃ m ∈ s.specs, n ∈ m.names
  | _, .nil, _, h => by simp only [CSupers.Knows] at h
  | _, .cons name get set s ss, n, h => by
    simp only [CSupers.Knows] at h
    simp only [CSupers.specs, List.mem_append, List.mem_map]
    rcases h with h | h
    · obtain ⟨m, h1, h2⟩ := s.knows name n h
      exact ⟨_, .inl ⟨m, h1, rfl⟩, h2⟩
    · obtain ⟨m, h1, h2⟩ := ss.knows n h
      exact ⟨m, .inr h1, h2⟩
theorem CStruct.takes : {T : Type} → (s : CStruct T) → ∀ sn, ∀ m ∈ s.specs sn, ∀ {n}, n ∈ m.names →
    ∀ {p old l v q}, m.dec p old (.val l v) = some q → q.err = .noError → s.Takes n v
  | _, .mk ms ss, sn, m, hm, n, hn, p, old, l, v, q, h, he => by
    simp only [CStruct.specs, List.mem_append, List.mem_reverse] at hm
    simp only [CStruct.Takes]
    rcases hm with hm | hm
    · exact .inl (ms.takes sn m hm hn h he)
    · exact .inr (ss.takes m hm hn h he)
theorem CMembers.takes : {T : Type} → (s : CMembers T) → ∀ sn, ∀ m ∈ s.specs sn, ∀ {n}, n ∈ m.names →
    ∀ {p old l v q}, m.dec p old (.val l v) = some q → q.err = .noError → s.Takes n v
  | _, .nil, _, m, hm, _, _, _, _, _, _, _, _, _ => by simp [CMembers.specs] at hm
  | _, .cons names t get set ms, sn, m, hm, n, hn, p, old, l, v, q, h, he => by
    simp only [CMembers.specs, List.mem_cons] at hm
    simp only [CMembers.Takes]
    rcases hm with rfl | hm
    · obtain ⟨q', h1, h2⟩ := map_res_inv h he
      exact .inl ⟨hn, t.fits h1 h2⟩
    · exact .inr (ms.takes sn m hm hn h he)
theorem CSupers.takes : {T : Type} → (s : CSupers T) → ∀ m ∈ s.specs, ∀ {n}, n ∈ m.names →
    ∀ {p old l v q}, m.dec p old (.val l v) = some q → q.err = .noError → s.Takes n v
  | _, .nil, m, hm, _, _, _, _, _, _, _, _, _ => by simp [CSupers.specs] at hm
  | _, .cons name get set s ss, m, hm, n, hn, p, old, l, v, q, h, he => by
    simp only [CSupers.specs, List.mem_append, List.mem_map] at hm
    simp only [CSupers.Takes]
    rcases hm with ⟨m', hm', rfl⟩ | hm
    · obtain ⟨q', h1, h2⟩ := map_res_inv h he
      exact .inl (s.takes name m' hm' hn h1 h2)
    · exact .inr (ss.takes m hm hn h he)
end

end JsonStruct
