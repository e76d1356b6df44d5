import Verif.Spec.Replace
import Verif.Props.Independent

/- Reading does not depend on what was in the variable. -/

namespace JsonStruct

/-- No member of a struct is unassigned: it would be an error, or it would be reported. -/
def NoneUnassigned (p : POpts) (un : List Bytes) : Prop := p.allowUnassigned = false ∨ (p.track = true ∧ un = [])

theorem noneUnassigned_append {p : POpts} {a b : List Bytes} : NoneUnassigned p (a ++ b) ↔ NoneUnassigned p a ∧ NoneUnassigned p b := by
  simp only [NoneUnassigned, List.append_eq_nil_iff]
  tauto

/-- A value that is read without error is read the same way into any other variable. -/
def CType.Replaces (p : POpts) (t : CType T) : Prop :=
  ∀ old old' i r, t.Sized old → t.Sized old' → t.dec p old i = some r → r.err = .noError → NoneUnassigned p r.unassigned → t.dec p old' i = some r ∧ t.Sized r.val

theorem scalar_replaces {f : T → Tok → Err × T} (hf : ∀ old old' k, (f old k).1 = .noError → f old' k = f old k) {p : POpts}
    {old old' : T} {i : Item} {r : Res T} (h : scalarDec f p old i = some r) (he : r.err = .noError) : scalarDec f p old' i = some r := by
  simp only [scalarDec] at h ⊢
  split at h
  · rename_i hc
    cases h
    rw [hf old old' _ he, if_pos hc]
  · cases h

theorem ticks_replaces {C : Clock} {old old' : Int} {m t : Nat} (h : (C.ticks old m t).1 = .noError) : C.ticks old' m t = C.ticks old m t := by
  unfold Clock.ticks at h ⊢
  split
  · rfl
  · rename_i hc
    rw [if_neg hc] at h
    cases h

theorem time_replaces {C : Clock} {old old' : Int} {t : Bytes} (h : (timeTo C old t).1 = .noError) : timeTo C old' t = timeTo C old t := by
  simp only [timeTo] at h ⊢
  by_cases h1 : (intTo ⟨64, false⟩ t).1 ≠ .noError
  · rw [if_pos h1] at h
    exact absurd h h1
  · simp only [if_neg h1] at h ⊢
    split
    · rename_i h2
      rw [if_pos h2] at h
      exact ticks_replaces h
    · rename_i h2
      rw [if_neg h2] at h
      split
      · rename_i h3
        rw [if_pos h3] at h
        exact ticks_replaces h
      · rename_i h3
        rw [if_neg h3] at h
        split
        · rename_i h4
          rw [if_pos h4] at h
          exact ticks_replaces h
        · rename_i h4
          rw [if_neg h4] at h
          split
          · rfl
          · rename_i h5
            rw [if_neg h5] at h
            cases h

theorem andThen_noError {r : Res A} {stop : A → B} {f : A → Option (Res B)} {q : Res B} (h : r.andThen stop f = some q) (he : q.err = .noError) :
    r.err = .noError ∧ ∃ q', f r.val = some q' ∧ q'.err = .noError ∧
      q = { q' with missing := r.missing ++ q'.missing, unassigned := r.unassigned ++ q'.unassigned } := by
  by_cases hr : r.err = .noError
  · rw [Res.andThen_ok hr, Option.map_eq_some_iff] at h
    obtain ⟨q', h1, rfl⟩ := h
    exact ⟨hr, q', h1, he, rfl⟩
  · rw [Res.andThen_err hr] at h
    cases h
    exact absurd he hr

theorem failed_err {r : Option (Res T)} {g : T → S} {q : Res S} (h : (r.bind Res.failed).map (Res.map g) = some q) : q.err ≠ .noError := by
  obtain ⟨a, h1, rfl⟩ := Option.map_eq_some_iff.mp h
  obtain ⟨b, -, h2⟩ := Option.bind_eq_some_iff.mp h1
  unfold Res.failed at h2
  split at h2
  · cases h2; assumption
  · cases h2

theorem fixed_replaces {t : CType T} {p : POpts} (ht : t.Replaces p) : ∀ (old old' : List T) (vs : List JVal) (r : Res (List T)),
    old.length = old'.length → (∀ x ∈ old, t.Sized x) → (∀ x ∈ old', t.Sized x) → fixedDec t.dec p old vs = some r → r.err = .noError →
    NoneUnassigned p r.unassigned → fixedDec t.dec p old' vs = some r ∧ r.val.length = old.length ∧ ∀ x ∈ r.val, t.Sized x
  | [], [], [], r, _, _, _, h, _, _ => by cases h; exact ⟨rfl, rfl, by simp⟩
  | [], [], _ :: _, r, _, _, _, h, he, _ => by cases h; cases he
  | x :: xs, [], _, _, hl, _, _, _, _, _ => by simp at hl
  | [], y :: ys, _, _, hl, _, _, _, _, _ => by simp at hl
  | x :: xs, y :: ys, [], r, _, _, _, h, he, _ => by
    simp only [fixedDec] at h
    exact absurd he (failed_err h)
  | x :: xs, y :: ys, v :: vs, r, hl, hs, hs', h, he, hu => by
    simp only [fixedDec, Option.bind_eq_bind, Option.bind_eq_some_iff] at h
    obtain ⟨q, hq, h⟩ := h
    obtain ⟨hqe, q', h1, h2, rfl⟩ := andThen_noError h he
    obtain ⟨q2, h3, rfl⟩ := Option.map_eq_some_iff.mp h1
    obtain ⟨hu1, hu2⟩ := noneUnassigned_append.mp hu
    obtain ⟨k1, k2⟩ := ht x y _ q (hs x (by simp)) (hs' y (by simp)) hq hqe hu1
    obtain ⟨g1, g2, g3⟩ := fixed_replaces ht xs ys vs q2 (by simpa using hl) (fun z hz => hs z (by simp [hz])) (fun z hz => hs' z (by simp [hz])) h3 h2 hu2
    refine ⟨?_, by simp [Res.map, g2], by simpa [Res.map] using ⟨k2, g3⟩⟩
    simp only [fixedDec, Option.bind_eq_bind, k1, Option.bind_some]
    rw [Res.andThen_ok hqe, g1]
    rfl

/-! ### Structs -/

mutual
theorem CStruct.sized_entries : {T : Type} → (s : CStruct T) → ∀ v, s.Sized v ↔ ∀ e ∈ s.entries, e.type.Sized (e.get v)
  | _, .mk ms ss, v => by
    simp only [CStruct.Sized, CStruct.entries, List.mem_append, or_imp, forall_and, ms.sized_entries v, ss.sized_entries v]
theorem CMembers.sized_entries : {T : Type} → (ms : CMembers T) → ∀ v, ms.Sized v ↔ ∀ e ∈ ms.entries, e.type.Sized (e.get v)
  | _, .nil, v => by simp [CMembers.entries, CMembers.Sized]
  | _, .cons names t get set ms, v => by
    simp only [CMembers.Sized, CMembers.entries, List.mem_cons, forall_eq_or_imp, ms.sized_entries v]
theorem CSupers.sized_entries : {T : Type} → (ss : CSupers T) → ∀ v, ss.Sized v ↔ ∀ e ∈ ss.entries, e.type.Sized (e.get v)
  | _, .nil, v => by simp [CSupers.entries, CSupers.Sized]
  | _, .cons name get set s ss, v => by
    simp only [CSupers.Sized, CSupers.entries, List.mem_append, or_imp, forall_and, s.sized_entries (get v), ss.sized_entries v,
      List.mem_map, forall_exists_index, and_imp, forall_apply_eq_imp_iff₂]
    rfl
end

theorem reads_membersDec {s : CStruct T} {p : POpts} {x y : T} {ms : List (Bytes × JVal)} {mis un : List Bytes} (h : ReadsTo s p x ms y mis un) :
    membersDec (s.specs []) p x ms = some ⟨.noError, y, mis, un⟩ := by
  induction h with
  | nil => rfl
  | known hm hq hok h ih =>
    rw [membersDec, hm]
    simp only [hq, Option.bind_eq_bind, Option.bind_some]
    rw [Res.andThen_ok (by simp [Res.nested, hok])]
    simp only [Res.nested, ih, Option.map_some]
  | unknown hu ha h ih =>
    rw [membersDec, resolve_get.mpr hu]
    simp only [ha, if_true]
    rw [Res.andThen_ok rfl]
    simp only [ih, Option.map_some, List.nil_append]

/-- Two structs that are read from the same members agree on those that are mentioned. -/
theorem reads_replaced {s : CStruct T} (hc : s.Complete) {p : POpts} (ht : ∀ e ∈ s.entries, e.type.Replaces p)
    {l : List (Entry T)} (h1 : List.Forall₂ SpecOf (s.specs []) l) (h2 : l.Perm s.entries)
    {x y : T} {ms : List (Bytes × JVal)} {mis un : List Bytes} (h : ReadsTo s p x ms y mis un) :
    NoneUnassigned p un → ∀ x', s.Sized x → s.Sized x' → ∃ y', ReadsTo s p x' ms y' mis un ∧ s.Sized y ∧
      ∀ k e, l[k]? = some e → ((∃ m ∈ ms, resolve (s.specs []) m.1 = some k) ∨ e.get x = e.get x') → e.get y = e.get y' := by
  have hap : (l.map Entry.access).Pairwise Access.Apart := (h2.map _).pairwise_iff (fun h => h.symm) |>.mpr hc.apart
  have apart : ∀ (i k : Nat) (e e' : Entry T), i ≠ k → l[i]? = some e → l[k]? = some e' → e.access.Apart e'.access := by
    intro i k e e' hik hi hk
    rw [List.pairwise_iff_getElem] at hap
    obtain ⟨a1, rfl⟩ := List.getElem?_eq_some_iff.mp hi
    obtain ⟨a2, rfl⟩ := List.getElem?_eq_some_iff.mp hk
    rcases Nat.lt_or_gt_of_ne hik with h | h
    · have := hap i k (by simpa using a1) (by simpa using a2) h
      simpa using this
    · have := hap k i (by simpa using a2) (by simpa using a1) h
      exact Access.Apart.symm (by simpa using this)
  induction h with
  | nil x =>
    intro _ x' hx hx'
    exact ⟨x', .nil _, hx, fun k e _ h => h.elim (fun ⟨m, hm, _⟩ => by simp at hm) id⟩
  | @known x y n v ms m q mis un hm hq hok h ih =>
    intro hu x' hx hx'
    obtain ⟨hu1, hu2⟩ := noneUnassigned_append.mp hu
    obtain ⟨i, hi, hmi⟩ := Option.bind_eq_some_iff.mp hm
    obtain ⟨e, k1, k2, k3, _⟩ := forall₂_get h1 hmi
    have hmem : e ∈ s.entries := h2.mem_iff.mp (List.mem_iff_getElem?.mpr ⟨i, k1⟩)
    have hq' := hq
    rw [k3] at hq'
    obtain ⟨r, hr, rfl⟩ := Option.map_eq_some_iff.mp hq'
    obtain ⟨g1, g2⟩ := ht e hmem (e.get x) (e.get x') _ r (s.sized_entries x |>.mp hx e hmem) (s.sized_entries x' |>.mp hx' e hmem) hr hok hu1
    have sized : ∀ z, s.Sized z → s.Sized (e.set r.val z) := by
      intro z hz
      rw [s.sized_entries] at hz ⊢
      intro e' he'
      obtain ⟨j, hj⟩ := List.mem_iff_getElem?.mp (h2.mem_iff.mpr he')
      by_cases hij : j = i
      · subst hij
        rw [k1] at hj
        cases hj
        rw [hc.stored e hmem]
        exact g2
      · have := (apart j i e' e hij hj k1).1 r.val z
        simp only [Entry.access] at this
        rw [this]
        exact hz e' he'
    obtain ⟨y', a1, a2, a3⟩ := ih hu2 (e.set r.val x') (sized x hx) (sized x' hx')
    refine ⟨y', .known (q := r.map (e.set · x')) hm (by rw [k3]; simp [partDec, g1]) hok a1, a2, fun k e' hk hor => ?_⟩
    refine a3 k e' hk ?_
    by_cases hki : k = i
    · subst hki
      rw [k1] at hk
      cases hk
      right
      show e.get (e.set r.val x) = e.get (e.set r.val x')
      rw [hc.stored e hmem, hc.stored e hmem]
    · rcases hor with ⟨m', hm', hres⟩ | heq
      · rcases List.mem_cons.mp hm' with rfl | hm'
        · rw [hi] at hres
          exact absurd (Option.some.inj hres).symm hki
        · exact .inl ⟨m', hm', hres⟩
      · right
        have b1 := (apart k i e' e hki hk k1).1 r.val x
        have b2 := (apart k i e' e hki hk k1).1 r.val x'
        simp only [Entry.access] at b1 b2
        show e'.get (e.set r.val x) = e'.get (e.set r.val x')
        rw [b1, b2, heq]
  | @unknown x y n v ms mis un hu ha h ih =>
    intro hun x' hx hx'
    obtain ⟨y', a1, a2, a3⟩ := ih hun x' hx hx'
    refine ⟨y', .unknown hu ha a1, a2, fun k e hk hor => a3 k e hk ?_⟩
    rcases hor with ⟨m', hm', hres⟩ | heq
    · rcases List.mem_cons.mp hm' with rfl | hm'
      · have := resolve_get.mpr hu
        obtain ⟨m, g1, _⟩ := resolve_some hres
        rw [hres] at this
        simp [g1] at this
      · exact .inl ⟨m', hm', hres⟩
    · exact .inr heq

theorem struct_replaces {init : T} {s : CStruct T} (hc : s.Complete) {p : POpts}
    (ht : ∀ e ∈ s.entries, e.type.isOptional = false ∧ e.type.Replaces p) : (CType.struct init s).Replaces p := by
  intro old old' i r hs hs' h he hu
  simp only [CType.Sized] at hs hs'
  match i with
  | .val l (.obj ms) =>
    rcases struct_dec_inv h with ⟨q, hq, hqe, rfl⟩ | ⟨h1, _⟩
    · obtain ⟨l', h1, h2⟩ := s.specs_of []
      have hun : unassignedNames (s.specs []) ms = [] := by
        by_contra hne
        rcases hu with hu | ⟨hu, hl⟩
        · simp [hu, hne] at he
        · simp [hu, hne] at hl
      rcases membersDec_cases s p ms old q hq with ⟨_, g⟩ | ⟨g, _⟩
      · obtain ⟨y', a1, a2, a3⟩ := reads_replaced hc (fun e he => (ht e he).2) h1 h2 g (noneUnassigned_append.mp hu).1 old' hs hs'
        have hy : q.val = y' := by
          refine hc.all _ _ fun e hmem => ?_
          obtain ⟨k, hk⟩ := List.mem_iff_getElem?.mp (h2.mem_iff.mpr hmem)
          refine a3 k e hk (.inl ?_)
          have hlen := h1.length_eq
          obtain ⟨hk', rfl⟩ := List.getElem?_eq_some_iff.mp hk
          have hk2 : k < (s.specs []).length := by omega
          obtain ⟨e', b1, b2⟩ := forall₂_get h1 (List.getElem?_eq_getElem hk2)
          rw [hk] at b1
          cases b1
          have hopt := b2.2.2
          rw [(ht _ hmem).1] at hopt
          unfold unassignedNames at hun
          rw [List.map_eq_nil_iff, List.filter_eq_nil_iff] at hun
          have := hun ((s.specs [])[k], k) (by rw [List.mem_zipIdx_iff_getElem?]; exact List.getElem?_eq_getElem hk2)
          simp only [hopt, Bool.not_false, Bool.true_and, Bool.not_eq_true', Bool.not_eq_false, List.any_eq_true, beq_iff_eq] at this
          exact this
        subst hy
        refine ⟨?_, a2⟩
        have := struct_dec_ok (init := init) (l := l) (reads_membersDec a1) rfl
        exact this
      · exact absurd hqe g
    · exact absurd he h1
  | .val _ (.null) | .val _ (.bool _) | .val _ (.num _) | .val _ (.str _) | .val _ (.arr _) | .close =>
    simp only [CType.dec, structDec, objectDec, Option.some.injEq] at h
    subst h
    cases he

/-! ### All types -/

mutual
theorem CType.sized_init : {T : Type} → (t : CType T) → t.Replaced → t.Sized t.init
  | _, .bool, _ | _, .int _, _ | _, .double, _ | _, .float, _ | _, .time _, _ | _, .string _, _ | _, .enum _ _, _ | _, .enumValue _, _
  | _, .silentString _, _ | _, .stdOptional _, _ | _, .silentVector _, _ | _, .vector _, _ | _, .set _ _ _, _
  | _, .nullable _, _ | _, .nullableChecked _, _ | _, .oneOrMany _, _ | _, .arrayVariable _ _, _ | _, .map _ _, _ | _, .tokens, _ | _, .jmap, _ => by
    simp only [CType.Sized]
  | _, .optional t, h => by
    simp only [CType.Replaced] at h
    simp only [CType.Sized]
    exact t.sized_init h
  | _, .optionalChecked t, h => by
    simp only [CType.Replaced] at h
    simp only [CType.Sized]
    exact t.sized_init h
  | _, .sharedPtr t, h => by simp only [CType.Sized]; intro y hy; cases hy
  | _, .uniquePtr t, h => by simp only [CType.Sized]; intro y hy; cases hy
  | _, .silentUniquePtr t, h => by simp only [CType.Sized]; intro y hy; cases hy
  | _, .array N t, h => by
    simp only [CType.Replaced] at h
    simp only [CType.Sized]
    refine ⟨List.length_replicate .., fun y hy => ?_⟩
    rw [List.eq_of_mem_replicate hy]
    exact t.sized_init h
  | _, .tuple ts, h => by
    simp only [CType.Replaced] at h
    simp only [CType.Sized]
    exact ts.sized_init h
  | _, .struct init s, h => by
    simp only [CType.Replaced] at h
    simp only [CType.Sized]
    exact h.2.1
theorem CTypes.sized_init : {Ts : Type} → (ts : CTypes Ts) → ts.Replaced → ts.Sized ts.handler.init
  | _, .nil, _ => by simp only [CTypes.Sized]
  | _, .cons t ts, h => by
    simp only [CTypes.Replaced] at h
    simp only [CTypes.Sized]
    exact ⟨t.sized_init h.1, ts.sized_init h.2⟩
end

theorem ptr_replaces {t : CType T} {p : POpts} (h : t.Replaces p) (hi : t.Sized t.init) {old old' : Option T} {i : Item} {r : Res (Option T)}
    (hs : ∀ y, old = some y → t.Sized y) (hs' : ∀ y, old' = some y → t.Sized y) (hd : ptrDec t.init t.dec p old i = some r) (he : r.err = .noError)
    (hu : NoneUnassigned p r.unassigned) :
    ptrDec t.init t.dec p old' i = some r ∧ ∀ y, r.val = some y → t.Sized y := by
  have size : ∀ o : Option T, (∀ y, o = some y → t.Sized y) → t.Sized (o.getD t.init) := by
    intro o ho
    cases o with
    | none => exact hi
    | some y => exact ho y rfl
  have key : ∀ i, (t.dec p (old.getD t.init) i).map (Res.map some) = some r →
      (t.dec p (old'.getD t.init) i).map (Res.map some) = some r ∧ ∀ y, r.val = some y → t.Sized y := by
    intro i hd
    obtain ⟨q, hq, rfl⟩ := Option.map_eq_some_iff.mp hd
    obtain ⟨g1, g2⟩ := h _ _ i q (size old hs) (size old' hs') hq he hu
    exact ⟨by rw [g1]; rfl, fun y hy => by cases hy; exact g2⟩
  match i with
  | .val _ .null =>
    simp only [ptrDec, Option.some.injEq] at hd ⊢
    subst hd
    exact ⟨rfl, fun y hy => by cases hy⟩
  | .val _ (.bool _) | .val _ (.num _) | .val _ (.str _) | .val _ (.arr _) | .val _ (.obj _) | .close => exact key _ hd

theorem array_dec {f : POpts → T → List JVal → Option (Res T)} {p : POpts} {old : T} {i : Item} {r : Res T} (h : arrayDec f p old i = some r)
    (he : r.err = .noError) : ∃ l vs, i = .val l (.arr vs) ∧ f p old vs = some r := by
  match i with
  | .val l (.arr vs) => exact ⟨l, vs, rfl, h⟩
  | .val _ (.null) | .val _ (.bool _) | .val _ (.num _) | .val _ (.str _) | .val _ (.obj _) | .close =>
    simp only [arrayDec, Option.some.injEq] at h
    subst h
    cases he

mutual
theorem CType.replaces {p : POpts} : {T : Type} → (t : CType T) → t.Replaced → t.Replaces p
  | _, .bool, _ => by
    intro old old' i r _ _ h he _
    simp only [CType.dec, CType.Sized, boolDec] at h ⊢
    refine ⟨scalar_replaces (fun old old' k hk => ?_) h he, trivial⟩
    simp only [boolTo] at hk ⊢; (repeat' split at hk) <;> simp_all
  | _, .int I, _ => by
    intro old old' i r _ _ h he _
    simp only [CType.dec, CType.Sized, intDec] at h ⊢
    refine ⟨scalar_replaces (fun old old' k hk => ?_) h he, trivial⟩
    rfl
  | _, .double, _ => by
    intro old old' i r _ _ h he _
    simp only [CType.dec, CType.Sized, doubleDec] at h ⊢
    refine ⟨scalar_replaces (fun old old' k hk => ?_) h he, trivial⟩
    cases hd : doubleTo k.value <;> simp_all
  | _, .float, _ => by
    intro old old' i r _ _ h he _
    simp only [CType.dec, CType.Sized, floatDec] at h ⊢
    refine ⟨scalar_replaces (fun old old' k hk => ?_) h he, trivial⟩
    cases hd : floatTo k.value <;> simp_all
  | _, .time C, _ => by
    intro old old' i r _ _ h he _
    simp only [CType.dec, CType.Sized, timeDec] at h ⊢
    refine ⟨scalar_replaces (fun old old' k hk => ?_) h he, trivial⟩
    exact time_replaces hk
  | _, .string m, _ => by
    intro old old' i r _ _ h he _
    simp only [CType.dec, CType.Sized, stringDec] at h ⊢
    refine ⟨scalar_replaces (fun old old' k hk => ?_) h he, trivial⟩
    rfl
  | _, .silentString m, _ => by
    intro old old' i r _ _ h he _
    simp only [CType.dec, CType.Sized, stringDec] at h ⊢
    refine ⟨scalar_replaces (fun old old' k hk => ?_) h he, trivial⟩
    rfl
  | _, .enum names U, _ => by
    intro old old' i r _ _ h he _
    simp only [CType.dec, CType.Sized, enumDec] at h ⊢
    refine ⟨scalar_replaces (fun old old' k hk => ?_) h he, trivial⟩
    (repeat' split at hk) <;> simp_all
  | _, .enumValue U, _ => by
    intro old old' i r _ _ h he _
    simp only [CType.dec, CType.Sized, enumValueDec] at h ⊢
    refine ⟨scalar_replaces (fun old old' k hk => ?_) h he, trivial⟩
    (repeat' split at hk) <;> simp_all
  | _, .stdOptional t, _ => by
    intro old old' i r _ _ h he _
    simp only [CType.dec, CType.Sized] at h ⊢
    exact ⟨h, trivial⟩
  | _, .silentVector t, _ => by
    intro old old' i r _ _ h he _
    simp only [CType.dec, CType.Sized, vecDec] at h ⊢
    obtain ⟨l, vs, rfl, h1⟩ := array_dec h he
    exact ⟨h1, trivial⟩
  | _, .vector t, _ => by
    intro old old' i r _ _ h he _
    simp only [CType.dec, CType.Sized, vecDec] at h ⊢
    obtain ⟨l, vs, rfl, h1⟩ := array_dec h he
    exact ⟨h1, trivial⟩
  | _, .set _ ins t, _ => by
    intro old old' i r _ _ h he _
    simp only [CType.dec, CType.Sized, setDec] at h ⊢
    obtain ⟨l, vs, rfl, h1⟩ := array_dec h he
    exact ⟨h1, trivial⟩
  | _, .optional t, h => by
    simp only [CType.Replaced] at h
    intro old old' i r hs hs' hd he hu
    simp only [CType.dec, CType.Sized] at hd hs hs' ⊢
    exact t.replaces h old old' i r hs hs' hd he hu
  | _, .optionalChecked t, h => by
    simp only [CType.Replaced] at h
    intro old old' i r hs hs' hd he hu
    simp only [CType.dec, CType.Sized] at hd hs hs' ⊢
    obtain ⟨q, hq, rfl⟩ := Option.map_eq_some_iff.mp hd
    obtain ⟨g1, g2⟩ := t.replaces h old.1 old'.1 i q hs hs' hq he hu
    exact ⟨by simp [optionalCheckedDec, g1], g2⟩
  | _, .sharedPtr t, h => by
    simp only [CType.Replaced] at h
    intro old old' i r hs hs' hd he hu
    simp only [CType.dec, CType.Sized] at hd hs hs' ⊢
    exact ptr_replaces (t.replaces h) (t.sized_init h) hs hs' hd he hu
  | _, .uniquePtr t, h => by
    simp only [CType.Replaced] at h
    intro old old' i r hs hs' hd he hu
    simp only [CType.dec, CType.Sized] at hd hs hs' ⊢
    exact ptr_replaces (t.replaces h) (t.sized_init h) hs hs' hd he hu
  | _, .silentUniquePtr t, h => by
    simp only [CType.Replaced] at h
    intro old old' i r hs hs' hd he hu
    simp only [CType.dec, CType.Sized] at hd hs hs' ⊢
    exact ptr_replaces (t.replaces h) (t.sized_init h) hs hs' hd he hu
  | _, .array N t, h => by
    simp only [CType.Replaced] at h
    intro old old' i r hs hs' hd he hu
    simp only [CType.dec, CType.Sized] at hd hs hs' ⊢
    obtain ⟨l, vs, rfl, h1⟩ := array_dec hd he
    obtain ⟨g1, g2, g3⟩ := fixed_replaces (t.replaces h) old old' vs r (by rw [hs.1, hs'.1]) hs.2 hs'.2 h1 he hu
    exact ⟨g1, by rw [g2, hs.1], g3⟩
  | _, .tuple ts, h => by
    simp only [CType.Replaced] at h
    intro old old' i r hs hs' hd he hu
    simp only [CType.dec, CType.Sized] at hd hs hs' ⊢
    obtain ⟨l, vs, rfl, h1⟩ := array_dec hd he
    exact ts.replaces h old old' vs r hs hs' h1 he hu
  | _, .struct init s, h => by
    simp only [CType.Replaced] at h
    exact struct_replaces h.1 (s.replaces h.2.2)
  | _, .nullable _, h => by simp only [CType.Replaced] at h
  | _, .nullableChecked _, h => by simp only [CType.Replaced] at h
  | _, .oneOrMany _, h => by simp only [CType.Replaced] at h
  | _, .arrayVariable _ _, h => by simp only [CType.Replaced] at h
  | _, .map _ _, h => by simp only [CType.Replaced] at h
  | _, .tokens, h | _, .jmap, h => by simp only [CType.Replaced] at h
theorem CTypes.replaces {p : POpts} : {Ts : Type} → (ts : CTypes Ts) → ts.Replaced →
    ∀ old old' vs r, ts.Sized old → ts.Sized old' → ts.dec p old vs = some r → r.err = .noError →
    NoneUnassigned p r.unassigned → ts.dec p old' vs = some r ∧ ts.Sized r.val
  | _, .nil, _ => fun old old' vs r _ _ h he _ => ⟨h, trivial⟩
  | _, .cons t ts, h => by
    simp only [CTypes.Replaced] at h
    intro old old' vs r hs hs' hd he hu
    simp only [CTypes.Sized] at hs hs' ⊢
    simp only [CTypes.dec] at hd ⊢
    match vs with
    | [] =>
      simp only [tupConsDec] at hd
      exact absurd he (failed_err hd)
    | v :: vs =>
      simp only [tupConsDec, Option.bind_eq_bind, Option.bind_eq_some_iff] at hd
      obtain ⟨q, hq, hd⟩ := hd
      obtain ⟨hqe, q', h1, h2, rfl⟩ := andThen_noError hd he
      obtain ⟨q2, h3, rfl⟩ := Option.map_eq_some_iff.mp h1
      obtain ⟨hu1, hu2⟩ := noneUnassigned_append.mp hu
      obtain ⟨k1, k2⟩ := t.replaces h.1 old.1 old'.1 _ q hs.1 hs'.1 hq hqe hu1
      obtain ⟨g1, g2⟩ := ts.replaces h.2 old.2 old'.2 vs q2 hs.2 hs'.2 h3 h2 hu2
      refine ⟨?_, k2, g2⟩
      simp only [tupConsDec, Option.bind_eq_bind, k1, Option.bind_some]
      rw [Res.andThen_ok hqe, g1]
      rfl
theorem CStruct.replaces {p : POpts} : {T : Type} → (s : CStruct T) → s.Replaced →
    ∀ e ∈ s.entries, e.type.isOptional = false ∧ e.type.Replaces p
  | _, .mk ms ss, h, e, he => by
    simp only [CStruct.Replaced] at h
    rcases List.mem_append.mp he with he | he
    · exact ms.replaces h.1 e he
    · exact ss.replaces h.2 e he
theorem CMembers.replaces {p : POpts} : {T : Type} → (ms : CMembers T) → ms.Replaced →
    ∀ e ∈ ms.entries, e.type.isOptional = false ∧ e.type.Replaces p
  | _, .nil, _, e, he => by simp [CMembers.entries] at he
  | _, .cons names t get set ms, h, e, he => by
    simp only [CMembers.Replaced] at h
    rcases List.mem_cons.mp he with rfl | he
    · exact ⟨h.1.1, t.replaces h.1.2⟩
    · exact ms.replaces h.2 e he
theorem CSupers.replaces {p : POpts} : {T : Type} → (ss : CSupers T) → ss.Replaced →
    ∀ e ∈ ss.entries, e.type.isOptional = false ∧ e.type.Replaces p
  | _, .nil, _, e, he => by simp [CSupers.entries] at he
  | _, .cons name get set s ss, h, e, he => by
    simp only [CSupers.Replaced] at h
    rcases List.mem_append.mp he with he | he
    · obtain ⟨e', he', rfl⟩ := List.mem_map.mp he
      exact s.replaces h.1 e' he'
    · exact ss.replaces h.2 e he
end

end JsonStruct
