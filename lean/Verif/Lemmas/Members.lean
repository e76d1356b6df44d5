import Verif.Lemmas.Types

/- Facts about the decoders of structs. -/

namespace JsonStruct

deriving instance DecidableEq for Res

theorem Res.eta (r : Res T) : (⟨r.err, r.val, r.missing, r.unassigned⟩ : Res T) = r := rfl

theorem Res.andThen_ok {r : Res A} (h : r.err = .noError) (stop : A → B) (f : A → Option (Res B)) :
    r.andThen stop f = (f r.val).map fun q => { q with missing := r.missing ++ q.missing, unassigned := r.unassigned ++ q.unassigned } := by
  simp [Res.andThen, h]

theorem Res.andThen_err {r : Res A} (h : r.err ≠ .noError) (stop : A → B) (f : A → Option (Res B)) :
    r.andThen stop f = some ⟨r.err, stop r.val, r.missing, r.unassigned⟩ := by
  simp [Res.andThen, h]

theorem resolve_none {specs : List (MemberSpec T)} {n : Bytes} :
    resolve specs n = none ↔ ∀ m ∈ specs, n ∉ m.names := by
  unfold resolve
  cases h1 : specs.findIdx? (fun s => s.names.head? == some n) with
  | some i =>
    simp only [reduceCtorEq, false_iff]
    intro h
    obtain ⟨hi, h2, _⟩ := List.findIdx?_eq_some_iff_getElem.mp h1
    have h3 := h _ (List.getElem_mem hi)
    generalize specs[i] = m at h2 h3
    cases hn : m.names with
    | nil => simp [hn] at h2
    | cons a as => simp [hn] at h2 h3; simp [h2] at h3
  | none =>
    rw [List.findIdx?_eq_none_iff] at h1
    rw [List.findIdx?_eq_none_iff]
    refine forall₂_congr fun m hm => ?_
    have := h1 m hm
    cases hn : m.names with
    | nil => simp
    | cons a as =>
      simp [hn] at this ⊢
      intro _ e; exact this e.symm

/-- A name resolves to a member that has it. -/
theorem resolve_some {specs : List (MemberSpec T)} {n : Bytes} {i : Nat} (h : resolve specs n = some i) :
    ∃ m, specs[i]? = some m ∧ n ∈ m.names := by
  unfold resolve at h
  split at h
  · rename_i j h1
    cases h
    obtain ⟨hi, h2, _⟩ := List.findIdx?_eq_some_iff_getElem.mp h1
    refine ⟨specs[i], by simp [hi], ?_⟩
    generalize specs[i] = m at h2
    cases hn : m.names with
    | nil => simp [hn] at h2
    | cons a as => simp [hn] at h2; simp [h2]
  · obtain ⟨hi, h2, _⟩ := List.findIdx?_eq_some_iff_getElem.mp h
    refine ⟨specs[i], by simp [hi], ?_⟩
    simp only [List.contains_iff_mem] at h2
    exact List.mem_of_mem_tail h2

/-- Whether some member of the struct has the name, as its primary name or as an alias. -/
def hasMember (specs : List (MemberSpec T)) (n : Bytes) : Bool := specs.any fun m => m.names.contains n

theorem hasMember_iff {specs : List (MemberSpec T)} {n : Bytes} : hasMember specs n = true ↔ ∃ m ∈ specs, n ∈ m.names := by
  simp [hasMember]

theorem hasMember_resolve (specs : List (MemberSpec T)) (n : Bytes) : hasMember specs n = (resolve specs n).isSome := by
  rw [Bool.eq_iff_iff, hasMember_iff, Option.isSome_iff_ne_none, ne_eq, resolve_none]
  simp

theorem resolve_get {specs : List (MemberSpec T)} {n : Bytes} :
    (resolve specs n).bind (specs[·]?) = none ↔ hasMember specs n = false := by
  rw [hasMember_resolve]
  cases h : resolve specs n with
  | none => simp
  | some i =>
    obtain ⟨m, h1, _⟩ := resolve_some h
    simp [h1]

theorem mem_of_resolve {specs : List (MemberSpec T)} {n : Bytes} {m : MemberSpec T} (h : (resolve specs n).bind (specs[·]?) = some m) :
    m ∈ specs ∧ n ∈ m.names := by
  obtain ⟨i, h1, h2⟩ := Option.bind_eq_some_iff.mp h
  obtain ⟨m', h3, h4⟩ := resolve_some h1
  rw [h2] at h3
  cases h3
  exact ⟨List.mem_of_getElem? h2, h4⟩

theorem membersDec_append (specs : List (MemberSpec T)) (o : POpts) (a b : List (Bytes × JVal)) (old : T) :
    membersDec specs o old (a ++ b) = (membersDec specs o old a).bind fun r => r.andThen id fun x => membersDec specs o x b := by
  induction a generalizing old with
  | nil =>
    simp only [List.nil_append, membersDec, Option.bind_some, Res.andThen, ne_eq, not_true_eq_false, if_false]
    cases membersDec specs o old b <;> simp
  | cons m a ih =>
    obtain ⟨n, v⟩ := m
    have key : ∀ q : Res T, (q.andThen id fun x => membersDec specs o x (a ++ b)) =
        (q.andThen id fun x => membersDec specs o x a).bind fun r => r.andThen id fun x => membersDec specs o x b := by
      intro q
      by_cases he : q.err = .noError
      · rw [Res.andThen_ok he, Res.andThen_ok he, ih]
        cases membersDec specs o q.val a with
        | none => rfl
        | some r =>
          simp only [Option.bind_some, Option.map_some]
          by_cases hr : r.err = .noError
          · rw [Res.andThen_ok hr, Res.andThen_ok (by exact hr)]
            cases membersDec specs o r.val b <;> simp
          · rw [Res.andThen_err hr, Res.andThen_err (by exact hr)]; rfl
      · rw [Res.andThen_err he, Res.andThen_err he]
        simp only [Option.bind_some]
        rw [Res.andThen_err (by exact he)]; rfl
    simp only [List.cons_append, membersDec]
    split
    · rename_i s hs
      cases s.dec o old (.val (n, .string) v) with
      | none => rfl
      | some r => exact key _
    · exact key _

/-- Where the members that are known are the same, the outcome is the same, except for the names reported as missing. -/
theorem membersDec_known (specs : List (MemberSpec T)) (o : POpts) (ho : o.allowMissing = true) :
    ∀ (ms : List (Bytes × JVal)) (old : T) (r : Res T),
    membersDec specs o old ms = some r →
    ∃ r', membersDec specs o old (ms.filter fun m => hasMember specs m.1) = some r' ∧ r'.err = r.err ∧ r'.val = r.val ∧
      r'.unassigned = r.unassigned := by
  intro ms
  induction ms with
  | nil => intro old r h; exact ⟨r, h, rfl, rfl, rfl⟩
  | cons m ms ih =>
    obtain ⟨n, v⟩ := m
    intro old r h
    rw [membersDec] at h
    split at h
    · rename_i s hs
      have hk : hasMember specs n = true := by
        rw [← Bool.not_eq_false, ← resolve_get, hs]; simp
      rw [List.filter_cons_of_pos (by exact hk), membersDec, hs]
      simp only
      obtain ⟨q, hq, h⟩ := Option.bind_eq_some_iff.mp h
      rw [hq]
      simp only [Option.bind_eq_bind, Option.bind_some] at h ⊢
      by_cases he : q.nested.err = .noError
      · rw [Res.andThen_ok he] at h ⊢
        obtain ⟨r1, h1, rfl⟩ := Option.map_eq_some_iff.mp h
        obtain ⟨r2, h2, h3, h4, h5⟩ := ih _ _ h1
        rw [h2]
        exact ⟨_, rfl, h3, h4, by simp [h5]⟩
      · rw [Res.andThen_err he] at h ⊢
        cases h
        exact ⟨_, rfl, rfl, rfl, rfl⟩
    · rename_i hs
      have hk := resolve_get.mp hs
      rw [List.filter_cons_of_neg (by simp [hk])]
      simp only [ho, if_true] at h
      rw [Res.andThen_ok rfl] at h
      obtain ⟨r1, h1, rfl⟩ := Option.map_eq_some_iff.mp h
      obtain ⟨r2, h2, h3, h4, h5⟩ := ih _ _ h1
      exact ⟨r2, h2, h3, h4, by simp [h5]⟩

/-- The other direction: adding unknown members. -/
theorem membersDec_known' (specs : List (MemberSpec T)) (o : POpts) (ho : o.allowMissing = true) :
    ∀ (ms : List (Bytes × JVal)) (old : T) (r : Res T),
    membersDec specs o old (ms.filter fun m => hasMember specs m.1) = some r →
    ∃ r', membersDec specs o old ms = some r' ∧ r'.err = r.err ∧ r'.val = r.val ∧ r'.unassigned = r.unassigned := by
  intro ms
  induction ms with
  | nil => intro old r h; exact ⟨r, h, rfl, rfl, rfl⟩
  | cons m ms ih =>
    obtain ⟨n, v⟩ := m
    intro old r h
    cases hs : (resolve specs n).bind (specs[·]?) with
    | some s =>
      have hk : hasMember specs n = true := by
        rw [← Bool.not_eq_false, ← resolve_get, hs]; simp
      rw [List.filter_cons_of_pos (by exact hk), membersDec, hs] at h
      rw [membersDec, hs]
      simp only at h ⊢
      obtain ⟨q, hq, h⟩ := Option.bind_eq_some_iff.mp h
      rw [hq]
      simp only [Option.bind_eq_bind, Option.bind_some] at h ⊢
      by_cases he : q.nested.err = .noError
      · rw [Res.andThen_ok he] at h ⊢
        obtain ⟨r1, h1, rfl⟩ := Option.map_eq_some_iff.mp h
        obtain ⟨r2, h2, h3, h4, h5⟩ := ih _ _ h1
        rw [h2]
        exact ⟨_, rfl, h3, h4, by simp [h5]⟩
      · rw [Res.andThen_err he] at h ⊢
        cases h
        exact ⟨_, rfl, rfl, rfl, rfl⟩
    | none =>
      have hk := resolve_get.mp hs
      rw [List.filter_cons_of_neg (by simp [hk])] at h
      obtain ⟨r2, h2, h3, h4, h5⟩ := ih _ _ h
      rw [membersDec, hs]
      simp only [ho, if_true]
      rw [Res.andThen_ok rfl, h2]
      exact ⟨_, rfl, h3, h4, by simp [h5]⟩

/-- The names reported by a list of members whose own values are read without error and make the reports `rep`. -/
def reported (specs : List (MemberSpec T)) (o : POpts) (rep : Bytes → JVal → List Bytes × List Bytes) (ms : List (Bytes × JVal)) :
    List Bytes × List Bytes :=
  (ms.flatMap fun m => if hasMember specs m.1 then (rep m.1 m.2).1 else if o.track then [m.1] else [],
   ms.flatMap fun m => if hasMember specs m.1 then (rep m.1 m.2).2 else [])

/-- Every member the struct knows is read without error, with the reports `rep`. -/
def ReadsAll (specs : List (MemberSpec T)) (o : POpts) (rep : Bytes → JVal → List Bytes × List Bytes) (ms : List (Bytes × JVal)) : Prop :=
  ∀ n v, (n, v) ∈ ms → ∀ m, (resolve specs n).bind (specs[·]?) = some m → ∀ old,
    ∃ x, m.dec o old (.val (n, .string) v) = some ⟨.noError, x, (rep n v).1, (rep n v).2⟩

theorem membersDec_reports {specs : List (MemberSpec T)} {o : POpts} {rep : Bytes → JVal → List Bytes × List Bytes}
    {ms : List (Bytes × JVal)} (hr : ReadsAll specs o rep ms)
    (ha : o.allowMissing = true ∨ ∀ m ∈ ms, hasMember specs m.1 = true) (old : T) :
    ∃ x, membersDec specs o old ms = some ⟨.noError, x, (reported specs o rep ms).1, (reported specs o rep ms).2⟩ := by
  induction ms generalizing old with
  | nil => exact ⟨old, rfl⟩
  | cons m ms ih =>
    obtain ⟨n, v⟩ := m
    have ih := ih (fun n v h => hr n v (List.mem_cons_of_mem _ h)) (ha.imp_right fun h m hm => h m (List.mem_cons_of_mem _ hm))
    rw [membersDec]
    cases hs : (resolve specs n).bind (specs[·]?) with
    | some s =>
      have hk : hasMember specs n = true := by
        rw [← Bool.not_eq_false, ← resolve_get, hs]; simp
      obtain ⟨x, hx⟩ := hr n v (by simp) s hs old
      obtain ⟨y, hy⟩ := ih x
      simp only [hx, Option.bind_eq_bind, Option.bind_some]
      rw [Res.andThen_ok (by simp [Res.nested])]
      refine ⟨y, ?_⟩
      simp only [Res.nested, hy, Option.map_some]
      simp [reported, hk]
    | none =>
      have hk := resolve_get.mp hs
      have ho : o.allowMissing = true := by
        rcases ha with h | h
        · exact h
        · have := h (n, v) (by simp); simp [hk] at this
      simp only [ho, if_true]
      rw [Res.andThen_ok rfl]
      obtain ⟨y, hy⟩ := ih old
      refine ⟨y, ?_⟩
      simp only [hy, Option.map_some]
      simp [reported, hk]

theorem membersDec_unknown {specs : List (MemberSpec T)} {o : POpts} {rep : Bytes → JVal → List Bytes × List Bytes}
    {a b : List (Bytes × JVal)} {n : Bytes} {v : JVal} (hr : ReadsAll specs o rep a)
    (ho : o.allowMissing = false) (ha : ∀ m ∈ a, hasMember specs m.1 = true) (hn : hasMember specs n = false) (old : T) :
    ∃ x, membersDec specs o old (a ++ (n, v) :: b) =
      some ⟨.missingPropertyMember, x, (reported specs o rep a).1 ++ (if o.track then [n] else []), (reported specs o rep a).2⟩ := by
  obtain ⟨x, hx⟩ := membersDec_reports hr (.inr ha) old
  refine ⟨x, ?_⟩
  rw [membersDec_append, hx, Option.bind_some, Res.andThen_ok rfl, membersDec, resolve_get.mpr hn]
  simp only [ho, Bool.false_eq_true, if_false]
  rw [Res.andThen_err (by simp)]
  simp

/-- Two members of a struct that do not overlap: reading one does not change what the other holds. -/
def Apart (a b : MemberSpec T) : Prop :=
  ∀ o i j x ra rb, a.dec o x i = some ra → b.dec o ra.val j = some rb →
    ∃ rb', b.dec o x j = some { rb with val := rb' } ∧ a.dec o rb' i = some { ra with val := rb.val }

theorem membersDec_cons_ok {specs : List (MemberSpec T)} {o : POpts} {n : Bytes} {v : JVal} {s : MemberSpec T}
    {q r' : Res T} {old : T} {ms : List (Bytes × JVal)} (hs : (resolve specs n).bind (specs[·]?) = some s)
    (hq : s.dec o old (.val (n, .string) v) = some q) (he : q.err = .noError)
    (hr : membersDec specs o q.val ms = some r') :
    membersDec specs o old ((n, v) :: ms) =
      some { r' with missing := q.missing ++ r'.missing, unassigned := q.unassigned ++ r'.unassigned } := by
  rw [membersDec, hs]
  simp only [hq, Option.bind_eq_bind, Option.bind_some]
  rw [Res.andThen_ok (by simp [Res.nested, he])]
  simp [Res.nested, hr]

theorem membersDec_cons_unknown {specs : List (MemberSpec T)} {o : POpts} {n : Bytes} {v : JVal}
    {r' : Res T} {old : T} {ms : List (Bytes × JVal)} (hs : (resolve specs n).bind (specs[·]?) = none) (ho : o.allowMissing = true)
    (hr : membersDec specs o old ms = some r') :
    membersDec specs o old ((n, v) :: ms) = some { r' with missing := (if o.track then [n] else []) ++ r'.missing } := by
  rw [membersDec, hs]
  simp only [ho, if_true]
  rw [Res.andThen_ok rfl]
  simp [hr]

/-- What is needed for the whole list of members to be read without error. -/
theorem membersDec_cons_inv {specs : List (MemberSpec T)} {o : POpts} {n : Bytes} {v : JVal}
    {r : Res T} {old : T} {ms : List (Bytes × JVal)} (h : membersDec specs o old ((n, v) :: ms) = some r) (he : r.err = .noError) :
    (∃ s q r', (resolve specs n).bind (specs[·]?) = some s ∧ s.dec o old (.val (n, .string) v) = some q ∧ q.err = .noError ∧
      membersDec specs o q.val ms = some r' ∧ r'.err = .noError ∧
      r = { r' with missing := q.missing ++ r'.missing, unassigned := q.unassigned ++ r'.unassigned }) ∨
    (∃ r', (resolve specs n).bind (specs[·]?) = none ∧ o.allowMissing = true ∧ membersDec specs o old ms = some r' ∧ r'.err = .noError ∧
      r = { r' with missing := (if o.track then [n] else []) ++ r'.missing }) := by
  rw [membersDec] at h
  cases hs : (resolve specs n).bind (specs[·]?) with
  | some s =>
    left
    simp only [hs] at h
    obtain ⟨q, hq, h⟩ := Option.bind_eq_some_iff.mp h
    by_cases hqe : q.err = .noError
    · rw [Res.andThen_ok (by simp [Res.nested, hqe])] at h
      obtain ⟨r', hr', rfl⟩ := Option.map_eq_some_iff.mp h
      exact ⟨s, q, r', rfl, hq, hqe, hr', he, rfl⟩
    · have : q.nested.err ≠ .noError := by
        simp only [Res.nested]; split <;> simp_all
      rw [Res.andThen_err this] at h
      cases h
      exact absurd he this
  | none =>
    right
    simp only [hs] at h
    cases ho : o.allowMissing with
    | false =>
      simp only [ho, Bool.false_eq_true, if_false] at h
      rw [Res.andThen_err (by simp)] at h
      cases h
      simp at he
    | true =>
      simp only [ho, if_true] at h
      rw [Res.andThen_ok rfl] at h
      obtain ⟨r', hr', rfl⟩ := Option.map_eq_some_iff.mp h
      exact ⟨r', rfl, rfl, hr', he, rfl⟩

/-- Members that mean different members of the struct can be read in any order. -/
theorem membersDec_perm {specs : List (MemberSpec T)} {o : POpts}
    (hap : ∀ i j : Nat, ∀ a b, i ≠ j → specs[i]? = some a → specs[j]? = some b → Apart a b)
    {ms ms' : List (Bytes × JVal)} (hp : ms.Perm ms') :
    (ms.filterMap fun m => resolve specs m.1).Nodup → ∀ (old : T) (r : Res T), membersDec specs o old ms = some r → r.err = .noError →
    ∃ r', membersDec specs o old ms' = some r' ∧ r'.err = .noError ∧ r'.val = r.val ∧ r'.missing.Perm r.missing ∧
      r'.unassigned.Perm r.unassigned := by
  induction hp with
  | nil => intro _ old r h he; exact ⟨r, h, he, rfl, .refl _, .refl _⟩
  | cons m hp ih =>
    obtain ⟨n, v⟩ := m
    intro hd old r h he
    have hd' := hd.sublist (List.Sublist.filterMap (fun m => resolve specs m.1) (List.sublist_cons_self (n, v) _))
    rcases membersDec_cons_inv h he with ⟨s, q, r1, hs, hq, hqe, h1, he1, rfl⟩ | ⟨r1, hs, ho, h1, he1, rfl⟩
    · obtain ⟨r2, g1, g2, g3, g4, g5⟩ := ih hd' _ _ h1 he1
      exact ⟨_, membersDec_cons_ok hs hq hqe g1, g2, g3, .append_left _ g4, .append_left _ g5⟩
    · obtain ⟨r2, g1, g2, g3, g4, g5⟩ := ih hd' _ _ h1 he1
      exact ⟨_, membersDec_cons_unknown hs ho g1, g2, g3, .append_left _ g4, g5⟩
  | swap m1 m2 ms =>
    obtain ⟨n1, v1⟩ := m1
    obtain ⟨n2, v2⟩ := m2
    intro hd old r h he
    rcases membersDec_cons_inv h he with ⟨s2, q2, r1, hs2, hq2, hqe2, h1, he1, rfl⟩ | ⟨r1, hs2, ho2, h1, he1, rfl⟩ <;>
      rcases membersDec_cons_inv h1 he1 with ⟨s1, q1, r0, hs1, hq1, hqe1, h0, he0, rfl⟩ | ⟨r0, hs1, ho1, h0, he0, rfl⟩
    · obtain ⟨i2, e2, f2⟩ := Option.bind_eq_some_iff.mp hs2
      obtain ⟨i1, e1, f1⟩ := Option.bind_eq_some_iff.mp hs1
      have hne : i2 ≠ i1 := by
        intro hc
        simp [e1, e2, hc] at hd
      obtain ⟨y, k1, k2⟩ := hap i2 i1 s2 s1 hne f2 f1 o _ _ old q2 q1 hq2 hq1
      refine ⟨_, membersDec_cons_ok hs1 k1 hqe1 (membersDec_cons_ok hs2 k2 hqe2 h0), he0, rfl, ?_, ?_⟩
      · simp only [← List.append_assoc]; exact .append_right _ List.perm_append_comm
      · simp only [← List.append_assoc]; exact .append_right _ List.perm_append_comm
    · refine ⟨_, membersDec_cons_unknown hs1 ho1 (membersDec_cons_ok hs2 hq2 hqe2 h0), he0, rfl, ?_, .refl _⟩
      simp only [← List.append_assoc]; exact .append_right _ List.perm_append_comm
    · refine ⟨_, membersDec_cons_ok hs1 hq1 hqe1 (membersDec_cons_unknown hs2 ho2 h0), he0, rfl, ?_, .refl _⟩
      simp only [← List.append_assoc]; exact .append_right _ List.perm_append_comm
    · refine ⟨_, membersDec_cons_unknown hs1 ho1 (membersDec_cons_unknown hs2 ho2 h0), he0, rfl, ?_, .refl _⟩
      simp only [← List.append_assoc]; exact .append_right _ List.perm_append_comm
  | trans p1 _ ih1 ih2 =>
    intro hd old r h he
    obtain ⟨r1, g1, g2, g3, g4, g5⟩ := ih1 hd old r h he
    have hd2 := ((p1.filterMap fun m => resolve specs m.1).nodup_iff).mp hd
    obtain ⟨r2, k1, k2, k3, k4, k5⟩ := ih2 hd2 old r1 g1 g2
    exact ⟨r2, k1, k2, k3.trans g3, k4.trans g4, k5.trans g5⟩

theorem unassignedNames_perm (specs : List (MemberSpec T)) {ms ms' : List (Bytes × JVal)} (hp : ms.Perm ms') :
    unassignedNames specs ms = unassignedNames specs ms' := by
  unfold unassignedNames
  congr 2
  funext p
  rw [hp.any_eq]

theorem unassignedNames_filter (specs : List (MemberSpec T)) (ms : List (Bytes × JVal)) :
    unassignedNames specs (ms.filter fun m => hasMember specs m.1) = unassignedNames specs ms := by
  unfold unassignedNames
  congr 2
  funext p
  congr 2
  rw [List.any_filter]
  congr 1
  funext m
  rw [hasMember_resolve]
  cases resolve specs m.1 <;> simp

end JsonStruct
