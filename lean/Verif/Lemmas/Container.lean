import Verif.Spec.Container
import Verif.Lemmas.Total
import Verif.Lemmas.RoundTrip

namespace JsonStruct

/-! ### What the decoders of the containers store -/

theorem elemsDec_inv {d : Dec T} {init : T} {p : POpts} {acc : List T} {vs : List JVal} {r : Res (List T)}
    (h : elemsDec init d p acc vs = some r) (he : r.err = .noError) :
    ∃ xs, r.val = acc ++ xs ∧ xs.length = vs.length ∧
      ∀ (i : Nat) (v : JVal), vs[i]? = some v → ∃ q, d p init (elem v) = some q ∧ q.err = .noError ∧ xs[i]? = some q.val := by
  induction vs generalizing acc r with
  | nil =>
    simp only [elemsDec, Option.some.injEq] at h
    subst h
    exact ⟨[], by simp, rfl, by simp⟩
  | cons v vs ih =>
    simp only [elemsDec, Option.bind_eq_bind] at h
    obtain ⟨q, hq, h⟩ := Option.bind_eq_some_iff.mp h
    by_cases hqe : q.err = .noError
    · rw [Res.andThen_ok hqe] at h
      obtain ⟨r', hr', rfl⟩ := Option.map_eq_some_iff.mp h
      obtain ⟨xs, h1, h2, h3⟩ := ih hr' he
      refine ⟨q.val :: xs, by simp [h1], by simp [h2], ?_⟩
      intro i w hw
      cases i with
      | zero => simp only [List.getElem?_cons_zero, Option.some.injEq] at hw; subst hw; exact ⟨q, hq, hqe, rfl⟩
      | succ i => exact h3 i w hw
    · rw [Res.andThen_err hqe] at h
      cases h
      exact absurd he hqe

theorem elemsDec_of {d : Dec T} {init : T} {p : POpts} {vs : List JVal} (acc : List T)
    (h : ∀ v ∈ vs, ∃ q, d p init (elem v) = some q ∧ q.err = .noError) :
    ∃ r, elemsDec init d p acc vs = some r ∧ r.err = .noError := by
  induction vs generalizing acc with
  | nil => exact ⟨_, rfl, rfl⟩
  | cons v vs ih =>
    obtain ⟨q, hq, hqe⟩ := h v (by simp)
    obtain ⟨r, hr, hre⟩ := ih (acc ++ [q.val]) fun w hw => h w (by simp [hw])
    simp only [elemsDec, hq, Option.bind_eq_bind, Option.bind_some]
    rw [Res.andThen_ok hqe, hr]
    exact ⟨_, rfl, hre⟩

/-- The first element that is rejected determines the error. -/
theorem elemsDec_err {d : Dec T} {init : T} {p : POpts} {vs ws : List JVal} {v : JVal} (acc : List T)
    (h : ∀ v ∈ vs, ∃ q, d p init (elem v) = some q ∧ q.err = .noError) {q : Res T} (hq : d p init (elem v) = some q) (hqe : q.err ≠ .noError) :
    ∃ r, elemsDec init d p acc (vs ++ v :: ws) = some r ∧ r.err = q.err := by
  induction vs generalizing acc with
  | nil =>
    simp only [List.nil_append, elemsDec, hq, Option.bind_eq_bind, Option.bind_some]
    rw [Res.andThen_err hqe]
    exact ⟨_, rfl, rfl⟩
  | cons w vs ih =>
    obtain ⟨q', hq', hqe'⟩ := h w (by simp)
    obtain ⟨r, hr, hre⟩ := ih (acc ++ [q'.val]) fun w hw => h w (by simp [hw])
    simp only [List.cons_append, elemsDec, hq', Option.bind_eq_bind, Option.bind_some]
    rw [Res.andThen_ok hqe', hr]
    exact ⟨_, rfl, hre⟩

theorem eachStored_cons {d : Dec T} {p : POpts} {o x : T} {old xs : List T} {v : JVal} {vs : List JVal} :
    EachStored d p (o :: old) (v :: vs) (x :: xs) ↔
      (∃ q, d p o (elem v) = some q ∧ q.err = .noError ∧ x = q.val) ∧ EachStored d p old vs xs := by
  constructor
  · intro h
    refine ⟨?_, fun i => h (i + 1)⟩
    obtain ⟨q, h1, h2, h3⟩ := h 0 o v rfl rfl
    exact ⟨q, h1, h2, by simpa using h3⟩
  · rintro ⟨⟨q, h1, h2, rfl⟩, h⟩ i
    cases i with
    | zero => intro o' v' ho hv; simp at ho hv; subst ho hv; exact ⟨q, h1, h2, rfl⟩
    | succ i => exact h i

theorem fixedDec_iff {d : Dec T} {p : POpts} {old : List T} {vs : List JVal} {r : Res (List T)} (h : fixedDec d p old vs = some r) :
    r.val.length = old.length ∧ (r.err = .noError ↔ vs.length = old.length ∧ EachStored d p old vs r.val) := by
  induction old generalizing vs r with
  | nil =>
    cases vs with
    | nil => simp only [fixedDec, Option.some.injEq] at h; subst h; simp [EachStored]
    | cons v vs => simp only [fixedDec, Option.some.injEq] at h; subst h; simp
  | cons o old ih =>
    cases vs with
    | nil =>
      simp only [fixedDec] at h
      obtain ⟨q, hq, rfl⟩ := Option.map_eq_some_iff.mp h
      obtain ⟨q', hq', hf⟩ := Option.bind_eq_some_iff.mp hq
      simp only [Res.failed] at hf
      split at hf
      · cases hf; rename_i hne; simp [Res.map, hne]
      · cases hf
    | cons v vs =>
      simp only [fixedDec, Option.bind_eq_bind] at h
      obtain ⟨q, hq, h⟩ := Option.bind_eq_some_iff.mp h
      by_cases hqe : q.err = .noError
      · rw [Res.andThen_ok hqe] at h
        obtain ⟨r', hr', rfl⟩ := Option.map_eq_some_iff.mp h
        obtain ⟨r'', hr'', rfl⟩ := Option.map_eq_some_iff.mp hr'
        obtain ⟨i1, i2⟩ := ih hr''
        refine ⟨by simp [Res.map, i1], ?_⟩
        simp only [Res.map, List.length_cons, Nat.add_right_cancel_iff, eachStored_cons, i2]
        constructor
        · rintro ⟨a, b⟩; exact ⟨a, ⟨q, hq, hqe, rfl⟩, b⟩
        · rintro ⟨a, _, b⟩; exact ⟨a, b⟩
      · rw [Res.andThen_err hqe] at h
        cases h
        refine ⟨rfl, ?_⟩
        simp only [hqe, false_iff, eachStored_cons, not_and]
        rintro - ⟨q', h1, h2, -⟩
        rw [hq] at h1
        cases h1
        exact absurd h2 hqe

/-- Too many elements: if those for which there is room are read, the error is `ExpectedArrayEnd`. -/
theorem fixedDec_many {d : Dec T} {p : POpts} {old : List T} {vs : List JVal} (hl : old.length < vs.length)
    (h : ∀ (i : Nat) (o : T) (v : JVal), old[i]? = some o → vs[i]? = some v → ∃ q, d p o (elem v) = some q ∧ q.err = .noError) :
    ∃ r, fixedDec d p old vs = some r ∧ r.err = .expectedArrayEnd := by
  induction old generalizing vs with
  | nil =>
    cases vs with
    | nil => simp at hl
    | cons v vs => exact ⟨_, rfl, rfl⟩
  | cons o old ih =>
    cases vs with
    | nil => simp at hl
    | cons v vs =>
      obtain ⟨q, hq, hqe⟩ := h 0 o v rfl rfl
      obtain ⟨r, hr, hre⟩ := ih (by simpa using hl) fun i => h (i + 1)
      simp only [fixedDec, hq, Option.bind_eq_bind, Option.bind_some]
      rw [Res.andThen_ok hqe, hr]
      exact ⟨_, rfl, hre⟩

theorem avcFixedDec_iff {d : Dec T} {p : POpts} {size i : Nat} {old : List T} {vs : List JVal} {r : Res (List T × Nat)}
    (h : avcFixedDec d p size i old vs = some r) :
    r.val.1.length = old.length ∧
    (r.err = .noError ↔ vs.length ≤ old.length ∧ EachStored d p old vs r.val.1) ∧
    (r.err = .noError → r.val.1.drop vs.length = old.drop vs.length ∧ r.val.2 = if vs.length < old.length then i + vs.length else size) := by
  induction old generalizing vs r i with
  | nil =>
    cases vs with
    | nil => simp only [avcFixedDec, Option.some.injEq] at h; subst h; simp [EachStored]
    | cons v vs => simp only [avcFixedDec, Option.some.injEq] at h; subst h; simp
  | cons o old ih =>
    cases vs with
    | nil => simp only [avcFixedDec, Option.some.injEq] at h; subst h; simp [EachStored]
    | cons v vs =>
      simp only [avcFixedDec, Option.bind_eq_bind] at h
      obtain ⟨q, hq, h⟩ := Option.bind_eq_some_iff.mp h
      by_cases hqe : q.err = .noError
      · rw [Res.andThen_ok hqe] at h
        obtain ⟨r', hr', rfl⟩ := Option.map_eq_some_iff.mp h
        obtain ⟨r'', hr'', rfl⟩ := Option.map_eq_some_iff.mp hr'
        obtain ⟨i1, i2, i3⟩ := ih hr''
        refine ⟨by simp [Res.map, i1], ?_, ?_⟩
        · simp only [Res.map, List.length_cons, Nat.add_le_add_iff_right, eachStored_cons, i2]
          constructor
          · rintro ⟨a, b⟩; exact ⟨a, ⟨q, hq, hqe, rfl⟩, b⟩
          · rintro ⟨a, _, b⟩; exact ⟨a, b⟩
        · intro he
          obtain ⟨j1, j2⟩ := i3 he
          refine ⟨by simpa [Res.map] using j1, ?_⟩
          simp only [Res.map, List.length_cons, Nat.add_lt_add_iff_right, j2]
          split <;> omega
      · rw [Res.andThen_err hqe] at h
        cases h
        refine ⟨rfl, ?_, fun he => absurd he hqe⟩
        simp only [hqe, false_iff, eachStored_cons, not_and]
        rintro - ⟨q', h1, h2, -⟩
        rw [hq] at h1
        cases h1
        exact absurd h2 hqe

theorem avcFixedDec_many {d : Dec T} {p : POpts} {size i : Nat} {old : List T} {vs : List JVal} (hl : old.length < vs.length)
    (h : ∀ (i : Nat) (o : T) (v : JVal), old[i]? = some o → vs[i]? = some v → ∃ q, d p o (elem v) = some q ∧ q.err = .noError) :
    ∃ r, avcFixedDec d p size i old vs = some r ∧ r.err = .expectedArrayEnd := by
  induction old generalizing vs i with
  | nil =>
    cases vs with
    | nil => simp at hl
    | cons v vs => exact ⟨_, rfl, rfl⟩
  | cons o old ih =>
    cases vs with
    | nil => simp at hl
    | cons v vs =>
      obtain ⟨q, hq, hqe⟩ := h 0 o v rfl rfl
      obtain ⟨r, hr, hre⟩ := ih (i := i + 1) (by simpa using hl) fun i => h (i + 1)
      simp only [avcFixedDec, hq, Option.bind_eq_bind, Option.bind_some]
      rw [Res.andThen_ok hqe, hr]
      exact ⟨_, rfl, hre⟩

/-! ### Tuples -/

theorem CTypes.Stored.length {p : POpts} : {Ts : Type} → (ts : CTypes Ts) → ∀ {old vs xs}, ts.Stored p old vs xs → vs.length = ts.size
  | _, .nil, _, _, _, h => by simp only [CTypes.Stored] at h; simp [h, CTypes.size]
  | _, .cons t ts, _, _, _, h => by
    simp only [CTypes.Stored] at h
    obtain ⟨v, vs', rfl, _, h⟩ := h
    simp [CTypes.size, CTypes.Stored.length ts h]

theorem tupleDec_iff {p : POpts} : {Ts : Type} → (ts : CTypes Ts) → ∀ {old : Ts} {vs : List JVal} {r : Res Ts}, ts.dec p old vs = some r →
    (r.err = .noError ↔ ts.Stored p old vs r.val)
  | _, .nil, old, vs, r, h => by
    simp only [CTypes.dec, tupNilDec, Option.some.injEq] at h
    subst h
    cases vs <;> simp [CTypes.Stored]
  | _, .cons t ts, old, vs, r, h => by
    simp only [CTypes.dec] at h
    cases vs with
    | nil =>
      simp only [tupConsDec] at h
      obtain ⟨q, hq, rfl⟩ := Option.map_eq_some_iff.mp h
      obtain ⟨q', hq', hf⟩ := Option.bind_eq_some_iff.mp hq
      simp only [Res.failed] at hf
      split at hf
      · cases hf; rename_i hne; simp [Res.map, hne, CTypes.Stored]
      · cases hf
    | cons v vs =>
      simp only [tupConsDec, Option.bind_eq_bind] at h
      obtain ⟨q, hq, h⟩ := Option.bind_eq_some_iff.mp h
      by_cases hqe : q.err = .noError
      · rw [Res.andThen_ok hqe] at h
        obtain ⟨r', hr', rfl⟩ := Option.map_eq_some_iff.mp h
        obtain ⟨r'', hr'', rfl⟩ := Option.map_eq_some_iff.mp hr'
        have ih := tupleDec_iff ts hr''
        simp only [Res.map, CTypes.Stored, ih]
        constructor
        · intro b; exact ⟨v, vs, rfl, ⟨q, hq, hqe, rfl⟩, b⟩
        · rintro ⟨v', vs', h1, _, b⟩; cases h1; exact b
      · rw [Res.andThen_err hqe] at h
        cases h
        simp only [hqe, false_iff, CTypes.Stored]
        rintro ⟨v', vs', h1, ⟨q', h2, h3, -⟩, -⟩
        cases h1
        rw [hq] at h2
        cases h2
        exact hqe h3

/-! ### Sets -/

theorem setElemsDec_iff [DecidableEq T] {ins : List T → T → List T} (hins : ∀ l x, (ins l x).Perm (x :: l)) {d : Dec T} {init : T} {p : POpts}
    {vs : List JVal} {xs : List T} (hl : xs.length = vs.length)
    (h : ∀ (i : Nat) (v : JVal), vs[i]? = some v → ∃ q, d p init (elem v) = some q ∧ q.err = .noError ∧ xs[i]? = some q.val)
    (acc : List T) (hacc : acc.Nodup) :
    ∃ r, setElemsDec ins init d p acc vs = some r ∧ (r.err = .noError ∨ r.err = .duplicateInSet) ∧
      (r.err = .noError ↔ (acc ++ xs).Nodup) ∧ (r.err = .noError → r.val.Perm (acc ++ xs)) := by
  induction vs generalizing acc xs with
  | nil =>
    obtain rfl := List.length_eq_zero_iff.mp hl
    exact ⟨_, rfl, by simp [hacc]⟩
  | cons v vs ih =>
    cases xs with
    | nil => simp at hl
    | cons x xs =>
      obtain ⟨q, hq, hqe, hx⟩ := h 0 v rfl
      simp only [List.getElem?_cons_zero, Option.some.injEq] at hx
      subst hx
      simp only [setElemsDec, hq, Option.bind_eq_bind, Option.bind_some]
      rw [Res.andThen_ok hqe]
      by_cases hm : q.val ∈ acc
      · simp only [hm, if_true]
        refine ⟨_, rfl, .inr rfl, ?_, by simp⟩
        simp only [Option.map_some, reduceCtorEq, false_iff]
        intro hn
        exact (List.nodup_append.mp hn).2.2 q.val hm q.val (by simp) rfl
      · simp only [hm, if_false]
        have hp := hins acc q.val
        have hn : (ins acc q.val).Nodup := hp.symm.nodup (List.nodup_cons.mpr ⟨hm, hacc⟩)
        obtain ⟨r, hr, h0, h1, h2⟩ := ih (xs := xs) (by simpa using hl) (fun i => h (i + 1)) (ins acc q.val) hn
        have hperm : (ins acc q.val ++ xs).Perm (acc ++ q.val :: xs) :=
          (hp.append_right xs).trans (List.perm_middle.symm)
        rw [hr]
        refine ⟨_, rfl, h0, ?_, fun he => (h2 he).trans hperm⟩
        simp only
        rw [h1, hperm.nodup_iff]

/-! ### Maps -/

theorem lastOf_append (k : Bytes) (es : List (Bytes × V)) (e : Bytes × V) :
    lastOf k (es ++ [e]) = if e.1 = k then some e.2 else lastOf k es := by
  simp only [lastOf, List.reverse_append, List.reverse_cons, List.reverse_nil, List.nil_append, List.singleton_append, List.find?_cons]
  by_cases h : e.1 = k
  · simp [h]
  · simp [h, beq_eq_false_iff_ne.mpr h]

theorem keyed_unique {m : List (Bytes × V)} (h : Keyed m) {k : Bytes} {x y : V} (hx : (k, x) ∈ m) (hy : (k, y) ∈ m) : x = y := by
  induction m with
  | nil => simp at hx
  | cons e m ih =>
    simp only [Keyed, List.map_cons, List.nodup_cons] at h
    rcases List.mem_cons.mp hx with rfl | hx
    · rcases List.mem_cons.mp hy with h' | hy
      · cases h'; rfl
      · exact absurd (List.mem_map_of_mem (f := Prod.fst) hy) h.1
    · rcases List.mem_cons.mp hy with rfl | hy
      · rename_i hx'; exact absurd (List.mem_map_of_mem (f := Prod.fst) hx') h.1
      · exact ih h.2 hx hy

theorem keyed_lastOf {m : List (Bytes × V)} (h : Keyed m) (k : Bytes) (x : V) : lastOf k m = some x ↔ (k, x) ∈ m := by
  simp only [lastOf, Option.map_eq_some_iff]
  constructor
  · rintro ⟨e, he, rfl⟩
    have h1 := List.mem_of_find?_eq_some he
    have h2 := List.find?_some he
    simp only [beq_iff_eq] at h2
    subst h2
    exact List.mem_reverse.mp h1
  · intro hm
    cases hf : m.reverse.find? (·.1 == k) with
    | none =>
      rw [List.find?_eq_none] at hf
      have := hf (k, x) (List.mem_reverse.mpr hm)
      simp at this
    | some e =>
      have h1 := List.mem_of_find?_eq_some hf
      have h2 := List.find?_some hf
      simp only [beq_iff_eq] at h2
      subst h2
      exact ⟨e, rfl, keyed_unique h (List.mem_reverse.mp h1) hm⟩

theorem mapSet_keyed {ins : List (Bytes × V) → Bytes × V → List (Bytes × V)} (hins : ∀ l x, (ins l x).Perm (x :: l)) {m : List (Bytes × V)}
    (h : Keyed m) (k : Bytes) (v : V) : Keyed (mapSet ins m k v) := by
  unfold mapSet
  split
  · have : (m.map fun e => if e.1 = k then (k, v) else e).map Prod.fst = m.map Prod.fst := by
      rw [List.map_map]
      apply List.map_congr_left
      intro e _
      simp only [Function.comp]
      split
      · rename_i h; exact h.symm
      · rfl
    rw [Keyed, this]
    exact h
  · rename_i hk
    have := (hins m (k, v)).map Prod.fst
    exact this.symm.nodup (by simpa using ⟨by simpa using hk, h⟩)

theorem mapSet_mem {ins : List (Bytes × V) → Bytes × V → List (Bytes × V)} (hins : ∀ l x, (ins l x).Perm (x :: l)) {m : List (Bytes × V)}
    (k : Bytes) (v : V) (k' : Bytes) (x : V) : (k', x) ∈ mapSet ins m k v ↔ if k = k' then x = v else (k', x) ∈ m := by
  unfold mapSet
  split
  · rename_i hk
    simp only [List.mem_map]
    constructor
    · rintro ⟨e, he, h⟩
      split at h
      · cases h; simp
      · rename_i hne
        subst h
        rw [if_neg (fun h => hne h.symm)]
        exact he
    · intro h
      split at h
      · rename_i hkk
        subst hkk h
        obtain ⟨e, he, hek⟩ := List.mem_map.mp hk
        exact ⟨e, he, by simp [hek]⟩
      · rename_i hne
        exact ⟨(k', x), h, by rw [if_neg (fun h : k' = k => hne h.symm)]⟩
  · rename_i hk
    rw [(hins m (k, v)).mem_iff, List.mem_cons]
    constructor
    · rintro (h | h)
      · cases h; simp
      · have : k ≠ k' := fun hh => hk (hh ▸ List.mem_map_of_mem (f := Prod.fst) h)
        simp [this, h]
    · intro h
      split at h
      · rename_i hkk; subst hkk h; exact .inl rfl
      · exact .inr h

/-- What is stored for an object: the value of the last member with the key, else what was there before. -/
theorem entriesDec_last {ins : List (Bytes × V) → Bytes × V → List (Bytes × V)} (hins : ∀ l x, (ins l x).Perm (x :: l)) {d : Dec V} {init : V} {p : POpts}
    {ms : List (Bytes × JVal)} {acc : List (Bytes × V)} (hacc : Keyed acc) {r : Res (List (Bytes × V))}
    (h : entriesDec (mapSet ins) init d p acc ms = some r) (he : r.err = .noError) :
    ∃ xs : List (Bytes × V), xs.map Prod.fst = ms.map (fun m => escapesIn m.1) ∧
      (∀ (i : Nat) (n : Bytes) (v : JVal), ms[i]? = some (n, v) → ∃ q, d p init (.val (n, .string) v) = some q ∧ q.err = .noError ∧ xs[i]? = some (escapesIn n, q.val)) ∧
      Keyed r.val ∧ ∀ k x, (k, x) ∈ r.val ↔ lastOf k (acc ++ xs) = some x := by
  induction ms generalizing acc r with
  | nil =>
    simp only [entriesDec, Option.some.injEq] at h
    subst h
    exact ⟨[], by simp, by simp, hacc, fun k x => by simp [keyed_lastOf hacc]⟩
  | cons m ms ih =>
    obtain ⟨n, v⟩ := m
    simp only [entriesDec, Option.bind_eq_bind] at h
    obtain ⟨q, hq, h⟩ := Option.bind_eq_some_iff.mp h
    by_cases hqe : q.err = .noError
    · rw [Res.andThen_ok hqe] at h
      obtain ⟨r', hr', rfl⟩ := Option.map_eq_some_iff.mp h
      have hk := mapSet_keyed hins hacc (escapesIn n) q.val
      obtain ⟨xs, h1, h2, h3, h4⟩ := ih hk hr' he
      refine ⟨(escapesIn n, q.val) :: xs, by simp [h1], ?_, h3, ?_⟩
      · intro i n' v' hw
        cases i with
        | zero =>
          simp only [List.getElem?_cons_zero, Option.some.injEq, Prod.mk.injEq] at hw
          obtain ⟨rfl, rfl⟩ := hw
          exact ⟨q, hq, hqe, rfl⟩
        | succ i => exact h2 i n' v' hw
      · intro k x
        rw [h4]
        have key : ∀ ys : List (Bytes × V), lastOf k (mapSet ins acc (escapesIn n) q.val ++ ys) = lastOf k (acc ++ (escapesIn n, q.val) :: ys) := by
          intro ys
          have hb : lastOf k (mapSet ins acc (escapesIn n) q.val) = lastOf k (acc ++ [(escapesIn n, q.val)]) := by
            apply Option.ext
            intro y
            rw [keyed_lastOf hk, mapSet_mem hins, lastOf_append]
            simp only
            split
            · simp [eq_comm]
            · exact (keyed_lastOf hacc k y).symm
          have hsplit : acc ++ (escapesIn n, q.val) :: ys = (acc ++ [(escapesIn n, q.val)]) ++ ys := by simp
          rw [hsplit]
          have gen : ∀ a b : List (Bytes × V), lastOf k a = lastOf k b → lastOf k (a ++ ys) = lastOf k (b ++ ys) := by
            intro a b hab
            simp only [lastOf, List.reverse_append, List.find?_append, Option.map_or] at hab ⊢
            rw [hab]
          exact gen _ _ hb
        rw [key]
    · rw [Res.andThen_err hqe] at h
      cases h
      exact absurd he hqe

end JsonStruct
