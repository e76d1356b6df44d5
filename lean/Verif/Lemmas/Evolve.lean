import Verif.Spec.Evolve
import Verif.Props.Independent
import Verif.Lemmas.EvolveNumber

/-
Each change of a declaration on its own: what was written before is read without error after it.
-/

namespace JsonStruct

/-- What the type `a` writes is read by the type `b`, and the relation holds. -/
def CType.ReadBy (a : CType A) (b : CType B) (R : B → A → B → Prop) : Prop :=
  ∀ v, a.Valid v → ∀ old, b.Fresh old → ∀ p : POpts, p.allowUnassigned = true → p.allowMissing = true → ∀ l,
    match a.enc v with
    | some j => ∃ x mis un, b.dec p old (.val l j) = some ⟨.noError, x, mis, un⟩ ∧ R old v x
    | none => R old v old

theorem CType.ReadBy.some {a : CType A} {b : CType B} {R : B → A → B → Prop} (h : a.ReadBy b R) {v : A} (hv : a.Valid v) {old : B}
    (ho : b.Fresh old) {p : POpts} (hu : p.allowUnassigned = true) (hm : p.allowMissing = true) (l : Lbl) {j : JVal} (hj : a.enc v = .some j) :
    ∃ x mis un, b.dec p old (.val l j) = .some ⟨.noError, x, mis, un⟩ ∧ R old v x := by
  have := h v hv old ho p hu hm l
  rw [hj] at this
  exact this

theorem CType.ReadBy.none {a : CType A} {b : CType B} {R : B → A → B → Prop} (h : a.ReadBy b R) {v : A} (hv : a.Valid v) {old : B}
    (ho : b.Fresh old) (hj : a.enc v = .none) : R old v old := by
  have := h v hv old ho {} rfl rfl ([], .ascii)
  rw [hj] at this
  exact this

/-- Reading gives one value only. -/
theorem readBy_all {a : CType A} {b : CType B} {Rs : (B → A → B → Prop) → Prop} (hne : ∃ R, Rs R) (h : ∀ R, Rs R → a.ReadBy b R) :
    a.ReadBy b fun old v x => ∀ R, Rs R → R old v x := by
  obtain ⟨R0, h0⟩ := hne
  intro v hv old ho p hu hm l
  cases hj : a.enc v with
  | none => exact fun R hR => (h R hR).none hv ho hj
  | some j =>
    obtain ⟨x, mis, un, g1, -⟩ := (h R0 h0).some hv ho hu hm l hj
    refine ⟨x, mis, un, g1, fun R hR => ?_⟩
    obtain ⟨x', _, _, k1, k2⟩ := (h R hR).some hv ho hu hm l hj
    rw [g1] at k1
    cases k1
    exact k2

/-! ### Sequences -/

theorem elemsDec_read {a : CType A} {b : CType B} {R : B → A → B → Prop} (h : a.ReadBy b R) (hi : b.Fresh b.init) {p : POpts}
    (hu : p.allowUnassigned = true) (hm : p.allowMissing = true) (vs : List A) (hv : ∀ x ∈ vs, a.Valid x ∧ (a.enc x).isSome) (acc : List B) :
    ∃ xs mis un, elemsDec b.init b.dec p acc (vs.filterMap a.enc) = some ⟨.noError, acc ++ xs, mis, un⟩ ∧
      List.Forall₂ (R b.init) vs xs := by
  induction vs generalizing acc with
  | nil => exact ⟨[], [], [], by simp [elemsDec], .nil⟩
  | cons v vs ih =>
    obtain ⟨hx1, hx2⟩ := hv v (by simp)
    obtain ⟨j, hj⟩ := Option.isSome_iff_exists.mp hx2
    obtain ⟨x, m1, u1, h1, k1⟩ := h.some hx1 hi hu hm ([], .ascii) hj
    obtain ⟨xs, m2, u2, h2, k2⟩ := ih (fun y hy => hv y (by simp [hy])) (acc ++ [x])
    refine ⟨x :: xs, m1 ++ m2, u1 ++ u2, ?_, .cons k1 k2⟩
    simp only [List.filterMap_cons, hj, elemsDec, elem, h1, Option.bind_eq_bind, Option.bind_some]
    rw [Res.andThen_ok rfl, h2]
    simp

theorem setElemsDec_read [DecidableEq B] {a : CType A} {b : CType B} {R : B → A → B → Prop} (h : a.ReadBy b R) (hi : b.Fresh b.init) {p : POpts}
    (hu : p.allowUnassigned = true) (hm : p.allowMissing = true) {ins : List B → B → List B} (hins : ∀ l x, (ins l x).Perm (x :: l))
    (hinj : ∀ v w x, a.Valid v → a.Valid w → R b.init v x → R b.init w x → v = w) (vs : List A) (hd : vs.Nodup)
    (hv : ∀ x ∈ vs, a.Valid x ∧ (a.enc x).isSome) (acc : List B) (hacc : ∀ y ∈ acc, ∃ w, a.Valid w ∧ w ∉ vs ∧ R b.init w y) :
    ∃ xs mis un, setElemsDec ins b.init b.dec p acc (vs.filterMap a.enc) = some ⟨.noError, xs.foldl ins acc, mis, un⟩ ∧
      List.Forall₂ (R b.init) vs xs := by
  induction vs generalizing acc with
  | nil => exact ⟨[], [], [], by simp [setElemsDec], .nil⟩
  | cons v vs ih =>
    obtain ⟨hx1, hx2⟩ := hv v (by simp)
    obtain ⟨hd1, hd2⟩ := List.nodup_cons.mp hd
    obtain ⟨j, hj⟩ := Option.isSome_iff_exists.mp hx2
    obtain ⟨x, m1, u1, h1, k1⟩ := h.some hx1 hi hu hm ([], .ascii) hj
    have hnew : x ∉ acc := by
      intro hx
      obtain ⟨w, g1, g2, g3⟩ := hacc x hx
      exact g2 (by simp [hinj w v x g1 hx1 g3 k1])
    obtain ⟨xs, m2, u2, h2, k2⟩ := ih hd2 (fun y hy => hv y (by simp [hy])) (ins acc x) (by
      intro y hy
      rcases List.mem_cons.mp ((hins acc x).mem_iff.mp hy) with rfl | hy
      · exact ⟨v, hx1, hd1, k1⟩
      · obtain ⟨w, g1, g2, g3⟩ := hacc y hy
        exact ⟨w, g1, fun hw => g2 (by simp [hw]), g3⟩)
    refine ⟨x :: xs, m1 ++ m2, u1 ++ u2, ?_, .cons k1 k2⟩
    simp only [List.filterMap_cons, hj, setElemsDec, elem, h1, Option.bind_eq_bind, Option.bind_some]
    rw [Res.andThen_ok rfl, if_neg hnew, h2]
    simp

theorem fixedDec_read {a : CType A} {b : CType B} {R : B → A → B → Prop} (h : a.ReadBy b R) {p : POpts}
    (hu : p.allowUnassigned = true) (hm : p.allowMissing = true) (vs : List A) (hv : ∀ x ∈ vs, a.Valid x ∧ (a.enc x).isSome) (old : List B)
    (ho : ∀ x ∈ old, b.Fresh x) (hl : old.length = vs.length) :
    ∃ xs mis un, fixedDec b.dec p old (vs.filterMap a.enc) = some ⟨.noError, xs, mis, un⟩ ∧ xs.length = vs.length ∧
      ∀ (i : Nat) o w, old[i]? = some o → vs[i]? = some w → ∃ y, xs[i]? = some y ∧ R o w y := by
  induction vs generalizing old with
  | nil =>
    obtain rfl := List.length_eq_zero_iff.mp hl
    exact ⟨[], [], [], by simp [fixedDec], rfl, by simp⟩
  | cons v vs ih =>
    cases old with
    | nil => simp at hl
    | cons o old =>
      obtain ⟨hx1, hx2⟩ := hv v (by simp)
      obtain ⟨j, hj⟩ := Option.isSome_iff_exists.mp hx2
      obtain ⟨x, m1, u1, h1, k1⟩ := h.some hx1 (ho o (by simp)) hu hm ([], .ascii) hj
      obtain ⟨xs, m2, u2, h2, k2, k3⟩ := ih (fun y hy => hv y (by simp [hy])) old (fun y hy => ho y (by simp [hy])) (by simpa using hl)
      refine ⟨x :: xs, m1 ++ m2, u1 ++ u2, ?_, by simp [k2], ?_⟩
      · simp only [List.filterMap_cons, hj, fixedDec, elem, h1, Option.bind_eq_bind, Option.bind_some]
        rw [Res.andThen_ok rfl, h2]
        simp [Res.map]
      · intro i o' w ho' hw
        cases i with
        | zero => simp at ho' hw; subst ho' hw; exact ⟨x, by simp, k1⟩
        | succ i => exact k3 i o' w (by simpa using ho') (by simpa using hw)

theorem escapesIn_digits {ds : Bytes} (h : ∀ c ∈ ds, c ≠ BSL) : escapesIn ds = ds := by
  induction ds with
  | nil => rfl
  | cons c ds ih => rw [escapesIn_plain (h c (by simp)), ih fun c hc => h c (by simp [hc])]

theorem entriesDec_read {ins : List (Bytes × B) → Bytes × B → List (Bytes × B)} (hins : ∀ l x, (ins l x).Perm (x :: l))
    {a : CType A} {b : CType B} {R : B → A → B → Prop} (h : a.ReadBy b R) (hi : b.Fresh b.init) {p : POpts}
    (hu : p.allowUnassigned = true) (hm : p.allowMissing = true) (vs : List (Bytes × A))
    (hv : ∀ e ∈ vs, escapesIn e.1 = e.1 ∧ a.Valid e.2 ∧ (a.enc e.2).isSome) (acc : List (Bytes × B))
    (hn : (vs.map Prod.fst).Nodup) (hd : ∀ e ∈ vs, e.1 ∉ acc.map Prod.fst) :
    ∃ xs mis un, entriesDec (mapSet ins) b.init b.dec p acc (vs.filterMap fun e => (a.enc e.2).map (e.1, ·)) =
      some ⟨.noError, xs.foldl ins acc, mis, un⟩ ∧ List.Forall₂ (fun e f => f.1 = e.1 ∧ R b.init e.2 f.2) vs xs := by
  induction vs generalizing acc with
  | nil => exact ⟨[], [], [], by simp [entriesDec], .nil⟩
  | cons e vs ih =>
    obtain ⟨n, v⟩ := e
    obtain ⟨hx0, hx1, hx2⟩ := hv (n, v) (by simp)
    obtain ⟨j, hj⟩ := Option.isSome_iff_exists.mp hx2
    obtain ⟨x, m1, u1, h1, k1⟩ := h.some hx1 hi hu hm (n, .string) hj
    rw [List.map_cons, List.nodup_cons] at hn
    obtain ⟨xs, m2, u2, h2, k2⟩ := ih (fun y hy => hv y (by simp [hy])) (ins acc (n, x)) hn.2 (fun y hy hm => by
      obtain ⟨z, hz, hzy⟩ := List.mem_map.mp hm
      rw [(hins acc (n, x)).mem_iff] at hz
      rcases List.mem_cons.mp hz with rfl | hm
      · exact hn.1 (hzy ▸ List.mem_map_of_mem hy)
      · exact hd y (by simp [hy]) (hzy ▸ List.mem_map_of_mem hm))
    refine ⟨(n, x) :: xs, m1 ++ m2, u1 ++ u2, ?_, .cons ⟨rfl, k1⟩ k2⟩
    simp only at hj hx0
    simp only [List.filterMap_cons, hj, Option.map_some, entriesDec, h1, Option.bind_eq_bind, Option.bind_some]
    rw [Res.andThen_ok rfl]
    simp only [hx0]
    rw [mapSet_new (hd (n, v) (by simp)), h2]
    simp

theorem membersAsMap_read {ins : List (Bytes × B) → Bytes × B → List (Bytes × B)} (hins : ∀ l x, (ins l x).Perm (x :: l))
    {b : CType B} (hi : b.Fresh b.init) {p : POpts}
    (hu : p.allowUnassigned = true) (hm : p.allowMissing = true) {v : A} (es : List (AsEntry A B)) (h : ∀ e ∈ es, e.member.type.ReadBy b e.rel)
    (hv : ∀ e ∈ es, e.member.type.Valid (e.member.get v)) (hp : ∀ e ∈ es, escapesIn (e.member.names.headD []) = e.member.names.headD [])
    (hn : (es.map fun e => e.member.names.headD []).Nodup) (acc : List (Bytes × B)) (hd : ∀ e ∈ es, e.member.names.headD [] ∉ acc.map Prod.fst) :
    ∃ xs mis un, entriesDec (mapSet ins) b.init b.dec p acc (es.filterMap fun e => (e.member.type.enc (e.member.get v)).map (e.member.names.headD [], ·)) =
      some ⟨.noError, xs.foldl ins acc, mis, un⟩ ∧
      List.Forall₂ (fun e f => f.1 = e.member.names.headD [] ∧ e.rel b.init (e.member.get v) f.2) (es.filter fun e => (e.member.type.enc (e.member.get v)).isSome) xs := by
  induction es generalizing acc with
  | nil => exact ⟨[], [], [], by simp [entriesDec], .nil⟩
  | cons e es ih =>
    rw [List.map_cons, List.nodup_cons] at hn
    have ih := ih (fun e he => h e (by simp [he])) (fun e he => hv e (by simp [he])) (fun e he => hp e (by simp [he])) hn.2
    cases hj : e.member.type.enc (e.member.get v) with
    | none =>
      obtain ⟨xs, mis, un, h1, h2⟩ := ih acc (fun e he => hd e (by simp [he]))
      exact ⟨xs, mis, un, by simpa [List.filterMap_cons, hj] using h1, by simpa [List.filter_cons, hj] using h2⟩
    | some j =>
      obtain ⟨x, m1, u1, h1, k1⟩ := (h e (by simp)).some (hv e (by simp)) hi hu hm (e.member.names.headD [], .string) hj
      obtain ⟨xs, m2, u2, h2, k2⟩ := ih (ins acc (e.member.names.headD [], x)) (fun y hy hm => by
        obtain ⟨z, hz, hzy⟩ := List.mem_map.mp hm
        rw [(hins acc (e.member.names.headD [], x)).mem_iff] at hz
        rcases List.mem_cons.mp hz with rfl | hm
        · exact hn.1 (List.mem_map.mpr ⟨y, hy, hzy.symm⟩)
        · exact hd y (by simp [hy]) (hzy ▸ List.mem_map_of_mem hm))
      refine ⟨(e.member.names.headD [], x) :: xs, m1 ++ m2, u1 ++ u2, ?_, ?_⟩
      · simp only [List.filterMap_cons, hj, Option.map_some, entriesDec, h1, Option.bind_eq_bind, Option.bind_some]
        rw [Res.andThen_ok rfl]
        simp only [hp e (by simp)]
        rw [mapSet_new (hd e (by simp)), h2]
        simp
      · rw [List.filter_cons, if_pos (by simp [hj])]
        exact .cons ⟨rfl, k1⟩ k2

/-! ### Structs -/

/-- The name of a member means something to the struct. -/
theorem name_meant {s : CStruct B} {f : Entry B} (hf : f ∈ s.entries) {n : Bytes} (hn : n ∈ f.names) :
    ∃ m, (resolve (s.specs []) n).bind ((s.specs [])[·]?) = some m := by
  obtain ⟨m, hm, h1, _⟩ := (s.specs_entries []).1 f hf
  cases h : (resolve (s.specs []) n).bind ((s.specs [])[·]?) with
  | some m => exact ⟨m, rfl⟩
  | none =>
    have := resolve_get.mp h
    rw [hasMember_iff.mpr ⟨m, hm, h1 ▸ hn⟩] at this
    cases this

theorem name_unknown {s : CStruct B} {n : Bytes} (hn : ∀ f ∈ s.entries, n ∉ f.names) :
    (resolve (s.specs []) n).bind ((s.specs [])[·]?) = none := by
  rw [resolve_get, ← Bool.not_eq_true, hasMember_iff]
  rintro ⟨m, hm, h⟩
  have h2 := (s.specs_entries []).2.mem_iff.mp (List.mem_map_of_mem hm)
  obtain ⟨f, hf, he⟩ := List.mem_map.mp h2
  exact hn f hf (he ▸ h)

theorem membersDec_read {s : CStruct B} (hnames : (s.entries.flatMap Entry.names).Nodup)
    (hapart : (s.entries.map Entry.access).Pairwise Access.Apart) (hstored : ∀ f ∈ s.entries, ∀ y t, f.get (f.set y t) = y)
    {p : POpts} (hu : p.allowUnassigned = true) (hm : p.allowMissing = true) (R : (e : Entry A) → (f : Entry B) → f.M → e.M → f.M → Prop) {v : A}
    (es : List (Entry A)) (h : ∀ e ∈ es, ∀ f ∈ s.entries, e.Goes f → e.type.ReadBy f.type (R e f)) (hv : ∀ e ∈ es, e.type.Valid (e.get v))
    (hone : es.Pairwise fun e e' => ∀ f ∈ s.entries, e.Goes f → ¬ e'.Goes f) (x : B) (hf : ∀ f ∈ s.entries, f.type.Fresh (f.get x) ∨ ∀ e ∈ es, ¬ e.Goes f) :
    ∃ x' mis un, membersDec (s.specs []) p x (es.filterMap fun e => (e.type.enc (e.get v)).map (e.names.headD [], ·)) =
        some ⟨.noError, x', mis, un⟩ ∧
      (∀ e ∈ es, ∀ f ∈ s.entries, e.Goes f → R e f (f.get x) (e.get v) (f.get x')) ∧
      ∀ f ∈ s.entries, (∀ e ∈ es, ¬ e.Goes f) → f.get x' = f.get x := by
  induction es generalizing x with
  | nil => exact ⟨x, [], [], by simp [membersDec], by simp, fun _ _ _ => rfl⟩
  | cons e es ih =>
    rw [List.pairwise_cons] at hone
    obtain ⟨hone1, hone2⟩ := hone
    have ih := fun x hf => ih (fun e he => h e (by simp [he])) (fun e he => hv e (by simp [he])) hone2 x hf
    cases hj : e.type.enc (e.get v) with
    | none =>
      obtain ⟨x', mis, un, h1, h2, h3⟩ := ih x (fun f hf' => (hf f hf').imp_right fun h e he => h e (by simp [he]))
      refine ⟨x', mis, un, by simpa [List.filterMap_cons, hj] using h1, ?_, fun f hf' hg => h3 f hf' fun e he => hg e (by simp [he])⟩
      intro e' he' f hf' hg
      rcases List.mem_cons.mp he' with rfl | he'
      · rw [h3 f hf' fun e'' he'' => hone1 e'' he'' f hf' hg]
        refine (h e' (by simp) f hf' hg).none (hv e' (by simp)) ?_ hj
        rcases hf f hf' with g | g
        · exact g
        · exact absurd hg (g e' (by simp))
      · exact h2 e' he' f hf' hg
    | some j =>
      by_cases hk : ∃ f ∈ s.entries, e.Goes f
      · obtain ⟨f, hfm, hg⟩ := hk
        obtain ⟨m, hm'⟩ := name_meant hfm hg
        have reads : ∀ f' ∈ s.entries, e.Goes f' → ∃ y mis un, m.dec p x (.val (e.names.headD [], .string) j) =
            some ⟨.noError, f'.set y x, mis, un⟩ ∧ R e f' (f'.get x) (e.get v) y := by
          intro f' hf' hg'
          have hfr : f'.type.Fresh (f'.get x) := by
            rcases hf f' hf' with g | g
            · exact g
            · exact absurd hg' (g e (by simp))
          obtain ⟨y, mis, un, g1, g2⟩ := (h e (by simp) f' hf' hg').some (hv e (by simp)) hfr hu hm (e.names.headD [], .string) hj
          rcases meant_entry hapart hm' hf' with ⟨_, k2⟩ | ⟨_, _, _, _, _, k⟩
          · exact ⟨y, mis, un, by rw [k2]; simp only [partDec, g1, Option.map_some, Res.map], g2⟩
          · exact absurd hg' (k hnames)
        obtain ⟨y, m1, u1, g1, g2⟩ := reads f hfm hg
        have others : ∀ f' ∈ s.entries, ¬ e.Goes f' → f'.get (f.set y x) = f'.get x := by
          intro f' hf' hg'
          rcases meant_entry hapart hm' hf' with ⟨k1, _⟩ | ⟨e', _, _, k2, k3, _⟩
          · exact absurd k1 hg'
          · rw [k2] at g1
            exact part_apart k3 g1
        obtain ⟨x', mis, un, h1, h2, h3⟩ := ih (f.set y x) (fun f' hf' => by
          by_cases hg' : e.Goes f'
          · exact .inr fun e' he' => hone1 e' he' f' hf' hg'
          · rw [others f' hf' hg']
            exact (hf f' hf').imp_right fun g e he => g e (by simp [he]))
        refine ⟨x', m1 ++ mis, u1 ++ un, ?_, ?_, ?_⟩
        · simp only [List.filterMap_cons, hj, Option.map_some]
          rw [membersDec_cons_ok hm' g1 rfl h1]
        · intro e' he' f' hf' hg'
          rcases List.mem_cons.mp he' with rfl | he'
          · rw [h3 f' hf' fun e'' he'' => hone1 e'' he'' f' hf' hg']
            obtain ⟨y', _, _, k1, k2⟩ := reads f' hf' hg'
            rw [g1] at k1
            simp only [Option.some.injEq, Res.mk.injEq, true_and] at k1
            rw [k1.1, hstored f' hf']
            exact k2
          · have := h2 e' he' f' hf' hg'
            rwa [others f' hf' fun hg => hone1 e' he' f' hf' hg hg'] at this
        · intro f' hf' hg'
          rw [h3 f' hf' fun e he => hg' e (by simp [he])]
          exact others f' hf' (hg' e (by simp))
      · have hk' : ∀ f ∈ s.entries, ¬ e.Goes f := fun f hf hg => hk ⟨f, hf, hg⟩
        obtain ⟨x', mis, un, h1, h2, h3⟩ := ih x (fun f hf' => (hf f hf').imp_right fun h e he => h e (by simp [he]))
        refine ⟨x', (if p.track then [e.names.headD []] else []) ++ mis, un, ?_, ?_, fun f hf' hg => h3 f hf' fun e he => hg e (by simp [he])⟩
        · simp only [List.filterMap_cons, hj, Option.map_some]
          rw [membersDec_cons_unknown (name_unknown hk') hm h1]
        · intro e' he' f hf' hg
          rcases List.mem_cons.mp he' with rfl | he'
          · exact absurd hg (hk' f hf')
          · exact h2 e' he' f hf' hg

/-- An entry of a map as if it were a member of a struct. -/
def mapEntry (a : CType A) (e : Bytes × A) : Entry Unit := { names := [e.1], type := a, get := fun _ => e.2, set := fun _ t => t }

/-! ### All changes -/

theorem Newer.readBy {a : CType A} {b : CType B} {R : B → A → B → Prop} (h : Newer a b R) : a.ReadBy b R := by
  induction h with
  | same ht =>
    rename_i t
    intro v hv old ho p hu hm l
    have := t.roundTrips ht v hv old ho p l (.inl hu)
    cases hj : t.enc v with
    | none => rw [hj] at this; exact this
    | some j =>
      rw [hj] at this
      obtain ⟨un, g, _⟩ := this
      exact ⟨v, [], un, g, rfl⟩
  | @int I J hI hJ hs hb =>
    intro v hv old ho p hu hm l
    simp only [CType.Valid] at hv
    obtain ⟨ds, h1, h2, h3⟩ := C16_canonical_decimal I hI v hv.2
    simp only [CType.enc, h1, Option.map_some]
    have hn : decide (v < 0) = true → J.signed = true := by
      intro hlt
      refine hs ?_
      have := hv.2.1
      simp only [IntTy.min] at this
      cases hI' : I.signed with
      | true => rfl
      | false => simp [hI'] at this; simp at hlt; omega
    have hfit : decVal ds < 2 ^ (if J.bits ≤ 64 then 64 else 128) := by
      rw [h3]
      have h4 : I.bits ≤ 64 → v.natAbs < 2 ^ 64 := by
        obtain ⟨ib, is⟩ := I
        intro hb
        simp only [IntTy.Supported, List.mem_cons, List.not_mem_nil, or_false] at hI hb
        simp only [IntTy.InRange, IntTy.min, IntTy.max] at hv
        rcases hI with rfl | rfl | rfl | rfl | rfl <;> cases is <;> simp at hv hb ⊢ <;> omega
      have h5 : v.natAbs < 2 ^ 128 := by
        obtain ⟨ib, is⟩ := I
        simp only [IntTy.Supported, List.mem_cons, List.not_mem_nil, or_false] at hI
        simp only [IntTy.InRange, IntTy.min, IntTy.max] at hv
        rcases hI with rfl | rfl | rfl | rfl | rfl <;> cases is <;> simp at hv ⊢ <;> omega
      split
      · exact h4 (by omega)
      · exact h5
    have := C15_integer_literal_partial J hJ (decide (v < 0)) ds (by
      rcases h2 with rfl | h2
      · exact ⟨by simp, by decide⟩
      · exact h2.1) hn hfit
    refine ⟨J.clamp v, [], [], ?_, rfl⟩
    simp only [decide_eq_true_eq] at this
    have hval : (if v < 0 then -(decVal ds : Int) else decVal ds) = v := by rw [h3]; split <;> omega
    rw [hval] at this
    simp [CType.dec, intDec, scalarDec, Item.first, Item.toks, JVal.toks, this, Item.isScalar, JVal.isContainer]
  | @string m m' =>
    intro v hv old ho p hu hm l
    obtain ⟨un, g⟩ := ((CType.string m).roundTrips trivial).some (v := v) (j := .str (escapesOut m v)) (by simp only [CType.enc]) hv (old := old) trivial hu l
    exact ⟨v, [], un, g, rfl⟩
  | @enum names names' U U' hn =>
    intro v hv old ho p hu hm l
    simp only [CType.Valid] at hv
    have hl : v.toNat < names.length := by omega
    simp only [CType.enc, List.getElem?_eq_getElem hl, Option.map_some]
    have hmem := hn _ (List.getElem_mem hl)
    cases hf : names'.findIdx? (· = names[v.toNat]) with
    | none => have := List.findIdx?_eq_none_iff.mp hf _ hmem; simp at this
    | some i =>
      refine ⟨(i : Int), [], [], ?_, by omega, names[v.toNat], rfl, ?_⟩
      · simp [CType.dec, enumDec, scalarDec, Item.first, Item.toks, JVal.toks, hf, Item.isScalar, JVal.isContainer]
      · obtain ⟨h1, h2, -⟩ := List.findIdx?_eq_some_iff_getElem.mp hf
        simp only [Int.toNat_natCast]
        rw [List.getElem?_eq_getElem h1]
        simpa using h2
  | @enumName names U m hn =>
    intro v hv old ho p hu hm l
    simp only [CType.Valid] at hv
    have hl : v.toNat < names.length := by omega
    simp only [CType.enc, List.getElem?_eq_getElem hl, Option.map_some]
    refine ⟨names[v.toNat], [], [], ?_, rfl⟩
    simp [CType.dec, stringDec, scalarDec, Item.first, Item.toks, JVal.toks, hn _ (List.getElem_mem hl), Item.isScalar, JVal.isContainer]
  | @intText I m =>
    intro v hv old ho p hu hm l
    simp only [CType.Valid] at hv
    obtain ⟨ds, h1, h2, h3⟩ := C16_canonical_decimal I hv.1 v hv.2
    simp only [CType.enc, h1, Option.map_some]
    refine ⟨(if v < 0 then b!"-" else []) ++ ds, [], [], ?_, ds, rfl, h2, h3⟩
    have hd : ∀ c ∈ ds, c ≠ BSL := by
      rcases h2 with rfl | h2
      · decide
      · intro c hc h
        have := h2.1.2 c hc
        subst h
        revert this
        decide
    have he : escapesIn ((if v < 0 then b!"-" else []) ++ ds) = (if v < 0 then b!"-" else []) ++ ds := by
      refine escapesIn_digits fun c hc => ?_
      rcases List.mem_append.mp hc with hc | hc
      · split at hc
        · simp only [List.mem_singleton] at hc; subst hc; decide
        · cases hc
      · exact hd c hc
    simp [CType.dec, stringDec, scalarDec, Item.first, Item.toks, JVal.toks, he, Item.isScalar, JVal.isContainer]
  | @boolText m =>
    intro v hv old ho p hu hm l
    refine ⟨if v then b!"true" else b!"false", [], [], ?_, rfl⟩
    have h1 : escapesIn b!"true" = b!"true" := by decide +kernel
    have h2 : escapesIn b!"false" = b!"false" := by decide +kernel
    cases v <;> simp [CType.dec, stringDec, scalarDec, Item.first, Item.toks, JVal.toks, Item.isScalar, JVal.isContainer, h1, h2]
  | @intDouble I hI hb =>
    intro v hv old ho p hu hm l
    simp only [CType.Valid] at hv
    obtain ⟨ds, h1, h2, h3⟩ := C16_canonical_decimal I hI v hv.2
    obtain ⟨b, g1, g2, g3⟩ := int_double hI hb hv.2 h2 h3
    simp only [CType.enc, h1, Option.map_some]
    refine ⟨if v < 0 then 2 ^ 63 + b else b, [], [], ?_, b, g2, rfl, fun h => near_exact h g2 g3, g3⟩
    simp [CType.dec, doubleDec, scalarDec, Item.first, Item.toks, JVal.toks, Item.isScalar, JVal.isContainer, g1]
  | @intFloat I hI hb =>
    intro v hv old ho p hu hm l
    simp only [CType.Valid] at hv
    obtain ⟨ds, h1, h2, h3⟩ := C16_canonical_decimal I hI v hv.2
    obtain ⟨b, g1, g2⟩ := int_float hI hb hv.2 h2 h3
    simp only [CType.enc, h1, Option.map_some]
    refine ⟨if v < 0 then 2 ^ 31 + b else b, [], [], ?_, b, rfl, g2⟩
    simp [CType.dec, floatDec, scalarDec, Item.first, Item.toks, JVal.toks, Item.isScalar, JVal.isContainer, g1]
  | toOptional h ih => 
    intro v hv old ho p hu hm l
    simp only [CType.Fresh] at ho
    exact ih v hv old ho p hu hm l
  | toStdOptional h ha hb ih =>
    rename_i R _ _ a b
    intro v hv old ho p hu hm l
    obtain ⟨j, hj⟩ := Option.isSome_iff_exists.mp (ha v hv)
    obtain ⟨x, mis, un, g1, g2⟩ := ih.some hv (b.fresh_init hb) hu hm l hj
    rw [hj]
    exact ⟨some x, mis, un, by simp [CType.dec, stdOptionalDec, g1, Res.map], x, rfl, g2⟩
  | toOptionalChecked h ha hb ih =>
    rename_i R _ _ a b
    intro v hv old ho p hu hm l
    simp only [CType.Fresh] at ho
    subst ho
    obtain ⟨j, hj⟩ := Option.isSome_iff_exists.mp (ha v hv)
    obtain ⟨x, mis, un, g1, g2⟩ := ih.some hv (b.fresh_init hb) hu hm l hj
    rw [hj]
    exact ⟨(x, true), mis, un, by simp [CType.dec, optionalCheckedDec, g1, Res.map], rfl, g2⟩
  | fromOptional h ih =>
    intro v hv old ho p hu hm l
    simp only [CType.Valid] at hv
    exact ih v hv old ho p hu hm l
  | fromStdOptional h ih =>
    rename_i R _ _ a b
    intro v hv old ho p hu hm l
    simp only [CType.Valid] at hv
    cases v with
    | none => simp [CType.enc]
    | some y =>
      obtain ⟨hv1, hv2⟩ := hv y rfl
      obtain ⟨j, hj⟩ := Option.isSome_iff_exists.mp hv2
      obtain ⟨x, mis, un, g1, g2⟩ := ih.some hv1 ho hu hm l hj
      simp only [CType.enc, Option.bind_some, hj]
      exact ⟨x, mis, un, g1, g2⟩
  | stdOptional h hb ih =>
    rename_i R _ _ a b
    intro v hv old ho p hu hm l
    simp only [CType.Valid] at hv
    cases v with
    | none => simpa [CType.enc, CType.Fresh] using ho
    | some y =>
      obtain ⟨hv1, hv2⟩ := hv y rfl
      obtain ⟨j, hj⟩ := Option.isSome_iff_exists.mp hv2
      obtain ⟨x, mis, un, g1, g2⟩ := ih.some hv1 (b.fresh_init hb) hu hm l hj
      simp only [CType.enc, Option.bind_some, hj]
      exact ⟨some x, mis, un, by simp [CType.dec, stdOptionalDec, g1, Res.map], x, rfl, g2⟩
  | checkedToStd h hb ih =>
    rename_i R _ _ a b
    intro v hv old ho p hu hm l
    obtain ⟨v, set⟩ := v
    simp only [CType.Valid] at hv
    cases set with
    | false => simpa [CType.enc, CType.Fresh] using ho
    | true =>
      obtain ⟨hv1, hv2⟩ := hv
      obtain ⟨j, hj⟩ := Option.isSome_iff_exists.mp hv2
      obtain ⟨x, mis, un, g1, g2⟩ := ih.some hv1 (b.fresh_init hb) hu hm l hj
      simp only [CType.enc, if_true, hj]
      exact ⟨some x, mis, un, by simp [CType.dec, stdOptionalDec, g1, Res.map], x, rfl, g2⟩
  | toNullable h ha ih =>
    rename_i R _ _ a b
    intro v hv old ho p hu hm l
    simp only [CType.Fresh] at ho
    cases hj : a.enc v with
    | none => exact ih.none hv ho hj
    | some j =>
      obtain ⟨x, mis, un, g1, g2⟩ := ih.some hv ho hu hm l hj
      refine ⟨x, mis, un, ?_, g2⟩
      have hne : j ≠ .null := by rintro rfl; exact ha v hv hj
      simp only [CType.dec]
      cases j <;> first | (exact absurd rfl hne) | simpa [nullableDec] using g1
  | fromNullable h ih =>
    intro v hv old ho p hu hm l
    simp only [CType.Valid] at hv
    exact ih v hv.1 old ho p hu hm l
  | toNullableChecked h ha hb ih =>
    rename_i R _ _ a b
    intro v hv old ho p hu hm l
    simp only [CType.Fresh] at ho
    obtain ⟨j, hj, hne⟩ := ha v hv
    obtain ⟨x, mis, un, g1, g2⟩ := ih.some hv (b.fresh_init hb) hu hm l hj
    rw [hj]
    refine ⟨(x, false), mis, un, ?_, rfl, g2⟩
    simp only [CType.dec]
    cases j <;> first | (exact absurd rfl hne) | simp [nullableCheckedDec, ho, g1, Res.map]
  | toSharedPtr h ha hb ih =>
    rename_i R _ _ a b
    intro v hv old ho p hu hm l
    simp only [CType.Fresh] at ho
    obtain ⟨j, hj, hne⟩ := ha v hv
    obtain ⟨x, mis, un, g1, g2⟩ := ih.some hv (old := old.getD b.init) (by
      cases old with
      | none => exact b.fresh_init hb
      | some y => exact ho y rfl) hu hm l hj
    rw [hj]
    refine ⟨some x, mis, un, ?_, x, rfl, g2⟩
    simp only [CType.dec]
    cases j <;> first | (exact absurd rfl hne) | simp [ptrDec, g1, Res.map]
  | toUniquePtr h ha hb ih =>
    rename_i R _ _ a b
    intro v hv old ho p hu hm l
    simp only [CType.Fresh] at ho
    obtain ⟨j, hj, hne⟩ := ha v hv
    obtain ⟨x, mis, un, g1, g2⟩ := ih.some hv (old := old.getD b.init) (by
      cases old with
      | none => exact b.fresh_init hb
      | some y => exact ho y rfl) hu hm l hj
    rw [hj]
    refine ⟨some x, mis, un, ?_, x, rfl, g2⟩
    simp only [CType.dec]
    cases j <;> first | (exact absurd rfl hne) | simp [ptrDec, g1, Res.map]
  | toMany h ha hb ih =>
    rename_i R _ _ a b
    intro v hv old ho p hu hm l
    simp only [CType.Fresh] at ho
    subst ho
    obtain ⟨j, hj, hna⟩ := ha v hv
    obtain ⟨x, mis, un, g1, g2⟩ := ih.some hv (b.fresh_init hb) hu hm l hj
    rw [hj]
    refine ⟨[x], mis, un, ?_, x, rfl, g2⟩
    simp only [CType.dec]
    cases j with
    | arr vs => exact absurd rfl (hna vs)
    | _ => simp [oneOrManyDec, g1, Res.map]
  | vectorToMany h hb ih =>
    rename_i R _ _ a b
    intro v hv old ho p hu hm l
    simp only [CType.Valid] at hv
    obtain ⟨xs, mis, un, g1, g2⟩ := elemsDec_read ih (b.fresh_init hb) hu hm v hv []
    exact ⟨xs, mis, un, by simpa [CType.dec, oneOrManyDec] using g1, g2⟩
  | arrayToMany h hb ih =>
    rename_i R _ _ a b
    intro v hv old ho p hu hm l
    simp only [CType.Valid] at hv
    obtain ⟨xs, mis, un, g1, g2⟩ := elemsDec_read ih (b.fresh_init hb) hu hm v hv.2 []
    exact ⟨xs, mis, un, by simpa [CType.dec, oneOrManyDec] using g1, g2⟩
  | setToMany h hb ih =>
    rename_i R _ _ a b
    intro v hv old ho p hu hm l
    simp only [CType.Valid] at hv
    obtain ⟨xs, mis, un, g1, g2⟩ := elemsDec_read ih (b.fresh_init hb) hu hm v hv.2.2 []
    exact ⟨xs, mis, un, by simpa [CType.dec, oneOrManyDec] using g1, g2⟩
  | arrayToVector h hb ih =>
    rename_i R _ _ a b
    intro v hv old ho p hu hm l
    simp only [CType.Valid] at hv
    obtain ⟨xs, mis, un, g1, g2⟩ := elemsDec_read ih (b.fresh_init hb) hu hm v hv.2 []
    exact ⟨xs, mis, un, by simpa [CType.dec, vecDec, arrayDec] using g1, g2⟩
  | setToVector h hb ih =>
    rename_i R _ _ a b
    intro v hv old ho p hu hm l
    simp only [CType.Valid] at hv
    obtain ⟨xs, mis, un, g1, g2⟩ := elemsDec_read ih (b.fresh_init hb) hu hm v hv.2.2 []
    exact ⟨xs, mis, un, by simpa [CType.dec, vecDec, arrayDec] using g1, g2⟩
  | toSilentVector h hb ih =>
    rename_i R _ _ a b
    intro v hv old ho p hu hm l
    simp only [CType.Valid] at hv
    obtain ⟨xs, mis, un, g1, g2⟩ := elemsDec_read ih (b.fresh_init hb) hu hm v hv []
    exact ⟨xs, mis, un, by simpa [CType.dec, vecDec, arrayDec] using g1, g2⟩
  | fromSilentVector h hb ih =>
    rename_i R _ _ a b
    intro v hv old ho p hu hm l
    simp only [CType.Valid] at hv
    by_cases hv0 : v = []
    · subst hv0; simp [CType.enc]
    · obtain ⟨xs, mis, un, g1, g2⟩ := elemsDec_read ih (b.fresh_init hb) hu hm v hv []
      have he : v.isEmpty = false := by simpa using hv0
      simp only [CType.enc, he, hv0]
      exact ⟨xs, mis, un, by simpa [CType.dec, vecDec, arrayDec] using g1, g2⟩
  | vector h hb ih =>
    rename_i R _ _ a b
    intro v hv old ho p hu hm l
    simp only [CType.Valid] at hv
    obtain ⟨xs, mis, un, g1, g2⟩ := elemsDec_read ih (b.fresh_init hb) hu hm v hv []
    exact ⟨xs, mis, un, by simpa [CType.dec, vecDec, arrayDec] using g1, g2⟩
  | set h hb hins hinj ih =>
    rename_i R _ _ _ _ a b
    intro v hv old ho p hu hm l
    simp only [CType.Valid] at hv
    obtain ⟨xs, mis, un, g1, g2⟩ := setElemsDec_read ih (b.fresh_init hb) hu hm hins hinj v hv.1 hv.2.2 [] (by simp)
    exact ⟨xs.foldl _ [], mis, un, by simpa [CType.dec, setDec, arrayDec] using g1, xs, g2, rfl⟩
  | oneOrMany h hb ih =>
    rename_i R _ _ a b
    intro v hv old ho p hu hm l
    simp only [CType.Valid] at hv
    simp only [CType.Fresh] at ho
    subst ho
    match v with
    | [] => exact .nil
    | [w] =>
      obtain ⟨hv1, hv2⟩ := hv.1 w (by simp)
      obtain ⟨j, hj⟩ := Option.isSome_iff_exists.mp hv2
      obtain ⟨x, mis, un, g1, g2⟩ := ih.some hv1 (b.fresh_init hb) hu hm l hj
      simp only [CType.enc, hj]
      refine ⟨[x], mis, un, ?_, .cons g2 .nil⟩
      simp only [CType.dec]
      cases j with
      | arr vs => exact absurd hj (hv.2 w vs rfl)
      | _ => simp [oneOrManyDec, g1, Res.map]
    | w :: w' :: v =>
      obtain ⟨xs, mis, un, g1, g2⟩ := elemsDec_read ih (b.fresh_init hb) hu hm (w :: w' :: v) hv.1 []
      exact ⟨xs, mis, un, by simpa [CType.dec, oneOrManyDec] using g1, g2⟩
  | array h ih =>
    rename_i R n a b
    intro v hv old ho p hu hm l
    simp only [CType.Valid] at hv
    simp only [CType.Fresh] at ho
    obtain ⟨xs, mis, un, g1, g2, g3⟩ := fixedDec_read ih hu hm v hv.2 old ho.2 (by omega)
    exact ⟨xs, mis, un, by simpa [CType.dec, arrDec, arrayDec] using g1, by omega, g3⟩
  | tupleNil =>
    intro v hv old ho p hu hm l
    exact ⟨(), [], [], by simp [CType.dec, CTypes.dec, CTypes.enc, tupleDec, arrayDec, tupNilDec], trivial⟩
  | tupleCons h hs ih ihs =>
    rename_i R Rs a b as bs
    intro v hv old ho p hu hm l
    simp only [CType.Valid, CTypes.Valid] at hv
    simp only [CType.Fresh, CTypes.Fresh] at ho
    obtain ⟨j, hj⟩ := Option.isSome_iff_exists.mp hv.1.2
    obtain ⟨x, m1, u1, h1, k1⟩ := ih.some hv.1.1 ho.1 hu hm ([], .ascii) hj
    obtain ⟨xs, m2, u2, h2, k2⟩ := ihs.some (v := v.2) (by simpa only [CType.Valid] using hv.2) (old := old.2)
      (by simpa only [CType.Fresh] using ho.2) hu hm l (j := .arr (as.enc v.2)) (by simp only [CType.enc])
    simp only [CType.enc, CTypes.enc, hj, Option.toList_some]
    refine ⟨(x, xs), m1 ++ m2, u1 ++ u2, ?_, k1, k2⟩
    simp only [CType.dec, tupleDec, arrayDec] at h2
    simp only [CType.dec, CTypes.dec, tupleDec, arrayDec, List.cons_append, List.nil_append, tupConsDec, elem, h1, Option.bind_eq_bind, Option.bind_some]
    rw [Res.andThen_ok rfl, h2]
    simp [Res.map]
  | nullableChecked h hb ih =>
    rename_i R _ _ a b
    intro v hv old ho p hu hm l
    obtain ⟨v, null⟩ := v
    simp only [CType.Valid] at hv
    simp only [CType.Fresh] at ho
    cases null with
    | true => exact ⟨(b.init, true), [], [], by simp [CType.dec, nullableCheckedDec, ho], by simp⟩
    | false =>
      obtain ⟨hv, j, hj, hne⟩ := hv
      obtain ⟨x, mis, un, g1, g2⟩ := ih.some hv (b.fresh_init hb) hu hm l hj
      simp only [CType.enc, hj, Bool.false_eq_true, if_false]
      refine ⟨(x, false), mis, un, ?_, rfl, g2⟩
      simp only [CType.dec]
      cases j <;> first | (exact absurd rfl hne) | simp [nullableCheckedDec, ho, g1, Res.map]
  | optionalChecked h hb ih =>
    rename_i R _ _ a b
    intro v hv old ho p hu hm l
    obtain ⟨v, set⟩ := v
    simp only [CType.Valid] at hv
    simp only [CType.Fresh] at ho
    subst ho
    cases set with
    | false => simp [CType.enc]
    | true =>
      obtain ⟨hv1, hv2⟩ := hv
      obtain ⟨j, hj⟩ := Option.isSome_iff_exists.mp hv2
      obtain ⟨x, mis, un, g1, g2⟩ := ih.some hv1 (b.fresh_init hb) hu hm l hj
      simp only [CType.enc, if_true, hj]
      exact ⟨(x, true), mis, un, by simp [CType.dec, optionalCheckedDec, g1, Res.map], rfl, g2⟩
  | sharedPtr h hb ih =>
    rename_i R _ _ a b
    intro v hv old ho p hu hm l
    simp only [CType.Valid] at hv
    simp only [CType.Fresh] at ho
    cases v with
    | none => exact ⟨none, [], [], by simp [CType.dec, ptrDec], rfl⟩
    | some v =>
      obtain ⟨hv, j, hj, hne⟩ := hv v rfl
      obtain ⟨x, mis, un, g1, g2⟩ := ih.some hv (old := old.getD b.init) (by
        cases old with
        | none => exact b.fresh_init hb
        | some y => exact ho y rfl) hu hm l hj
      simp only [CType.enc, hj]
      refine ⟨some x, mis, un, ?_, x, rfl, g2⟩
      simp only [CType.dec]
      cases j <;> first | (exact absurd rfl hne) | simp [ptrDec, g1, Res.map]
  | uniquePtr h hb ih =>
    rename_i R _ _ a b
    intro v hv old ho p hu hm l
    simp only [CType.Valid] at hv
    simp only [CType.Fresh] at ho
    cases v with
    | none => exact ⟨none, [], [], by simp [CType.dec, ptrDec], rfl⟩
    | some v =>
      obtain ⟨hv, j, hj, hne⟩ := hv v rfl
      obtain ⟨x, mis, un, g1, g2⟩ := ih.some hv (old := old.getD b.init) (by
        cases old with
        | none => exact b.fresh_init hb
        | some y => exact ho y rfl) hu hm l hj
      simp only [CType.enc, hj]
      refine ⟨some x, mis, un, ?_, x, rfl, g2⟩
      simp only [CType.dec]
      cases j <;> first | (exact absurd rfl hne) | simp [ptrDec, g1, Res.map]
  | uniqueToShared h hb ih =>
    rename_i R _ _ a b
    intro v hv old ho p hu hm l
    simp only [CType.Valid] at hv
    simp only [CType.Fresh] at ho
    cases v with
    | none => exact ⟨none, [], [], by simp [CType.dec, ptrDec], rfl⟩
    | some v =>
      obtain ⟨hv, j, hj, hne⟩ := hv v rfl
      obtain ⟨x, mis, un, g1, g2⟩ := ih.some hv (old := old.getD b.init) (by
        cases old with
        | none => exact b.fresh_init hb
        | some y => exact ho y rfl) hu hm l hj
      simp only [CType.enc, hj]
      refine ⟨some x, mis, un, ?_, x, rfl, g2⟩
      simp only [CType.dec]
      cases j <;> first | (exact absurd rfl hne) | simp [ptrDec, g1, Res.map]
  | map hins h hb ih =>
    rename_i R _ _ _ _ a b
    intro v hv old ho p hu hm l
    simp only [CType.Valid] at hv
    simp only [CType.Fresh] at ho
    subst ho
    obtain ⟨xs, mis, un, g1, g2⟩ := entriesDec_read hins ih (b.fresh_init hb) hu hm v (fun e he => (hv.2.2 e he).2.2) [] hv.1 (by simp)
    exact ⟨_, mis, un, by simp only [CType.dec, mapDec, objectDec]; rw [g1], xs, g2, rfl⟩
  | structToMap cs hcs hins h hb hnames hplain ih =>
    rename_i init s ins b
    intro v hv old ho p hu hm l
    simp only [CType.Valid] at hv
    simp only [CType.Fresh] at ho
    subst ho
    have hmem : ∀ c ∈ cs, c.member ∈ s.entries := fun c hc => hcs ▸ List.mem_map_of_mem hc
    obtain ⟨xs, mis, un, g1, g2⟩ := membersAsMap_read hins (b.fresh_init hb) hu hm cs ih (fun c hc => s.valid_entries v hv _ (hmem c hc))
      (fun c hc => hplain _ (hmem c hc)) (by rw [← hcs, List.map_map] at hnames; exact hnames) [] (by simp)
    have henc : s.enc v = cs.filterMap fun c => (c.member.type.enc (c.member.get v)).map (c.member.names.headD [], ·) := by
      rw [s.enc_entries, ← hcs, List.filterMap_map]
      rfl
    rw [← henc] at g1
    exact ⟨_, mis, un, by simp only [CType.dec, mapDec, objectDec]; rw [g1], xs, g2, rfl⟩
  | mapToStruct cs hcs h hone hnames hapart hstored ih =>
    rename_i ins a init s
    intro v hv old ho p hu hm l
    simp only [CType.Valid] at hv
    simp only [CType.Fresh] at ho
    have hmem : ∀ c ∈ cs, c.member ∈ s.entries := fun c hc => hcs ▸ List.mem_map_of_mem hc
    have goes : ∀ (e : Bytes × _) (f : Entry _), f ∈ s.entries → ((mapEntry a e).Goes f ↔ f.names = [e.1]) := by
      intro e f hf
      obtain ⟨n, hn⟩ := hone f hf
      simp only [Entry.Goes, mapEntry, List.headD_cons, hn, List.mem_singleton, List.cons.injEq, and_true]
      exact eq_comm
    obtain ⟨x', mis, un, h1, h2, h3⟩ := membersDec_read hnames hapart hstored hu hm (v := ())
      (fun e f old w x => ∀ R, AsMember.mk f R ∈ cs → ∀ w', HEq w w' → R old w' x) (v.map (mapEntry a)) (fun e he f hf hg => by
        obtain ⟨e, _, rfl⟩ := List.mem_map.mp he
        have hr := readBy_all (a := a) (b := f.type) (Rs := fun R => AsMember.mk f R ∈ cs) (by
          rw [← hcs] at hf
          obtain ⟨⟨_, R⟩, hc, rfl⟩ := List.mem_map.mp hf
          exact ⟨R, hc⟩) fun R hR => ih _ hR
        intro w hw old ho p hu hm l
        cases hj : (mapEntry a e).type.enc w with
        | none =>
          intro R hR w' he'
          cases eq_of_heq he'
          exact hr.none hw ho hj R hR
        | some j =>
          obtain ⟨x, mis, un, g1, g2⟩ := hr.some hw ho hu hm l hj
          refine ⟨x, mis, un, g1, fun R hR w' he' => ?_⟩
          cases eq_of_heq he'
          exact g2 R hR)
      (fun e he => by
        obtain ⟨e, he', rfl⟩ := List.mem_map.mp he
        exact (hv.2.2 e he').2.2.2.1)
      (by
        rw [List.pairwise_map]
        have := hv.1
        rw [List.Nodup, List.pairwise_map] at this
        refine this.imp fun {e e'} hne f hf hg hg' => hne ?_
        have g1 := (goes e f hf).mp hg
        rw [(goes e' f hf).mp hg'] at g1
        simpa using g1.symm) old (fun f hf => .inl (s.fresh_entries old ho f hf))
    have henc : ((v.map (mapEntry a)).filterMap fun e => (e.type.enc (e.get ())).map (e.names.headD [], ·)) =
        v.filterMap fun e => (a.enc e.2).map (e.1, ·) := by
      rw [List.filterMap_map]
      rfl
    rw [henc] at h1
    simp only [CType.enc]
    refine ⟨x', _, _, by rw [struct_dec_ok h1 rfl]; simp only [hu, or_true, if_true]; rfl, fun c hc n w hw hn => ?_, fun f hf hn => ?_⟩
    · exact h2 (mapEntry a (n, w)) (List.mem_map_of_mem hw) c.member (hmem c hc) ((goes _ _ (hmem c hc)).mpr hn) c.rel hc w .rfl
    · refine h3 f hf fun e he hg => ?_
      obtain ⟨e, he', rfl⟩ := List.mem_map.mp he
      exact hn e he' ((goes e f hf).mp hg)
  | struct cs hgo hall h hone hnames hapart hstored ih =>
    rename_i init s init' s'
    intro v hv old ho p hu hm l
    simp only [CType.Valid] at hv
    simp only [CType.Fresh] at ho
    obtain ⟨x', mis, un, h1, h2, h3⟩ := membersDec_read hnames hapart hstored hu hm
      (fun e f old v x => ∀ R, Carried.mk e f R ∈ cs → R old v x) s.entries (fun e he f hf hg => by
        refine readBy_all (Rs := fun R => Carried.mk e f R ∈ cs) ?_ fun R hR => ih _ hR
        obtain ⟨⟨_, _, R⟩, hc, rfl, rfl⟩ := hall e he f hf hg
        exact ⟨R, hc⟩) (s.valid_entries v hv) hone old
      (fun f hf => .inl (s'.fresh_entries old ho f hf))
    rw [← s.enc_entries] at h1
    simp only [CType.enc]
    exact ⟨x', _, _, by rw [struct_dec_ok h1 rfl]; simp only [hu, or_true, if_true]; rfl,
      fun c hc => h2 _ (hgo c hc).1 _ (hgo c hc).2.1 (hgo c hc).2.2 c.rel hc, h3⟩

end JsonStruct
