import Verif.Lemmas.RawWrites

/-
For C92: reading what has been written back, for types with raw captures. As `Lemmas/RoundTrip.lean`, for `RType` and values that remember their text.
-/

set_option linter.unusedSectionVars false

namespace JsonStruct

variable {d : Dialect}

/-! ### Values in place of raw texts -/

mutual
/-- `Fills j a`: `a` is `j`, with arrays and objects in place of the texts of such. -/
inductive Fills : JVal → AVal → Prop
  | null : Fills .null .null
  | bool {b} : Fills (.bool b) (.bool b)
  | num {n} : JsonNumber n → Fills (.num n) (.num n)
  | str {s} : Fills (.str s) (.str s)
  | rawArr {s vs} : s.text.head? = some 0x5B → Fills (.num s.text) (.arr s vs)
  | rawObj {s ms} : s.text.head? = some 0x7B → Fills (.num s.text) (.obj s ms)
  | arr {js s vs} : FillsElems js vs → Fills (.arr js) (.arr s vs)
  | obj {js s ms} : FillsMembers js ms → Fills (.obj js) (.obj s ms)
inductive FillsElems : List JVal → List AVal → Prop
  | nil : FillsElems [] []
  | cons {j a js vs} : Fills j a → FillsElems js vs → FillsElems (j :: js) (a :: vs)
inductive FillsMembers : List (Bytes × JVal) → List (Bytes × AVal) → Prop
  | nil : FillsMembers [] []
  | cons {n j a js ms} : Fills j a → FillsMembers js ms → FillsMembers ((n, j) :: js) ((n, a) :: ms)
end

theorem number_head {n : Bytes} (h : JsonNumber n) : n.head? ≠ some 0x5B ∧ n.head? ≠ some 0x7B := by
  obtain ⟨m, i, f, e, rfl, hm, hi, _, _⟩ := h
  have key : ∀ c ∈ (m ++ i).head?, c = 0x2D ∨ isDigit c = true := by
    intro c hc
    rcases hm with rfl | rfl
    · rw [List.nil_append] at hc
      rcases hi with rfl | ⟨⟨_, h⟩, _⟩
      · cases hc; exact .inr rfl
      · exact .inr (h c (List.mem_of_mem_head? hc))
    · cases hc; exact .inl rfl
  have hne : m ++ i ≠ [] := by
    rcases hi with rfl | ⟨⟨h, _⟩, _⟩ <;> simp_all
  obtain ⟨c, l, hcl⟩ := List.exists_cons_of_ne_nil hne
  have hh : (m ++ i ++ f ++ e).head? = some c := by simp [hcl]
  rw [hh]
  have := key c (by simp [hcl])
  constructor <;> rintro h <;> cases h <;> simp [isDigit] at this

theorem fills_ne_null {j : JVal} {a : AVal} (h : Fills j a) (hj : j ≠ .null) : a ≠ .null := by
  rintro rfl; cases h; exact hj rfl

/-- Without raw captures: the value itself. -/
theorem fills_plain {j : JVal} {a : AVal} (h : Fills j a) : j.WF rfcBytes → a.plain = j := by
  refine Fills.rec (motive_1 := fun j a _ => j.WF rfcBytes → a.plain = j) (motive_2 := fun js vs _ => elemsWF rfcBytes js → plainElems vs = js)
    (motive_3 := fun js ms _ => membersWF rfcBytes js → plainMembers ms = js) ?_ ?_ ?_ ?_ ?_ ?_ ?_ ?_ ?_ ?_ ?_ ?_ h
  · exact fun _ => rfl
  · exact fun _ => rfl
  · exact fun _ _ => rfl
  · exact fun _ => rfl
  · exact fun h hn => absurd h (number_head hn).1
  · exact fun h hn => absurd h (number_head hn).2
  · intro js s vs _ ih h
    rw [AVal.plain, ih (by rw [JVal.WF] at h; exact h)]
  · intro js s vs _ ih h
    rw [AVal.plain, ih (by rw [JVal.WF] at h; exact h)]
  · exact fun _ => rfl
  · intro j a js vs _ _ ih ih2 h
    rw [plainElems, ih h.1, ih2 h.2]
  · exact fun _ => rfl
  · intro n j a js vs _ _ ih ih2 h
    rw [plainMembers, ih h.2.1, ih2 h.2.2]

theorem fills_names {js : List (Bytes × JVal)} {ms : List (Bytes × AVal)} (h : FillsMembers js ms) : (plainMembers ms).map Prod.fst = js.map Prod.fst := by
  induction ms generalizing js with
  | nil => cases h; rfl
  | cons m ms ih => cases h with | cons _ h => simp [plainMembers, ih h]

theorem unassigned_names {specs : List (MemberSpec T)} {js ms : List (Bytes × JVal)} (h : ms.map Prod.fst = js.map Prod.fst) :
    unassignedNames specs ms = unassignedNames specs js := by
  have key : ∀ i, (ms.any fun m => resolve specs m.1 == some i) = js.any fun m => resolve specs m.1 == some i := by
    intro i
    have := congrArg (fun l => l.any fun n => resolve specs n == some i) h
    simpa [List.any_map, Function.comp_def] using this
  simp only [unassignedNames, key]

/-- The text that is written for a value is one of the value with arrays and objects in the place of the raw texts. -/
theorem fills_exists {e : Dialect} (he : rfcBytes.Le e) (hde : d.Le e) {j : JVal} {t : Bytes} (h : Text (rawTexts d) j t) : ∀ r, ∃ a, Fills j a ∧ Laid e a t r := by
  refine Text.rec (d := rawTexts d) (motive_1 := fun j t _ => ∀ r, ∃ a : AVal, Fills j a ∧ Laid e a t r)
    (motive_2 := fun js t _ => ∀ r, ∃ as, FillsElems js as ∧ LaidElems e as t r)
    (motive_3 := fun js t _ => ∀ r, ∃ as, FillsMembers js as ∧ LaidMembers e as t r) ?_ ?_ ?_ ?_ ?_ ?_ ?_ ?_ ?_ ?_ ?_ ?_ ?_ ?_ ?_ h
  · exact fun r => ⟨.null, .null, .null⟩
  · exact fun r => ⟨.bool true, .bool, .tru⟩
  · exact fun r => ⟨.bool false, .bool, .fls⟩
  · rintro n (hn | ⟨j, hj, hc⟩) r
    · exact ⟨.num n, .num hn, .num (he.num _ hn)⟩
    · obtain ⟨a, rfl, ha⟩ := laid_exists (text_mono hde hj) r
      refine ⟨a, ?_, ha⟩
      cases ha with
      | null | tru | fls | num | str => cases hc
      | arrEmpty => exact .rawArr (s := ⟨_, r⟩) rfl
      | arr => exact .rawArr (s := ⟨_, r⟩) rfl
      | objEmpty => exact .rawObj (s := ⟨_, r⟩) rfl
      | obj => exact .rawObj (s := ⟨_, r⟩) rfl
  · exact fun {s} hs r => ⟨.str s, .str, .str (he.str _ hs)⟩
  · exact fun hw r => ⟨_, .arr .nil, .arrEmpty (he.gap _ hw)⟩
  · rintro vs t _ ih r
    obtain ⟨as, hf, h⟩ := ih (b!"]" ++ r)
    exact ⟨_, .arr hf, .arr h⟩
  · exact fun hw r => ⟨_, .obj .nil, .objEmpty (he.gap _ hw)⟩
  · rintro vs t _ ih r
    obtain ⟨as, hf, h⟩ := ih (b!"}" ++ r)
    exact ⟨_, .obj hf, .obj h⟩
  · rintro v t w w' h1 _ h3 ih r
    obtain ⟨a, hf, h⟩ := ih (w' ++ r)
    exact ⟨[a], .cons hf .nil, .one (he.gap _ h1) h (he.after _ _ h3)⟩
  · rintro v t w w' vs ts h1 _ h3 _ ih ih2 r
    obtain ⟨a, hf, h⟩ := ih (w' ++ b!"," ++ ts ++ r)
    obtain ⟨as, hfs, h'⟩ := ih2 r
    exact ⟨a :: as, .cons hf hfs, .cons (he.gap _ h1) h (he.after _ _ h3) h'⟩
  · exact fun h0 => h0.elim
  · rintro n v t w1 w2 w3 w4 h1 h2 h3 h4 _ h5 ih r
    obtain ⟨a, hf, h⟩ := ih (w4 ++ r)
    exact ⟨[(n, a)], .cons hf .nil, .one (he.gap _ h1) (he.str _ h2) (he.gap _ h3) (he.gap _ h4) h (he.after _ _ h5)⟩
  · rintro n v t w1 w2 w3 w4 ms ts h1 h2 h3 h4 _ h5 _ ih ih2 r
    obtain ⟨a, hf, h⟩ := ih (w4 ++ b!"," ++ ts ++ r)
    obtain ⟨as, hfs, h'⟩ := ih2 r
    exact ⟨(n, a) :: as, .cons hf hfs, .cons (he.gap _ h1) (he.str _ h2) (he.gap _ h3) (he.gap _ h4) h (he.after _ _ h5) h'⟩
  · exact fun h0 => h0.elim

/-! ### Fresh variables -/

mutual
theorem RType.fresh_init : {T : Type} → (t : RType T) → t.Lawful → t.Fresh t.init
  | _, .lib t, h => by
    simp only [RType.Lawful] at h
    simp only [RType.Fresh]
    exact CType.fresh_init t h
  | _, .raw _ _, _ => by simp only [RType.Fresh]; rfl
  | _, .rawRef _, _ => by simp [RType.Fresh]
  | _, .vector _, _ | _, .set _ _ _, _ => by simp [RType.Fresh]
  | _, .nullable t, h => by
    simp only [RType.Lawful] at h
    simp only [RType.Fresh]
    exact t.fresh_init h
  | _, .nullableChecked t, _ => by simp only [RType.Fresh]; rfl
  | _, .optional t, h => by
    simp only [RType.Lawful] at h
    simp only [RType.Fresh]
    exact t.fresh_init h
  | _, .optionalChecked t, _ => by simp only [RType.Fresh]; rfl
  | _, .stdOptional t, _ => by simp only [RType.Fresh]; rfl
  | _, .sharedPtr t, _ => by simp only [RType.Fresh]; intro y hy; cases hy
  | _, .uniquePtr t, _ => by simp only [RType.Fresh]; intro y hy; cases hy
  | _, .silentVector t, _ => by simp only [RType.Fresh]; rfl
  | _, .silentUniquePtr t, _ => by simp only [RType.Fresh]; rfl
  | _, .oneOrMany t, _ => by simp only [RType.Fresh]; rfl
  | _, .array N t, h => by
    simp only [RType.Lawful] at h
    simp only [RType.Fresh]
    have hi : (RType.array N t).init = List.replicate N t.init := rfl
    rw [hi]
    refine ⟨by simp, fun y hy => ?_⟩
    rw [(List.mem_replicate.mp hy).2]
    exact t.fresh_init h
  | _, .arrayVariable count t, _ => by
    simp only [RType.Fresh]
    exact ⟨rfl, fun _ => rfl⟩
  | _, .tuple ts, h => by
    simp only [RType.Lawful] at h
    simp only [RType.Fresh]
    exact ts.fresh_init h
  | _, .map ins t, _ => by simp only [RType.Fresh]; rfl
  | _, .struct init s, h => by
    simp only [RType.Lawful] at h
    simp only [RType.Fresh]
    exact h.2.1
theorem RTypes.fresh_init : {Ts : Type} → (ts : RTypes Ts) → ts.Lawful → ts.Fresh (ts.build rawH).init
  | _, .nil, _ => trivial
  | _, .cons t ts, h => by
    simp only [RTypes.Lawful] at h
    exact ⟨t.fresh_init h.1, ts.fresh_init h.2⟩
end

/-- What is written for a value and read into a fresh variable gives the value back; where nothing is written, the
fresh variable has the value already. -/
def RType.RoundTrips (d : Dialect) (t : RType T) : Prop :=
  ∀ v, t.Valid d v → ∀ old, t.Fresh old → ∀ p l, p.allowUnassigned = true ∨ t.WritesRequired d →
    match t.enc v with
    | some j => ∀ a, Fills j a → ∃ un, t.adec p old (.val l a) = some ⟨.noError, v, [], un⟩ ∧ (t.WritesRequired d → un = [])
    | none => old = v

theorem RType.RoundTrips.full {t : RType T} (h : t.RoundTrips d) {v old : T} {j : JVal} (hj : t.enc v = .some j) (hv : t.Valid d v)
    (hf : t.Fresh old) {p : POpts} (hp : p.allowUnassigned = true ∨ t.WritesRequired d) {a : AVal} (ha : Fills j a) (l : Lbl) :
    ∃ un, t.adec p old (.val l a) = .some ⟨.noError, v, [], un⟩ ∧ (t.WritesRequired d → un = []) := by
  have := h v hv old hf p l hp
  rw [hj] at this
  exact this a ha

theorem RType.RoundTrips.none {t : RType T} (h : t.RoundTrips d) {v old : T} (hj : t.enc v = .none) (hv : t.Valid d v)
    (hf : t.Fresh old) : old = v := by
  have := h v hv old hf {} ([], .ascii) (.inl rfl)
  rw [hj] at this
  exact this

/-! ### Sequences -/

theorem fillsElems_cons {enc : T → Option JVal} {x : T} {vs : List T} {j : JVal} (hj : enc x = some j) {as : List AVal}
    (h : FillsElems ((x :: vs).filterMap enc) as) : ∃ a as', as = a :: as' ∧ Fills j a ∧ FillsElems (vs.filterMap enc) as' := by
  rw [List.filterMap_cons_some hj] at h
  cases h with
  | cons h1 h2 => exact ⟨_, _, rfl, h1, h2⟩

theorem fillsMembers_cons {enc : V → Option JVal} {n : Bytes} {x : V} {vs : List (Bytes × V)} {j : JVal} (hj : enc x = some j) {as : List (Bytes × AVal)}
    (h : FillsMembers (((n, x) :: vs).filterMap fun e => (enc e.2).map (e.1, ·)) as) :
    ∃ a as', as = (n, a) :: as' ∧ Fills j a ∧ FillsMembers (vs.filterMap fun e => (enc e.2).map (e.1, ·)) as' := by
  rw [List.filterMap_cons_some (b := (n, j)) (by simp [hj])] at h
  cases h with
  | cons h1 h2 => exact ⟨_, _, rfl, h1, h2⟩

theorem r_elemsADec_enc {t : RType T} (h : t.RoundTrips d) {init : T} (hi : t.Fresh init) {p : POpts} (hp : p.allowUnassigned = true ∨ t.WritesRequired d)
    (vs : List T) (hv : ∀ x ∈ vs, t.Valid d x ∧ (t.enc x).isSome) (acc : List T) {as : List AVal}
    (hF : FillsElems (vs.filterMap t.enc) as) :
    ∃ un, elemsADec init t.adec p acc as = some ⟨.noError, acc ++ vs, [], un⟩ ∧ (t.WritesRequired d → un = []) := by
  induction vs generalizing acc as with
  | nil => cases hF; exact ⟨[], by simp [elemsADec], fun _ => rfl⟩
  | cons x vs ih =>
    obtain ⟨hx1, hx2⟩ := hv x (by simp)
    obtain ⟨j, hj⟩ := Option.isSome_iff_exists.mp hx2
    obtain ⟨a, as', rfl, ha, hF'⟩ := fillsElems_cons hj hF
    obtain ⟨u1, h1, k1⟩ := h.full hj hx1 hi hp ha ([], .ascii)
    obtain ⟨u2, h2, k2⟩ := ih (fun y hy => hv y (by simp [hy])) (acc ++ [x]) hF'
    refine ⟨u1 ++ u2, ?_, fun hc => by rw [k1 hc, k2 hc]; rfl⟩
    simp only [elemsADec, aelem, h1, Option.bind_eq_bind, Option.bind_some]
    rw [Res.andThen_ok rfl, h2]
    simp

theorem r_fixedADec_enc {t : RType T} (h : t.RoundTrips d) {p : POpts} (hp : p.allowUnassigned = true ∨ t.WritesRequired d)
    (vs : List T) (hv : ∀ x ∈ vs, t.Valid d x ∧ (t.enc x).isSome) (old : List T) (hl : old.length = vs.length) (ho : ∀ y ∈ old, t.Fresh y)
    {as : List AVal} (hF : FillsElems (vs.filterMap t.enc) as) :
    ∃ un, fixedADec t.adec p old as = some ⟨.noError, vs, [], un⟩ ∧ (t.WritesRequired d → un = []) := by
  induction vs generalizing old as with
  | nil =>
    cases hF
    obtain rfl := List.length_eq_zero_iff.mp hl
    exact ⟨[], by simp [fixedADec], fun _ => rfl⟩
  | cons x vs ih =>
    cases old with
    | nil => simp at hl
    | cons y old =>
      obtain ⟨hx1, hx2⟩ := hv x (by simp)
      obtain ⟨j, hj⟩ := Option.isSome_iff_exists.mp hx2
      obtain ⟨a, as', rfl, ha, hF'⟩ := fillsElems_cons hj hF
      obtain ⟨u1, h1, k1⟩ := h.full hj hx1 (ho y (by simp)) hp ha ([], .ascii)
      obtain ⟨u2, h2, k2⟩ := ih (fun y hy => hv y (by simp [hy])) old (by simpa using hl) (fun z hz => ho z (by simp [hz])) hF'
      refine ⟨u1 ++ u2, ?_, fun hc => by rw [k1 hc, k2 hc]; rfl⟩
      simp only [fixedADec, aelem, h1, Option.bind_eq_bind, Option.bind_some]
      rw [Res.andThen_ok rfl, h2]
      simp [Res.map]

theorem r_avcFixedADec_enc {t : RType T} (h : t.RoundTrips d) {p : POpts} (hp : p.allowUnassigned = true ∨ t.WritesRequired d)
    (vs : List T) (hv : ∀ x ∈ vs, t.Valid d x ∧ (t.enc x).isSome) (old rest : List T) (hl : old.length = vs.length) (ho : ∀ y ∈ old, t.Fresh y)
    (size i : Nat) (hr : rest ≠ []) {as : List AVal} (hF : FillsElems (vs.filterMap t.enc) as) :
    ∃ un, avcFixedADec t.adec p size i (old ++ rest) as = some ⟨.noError, (vs ++ rest, i + vs.length), [], un⟩ ∧ (t.WritesRequired d → un = []) := by
  induction vs generalizing old i as with
  | nil =>
    cases hF
    obtain rfl := List.length_eq_zero_iff.mp hl
    cases rest with
    | nil => exact absurd rfl hr
    | cons z rest => exact ⟨[], by simp [avcFixedADec], fun _ => rfl⟩
  | cons x vs ih =>
    cases old with
    | nil => simp at hl
    | cons y old =>
      obtain ⟨hx1, hx2⟩ := hv x (by simp)
      obtain ⟨j, hj⟩ := Option.isSome_iff_exists.mp hx2
      obtain ⟨a, as', rfl, ha, hF'⟩ := fillsElems_cons hj hF
      obtain ⟨u1, h1, k1⟩ := h.full hj hx1 (ho y (by simp)) hp ha ([], .ascii)
      obtain ⟨u2, h2, k2⟩ := ih (fun y hy => hv y (by simp [hy])) old (by simpa using hl) (fun z hz => ho z (by simp [hz])) (i + 1) hF'
      refine ⟨u1 ++ u2, ?_, fun hc => by rw [k1 hc, k2 hc]; rfl⟩
      simp only [List.cons_append, avcFixedADec, aelem, h1, Option.bind_eq_bind, Option.bind_some]
      rw [Res.andThen_ok rfl, h2]
      simp [Res.map]
      omega

theorem r_setElemsADec_enc [DecidableEq T] {ins : List T → T → List T} (hins : ∀ l x, (ins l x).Perm (x :: l))
    {t : RType T} (h : t.RoundTrips d) {init : T} (hi : t.Fresh init) {p : POpts} (hp : p.allowUnassigned = true ∨ t.WritesRequired d)
    (vs : List T) (hv : ∀ x ∈ vs, t.Valid d x ∧ (t.enc x).isSome) (acc : List T) (hn : vs.Nodup) (hd : ∀ x ∈ vs, x ∉ acc)
    {as : List AVal} (hF : FillsElems (vs.filterMap t.enc) as) :
    ∃ un, setElemsADec ins init t.adec p acc as = some ⟨.noError, vs.foldl ins acc, [], un⟩ ∧ (t.WritesRequired d → un = []) := by
  induction vs generalizing acc as with
  | nil => cases hF; exact ⟨[], by simp [setElemsADec], fun _ => rfl⟩
  | cons x vs ih =>
    obtain ⟨hx1, hx2⟩ := hv x (by simp)
    obtain ⟨j, hj⟩ := Option.isSome_iff_exists.mp hx2
    obtain ⟨a, as', rfl, ha, hF'⟩ := fillsElems_cons hj hF
    obtain ⟨u1, h1, k1⟩ := h.full hj hx1 hi hp ha ([], .ascii)
    rw [List.nodup_cons] at hn
    obtain ⟨u2, h2, k2⟩ := ih (fun y hy => hv y (by simp [hy])) (ins acc x) hn.2 (fun y hy hm => by
      rw [(hins acc x).mem_iff] at hm
      rcases List.mem_cons.mp hm with rfl | hm
      · exact hn.1 hy
      · exact hd y (by simp [hy]) hm) hF'
    refine ⟨u1 ++ u2, ?_, fun hc => by rw [k1 hc, k2 hc]; rfl⟩
    simp only [setElemsADec, aelem, h1, Option.bind_eq_bind, Option.bind_some]
    rw [Res.andThen_ok rfl]
    simp only [hd x (by simp), if_false]
    rw [h2]
    simp

theorem r_entriesADec_enc {ins : List (Bytes × V) → Bytes × V → List (Bytes × V)} (hins : ∀ l x, (ins l x).Perm (x :: l))
    {t : RType V} (h : t.RoundTrips d) {init : V} (hi : t.Fresh init) {p : POpts} (hp : p.allowUnassigned = true ∨ t.WritesRequired d)
    (vs : List (Bytes × V)) (hv : ∀ e ∈ vs, escapesIn e.1 = e.1 ∧ t.Valid d e.2 ∧ (t.enc e.2).isSome) (acc : List (Bytes × V))
    (hn : (vs.map Prod.fst).Nodup) (hd : ∀ e ∈ vs, e.1 ∉ acc.map Prod.fst)
    {as : List (Bytes × AVal)} (hF : FillsMembers (vs.filterMap fun e => (t.enc e.2).map (e.1, ·)) as) :
    ∃ un, entriesADec (mapSet ins) init t.adec p acc as =
      some ⟨.noError, vs.foldl ins acc, [], un⟩ ∧ (t.WritesRequired d → un = []) := by
  induction vs generalizing acc as with
  | nil => cases hF; exact ⟨[], by simp [entriesADec], fun _ => rfl⟩
  | cons e vs ih =>
    obtain ⟨n, x⟩ := e
    obtain ⟨hx0, hx1, hx2⟩ := hv (n, x) (by simp)
    obtain ⟨j, hj⟩ := Option.isSome_iff_exists.mp hx2
    obtain ⟨a, as', rfl, ha, hF'⟩ := fillsMembers_cons hj hF
    obtain ⟨u1, h1, k1⟩ := h.full hj hx1 hi hp ha (n, .string)
    rw [List.map_cons, List.nodup_cons] at hn
    obtain ⟨u2, h2, k2⟩ := ih (fun y hy => hv y (by simp [hy])) (ins acc (n, x)) hn.2 (fun y hy hm => by
      obtain ⟨z, hz, hzy⟩ := List.mem_map.mp hm
      rw [(hins acc (n, x)).mem_iff] at hz
      rcases List.mem_cons.mp hz with rfl | hm
      · exact hn.1 (hzy ▸ List.mem_map_of_mem hy)
      · exact hd y (by simp [hy]) (hzy ▸ List.mem_map_of_mem hm)) hF'
    refine ⟨u1 ++ u2, ?_, fun hc => by rw [k1 hc, k2 hc]; rfl⟩
    simp only at hj hx0
    simp only [entriesADec, h1, Option.bind_eq_bind, Option.bind_some]
    rw [Res.andThen_ok rfl]
    simp only [hx0]
    rw [mapSet_new (hd (n, x) (by simp)), h2]
    simp


/-! ### Structs -/

theorem membersADec_cons_ok {specs : List (AMemberSpec T)} {o : POpts} {n : Bytes} {v : AVal} {s : AMemberSpec T}
    {q r' : Res T} {old : T} {ms : List (Bytes × AVal)} (hs : (aresolve specs n).bind (specs[·]?) = some s)
    (hq : s.dec o old (.val (n, .string) v) = some q) (he : q.err = .noError)
    (hr : membersADec specs o q.val ms = some r') :
    membersADec specs o old ((n, v) :: ms) =
      some { r' with missing := q.missing ++ r'.missing, unassigned := q.unassigned ++ r'.unassigned } := by
  rw [membersADec, hs]
  simp only [hq, Option.bind_eq_bind, Option.bind_some]
  rw [Res.andThen_ok (by simp [Res.nested, he])]
  simp [Res.nested, hr]

theorem r_partADec_up (get : T → S) (set : S → T → T) (e : REntry S) :
    partADec get set (partADec e.get e.set e.type.adec) = partADec (e.up get set).get (e.up get set).set e.type.adec := by
  funext o old i
  simp only [partADec, REntry.up, Option.map_map]
  rfl

mutual
theorem RStruct.specs_entries (n : Bytes) : {T : Type} → (s : RStruct T) →
    (∀ e ∈ s.entries, ∃ m ∈ s.aspecs n, m.names = e.names ∧ m.dec = partADec e.get e.set e.type.adec) ∧
    ((s.aspecs n).map (·.names)).Perm (s.entries.map (·.names))
  | _, .mk ms ss => by
    obtain ⟨a1, a2⟩ := ms.specs_entries n
    obtain ⟨b1, b2⟩ := ss.specs_entries
    constructor
    · intro e he
      rcases List.mem_append.mp he with he | he
      · obtain ⟨m, hm, h⟩ := a1 e he
        exact ⟨m, by simp [RStruct.aspecs, hm], h⟩
      · obtain ⟨m, hm, h⟩ := b1 e he
        exact ⟨m, by simp [RStruct.aspecs, hm], h⟩
    · simp only [RStruct.aspecs, RStruct.entries, List.map_append, List.map_reverse]
      exact ((List.reverse_perm _).trans a2).append b2
theorem RMembers.specs_entries (n : Bytes) : {T : Type} → (ms : RMembers T) →
    (∀ e ∈ ms.entries, ∃ m ∈ ms.aspecs n, m.names = e.names ∧ m.dec = partADec e.get e.set e.type.adec) ∧
    ((ms.aspecs n).map (·.names)).Perm (ms.entries.map (·.names))
  | _, .nil => ⟨by simp [RMembers.entries], .refl _⟩
  | _, .cons names t get set ms => by
    obtain ⟨a1, a2⟩ := ms.specs_entries n
    constructor
    · intro e he
      rcases List.mem_cons.mp he with rfl | he
      · exact ⟨_, by simp only [RMembers.aspecs]; exact List.mem_cons_self .., rfl, rfl⟩
      · obtain ⟨m, hm, h⟩ := a1 e he
        exact ⟨m, by simp [RMembers.aspecs, hm], h⟩
    · exact a2.cons names
theorem RSupers.specs_entries : {T : Type} → (ss : RSupers T) →
    (∀ e ∈ ss.entries, ∃ m ∈ ss.aspecs, m.names = e.names ∧ m.dec = partADec e.get e.set e.type.adec) ∧
    (ss.aspecs.map (·.names)).Perm (ss.entries.map (·.names))
  | _, .nil => ⟨by simp [RSupers.entries], .refl _⟩
  | _, .cons name get set s ss => by
    obtain ⟨a1, a2⟩ := s.specs_entries name
    obtain ⟨b1, b2⟩ := ss.specs_entries
    constructor
    · intro e he
      rcases List.mem_append.mp he with he | he
      · obtain ⟨e', he', rfl⟩ := List.mem_map.mp he
        obtain ⟨m, hm, h1, h2⟩ := a1 e' he'
        refine ⟨m.up get set, by simp [RSupers.aspecs]; exact .inl ⟨m, hm, rfl⟩, h1, ?_⟩
        simp only [AMemberSpec.up, h2, r_partADec_up]
        rfl
      · obtain ⟨m, hm, h⟩ := b1 e he
        exact ⟨m, by simp [RSupers.aspecs, hm], h⟩
    · simp only [RSupers.aspecs, RSupers.entries, List.map_append, List.map_map]
      exact a2.append b2
end

/-- All members of a struct, one after the other. -/
theorem r_membersADec_enc {specs : List (AMemberSpec T)} {p : POpts} {v : T} (es : List (REntry T))
    (hp : p.allowUnassigned = true ∨ ∀ e ∈ es, e.type.WritesRequired d)
    (hspec : ∀ e ∈ es, ∃ m n, e.names.head? = some n ∧ (aresolve specs n).bind (specs[·]?) = some m ∧ m.dec = partADec e.get e.set e.type.adec)
    (hrt : ∀ e ∈ es, e.type.RoundTrips d) (hv : ∀ e ∈ es, e.type.Valid d (e.get v)) (x : T) (hf : ∀ e ∈ es, e.type.Fresh (e.get x))
    (hap : (es.map REntry.access).Pairwise Access.Apart) (hst : ∀ e ∈ es, ∀ y t, e.get (e.set y t) = y)
    {as : List (Bytes × AVal)} (hF : FillsMembers (es.filterMap fun e => (e.type.enc (e.get v)).map (e.names.headD [], ·)) as) :
    ∃ x' un, membersADec specs p x as = some ⟨.noError, x', [], un⟩ ∧
      ((∀ e ∈ es, e.type.WritesRequired d) → un = []) ∧
      (∀ e ∈ es, e.get x' = e.get v) ∧ ∀ a : Access T, (∀ e ∈ es, a.Apart e.access) → a.get x' = a.get x := by
  induction es generalizing x as with
  | nil => cases hF; exact ⟨x, [], by simp [membersADec], fun _ => rfl, by simp, by simp⟩
  | cons e es ih =>
    obtain ⟨m, n, hn, hres, hdec⟩ := hspec e (by simp)
    rw [List.map_cons, List.pairwise_cons] at hap
    obtain ⟨hap1, hap2⟩ := hap
    have ih := fun x hf as hF => ih (as := as) (hp.imp_right fun h e he => h e (by simp [he])) (fun e he => hspec e (by simp [he])) (fun e he => hrt e (by simp [he])) (fun e he => hv e (by simp [he])) x hf
      hap2 (fun e he => hst e (by simp [he])) hF
    have hee : ∀ e' ∈ es, e.access.Apart e'.access := fun e' he' => hap1 _ (List.mem_map_of_mem he')
    cases hj : e.type.enc (e.get v) with
    | none =>
      obtain ⟨x', un, h1, h0, h2, h3⟩ := ih x (fun e he => hf e (by simp [he])) as (by rw [List.filterMap_cons_none (by simp [hj])] at hF; exact hF)
      refine ⟨x', un, h1, fun h => h0 fun e he => h e (by simp [he]), ?_, fun a ha => h3 a fun e he => ha e (by simp [he])⟩
      intro e' he'
      rcases List.mem_cons.mp he' with rfl | he'
      · have := h3 e'.access hee
        exact this.trans ((hrt e' (by simp)).none hj (hv e' (by simp)) (hf e' (by simp)))
      · exact h2 e' he'
    | some j =>
      have hh : e.names.headD [] = n := by rw [List.headD_eq_head?_getD, hn]; rfl
      rw [List.filterMap_cons_some (b := (n, j)) (by rw [hj, hh]; rfl)] at hF
      obtain ⟨a, as', rfl, ha, hF'⟩ : ∃ a as', as = (n, a) :: as' ∧ Fills j a ∧ FillsMembers _ as' := by
        cases hF with
        | cons h1 h2 => exact ⟨_, _, rfl, h1, h2⟩
      obtain ⟨u1, k1, k0⟩ := (hrt e (by simp)).full hj (hv e (by simp)) (hf e (by simp)) (hp.imp_right fun h => h e (by simp)) ha (n, .string)
      have hq : m.dec p x (.val (n, .string) a) = some ⟨.noError, e.set (e.get v) x, [], u1⟩ := by
        simp [hdec, partADec, k1, Res.map]
      obtain ⟨x', un, h1, h0, h2, h3⟩ := ih (e.set (e.get v) x) (fun e' he' => by
        have := (hee e' he').2.1 (e.get v) x
        simp only [REntry.access] at this
        rw [this]
        exact hf e' (by simp [he'])) as' hF'
      refine ⟨x', u1 ++ un, ?_, fun h => by rw [k0 (h e (by simp)), h0 fun e he => h e (by simp [he])]; rfl, ?_, ?_⟩
      · rw [membersADec_cons_ok hres hq rfl h1]
        simp
      · intro e' he'
        rcases List.mem_cons.mp he' with rfl | he'
        · have := h3 e'.access hee
          exact this.trans (hst e' (by simp) _ _)
        · exact h2 e' he'
      · intro a ha
        rw [h3 a fun e he => ha e (by simp [he])]
        exact (ha e (by simp)).1 _ _

mutual
theorem RStruct.complete_entries : {T : Type} → (s : RStruct T) → s.WritesRequired d →
    ∀ e ∈ s.entries, (e.type.isOptional = true ∨ ∀ v, e.type.Valid d v → (e.type.enc v).isSome) ∧ e.type.WritesRequired d
  | _, .mk ms ss, h, e, he => by
    simp only [RStruct.WritesRequired] at h
    rcases List.mem_append.mp he with he | he
    · exact ms.complete_entries h.1 e he
    · exact ss.complete_entries h.2 e he
theorem RMembers.complete_entries : {T : Type} → (ms : RMembers T) → ms.WritesRequired d →
    ∀ e ∈ ms.entries, (e.type.isOptional = true ∨ ∀ v, e.type.Valid d v → (e.type.enc v).isSome) ∧ e.type.WritesRequired d
  | _, .nil, _, e, he => by simp [RMembers.entries] at he
  | _, .cons names t get set ms, h, e, he => by
    simp only [RMembers.WritesRequired] at h
    rcases List.mem_cons.mp he with rfl | he
    · exact h.1
    · exact ms.complete_entries h.2 e he
theorem RSupers.complete_entries : {T : Type} → (ss : RSupers T) → ss.WritesRequired d →
    ∀ e ∈ ss.entries, (e.type.isOptional = true ∨ ∀ v, e.type.Valid d v → (e.type.enc v).isSome) ∧ e.type.WritesRequired d
  | _, .nil, _, e, he => by simp [RSupers.entries] at he
  | _, .cons name get set s ss, h, e, he => by
    simp only [RSupers.WritesRequired] at h
    rcases List.mem_append.mp he with he | he
    · obtain ⟨e', he', rfl⟩ := List.mem_map.mp he
      exact s.complete_entries h.1 e' he'
    · exact ss.complete_entries h.2 e he
end

/-- The members a struct is searched for are the declared ones, in some order. -/
def RSpecOf (m : AMemberSpec T) (e : REntry T) : Prop :=
  m.names = e.names ∧ m.dec = partADec e.get e.set e.type.adec ∧ m.optional = e.type.isOptional

mutual
theorem RStruct.specs_of (n : Bytes) : {T : Type} → (s : RStruct T) → ∃ l, List.Forall₂ RSpecOf (s.aspecs n) l ∧ l.Perm s.entries
  | _, .mk ms ss => by
    obtain ⟨l1, a1, a2⟩ := ms.specs_of n
    obtain ⟨l2, b1, b2⟩ := ss.specs_of
    exact ⟨l1.reverse ++ l2, List.rel_append (List.rel_reverse a1) b1, ((List.reverse_perm _).trans a2).append b2⟩
theorem RMembers.specs_of (n : Bytes) : {T : Type} → (ms : RMembers T) → ∃ l, List.Forall₂ RSpecOf (ms.aspecs n) l ∧ l.Perm ms.entries
  | _, .nil => ⟨[], .nil, .refl _⟩
  | _, .cons names t get set ms => by
    obtain ⟨l1, a1, a2⟩ := ms.specs_of n
    exact ⟨{ names := names, type := t, get := get, set := set } :: l1, .cons ⟨rfl, rfl, rfl⟩ a1, a2.cons _⟩
theorem RSupers.specs_of : {T : Type} → (ss : RSupers T) → ∃ l, List.Forall₂ RSpecOf ss.aspecs l ∧ l.Perm ss.entries
  | _, .nil => ⟨[], .nil, .refl _⟩
  | _, .cons name get set s ss => by
    obtain ⟨l1, a1, a2⟩ := s.specs_of name
    obtain ⟨l2, b1, b2⟩ := ss.specs_of
    refine ⟨l1.map (REntry.up get set) ++ l2, List.rel_append ?_ b1, (a2.map _).append b2⟩
    rw [List.forall₂_map_left_iff, List.forall₂_map_right_iff]
    refine a1.imp fun m e h => ⟨h.1, ?_, h.2.2⟩
    simp only [AMemberSpec.up, h.2.1, r_partADec_up]
    rfl
end

theorem aresolve_primary {specs : List (AMemberSpec T)} (hd : (specs.map fun m => m.names.head?).Nodup) {m : AMemberSpec T} (hm : m ∈ specs)
    {n : Bytes} (hn : m.names.head? = some n) : (aresolve specs n).bind (specs[·]?) = some m := by
  have hd' : ((specs.map AMemberSpec.named).map fun m => m.names.head?).Nodup := by rw [List.map_map]; exact hd
  have h := resolve_primary hd' (List.mem_map_of_mem (f := AMemberSpec.named) hm) hn
  obtain ⟨i, hi, hm'⟩ := Option.bind_eq_some_iff.mp h
  rw [aresolve, hi, Option.bind_some]
  obtain ⟨k, hk⟩ := List.mem_iff_getElem?.mp hm
  obtain ⟨a1, a2⟩ := List.getElem?_eq_some_iff.mp hm'
  obtain ⟨b1, b2⟩ := List.getElem?_eq_some_iff.mp hk
  obtain rfl : i = k := by
    refine (List.getElem_inj (h₀ := by simpa using a1) (h₁ := by simpa using b1) hd).mp ?_
    rw [List.getElem_map, List.getElem_map, b2]
    have := congrArg MemberSpec.names a2
    rw [List.getElem_map] at this
    exact congrArg List.head? this
  exact hk

/-- If all members are complete, none that is required is left out. -/
theorem r_unassigned_enc {s : RStruct T} (hs : s.Sensible) (hc : s.WritesRequired d) {v : T} (hv : s.Valid d v) :
    unassignedNames ((s.aspecs []).map AMemberSpec.named) (s.enc v) = [] := by
  rw [unassignedNames, List.map_eq_nil_iff, List.filter_eq_nil_iff]
  rintro ⟨m', i⟩ hmi
  rw [List.mem_zipIdx_iff_getElem?] at hmi
  simp only [List.getElem?_map, Option.map_eq_some_iff] at hmi
  obtain ⟨m, hmi, rfl⟩ := hmi
  obtain ⟨l, h1, h2⟩ := s.specs_of []
  obtain ⟨e, k1, k2, k3, k4⟩ := forall₂_get h1 hmi
  have k4' : m.named.optional = e.type.isOptional := k4
  have he : e ∈ s.entries := h2.mem_iff.mp (List.mem_of_getElem? k1)
  simp only [Bool.and_eq_true, Bool.not_eq_true', not_and, Bool.not_eq_false, k4']
  intro ho
  rcases (s.complete_entries hc e he).1 with h | h
  · rw [h] at ho; cases ho
  · obtain ⟨j, hj⟩ := Option.isSome_iff_exists.mp (h _ (s.valid_entries v hv e he))
    obtain ⟨n, hn, _⟩ := hs.named e he
    have hd : ((s.aspecs []).map fun m => m.names.head?).Nodup := by
      have g := ((s.specs_entries []).2).map List.head?
      simp only [List.map_map] at g
      exact g.symm.nodup hs.distinct
    rw [List.any_eq_true]
    refine ⟨(n, j), ?_, ?_⟩
    · rw [s.enc_entries, List.mem_filterMap]
      exact ⟨e, he, by rw [hj, List.headD_eq_head?_getD, hn]; rfl⟩
    · have := aresolve_primary hd (List.mem_of_getElem? hmi) (k2 ▸ hn)
      obtain ⟨i', hi', hm'⟩ := Option.bind_eq_some_iff.mp this
      rw [aresolve] at hi'
      rw [hi', beq_iff_eq, Option.some.injEq]
      obtain ⟨a1, a2⟩ := List.getElem?_eq_some_iff.mp hm'
      obtain ⟨b1, b2⟩ := List.getElem?_eq_some_iff.mp hmi
      refine (List.getElem_inj (h₀ := by simpa using a1) (h₁ := by simpa using b1) hd).mp ?_
      simp only [List.getElem_map, a2, b2]

theorem r_structADec_enc {s : RStruct T} (hs : s.Sensible) (hrt : ∀ e ∈ s.entries, e.type.RoundTrips d) {v : T} (hv : s.Valid d v) {old : T}
    (hf : s.Fresh old) {p : POpts} (hp : p.allowUnassigned = true ∨ s.WritesRequired d) (l : Lbl) {a : AVal} (hF : Fills (.obj (s.enc v)) a) :
    ∃ un, structADec (s.aspecs []) p old (.val l a) = some ⟨.noError, v, [], un⟩ ∧ (s.WritesRequired d → un = []) := by
  obtain ⟨a1, a2⟩ := s.specs_entries []
  have hd : ((s.aspecs []).map fun m => m.names.head?).Nodup := by
    have h1 := a2.map List.head?
    simp only [List.map_map] at h1
    exact h1.symm.nodup hs.distinct
  obtain ⟨src, as, rfl, hF'⟩ : ∃ src as, a = .obj src as ∧ FillsMembers (s.enc v) as := by
    cases hF with
    | obj h => exact ⟨_, _, rfl, h⟩
  obtain ⟨x', un, h1, h0, h2, _⟩ := r_membersADec_enc (specs := s.aspecs []) (v := v) s.entries (hp.imp_right fun h e he => (s.complete_entries h e he).2) (fun e he => by
      obtain ⟨m, hm, hm1, hm2⟩ := a1 e he
      obtain ⟨n, hn, _⟩ := hs.named e he
      exact ⟨m, n, hn, aresolve_primary hd hm (hm1 ▸ hn), hm2⟩) hrt (s.valid_entries v hv) old (s.fresh_entries old hf) hs.apart hs.stored
      (s.enc_entries v ▸ hF')
  obtain rfl := hs.all _ _ h2
  have hun := unassigned_names (specs := (s.aspecs []).map AMemberSpec.named) (fills_names hF')
  have hok : unassignedNames ((s.aspecs []).map AMemberSpec.named) (s.enc x') = [] ∨ p.allowUnassigned = true := hp.symm.imp_left fun h => r_unassigned_enc hs h hv
  refine ⟨un ++ if p.track then unassignedNames ((s.aspecs []).map AMemberSpec.named) (s.enc x') else [], ?_, fun h => ?_⟩
  · simp only [structADec, objectADec, h1, Option.bind_eq_bind, Option.bind_some]
    rw [Res.andThen_ok rfl, hun]
    simp [hok]
  · rw [h0 fun e he => (s.complete_entries h e he).2, r_unassigned_enc hs h hv]
    simp

/-! ### All types -/

theorem fills_arr {js : List JVal} {a : AVal} (h : Fills (.arr js) a) : ∃ s vs, a = .arr s vs ∧ FillsElems js vs := by
  cases h with
  | arr h => exact ⟨_, _, rfl, h⟩

theorem fills_obj {js : List (Bytes × JVal)} {a : AVal} (h : Fills (.obj js) a) : ∃ s ms, a = .obj s ms ∧ FillsMembers js ms := by
  cases h with
  | obj h => exact ⟨_, _, rfl, h⟩

/-- What stands in the place of the text in a capture. -/
theorem raw_fills {k : RawKind} {v : Bytes} (hv : ∃ j, Text d j v ∧ k.Takes j) {a : AVal} (h : Fills (.num v) a) :
    (∃ s vs, a = .arr s vs ∧ s.text = v ∧ k ≠ .object) ∨ ∃ s ms, a = .obj s ms ∧ s.text = v ∧ k ≠ .array := by
  obtain ⟨j, h1, h2⟩ := hv
  have hh := bracket_head h1 (takes_container h2)
  cases h with
  | num hn =>
    rcases hh with ⟨hh, _⟩ | ⟨hh, _⟩
    · exact absurd hh (number_head hn).1
    · exact absurd hh (number_head hn).2
  | rawArr hs =>
    refine .inl ⟨_, _, rfl, rfl, ?_⟩
    rintro rfl
    rcases hh with ⟨_, vs, rfl⟩ | ⟨hh, _⟩
    · exact h2
    · rw [hs] at hh; cases hh
  | rawObj hs =>
    refine .inr ⟨_, _, rfl, rfl, ?_⟩
    rintro rfl
    rcases hh with ⟨hh, _⟩ | ⟨_, vs, rfl⟩
    · rw [hs] at hh; cases hh
    · exact h2

mutual
theorem RType.roundTrips : {T : Type} → (t : RType T) → t.Lawful → t.RoundTrips d
  | _, .lib t, h => by
    simp only [RType.Lawful] at h
    intro v hv old hf p l hp
    simp only [RType.WritesRequired] at hp ⊢
    simp only [RType.Valid] at hv
    simp only [RType.Fresh] at hf
    have := CType.roundTrips t h v hv old hf p l (by simpa only [RType.WritesRequired] using hp)
    simp only [RType.enc]
    cases hj : t.enc v with
    | none => rw [hj] at this; exact this
    | some j =>
      rw [hj] at this
      simp only at this ⊢
      intro a ha
      simp only [RType.adec, plainADec, AItem.plain, fills_plain ha (CType.good t h v hv j hj).1]
      exact this
  | _, .raw k _, _ => by
    intro v hv old hf p l hp
    simp only [RType.WritesRequired] at hp ⊢
    simp only [RType.Valid] at hv
    simp only [RType.Fresh] at hf
    subst hf
    simp only [RType.enc, if_neg (takes_nonempty hv), RType.adec]
    exact fun a ha => ⟨[], by
      obtain ⟨s, vs, rfl, hs, hk⟩ | ⟨s, ms, rfl, hs, hk⟩ := raw_fills hv ha <;> simp [rawADec, hs, hk], fun _ => rfl⟩
  | _, .rawRef k, _ => by
    intro v hv old hf p l hp
    simp only [RType.WritesRequired] at hp ⊢
    simp only [RType.Valid] at hv
    simp only [RType.enc, RType.adec]
    exact fun a ha => ⟨[], by
      obtain ⟨s, vs, rfl, hs, hk⟩ | ⟨s, ms, rfl, hs, hk⟩ := raw_fills hv ha <;> simp [rawRefADec, hs, hk], fun _ => rfl⟩
  | _, .nullable t, h => by
    simp only [RType.Lawful] at h
    intro v hv old hf p l hp
    simp only [RType.WritesRequired] at hp ⊢
    simp only [RType.Valid] at hv
    simp only [RType.Fresh] at hf
    have := t.roundTrips h v hv.1 old hf p l hp
    simp only [RType.enc]
    cases hj : t.enc v with
    | none => rw [hj] at this; exact this
    | some j =>
      rw [hj] at this
      simp only at this ⊢
      intro a ha
      obtain ⟨un, hu, hc⟩ := this a ha
      refine ⟨un, ?_, hc⟩
      have hne : a ≠ .null := fills_ne_null ha fun e => hv.2 (e ▸ hj)
      rw [← hu]
      simp only [RType.adec]
      cases a <;> first | rfl | exact absurd rfl hne
  | _, .nullableChecked t, h => by
    simp only [RType.Lawful] at h
    intro v hv old hf p l hp
    simp only [RType.WritesRequired] at hp ⊢
    obtain ⟨v, b⟩ := v
    simp only [RType.Valid] at hv
    simp only [RType.Fresh] at hf
    cases b with
    | true =>
      simp only [if_true] at hv
      simp only [RType.enc, if_true]
      intro a ha
      cases ha
      exact ⟨[], by simp [RType.adec, nullableCheckedADec, hf, hv], fun _ => rfl⟩
    | false =>
      simp only [Bool.false_eq_true, if_false] at hv
      obtain ⟨hv, j, hj, hne⟩ := hv
      simp only [RType.enc, Bool.false_eq_true, if_false, hj]
      intro a ha
      have hne := fills_ne_null ha hne
      obtain ⟨un, hu, hc⟩ := (t.roundTrips h).full hj hv (old := old.1) (hf ▸ t.fresh_init h) hp ha l
      refine ⟨un, ?_, hc⟩
      simp only [RType.adec]
      cases a <;> first | (exact absurd rfl hne) | simp [nullableCheckedADec, hu, Res.map]
  | _, .optional t, h => by
    simp only [RType.Lawful] at h
    intro v hv old hf p l hp
    simp only [RType.WritesRequired] at hp ⊢
    simp only [RType.Valid] at hv
    simp only [RType.Fresh] at hf
    exact t.roundTrips h v hv old hf p l hp
  | _, .optionalChecked t, h => by
    simp only [RType.Lawful] at h
    intro v hv old hf p l hp
    simp only [RType.WritesRequired] at hp ⊢
    obtain ⟨v, b⟩ := v
    simp only [RType.Valid] at hv
    simp only [RType.Fresh] at hf
    subst hf
    cases b with
    | false =>
      simp only [Bool.false_eq_true, if_false] at hv
      simp [RType.enc, hv]
    | true =>
      simp only [if_true] at hv
      obtain ⟨j, hj⟩ := Option.isSome_iff_exists.mp hv.2
      simp only [RType.enc, if_true, hj]
      intro a ha
      obtain ⟨un, hu, hc⟩ := (t.roundTrips h).full hj hv.1 (t.fresh_init h) hp ha l
      exact ⟨un, by simp [RType.adec, optionalCheckedADec, hu, Res.map], hc⟩
  | _, .stdOptional t, h => by
    simp only [RType.Lawful] at h
    intro v hv old hf p l hp
    simp only [RType.WritesRequired] at hp ⊢
    simp only [RType.Valid] at hv
    simp only [RType.Fresh] at hf
    subst hf
    cases v with
    | none => simp [RType.enc]
    | some v =>
      obtain ⟨hv1, hv2⟩ := hv v rfl
      obtain ⟨j, hj⟩ := Option.isSome_iff_exists.mp hv2
      simp only [RType.enc, Option.bind_some, hj]
      intro a ha
      obtain ⟨un, hu, hc⟩ := (t.roundTrips h).full hj hv1 (t.fresh_init h) hp ha l
      exact ⟨un, by simp [RType.adec, stdOptionalADec, hu, Res.map], hc⟩
  | _, .sharedPtr t, h => by
    simp only [RType.Lawful] at h
    intro v hv old hf p l hp
    simp only [RType.WritesRequired] at hp ⊢
    simp only [RType.Valid] at hv
    simp only [RType.Fresh] at hf
    cases v with
    | none => simp only [RType.enc]; intro a ha; cases ha; exact ⟨[], by simp [RType.adec, ptrADec], fun _ => rfl⟩
    | some v =>
      obtain ⟨hv, j, hj, hne⟩ := hv v rfl
      simp only [RType.enc, hj]
      intro a ha
      have hne := fills_ne_null ha hne
      obtain ⟨un, hu, hc⟩ := (t.roundTrips h).full hj hv (old := old.getD t.init) (by
        cases old with
        | none => exact t.fresh_init h
        | some y => exact hf y rfl) hp ha l
      refine ⟨un, ?_, hc⟩
      simp only [RType.adec]
      cases a <;> first | (exact absurd rfl hne) | simp [ptrADec, hu, Res.map]
  | _, .uniquePtr t, h => by
    simp only [RType.Lawful] at h
    intro v hv old hf p l hp
    simp only [RType.WritesRequired] at hp ⊢
    simp only [RType.Valid] at hv
    simp only [RType.Fresh] at hf
    cases v with
    | none => simp only [RType.enc]; intro a ha; cases ha; exact ⟨[], by simp [RType.adec, ptrADec], fun _ => rfl⟩
    | some v =>
      obtain ⟨hv, j, hj, hne⟩ := hv v rfl
      simp only [RType.enc, hj]
      intro a ha
      have hne := fills_ne_null ha hne
      obtain ⟨un, hu, hc⟩ := (t.roundTrips h).full hj hv (old := old.getD t.init) (by
        cases old with
        | none => exact t.fresh_init h
        | some y => exact hf y rfl) hp ha l
      refine ⟨un, ?_, hc⟩
      simp only [RType.adec]
      cases a <;> first | (exact absurd rfl hne) | simp [ptrADec, hu, Res.map]
  | _, .silentVector t, h => by
    simp only [RType.Lawful] at h
    intro v hv old hf p l hp
    simp only [RType.WritesRequired] at hp ⊢
    simp only [RType.Valid] at hv
    simp only [RType.Fresh] at hf
    cases v with
    | nil => simp [RType.enc, hf]
    | cons x v =>
      simp only [RType.enc, List.isEmpty_cons, Bool.false_eq_true, if_false]
      intro a ha
      obtain ⟨src, as, rfl, hF⟩ := fills_arr ha
      exact r_elemsADec_enc (t.roundTrips h) (t.fresh_init h) hp (x :: v) hv [] hF
  | _, .silentUniquePtr t, h => by
    simp only [RType.Lawful] at h
    intro v hv old hf p l hp
    simp only [RType.WritesRequired] at hp ⊢
    simp only [RType.Valid] at hv
    simp only [RType.Fresh] at hf
    subst hf
    cases v with
    | none => simp [RType.enc]
    | some v =>
      obtain ⟨hv, j, hj, hne⟩ := hv v rfl
      simp only [RType.enc, Option.bind_some, hj]
      intro a ha
      have hne := fills_ne_null ha hne
      obtain ⟨un, hu, hc⟩ := (t.roundTrips h).full hj hv (t.fresh_init h) hp ha l
      refine ⟨un, ?_, hc⟩
      simp only [RType.adec]
      cases a <;> first | (exact absurd rfl hne) | simp [ptrADec, hu, Res.map]
  | _, .vector t, h => by
    simp only [RType.Lawful] at h
    intro v hv old _ p l hp
    simp only [RType.WritesRequired] at hp ⊢
    simp only [RType.Valid] at hv
    simp only [RType.enc]
    intro a ha
    obtain ⟨src, as, rfl, hF⟩ := fills_arr ha
    exact r_elemsADec_enc (t.roundTrips h) (t.fresh_init h) hp v hv [] hF
  | _, .oneOrMany t, h => by
    simp only [RType.Lawful] at h
    intro v hv old hf p l hp
    simp only [RType.WritesRequired] at hp ⊢
    simp only [RType.Valid] at hv
    simp only [RType.Fresh] at hf
    subst hf
    match v with
    | [] => simp [RType.enc]
    | [x] =>
      obtain ⟨hv1, hv2⟩ := hv.1 x (by simp)
      obtain ⟨j, hj⟩ := Option.isSome_iff_exists.mp hv2
      simp only [RType.enc, hj]
      intro a ha
      obtain ⟨un, hu, hc⟩ := (t.roundTrips h).full hj hv1 (t.fresh_init h) hp ha l
      refine ⟨un, ?_, hc⟩
      have hna := hv.2 x j rfl hj
      simp only [RType.adec]
      cases ha with
      | arr => exact absurd trivial hna
      | rawArr h => exact absurd h hna
      | _ => simp [oneOrManyADec, hu, Res.map]
    | x :: y :: v =>
      simp only [RType.enc]
      intro a ha
      obtain ⟨src, as, rfl, hF⟩ := fills_arr ha
      exact r_elemsADec_enc (t.roundTrips h) (t.fresh_init h) hp (x :: y :: v) hv.1 [] hF
  | _, .array N t, h => by
    simp only [RType.Lawful] at h
    intro v hv old hf p l hp
    simp only [RType.WritesRequired] at hp ⊢
    simp only [RType.Valid] at hv
    simp only [RType.Fresh] at hf
    simp only [RType.enc]
    intro a ha
    obtain ⟨src, as, rfl, hF⟩ := fills_arr ha
    exact r_fixedADec_enc (t.roundTrips h) hp v hv.2 old (by omega) hf.2 hF
  | _, .arrayVariable count t, h => by
    simp only [RType.Lawful] at h
    intro v hv old hf p l hp
    simp only [RType.WritesRequired] at hp ⊢
    obtain ⟨v, n⟩ := v
    simp only [RType.Valid] at hv
    simp only [RType.Fresh] at hf
    obtain ⟨hl, hn, hv, hrest⟩ := hv
    simp only [RType.enc, RType.adec, avcADec]
    intro a ha
    obtain ⟨src, as, rfl, hF⟩ := fills_arr ha
    simp only [arrayADec]
    by_cases hc : count = 0
    · obtain rfl : n = 0 := by omega
      subst hc
      obtain rfl := List.length_eq_zero_iff.mp hl
      cases hF
      exact ⟨[], by simp [hf.1, hf.2 rfl, avcFixedADec], fun _ => rfl⟩
    · have hlt : n < count := by omega
      have hd : v.drop n = List.replicate (count - n) t.init := by
        rw [List.eq_replicate_iff]
        exact ⟨by simp [hl], hrest⟩
      obtain ⟨un, hu, hc⟩ := r_avcFixedADec_enc (t.roundTrips h) hp (v.take n) hv (List.replicate n t.init) (v.drop n)
        (by simp; omega) (fun y hy => (List.mem_replicate.mp hy).2 ▸ t.fresh_init h) old.2 0 (by rw [hd]; simp; omega) hF
      refine ⟨un, ?_, hc⟩
      have he : old.1 = List.replicate n t.init ++ v.drop n := by
        rw [hf.1, hd, List.replicate_append_replicate]
        congr 1
        omega
      rw [he, hu]
      simp
      omega
  | _, .tuple ts, h => by
    simp only [RType.Lawful] at h
    intro v hv old hf p l hp
    simp only [RType.WritesRequired] at hp ⊢
    simp only [RType.Valid] at hv
    simp only [RType.Fresh] at hf
    simp only [RType.enc]
    intro a ha
    obtain ⟨src, as, rfl, hF⟩ := fills_arr ha
    exact ts.roundTrips h v hv old hf p hp hF
  | _, .set eq ins t, h => by
    simp only [RType.Lawful] at h
    intro v hv old _ p l hp
    simp only [RType.WritesRequired] at hp ⊢
    simp only [RType.Valid] at hv
    simp only [RType.enc]
    intro a ha
    obtain ⟨src, as, rfl, hF⟩ := fills_arr ha
    obtain ⟨un, hu, hc⟩ := r_setElemsADec_enc h.1 (t.roundTrips h.2) (t.fresh_init h.2) hp v hv.2.2 [] hv.1 (by simp) hF
    exact ⟨un, by simp only [RType.adec, setADec, arrayADec]; rw [hu, hv.2.1], hc⟩
  | _, .map ins t, h => by
    simp only [RType.Lawful] at h
    intro v hv old hf p l hp
    simp only [RType.WritesRequired] at hp ⊢
    simp only [RType.Valid] at hv
    simp only [RType.Fresh] at hf
    subst hf
    simp only [RType.enc]
    intro a ha
    obtain ⟨src, as, rfl, hF⟩ := fills_obj ha
    obtain ⟨un, hu, hc⟩ := r_entriesADec_enc h.1 (t.roundTrips h.2) (t.fresh_init h.2) hp v (fun e he => (hv.2.2 e he).2.2) [] hv.1 (by simp) hF
    exact ⟨un, by simp only [RType.adec, mapADec, objectADec]; rw [hu, hv.2.1], hc⟩
  | _, .struct init s, h => by
    simp only [RType.Lawful] at h
    intro v hv old hf p l hp
    simp only [RType.WritesRequired] at hp ⊢
    simp only [RType.Valid] at hv
    simp only [RType.Fresh] at hf
    simp only [RType.enc]
    intro a ha
    exact r_structADec_enc h.1 (s.roundTrips h.2.2) hv hf hp l ha
theorem RTypes.roundTrips : {Ts : Type} → (ts : RTypes Ts) → ts.Lawful → ∀ v, ts.Valid d v → ∀ old, ts.Fresh old → ∀ p : POpts,
    p.allowUnassigned = true ∨ ts.WritesRequired d → ∀ {as : List AVal}, FillsElems (ts.enc v) as → ∃ un, ts.adec p old as = some ⟨.noError, v, [], un⟩ ∧ (ts.WritesRequired d → un = [])
  | _, .nil, _, v, _, old, _, p, _, as, hF => by
    simp only [RTypes.enc] at hF
    cases hF
    exact ⟨[], by simp [RTypes.adec, tupNilADec], fun _ => rfl⟩
  | _, .cons t ts, h, v, hv, old, hf, p, hp, as, hF => by
    simp only [RTypes.Lawful] at h
    simp only [RTypes.Valid] at hv
    simp only [RTypes.Fresh] at hf
    obtain ⟨j, hj⟩ := Option.isSome_iff_exists.mp hv.1.2
    simp only [RTypes.WritesRequired] at hp
    simp only [RTypes.enc, hj, Option.toList_some, List.singleton_append] at hF
    obtain ⟨a, as', rfl, ha, hF'⟩ : ∃ a as', as = a :: as' ∧ Fills j a ∧ FillsElems (ts.enc v.2) as' := by
      cases hF with
      | cons h1 h2 => exact ⟨_, _, rfl, h1, h2⟩
    obtain ⟨u1, h1, k1⟩ := (t.roundTrips h.1).full hj hv.1.1 hf.1 (hp.imp_right And.left) ha ([], .ascii)
    obtain ⟨u2, h2, k2⟩ := ts.roundTrips h.2 v.2 hv.2 old.2 hf.2 p (hp.imp_right And.right) hF'
    refine ⟨u1 ++ u2, ?_, fun h => by rw [k1 (by simp only [RTypes.WritesRequired] at h; exact h.1), k2 (by simp only [RTypes.WritesRequired] at h; exact h.2)]; rfl⟩
    simp only [RTypes.adec, tupConsADec, aelem, h1, Option.bind_eq_bind, Option.bind_some]
    rw [Res.andThen_ok rfl, h2]
    simp [Res.map]
theorem RStruct.roundTrips : {T : Type} → (s : RStruct T) → s.Lawful → ∀ e ∈ s.entries, e.type.RoundTrips d
  | _, .mk ms ss, h, e, he => by
    simp only [RStruct.Lawful] at h
    rcases List.mem_append.mp he with he | he
    · exact ms.roundTrips h.1 e he
    · exact ss.roundTrips h.2 e he
theorem RMembers.roundTrips : {T : Type} → (ms : RMembers T) → ms.Lawful → ∀ e ∈ ms.entries, e.type.RoundTrips d
  | _, .nil, _, e, he => by simp [RMembers.entries] at he
  | _, .cons names t get set ms, h, e, he => by
    simp only [RMembers.Lawful] at h
    rcases List.mem_cons.mp he with rfl | he
    · exact t.roundTrips h.1
    · exact ms.roundTrips h.2 e he
theorem RSupers.roundTrips : {T : Type} → (ss : RSupers T) → ss.Lawful → ∀ e ∈ ss.entries, e.type.RoundTrips d
  | _, .nil, _, e, he => by simp [RSupers.entries] at he
  | _, .cons name get set s ss, h, e, he => by
    simp only [RSupers.Lawful] at h
    rcases List.mem_append.mp he with he | he
    · obtain ⟨e', he', rfl⟩ := List.mem_map.mp he
      exact s.roundTrips h.1 e' he'
    · exact ss.roundTrips h.2 e he
end

end JsonStruct
