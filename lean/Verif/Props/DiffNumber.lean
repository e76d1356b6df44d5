import Verif.Lemmas.DiffNumber
import Verif.Props.Diff

/-
C74: how the numbers of two compared documents are compared.
-/

namespace JsonStruct

/-! ### The comparison as one of those of C28, C29, C53, C54 and C64 -/

theorem stod_lt {lib : CLib} {s : Bytes} {x : Dbl} (h : stod lib s = some x) : x.mag < f64.inf := by
  unfold stod at h
  split at h
  · simp at h
  · rename_i neg m e _
    simp only at h
    generalize (if 0 ≤ e then (m * 10 ^ e.toNat, 1) else (m, 10 ^ (-e).toNat)) = x at h
    split at h
    · simp at h
    · split at h
      · simp at h
      · injection h with h
        subst h
        simp only
        omega

/-- The comparison the options ask for, on doubles that are numbers. -/
def DiffOptions.cmp (lib : CLib) (o : DiffOptions) : NumCmp { x : Dbl // x.mag < f64.inf } where
  stod s := (stod lib s).pmap Subtype.mk fun _ h => stod_lt h
  eq x y := if o.fuzzy then fuzzyEquals x.1 y.1 (.ofBits o.epsilon) else x.1.same y.1

theorem cmp_stod (lib : CLib) (o : DiffOptions) (s : Bytes) : ((o.cmp lib).stod s).map Subtype.val = stod lib s := by
  simp only [DiffOptions.cmp, Option.map_pmap]
  rw [Option.pmap_eq_map]
  simp

theorem diffNumbers_cmp (lib : CLib) (o : DiffOptions) : diffNumbers lib o = (o.cmp lib).same := by
  funext a b
  unfold diffNumbers NumCmp.same
  rw [← cmp_stod lib o a, ← cmp_stod lib o b]
  cases h1 : (o.cmp lib).stod a with
  | none => rfl
  | some x =>
    cases h2 : (o.cmp lib).stod b with
    | none => rfl
    | some y =>
      simp only [Option.map_some, bind, Option.bind, DiffOptions.cmp]
      split <;> rfl

/-! ### Values -/

theorem HasValue.unique {s : Bytes} {v w : ℚ} (h : HasValue s v) (h' : HasValue s w) : v = w := by
  obtain ⟨n, rfl, hn, hi, rfl⟩ := h
  obtain ⟨m, hm, hl, hj, rfl⟩ := h'
  have h1 := strtodText_text hn hi
  rw [← hm, strtodText_text hl hj] at h1
  injection h1 with h1
  injection h1 with h1 h2
  injection h2 with h2 h3
  unfold NumText.value NumText.absValue
  rw [h1, h2, h3]

theorem nearest_exists (v : ℚ) : ∃ x, NearestDouble v x := by
  refine ⟨_, roundTo f64.toFloatFmt v.num.natAbs v.den, ?_, rfl⟩
  have := roundTo_nearest f64.toFloatFmt (by decide) (n := v.num.natAbs) v.den_pos
  rw [show |v| = (v.num.natAbs : ℚ) / v.den by
    conv_lhs => rw [← Rat.num_div_den v]
    rw [abs_div, Nat.abs_cast, Nat.cast_natAbs, Int.cast_abs]]
  exact this

theorem NearestDouble.unique {v x y : ℚ} (h : NearestDouble v x) (h' : NearestDouble v y) : x = y := by
  obtain ⟨b, h1, rfl⟩ := h
  obtain ⟨c, h2, rfl⟩ := h'
  have : b = c := roundsTo_unique (F := f64.toFloatFmt) h1 h2
  rw [this]

/-- Every JSON number has a value. -/
theorem hasValue_json {s : Bytes} (h : JsonNumber s) : ∃ v, HasValue s v := by
  obtain ⟨m, i, f, e, rfl, hm, hi, hf, he⟩ := h
  have hi' : i ≠ [] ∧ AllDigits i := by
    rcases hi with rfl | hi
    · exact ⟨by decide, by intro c hc; simp only [List.mem_singleton] at hc; subst hc; decide⟩
    · exact hi.1
  obtain ⟨f', hf1, hf2⟩ : ∃ f', fracText f' = f ∧ ∀ x ∈ f', AllDigits x := by
    rcases hf with rfl | ⟨d, rfl, hd⟩
    · exact ⟨none, rfl, by simp⟩
    · exact ⟨some d, rfl, by intro x hx; injection hx with hx; subst hx; exact hd.2⟩
  obtain ⟨e', he1, he2⟩ : ∃ e', expText e' = e ∧ ∀ x ∈ e', (x.1 = 0x65 ∨ x.1 = 0x45) ∧ (x.2.1 = [] ∨ x.2.1 = b!"+" ∨ x.2.1 = b!"-") ∧ Digits x.2.2 := by
    rcases he with rfl | ⟨c, sg, d, rfl, h1, h2, h3⟩
    · exact ⟨none, rfl, by simp⟩
    · exact ⟨some (c, sg, d), rfl, by intro x hx; injection hx with hx; subst hx; exact ⟨h1, h2, h3⟩⟩
  refine ⟨_, { neg := decide (m = b!"-"), int := i, frac := f', exp := e' }, ?_, ⟨hi'.2, hf2, he2⟩, hi'.1, rfl⟩
  simp only [NumText.text, hf1, he1, decide_eq_true_eq]
  rcases hm with rfl | rfl
  · simp
  · simp

/-! ### C74 -/

/-- **C74** (part). Comparing two numbers in the range of the normal doubles does not throw, and they are found equal exactly if
the doubles nearest to them are equal, or, with a tolerance, not farther apart, up to the rounding of the difference. This holds
for every C library. Missing: numbers that are too large or too small, see `C74_false_range`. -/
theorem C74_numbers_partial (lib : CLib) (o : DiffOptions) (ho : o.Sound) (a b : Bytes) (ha : OrdinaryNumber a) (hb : OrdinaryNumber b) :
    ∃ r, diffNumbers lib o a b = some r ∧ (r = true ↔ NumbersAgree o.tolerance a b) := by
  obtain ⟨v, hv, rv⟩ := ha
  obtain ⟨w, hw, rw'⟩ := hb
  obtain ⟨x, hx⟩ := nearest_exists v
  obtain ⟨y, hy⟩ := nearest_exists w
  obtain ⟨p, p1, p2, p3⟩ := stod_nearest lib hv rv hx
  obtain ⟨q, q1, q2, q3⟩ := stod_nearest lib hw rw' hy
  have key : DoublesAgree o.tolerance x y ↔ NumbersAgree o.tolerance a b := by
    constructor
    · intro h; exact ⟨v, w, x, y, hv, hw, hx, hy, h⟩
    · rintro ⟨v', w', x', y', h1, h2, h3, h4, h5⟩
      have := hv.unique h1; subst this
      have := hw.unique h2; subst this
      have := hx.unique h3; subst this
      have := hy.unique h4; subst this
      exact h5
  rw [← key]
  have he : o.epsilon ≤ f64.inf := ho
  subst p3 q3
  unfold diffNumbers DiffOptions.tolerance
  simp only [p1, q1, bind, Option.bind]
  cases o.fuzzy
  · exact ⟨_, rfl, Dbl.same_iff p2 q2⟩
  · exact ⟨_, rfl, fuzzyEquals_iff he⟩

theorem agree_of_close {o : DiffOptions} (ho : o.Sound) {x y : ℚ} (h : o.fuzzy = true) (hxy : |x - y| ≤ absValue 52 11 o.epsilon) :
    DoublesAgree o.tolerance x y := by
  have he : o.epsilon ≤ f64.inf := ho
  simp only [DiffOptions.tolerance, h, if_true, DoublesAgree]
  obtain ⟨d, hd⟩ := nearest_exists |x - y|
  refine ⟨d, hd, ?_⟩
  obtain ⟨b, h1, rfl⟩ := hd
  rw [abs_abs] at h1
  rw [if_neg (not_lt.2 (abs_nonneg _))]
  by_contra hc
  have hb : b ≤ f64.inf := h1.1
  have hne : o.epsilon ≠ b := by rintro rfl; exact hc (le_refl _)
  have hnn := abs_nonneg (x - y)
  generalize |x - y| = z at *
  have h2 := h1.2 o.epsilon he hne
  rw [not_le] at hc
  rw [abs_of_nonneg (show 0 ≤ absValue 52 11 b - z by linarith), abs_of_nonneg (show 0 ≤ absValue 52 11 o.epsilon - z by linarith)] at h2
  rcases h2 with h2 | ⟨h2, _⟩ <;> linarith

/-- **C74** (part). Numbers of the same value are never found different, however they are written. -/
theorem C74_same_value_partial (lib : CLib) (o : DiffOptions) (ho : o.Sound) (a b : Bytes) (v : ℚ) (ha : HasValue a v) (hb : HasValue b v)
    (hr : InDoubleRange v) : diffNumbers lib o a b = some true := by
  obtain ⟨r, h1, h2⟩ := C74_numbers_partial lib o ho a b ⟨v, ha, hr⟩ ⟨v, hb, hr⟩
  obtain ⟨x, hx⟩ := nearest_exists v
  rw [h1, h2.2]
  refine ⟨v, v, x, x, ha, hb, hx, hx, ?_⟩
  cases hf : o.fuzzy
  · simp [DiffOptions.tolerance, hf, DoublesAgree]
  · refine agree_of_close ho hf ?_
    rw [sub_self, abs_zero]
    have he : o.epsilon ≤ f64.inf := ho
    rw [f64_abs he]
    positivity

/-- **C74** (part). With a tolerance: if the doubles nearest to two numbers are not farther apart than the tolerance, the numbers
are equal; if they are at least as far apart as some double that is larger than the tolerance, the numbers are different. -/
theorem C74_tolerance_partial (lib : CLib) (o : DiffOptions) (ho : o.Sound) (hf : o.fuzzy = true) (a b : Bytes) (v w x y : ℚ) (ha : HasValue a v)
    (hb : HasValue b w) (rv : InDoubleRange v) (rw' : InDoubleRange w) (hx : NearestDouble v x) (hy : NearestDouble w y) :
    (|x - y| ≤ absValue 52 11 o.epsilon → diffNumbers lib o a b = some true) ∧
    (∀ z, o.epsilon < z → z ≤ 0x7FF0000000000000 → absValue 52 11 z ≤ |x - y| → diffNumbers lib o a b = some false) := by
  obtain ⟨r, h1, h2⟩ := C74_numbers_partial lib o ho a b ⟨v, ha, rv⟩ ⟨w, hb, rw'⟩
  refine ⟨fun h => ?_, fun z hz hzi h => ?_⟩
  · rw [h1, h2.2 ⟨v, w, x, y, ha, hb, hx, hy, agree_of_close ho hf h⟩]
  · rw [h1]
    cases hr : r with
    | false => rfl
    | true =>
      exfalso
      obtain ⟨v', w', x', y', g1, g2, g3, g4, g5⟩ := h2.1 hr
      have := ha.unique g1; subst this
      have := hb.unique g2; subst this
      have := hx.unique g3; subst this
      have := hy.unique g4; subst this
      simp only [DiffOptions.tolerance, hf, if_true, DoublesAgree] at g5
      obtain ⟨d, ⟨c, k1, rfl⟩, k2⟩ := g5
      rw [abs_abs] at k1
      rw [if_neg (not_lt.2 (abs_nonneg _))] at k2
      have hzi' : z ≤ f64.inf := hzi
      have k3 := absValue_lt f64.toFloatFmt hz hzi'
      have k3' : absValue 52 11 o.epsilon < absValue 52 11 z := k3
      have hne : z ≠ c := by rintro rfl; linarith
      have k4 := k1.2 z hzi hne
      generalize |x - y| = t at *
      rw [abs_of_nonpos (show absValue 52 11 c - t ≤ 0 by linarith), abs_of_nonpos (show absValue 52 11 z - t ≤ 0 by linarith)] at k4
      rcases k4 with k4 | ⟨k4, _⟩ <;> linarith

/-- **C74**: which of two texts is the base makes no difference, whatever they are. -/
theorem C74_symmetric (lib : CLib) (o : DiffOptions) (a b : Bytes) : diffNumbers lib o a b = diffNumbers lib o b a := by
  unfold diffNumbers
  cases stod lib a with
  | none => cases stod lib b <;> rfl
  | some x =>
    cases stod lib b with
    | none => rfl
    | some y =>
      simp only [bind, Option.bind]
      rw [fuzzyEquals_comm, Dbl.same_comm]

/-! ### In documents -/

mutual
theorem Alike.imp {q q' : Bytes → Bytes → Bool} {P : Bytes → Prop} (hq : ∀ a b, P a → P b → q a b = true → q' a b = true) :
    {v w : JVal} → Alike q v w → v.Numbers P → w.Numbers P → Alike q' v w
  | _, _, .null, _, _ => .null
  | _, _, .bool, _, _ => .bool
  | _, _, .num h, h1, h2 => .num (hq _ _ h1 h2 h)
  | _, _, .str, _, _ => .str
  | _, _, .arr h, h1, h2 => .arr (AlikeElems.imp hq h h1 h2)
  | _, _, .obj hp h, h1, h2 => .obj hp (AlikeMembers.imp hq h (fun e he => (membersWF_mem h1 e (hp.mem_iff.2 he)).2) (fun e he => (membersWF_mem h2 e he).2))
theorem AlikeElems.imp {q q' : Bytes → Bytes → Bool} {P : Bytes → Prop} (hq : ∀ a b, P a → P b → q a b = true → q' a b = true) :
    {vs ws : List JVal} → AlikeElems q vs ws → elemsWF { rfc with str := fun _ => True, num := P } vs →
      elemsWF { rfc with str := fun _ => True, num := P } ws → AlikeElems q' vs ws
  | _, _, .nil, _, _ => .nil
  | _, _, .cons h hs, h1, h2 => .cons (Alike.imp hq h h1.1 h2.1) (AlikeElems.imp hq hs h1.2 h2.2)
theorem AlikeMembers.imp {q q' : Bytes → Bytes → Bool} {P : Bytes → Prop} (hq : ∀ a b, P a → P b → q a b = true → q' a b = true) :
    {ms ks : List (Bytes × JVal)} → AlikeMembers q ms ks → (∀ e ∈ ms, e.2.Numbers P) → (∀ e ∈ ks, e.2.Numbers P) → AlikeMembers q' ms ks
  | _, _, .nil, _, _ => .nil
  | _, _, .cons h hs, h1, h2 => .cons (Alike.imp hq h (h1 _ (List.mem_cons_self ..)) (h2 _ (List.mem_cons_self ..)))
      (AlikeMembers.imp hq hs (fun e he => h1 e (by simp [he])) (fun e he => h2 e (by simp [he])))
end

theorem numbers_imp {P Q : Bytes → Prop} (h : ∀ a, P a → Q a) {v : JVal} (hv : v.Numbers P) : v.Numbers Q :=
  wf_mono (d := { rfc with str := fun _ => True, num := P }) (d' := { rfc with str := fun _ => True, num := Q }) (fun _ h => h) h v hv

theorem ordinary_read (lib : CLib) (o : DiffOptions) {a : Bytes} (h : OrdinaryNumber a) : ((o.cmp lib).stod a).isSome = true := by
  obtain ⟨v, hv, rv⟩ := h
  obtain ⟨x, hx⟩ := nearest_exists v
  obtain ⟨p, p1, _, _⟩ := stod_nearest lib hv rv hx
  have := cmp_stod lib o a
  rw [p1] at this
  cases hc : (o.cmp lib).stod a with
  | none => rw [hc] at this; simp at this
  | some y => rfl

theorem cmp_equal (lib : CLib) (o : DiffOptions) (ho : o.Sound) {a b : Bytes} (ha : OrdinaryNumber a) (hb : OrdinaryNumber b) :
    (o.cmp lib).equal a b = true ↔ NumbersAgree o.tolerance a b := by
  obtain ⟨r, h1, h2⟩ := C74_numbers_partial lib o ho a b ha hb
  rw [← h2]
  unfold NumCmp.equal
  rw [← diffNumbers_cmp, h1]
  simp

open Classical in
/-- **C74** (part). Two documents without objects that have two members of the same name, with numbers in the range of the normal
doubles: the comparison ends without an exception, and counts no difference exactly if the documents are equal up to the order of
members, up to the notation of numbers and up to the tolerance. Missing: other numbers, members of the same name, scalar roots. -/
theorem C74_documents_partial (lib : CLib) (o : DiffOptions) (ho : o.Sound) (v w : JVal) (t u : Bytes) (hv : v.isContainer = true)
    (hw : w.isContainer = true) (ht : Doc rfc v t) (hu : Doc rfc w u) (nv : v.Numbers OrdinaryNumber) (nw : w.Numbers OrdinaryNumber)
    (dv : v.Distinct) (dw : w.Distinct) :
    ∃ ctx d, DiffCtx.new (diffNumbers lib o) t = some ctx ∧ ctx.Reports u d ∧
      (d.res.count = 0 ↔ Alike (fun a b => decide (NumbersAgree o.tolerance a b)) v w) := by
  rw [diffNumbers_cmp]
  obtain ⟨ctx, d, h1, h2, h3⟩ := C29_no_difference_iff_equal_partial (o.cmp lib) v w t u hv hw ht hu
    (numbers_imp (fun _ h => ordinary_read lib o h) nv) (numbers_imp (fun _ h => ordinary_read lib o h) nw) dv dw
  refine ⟨ctx, d, h1, h2, h3.trans ⟨fun h => ?_, fun h => ?_⟩⟩
  · exact h.imp (fun a b ha hb hq => by rw [decide_eq_true_eq]; exact (cmp_equal lib o ho ha hb).1 hq) nv nw
  · exact h.imp (fun a b ha hb hq => (cmp_equal lib o ho ha hb).2 (by rwa [decide_eq_true_eq] at hq)) nv nw

/-- **C74** (part), **C28**. A document compared with another text of the same document: no difference, if its numbers are in the
range of the normal doubles. -/
theorem C74_same_document_partial (lib : CLib) (o : DiffOptions) (ho : o.Sound) (v : JVal) (t u : Bytes) (hv : v.isContainer = true)
    (ht : Doc rfc v t) (hu : Doc rfc v u) (nv : v.Numbers OrdinaryNumber) (dv : v.Distinct) :
    ∃ ctx d, DiffCtx.new (diffNumbers lib o) t = some ctx ∧ ctx.Reports u d ∧ d.Clean := by
  rw [diffNumbers_cmp]
  refine C28_equal_documents_partial (o.cmp lib) (fun x => ?_) v t u hv ht hu (numbers_imp (fun _ h => ordinary_read lib o h) nv) dv
  simp only [DiffOptions.cmp]
  have he : o.epsilon ≤ f64.inf := ho
  split
  · rename_i hf
    rw [fuzzyEquals_iff he]
    have := agree_of_close ho hf (x := x.1.val) (y := x.1.val) (by rw [sub_self, abs_zero, f64_abs he]; positivity)
    simpa only [DiffOptions.tolerance, hf, if_true, DoublesAgree] using this
  · rw [Dbl.same_iff x.2 x.2]

/-! ### Examples -/

theorem hasValue_one : HasValue b!"1" 1 :=
  ⟨{ int := b!"1" }, by decide, ⟨by unfold AllDigits; decide, by simp, by simp⟩, by decide, by
    have : NumText.mantissa { int := b!"1" } = 1 := by decide
    simp [NumText.value, NumText.absValue, this, NumText.scale]⟩

theorem hasValue_ten : HasValue b!"10.0e-1" 1 :=
  ⟨{ int := b!"10", frac := some b!"0", exp := some (0x65, b!"-", b!"1") }, by decide,
    ⟨by unfold AllDigits; decide, by unfold AllDigits; simp; decide, by simp [Digits]; decide⟩, by decide, by
      have : NumText.mantissa { int := b!"10", frac := some b!"0", exp := some (0x65, b!"-", b!"1") } = 100 := by decide
      have h2 : NumText.scale { int := b!"10", frac := some b!"0", exp := some (0x65, b!"-", b!"1") } = -2 := by decide
      simp only [NumText.value, NumText.absValue, this, h2]
      norm_num⟩

theorem one_ordinary : InDoubleRange 1 := by
  right
  rw [abs_one]
  constructor
  · rw [zpow_neg]
    exact inv_le_one_of_one_le₀ (one_le_zpow₀ (by norm_num) (by norm_num))
  · have p2 : (2 : ℚ) ^ 1024 = 2 ^ 54 * 2 ^ 970 := by rw [← pow_add]
    have p3 : (1 : ℚ) ≤ 2 ^ 970 := one_le_pow₀ (by norm_num)
    rw [p2]
    clear p2
    generalize (2 : ℚ) ^ 970 = P at *
    norm_num
    linarith

/-- The hypotheses of `C74_numbers_partial` and `C74_same_value_partial` hold of `1` and `10.0e-1`, with the default options. -/
example (lib : CLib) : diffNumbers lib {} b!"1" b!"10.0e-1" = some true :=
  C74_same_value_partial lib {} (by unfold DiffOptions.Sound; decide) _ _ 1 hasValue_one hasValue_ten one_ordinary

/-- What `C74_tolerance_partial` says of `1` and `1`. -/
example (lib : CLib) (x : ℚ) (hx : NearestDouble 1 x) : diffNumbers lib {} b!"1" b!"1" = some true :=
  (C74_tolerance_partial lib {} (by unfold DiffOptions.Sound; decide) rfl _ _ 1 1 x x hasValue_one hasValue_one one_ordinary one_ordinary hx hx).1
    (by rw [sub_self, abs_zero, f64_abs (by decide)]; positivity)

/-- The hypotheses of `C74_documents_partial` hold of `{"a":1,"b":[null]}` and `{"b":[null],"a":1}`. -/
example (lib : CLib) : ∃ ctx d, DiffCtx.new (diffNumbers lib {}) b!"{\"a\":1,\"b\":[null]}" = some ctx ∧
    ctx.Reports b!"{\"b\":[null],\"a\":1}" d ∧ d.res.count = 0 := by
  have hn : OrdinaryNumber b!"1" := ⟨1, hasValue_one, one_ordinary⟩
  obtain ⟨ctx, d, h1, h2, h3⟩ := C74_documents_partial lib {} (by unfold DiffOptions.Sound; decide) exampleDoc1 exampleDoc2 _ _ rfl rfl
    exampleDoc1_text exampleDoc2_text (by simp [exampleDoc1, JVal.Numbers, JVal.WF, membersWF, elemsWF, hn])
    (by simp [exampleDoc2, JVal.Numbers, JVal.WF, membersWF, elemsWF, hn])
    (by simp [exampleDoc1, JVal.Distinct, membersDistinct, elemsDistinct])
    (by simp [exampleDoc2, JVal.Distinct, membersDistinct, elemsDistinct])
  refine ⟨ctx, d, h1, h2, h3.2 ?_⟩
  have ha : NumbersAgree (DiffOptions.tolerance {}) b!"1" b!"1" := by
    obtain ⟨r, g1, g2⟩ := C74_numbers_partial lib {} (by unfold DiffOptions.Sound; decide) _ _ hn hn
    rw [C74_same_value_partial lib {} (by unfold DiffOptions.Sound; decide) _ _ 1 hasValue_one hasValue_one one_ordinary] at g1
    injection g1 with g1
    exact g2.1 g1.symm
  exact .obj (.swap _ _ _) (.cons (.arr (.cons .null .nil)) (.cons (.num (by simpa using ha)) .nil))

/-! ### Where it does not hold -/

/-- The number of differences found; the C library reports underflow. `none`: an exception. -/
def diffCountWith (o : DiffOptions) (t u : Bytes) : Option (Option Nat) := do
  let c ← DiffCtx.new (diffNumbers ⟨fun _ _ => true⟩ o) t
  let (i, c) ← c.diff 100 u
  some (i.bind fun i => (c.diffs[i]?).map fun d => d.res.count)

/-- **C74** does not hold of numbers that are too large for a double: comparing them throws an exception, whatever the C library
does and whatever the options are, even if they are written in the same way. -/
theorem C74_false_range (lib : CLib) (o : DiffOptions) (b : Bytes) :
    JsonNumber b!"1e400" ∧ diffNumbers lib o b!"1e400" b = none ∧ diffNumbers lib o b b!"1e400" = none := by
  have h : stod lib b!"1e400" = none := by
    unfold stod
    rw [show strtodText b!"1e400" = some (false, 1, 400) by decide]
    simp only
    rw [if_pos (by decide +kernel)]
  refine ⟨⟨[], b!"1", [], b!"e400", rfl, .inl rfl, .inr ⟨⟨by decide, by decide⟩, by decide⟩, .inl rfl,
    .inr ⟨0x65, [], b!"400", rfl, .inl rfl, .inl rfl, by decide, by decide⟩⟩, ?_, ?_⟩
  · unfold diffNumbers; rw [h]; rfl
  · unfold diffNumbers; rw [h]; cases stod lib b <;> rfl

/-- **C74** does not hold of numbers that are too small for a normal double either, with a C library that reports that. -/
theorem C74_false_small : diffCountWith {} b!"[1e-400]" b!"[1e-400]" = none ∧ diffCountWith {} b!"[1e400]" b!"[1e400]" = none := by
  decide +kernel

/-- Being equal is not transitive: with the default options `[0]` equals `[0.000001]`, and that equals `[0.000002]`, but the first
and the last differ. -/
theorem C74_false_transitive : diffCountWith {} b!"[0]" b!"[0.000001]" = some (some 0) ∧
    diffCountWith {} b!"[0.000001]" b!"[0.000002]" = some (some 0) ∧ diffCountWith {} b!"[0]" b!"[0.000002]" = some (some 1) := by
  decide +kernel

/-- Different integers are found equal without a tolerance, if they are the same as doubles: 2^53 and 2^53 + 1. -/
theorem C74_false_integers : diffCountWith { fuzzy := false } b!"[9007199254740992]" b!"[9007199254740993]" = some (some 0) := by
  decide +kernel

/-- Without a tolerance, small differences are found; `-0` equals `0`. -/
example : diffCountWith { fuzzy := false } b!"[0,0]" b!"[0.000001,-0]" = some (some 1) := by decide +kernel

end JsonStruct
