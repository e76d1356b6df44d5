import Verif.Spec.Strict
import Verif.Lemmas.Follow

/- For C87: two runs of a handler, one in a context that allows everything. -/

namespace JsonStruct

/-- The results of handlers and of their loops: the context in them, and whether they are failures with an error of `StrictErr`. -/
class RunEnd (R : Type) where
  ctx : R → Ctx
  put : R → Ctx → R
  bad : POpts → R → Prop

instance : RunEnd (Err × T × Ctx) := ⟨fun r => r.2.2, fun r c => (r.1, r.2.1, c), fun p r => StrictErr p r.1⟩
instance : RunEnd (Option Err × T × Ctx) := ⟨fun r => r.2.2, fun r c => (r.1, r.2.1, c), fun p r => ∃ e, r.1 = some e ∧ StrictErr p e⟩
instance : RunEnd (Option Err × Ctx) := ⟨fun r => r.2, fun r c => (r.1, c), fun p r => ∃ e, r.1 = some e ∧ StrictErr p e⟩
instance : RunEnd (Option Err × T × Nat × Ctx) :=
  ⟨fun r => r.2.2.2, fun r c => (r.1, r.2.1, r.2.2.1, c), fun p r => ∃ e, r.1 = some e ∧ StrictErr p e⟩
instance : RunEnd (Err × T × Ctx × List Bool) :=
  ⟨fun r => r.2.2.1, fun r c => (r.1, r.2.1, c, r.2.2.2), fun p r => StrictErr p r.1 ∧ r.1 ≠ .missingPropertyMember⟩
instance : RunEnd (Option Err × T × Ctx × List Bool) :=
  ⟨fun r => r.2.2.1, fun r c => (r.1, r.2.1, c, r.2.2.2), fun p r => ∃ e, r.1 = some e ∧ StrictErr p e⟩
instance : RunEnd Ctx := ⟨id, fun _ c => c, fun _ _ => False⟩

open RunEnd

structure NamesGrow (c d : Ctx) : Prop where
  permits : d.Permits
  missing : c.missing <+: d.missing
  unassigned : c.unassigned <+: d.unassigned

variable (p : POpts) (b : Ctx)

/-- The run on the left is in a context that allows everything, from the names of `c` on; the names at the beginning were those of `b`. -/
structure TwoOut [RunEnd R] (c : Ctx) (x y : Option R) : Prop where
  grows : ∀ r, x = some r → NamesGrow c (ctx r)
  split : (y = x.map (fun r => put r (b.since p (ctx r))) ∧ ∀ r, x = some r → ¬ Offends p c (ctx r)) ∨
    (∃ r', y = some r' ∧ bad p r' ∧ ∀ r, x = some r → Offends p c (ctx r))

def TwoRuns (f : Nat → T → Ctx → Option (Err × T × Ctx)) : Prop :=
  ∀ n old c, c.Permits → TwoOut p b c (f n old c) (f n old (b.since p c))

variable {p b}

theorem strictErr_ne {e : Err} (h : StrictErr p e) : e ≠ .noError := by
  rcases h with ⟨_, rfl | rfl⟩ | ⟨_, rfl⟩ <;> simp

theorem NamesGrow.refl {c : Ctx} (h : c.Permits) : NamesGrow c c := ⟨h, List.prefix_refl _, List.prefix_refl _⟩

theorem NamesGrow.trans {c d e : Ctx} (h : NamesGrow c d) (g : NamesGrow d e) : NamesGrow c e := ⟨g.permits, h.missing.trans g.missing, h.unassigned.trans g.unassigned⟩

theorem prefix_two_ne {l m n : List α} (h : l <+: m) (g : m <+: n) (hne : m ≠ l) : n ≠ l := by
  rintro rfl
  exact hne (List.IsPrefix.eq_of_length_le g h.length_le)

theorem Offends.left {c d e : Ctx} (h : NamesGrow c d) (g : NamesGrow d e) (ho : Offends p c d) : Offends p c e := by
  rcases ho with ⟨h1, h2⟩ | ⟨h1, h2⟩
  · exact .inl ⟨h1, prefix_two_ne h.missing g.missing h2⟩
  · exact .inr ⟨h1, prefix_two_ne h.unassigned g.unassigned h2⟩

theorem offends_through {c d e : Ctx} (ho : ¬ Offends p c d) : Offends p d e ↔ Offends p c e := by
  simp only [Offends, not_or, not_and, not_not] at ho ⊢
  constructor
  · rintro (⟨h1, h2⟩ | ⟨h1, h2⟩)
    · exact .inl ⟨h1, ho.1 h1 ▸ h2⟩
    · exact .inr ⟨h1, ho.2 h1 ▸ h2⟩
  · rintro (⟨h1, h2⟩ | ⟨h1, h2⟩)
    · exact .inl ⟨h1, (ho.1 h1).symm ▸ h2⟩
    · exact .inr ⟨h1, (ho.2 h1).symm ▸ h2⟩

theorem TwoOut.none [RunEnd R] {c : Ctx} : TwoOut p b c (none : Option R) none := ⟨by simp, .inl ⟨rfl, by simp⟩⟩

theorem TwoOut.pure [RunEnd R] {c : Ctx} {r : R} (h : (ctx r).Permits) (hm : (ctx r).missing = c.missing) (hu : (ctx r).unassigned = c.unassigned) :
    TwoOut p b c (some r) (some (put r (b.since p (ctx r)))) := by
  refine ⟨?_, .inl ⟨rfl, ?_⟩⟩
  · rintro r' ⟨⟩
    exact ⟨h, hm ▸ List.prefix_refl _, hu ▸ List.prefix_refl _⟩
  · rintro r' ⟨⟩
    simp [Offends, hm, hu]

theorem TwoOut.bind [RunEnd R] [RunEnd Q] {c : Ctx} {x y : Option R} {g : R → Option Q} (h : TwoOut p b c x y)
    (hg : ∀ r, NamesGrow c (ctx r) → TwoOut p b (ctx r) (g r) (g (put r (b.since p (ctx r)))))
    (hb : ∀ r, bad p r → ∃ q, g r = some q ∧ bad p q) : TwoOut p b c (x.bind g) (y.bind g) := by
  obtain ⟨h1, h2⟩ := h
  refine ⟨?_, ?_⟩
  · intro q hq
    obtain ⟨r, hr, hq⟩ := Option.bind_eq_some_iff.mp hq
    exact (h1 r hr).trans ((hg r (h1 r hr)).grows q hq)
  · rcases h2 with ⟨h2, h3⟩ | ⟨r', h2, h3, h4⟩
    · cases x with
      | none => subst h2; exact .inl ⟨rfl, by simp⟩
      | some r =>
        subst h2
        have hr := hg r (h1 r rfl)
        simp only [Option.map_some, Option.bind_some]
        rcases hr.split with ⟨h5, h6⟩ | ⟨q, h5, h6, h7⟩
        · exact .inl ⟨h5, fun q hq => fun ho => h6 q hq ((offends_through (h3 r rfl)).mpr ho)⟩
        · exact .inr ⟨q, h5, h6, fun q' hq => (offends_through (h3 r rfl)).mp (h7 q' hq)⟩
    · obtain ⟨q, h5, h6⟩ := hb r' h3
      refine .inr ⟨q, by rw [h2, Option.bind_some, h5], h6, ?_⟩
      intro q' hq
      obtain ⟨r, hr, hq⟩ := Option.bind_eq_some_iff.mp hq
      exact (h4 r hr).left (h1 r hr) ((hg r (h1 r hr)).grows q' hq)

/-- The context may be another one with the same names. -/
theorem TwoOut.at [RunEnd R] {c c' : Ctx} {x y : Option R} (h : TwoOut p b c x y) (hm : c.missing = c'.missing) (hu : c.unassigned = c'.unassigned) :
    TwoOut p b c' x y := by
  obtain ⟨h1, h2⟩ := h
  refine ⟨fun r hr => ⟨(h1 r hr).permits, hm ▸ (h1 r hr).missing, hu ▸ (h1 r hr).unassigned⟩, ?_⟩
  simpa only [Offends, hm, hu] using h2

/-- For `map`s that leave the context and the error. -/
theorem TwoOut.map [RunEnd R] [RunEnd Q] {c : Ctx} {x y : Option R} {g : R → Q} (h : TwoOut p b c x y)
    (hc : ∀ r, ctx (g r) = ctx r) (hp : ∀ r d, g (put r d) = put (g r) d) (hb : ∀ r, bad p r → bad p (g r)) : TwoOut p b c (x.map g) (y.map g) := by
  have := h.bind (g := fun r => some (g r)) (fun r hr => ?_) (fun r hr => ⟨_, rfl, hb r hr⟩)
  · simpa only [Option.map_eq_bind, Function.comp_def] using this
  · rw [hp, ← hc r]
    exact .pure (hc r ▸ hr.permits) rfl rfl

theorem TwoOut.ite [RunEnd R] {c : Ctx} {P : Prop} {i j : Decidable P} {x x' y y' : Option R} (h1 : P → TwoOut p b c x y) (h2 : ¬ P → TwoOut p b c x' y') :
    TwoOut p b c (@ite _ P i x x') (@ite _ P j y y') := by
  by_cases h : P
  · rw [if_pos h, if_pos h]; exact h1 h
  · rw [if_neg h, if_neg h]; exact h2 h

theorem TwoOut.ret {c : Ctx} (h : c.Permits) (e : Err) (v : T) : TwoOut p b c (some (e, v, c)) (some (e, v, b.since p c)) := .pure h rfl rfl

@[simp] theorem since_token (c : Ctx) : (b.since p c).token = c.token := rfl
@[simp] theorem since_error (c : Ctx) : (b.since p c).error = c.error := rfl
@[simp] theorem since_tz (c : Ctx) : (b.since p c).tz = c.tz := rfl
theorem since_next (c : Ctx) : (b.since p c).next = b.since p c.next := rfl
theorem Ctx.Permits.next {c : Ctx} (h : c.Permits) : c.next.Permits := h

/-! ### Scalars and wrappers -/

theorem bool_two_runs : TwoRuns p b boolH.to := fun _ _ _ h => .ret h _ _
theorem int_two_runs (I : IntTy) : TwoRuns p b (intH I).to := fun _ _ _ h => .ret h _ _
theorem double_two_runs : TwoRuns p b doubleH.to := fun _ _ _ h => .ret h _ _
theorem float_two_runs : TwoRuns p b floatH.to := fun _ _ _ h => .ret h _ _
theorem time_two_runs (C : Clock) : TwoRuns p b (timeH C).to := fun _ _ _ h => .ret h _ _
theorem string_two_runs (m : Simd) : TwoRuns p b (stringH m).to := fun _ _ _ h => .ret h _ _
theorem enumValue_two_runs (U : IntTy) : TwoRuns p b (enumValueH U).to := fun _ _ _ h => .ret h _ _
theorem enum_two_runs (names : List Bytes) (U : IntTy) : TwoRuns p b (enumH names U).to := by
  intro n old c h
  refine .ite (fun _ => ?_) fun _ => .ite (fun _ => .ite (fun _ => .ret h _ _) fun _ => .ret h _ _) fun _ => .ret h _ _
  show TwoOut p b c _ (match names.findIdx? (· = c.token.value.bytes) with
      | some i => some (Err.noError, (i : Int), b.since p c)
      | none => some (Err.illegalDataValue, old, b.since p c))
  cases names.findIdx? (· = c.token.value.bytes) <;> exact .ret h _ _

theorem nullable_two_runs {h : Handler T} (hs : TwoRuns p b h.to) : TwoRuns p b (nullableH h).to :=
  fun n old c hc => .ite (fun _ => .ret hc _ _) fun _ => hs n old c hc

/-- The value is put into another one. -/
theorem TwoOut.value {c : Ctx} {x y : Option (Err × T × Ctx)} (h : TwoOut p b c x y) (g : T → U) :
    TwoOut p b c (x.map fun r => (r.1, g r.2.1, r.2.2)) (y.map fun r => (r.1, g r.2.1, r.2.2)) :=
  h.map (fun _ => rfl) (fun _ _ => rfl) fun _ hb => hb

theorem nullableChecked_two_runs {h : Handler T} (hs : TwoRuns p b h.to) : TwoRuns p b (nullableCheckedH h).to :=
  fun n old c hc => .ite (fun _ => .ret hc _ _) fun _ => (hs n old.1 c hc).value fun v => (v, false)

theorem optionalChecked_two_runs {h : Handler T} (hs : TwoRuns p b h.to) : TwoRuns p b (optionalCheckedH h).to :=
  fun n old c hc => (hs n old.1 c hc).value fun v => (v, true)

theorem stdOptional_two_runs {h : Handler T} (hs : TwoRuns p b h.to) : TwoRuns p b (stdOptionalH h).to :=
  fun n _ c hc => (hs n h.init c hc).value some

theorem ptr_two_runs {h : Handler T} (hs : TwoRuns p b h.to) : TwoRuns p b (ptrH h).to :=
  fun n _ c hc => .ite (fun _ => (hs n _ c hc).value some) fun _ => .ret hc _ _

/-! ### Arrays -/

/-- Going on with the next token if there is no error. -/
theorem enter_two_runs {c : Ctx} (hc : c.Permits) {v : T} {f : Ctx → Option (Err × T × Ctx)}
    (hf : ∀ d, d.Permits → TwoOut p b d (f d) (f (b.since p d))) :
    TwoOut p b c (if c.next.error ≠ .noError then some (c.next.error, v, c.next) else f c.next)
      (if (b.since p c).next.error ≠ .noError then some ((b.since p c).next.error, v, (b.since p c).next) else f (b.since p c).next) :=
  .ite (fun _ => (TwoOut.ret hc.next _ _).at rfl rfl) fun _ => (hf _ hc.next).at rfl rfl

theorem vecLoop_two_runs {h : Handler T} (hs : TwoRuns p b h.to) (fuel : Nat) : ∀ (n : Nat) (acc : List T) (c : Ctx), c.Permits →
    TwoOut p b c (vecLoop h fuel n acc c) (vecLoop h fuel n acc (b.since p c))
  | 0, _, _, _ => .none
  | n + 1, acc, c, hc => by
    rw [vecLoop, vecLoop]
    refine .ite (fun _ => .ret hc _ _) fun _ => (hs fuel h.init c hc).bind ?_ ?_
    · rintro ⟨e, x, d⟩ hd
      exact .ite (fun _ => .ret hd.permits _ _) fun _ => enter_two_runs (c := d) hd.permits fun d hd => vecLoop_two_runs hs fuel n _ d hd
    · rintro ⟨e, x, d⟩ he
      exact ⟨(e, acc ++ [x], d), by simp [strictErr_ne (show StrictErr p e from he)], he⟩

theorem vec_two_runs {h : Handler T} (hs : TwoRuns p b h.to) : TwoRuns p b (vecH h).to :=
  fun n _ _ hc => .ite (fun _ => .ret hc _ _) fun _ => enter_two_runs hc fun d hd => vecLoop_two_runs hs n n [] d hd

/-- The error returned is kept in the context. -/
theorem TwoOut.stored {c : Ctx} {x y : Option (Err × T × Ctx)} (h : TwoOut p b c x y) :
    TwoOut p b c (x.map fun r => (r.1, r.2.1, { r.2.2 with error := r.1 })) (y.map fun r => (r.1, r.2.1, { r.2.2 with error := r.1 })) := by
  have := h.bind (g := fun r => some (r.1, r.2.1, { r.2.2 with error := r.1 })) ?_ (fun r hr => ⟨_, rfl, hr⟩)
  · simpa only [Option.map_eq_bind, Function.comp_def] using this
  · rintro ⟨e, v, d⟩ hd
    exact (TwoOut.ret (c := { d with error := e }) hd.permits e v).at rfl rfl

theorem oneOrMany_two_runs {h : Handler T} (hs : TwoRuns p b h.to) : TwoRuns p b (oneOrManyH h).to := by
  intro n old c hc
  refine .ite (fun _ => (vec_two_runs hs n old c hc).stored) fun _ => ?_
  have := ((hs n h.init c hc).value fun v => old ++ [v]).stored
  simpa only [Option.map_map, Function.comp_def] using this

theorem arrLoop_two_runs {h : Handler T} (hs : TwoRuns p b h.to) (fuel : Nat) : ∀ (old : List T) (c : Ctx), c.Permits →
    TwoOut p b c (arrLoop h fuel old c) (arrLoop h fuel old (b.since p c))
  | [], c, hc => .pure (r := (none, [], c)) hc rfl rfl
  | x :: xs, c, hc => by
    rw [arrLoop, arrLoop]
    refine .ite (fun _ => .pure (r := (some c.error, x :: xs, c)) hc rfl rfl) fun _ => (hs fuel x c hc).bind ?_ ?_
    · rintro ⟨e, y, d⟩ hd
      replace hd : d.Permits := hd.permits
      refine .ite (fun _ => .pure (c := d) (r := (some e, y :: xs, { d with error := e })) hd rfl rfl) fun _ => ?_
      refine TwoOut.bind (TwoOut.at (arrLoop_two_runs hs fuel xs ({ d with error := e } : Ctx).next hd) (c' := d) rfl rfl) ?_ ?_
      · rintro ⟨r, ys, c1⟩ h1
        exact .pure (c := c1) (r := (r, y :: ys, c1)) h1.permits rfl rfl
      · rintro ⟨r, ys, c1⟩ h1
        exact ⟨_, rfl, h1⟩
    · rintro ⟨e, y, d⟩ he
      exact ⟨(some e, y :: xs, { d with error := e }), by simp [strictErr_ne (show StrictErr p e from he)], e, rfl, he⟩

theorem arr_two_runs (N : Nat) {h : Handler T} (hs : TwoRuns p b h.to) : TwoRuns p b (arrH N h).to := by
  intro n old c hc
  refine .ite (fun _ => .ret hc _ _) fun _ => TwoOut.bind (TwoOut.at (arrLoop_two_runs hs n old c.next hc) (c' := c) rfl rfl) ?_ ?_
  · rintro ⟨r, ys, d⟩ hd
    cases r with
    | some e => exact .ret (c := d) hd.permits e ys
    | none => exact .ite (fun _ => .ret (c := d) hd.permits _ _) fun _ => .ret (c := d) hd.permits _ _
  · rintro ⟨r, ys, d⟩ ⟨e, he, h1⟩
    obtain rfl : r = some e := he
    exact ⟨_, rfl, h1⟩

theorem avcLoop_two_runs {h : Handler T} (hs : TwoRuns p b h.to) (fuel size : Nat) : ∀ (i : Nat) (old : List T) (c : Ctx), c.Permits →
    TwoOut p b c (avcLoop h fuel size i old c) (avcLoop h fuel size i old (b.since p c))
  | _, [], c, hc => .pure (r := (none, [], size, c)) hc rfl rfl
  | i, x :: xs, c, hc => by
    rw [avcLoop, avcLoop]
    refine .ite (fun _ => .pure (r := (some c.error, x :: xs, size, c)) hc rfl rfl) fun _ =>
      .ite (fun _ => .pure (r := (none, x :: xs, i, c)) hc rfl rfl) fun _ => (hs fuel x c hc).bind ?_ ?_
    · rintro ⟨e, y, d⟩ hd
      replace hd : d.Permits := hd.permits
      refine .ite (fun _ => .pure (c := d) (r := (some e, y :: xs, size, { d with error := e })) hd rfl rfl) fun _ => ?_
      refine TwoOut.bind (TwoOut.at (avcLoop_two_runs hs fuel size (i + 1) xs ({ d with error := e } : Ctx).next hd) (c' := d) rfl rfl) ?_ ?_
      · rintro ⟨r, ys, k, c1⟩ h1
        exact .pure (c := c1) (r := (r, y :: ys, k, c1)) h1.permits rfl rfl
      · rintro ⟨r, ys, k, c1⟩ h1
        exact ⟨_, rfl, h1⟩
    · rintro ⟨e, y, d⟩ he
      exact ⟨(some e, y :: xs, size, { d with error := e }), by simp [strictErr_ne (show StrictErr p e from he)], e, rfl, he⟩

theorem avc_two_runs (N : Nat) {h : Handler T} (hs : TwoRuns p b h.to) : TwoRuns p b (avcH N h).to := by
  intro n old c hc
  refine .ite (fun _ => .ret hc _ _) fun _ => TwoOut.bind (TwoOut.at (avcLoop_two_runs hs n old.2 0 old.1 c.next hc) (c' := c) rfl rfl) ?_ ?_
  · rintro ⟨r, ys, k, d⟩ hd
    cases r with
    | some e => exact .ret (c := d) hd.permits e (ys, k)
    | none => exact .ite (fun _ => .ret (c := d) hd.permits _ _) fun _ => .ret (c := d) hd.permits _ _
  · rintro ⟨r, ys, k, d⟩ ⟨e, he, h1⟩
    obtain rfl : r = some e := he
    exact ⟨_, rfl, h1⟩

theorem tupNil_two_runs : TwoRuns p b TupleH.nil.to := fun _ _ _ h => .ret h _ _

theorem tupCons_two_runs {h : Handler T} {t : TupleH Ts} (hs : TwoRuns p b h.to) (ht : TwoRuns p b t.to) : TwoRuns p b (TupleH.cons h t).to := by
  intro n old c hc
  refine (hs n old.1 c hc).bind ?_ ?_
  · rintro ⟨e, x, d⟩ hd
    exact .ite (fun _ => .ret (c := d) hd.permits _ _) fun _ => enter_two_runs (c := d) hd.permits fun d hd => (ht n old.2 d hd).value fun v => (x, v)
  · rintro ⟨e, x, d⟩ he
    exact ⟨(e, (x, old.2), d), by simp [strictErr_ne (show StrictErr p e from he)], he⟩

theorem tuple_two_runs {t : TupleH Ts} (ht : TwoRuns p b t.to) : TwoRuns p b (tupleH t).to := by
  intro n old c hc
  refine .ite (fun _ => .ret hc _ _) fun _ => enter_two_runs hc fun d hd => (ht n old d hd).bind ?_ ?_
  · rintro ⟨e, x, d⟩ hd
    exact .ite (fun _ => .ret (c := d) hd.permits _ _) fun _ => .ite (fun _ => .ret (c := d) hd.permits _ _) fun _ => .ret (c := d) hd.permits _ _
  · rintro ⟨e, x, d⟩ he
    exact ⟨(e, x, d), by simp [strictErr_ne (show StrictErr p e from he)], he⟩

theorem setLoop_two_runs [DecidableEq T] (ins : List T → T → List T) {h : Handler T} (hs : TwoRuns p b h.to) (fuel : Nat) :
    ∀ (n : Nat) (acc : List T) (c : Ctx), c.Permits → TwoOut p b c (setLoop ins h fuel n acc c) (setLoop ins h fuel n acc (b.since p c))
  | 0, _, _, _ => .none
  | n + 1, acc, c, hc => by
    rw [setLoop, setLoop]
    refine .ite (fun _ => .ret hc _ _) fun _ => (hs fuel h.init c hc).bind ?_ ?_
    · rintro ⟨e, x, d⟩ hd
      exact .ite (fun _ => .ret hd.permits _ _) fun _ => .ite (fun _ => .ret hd.permits _ _) fun _ =>
        enter_two_runs (c := d) hd.permits fun d hd => setLoop_two_runs ins hs fuel n _ d hd
    · rintro ⟨e, x, d⟩ he
      exact ⟨(e, acc, d), by simp [strictErr_ne (show StrictErr p e from he)], he⟩

theorem set_two_runs [DecidableEq T] (ins : List T → T → List T) {h : Handler T} (hs : TwoRuns p b h.to) : TwoRuns p b (setH ins h).to :=
  fun n _ _ hc => .ite (fun _ => .ret hc _ _) fun _ => enter_two_runs hc fun d hd => setLoop_two_runs ins hs n n [] d hd

theorem mapLoop_two_runs (ins : List (Bytes × V) → Bytes × V → List (Bytes × V)) {h : Handler V} (hs : TwoRuns p b h.to) (fuel : Nat) :
    ∀ (n : Nat) (e : Err) (acc : List (Bytes × V)) (c : Ctx), c.Permits →
      TwoOut p b c (mapLoop ins h fuel n e acc c) (mapLoop ins h fuel n e acc (b.since p c))
  | 0, _, _, _, _ => .none
  | n + 1, e0, acc, c, hc => by
    rw [mapLoop, mapLoop]
    refine .ite (fun _ => .ret hc _ _) fun _ => (hs fuel h.init c hc).bind ?_ ?_
    · rintro ⟨e, x, d⟩ hd
      replace hd : d.Permits := hd.permits
      exact .ite (fun _ => .ret hd _ _) fun _ => (mapLoop_two_runs ins hs fuel n _ _ d.next hd).at rfl rfl
    · rintro ⟨e, x, d⟩ he
      exact ⟨(e, mapSet ins acc (escapesIn c.token.name.bytes) x, d), by simp [strictErr_ne (show StrictErr p e from he)], he⟩

theorem map_two_runs (ins : List (Bytes × V) → Bytes × V → List (Bytes × V)) {h : Handler V} (hs : TwoRuns p b h.to) : TwoRuns p b (mapH ins h).to :=
  fun n old _ hc => .ite (fun _ => .ret hc _ _) fun _ => enter_two_runs hc fun d hd => mapLoop_two_runs ins hs n n _ old d hd

theorem tokensLoop_two_runs : ∀ (n level : Nat) (acc : List Tok) (c : Ctx), c.Permits →
    TwoOut p b c (tokensLoop n level acc c) (tokensLoop n level acc (b.since p c))
  | 0, _, _, _, _ => .none
  | n + 1, level, acc, c, hc => by
    rw [tokensLoop, tokensLoop]
    exact .ite (fun _ => .ret hc _ _) fun _ => .ite (fun _ => (TwoOut.ret hc.next _ _).at rfl rfl) fun _ =>
      (tokensLoop_two_runs n _ _ c.next hc.next).at rfl rfl

theorem tokens_two_runs : TwoRuns p b tokensH.to :=
  fun n _ c hc => .ite (fun _ => .ret hc _ _) fun _ => tokensLoop_two_runs n 1 _ c hc

theorem jmap_two_runs : TwoRuns p b jmapH.to := by
  intro n old c hc
  refine (tokens_two_runs n old.tokens c hc).map ?_ ?_ ?_
  · rintro ⟨e, ks, d⟩
    simp only [jmapRead]
    split
    · cases metaForTokens ks <;> rfl
    · rfl
  · rintro ⟨e, ks, d⟩ d'
    simp only [jmapRead, put]
    split
    · cases metaForTokens ks <;> rfl
    · rfl
  · rintro ⟨e, ks, d⟩ he
    have : e ≠ .noError := strictErr_ne (show StrictErr p e from he)
    simp only [jmapRead, if_neg this]
    exact he

/-! ### Structs -/

theorem skipLoop_two_runs (start fin : Ty) : ∀ (n depth : Nat) (c : Ctx), c.Permits →
    TwoOut p b c (skipLoop start fin n depth c) (skipLoop start fin n depth (b.since p c))
  | 0, _, _, _ => .none
  | n + 1, depth, c, hc => by
    rw [skipLoop, skipLoop]
    exact .ite (fun _ => .pure (r := c) hc rfl rfl) fun _ => .ite (fun _ => (TwoOut.pure (r := c.next) (c := c) hc.next rfl rfl)) fun _ =>
      (skipLoop_two_runs start fin n _ c.next hc.next).at rfl rfl

theorem skip_two_runs (n : Nat) (c : Ctx) (hc : c.Permits) : TwoOut p b c (skipArrayOrObject n c) (skipArrayOrObject n (b.since p c)) :=
  .ite (fun _ => skipLoop_two_runs _ _ n 1 c hc) fun _ => .ite (fun _ => skipLoop_two_runs _ _ n 1 c hc) fun _ => .pure (r := c) hc rfl rfl

theorem unknown_two_runs (n : Nat) (name : Bytes) (c : Ctx) (hc : c.Permits) : TwoOut p b c (c.unknown n name) ((b.since p c).unknown n name) := by
  have hl : c.unknown n name = (skipArrayOrObject n { c with missing := c.missing ++ [name] }).bind fun d =>
      some (if d.error ≠ .noError then some d.error else none, d) := by
    simp only [Ctx.unknown, hc.2.2, if_true, hc.1]
    rfl
  have hr : (b.since p c).unknown n name = if p.allowMissing then
      (skipArrayOrObject n (b.since p { c with missing := c.missing ++ [name] })).bind fun d =>
        some (if d.error ≠ .noError then some d.error else none, d)
      else some (some .missingPropertyMember, b.since p { c with missing := c.missing ++ [name] }) := by
    obtain ⟨am, au, tr⟩ := p
    cases tr <;> rfl
  have hg : NamesGrow c { c with missing := c.missing ++ [name] } := ⟨hc, List.prefix_append _ _, List.prefix_refl _⟩
  have key : TwoOut p b { c with missing := c.missing ++ [name] } (c.unknown n name)
      ((skipArrayOrObject n (b.since p { c with missing := c.missing ++ [name] })).bind fun d =>
        some (if d.error ≠ .noError then some d.error else none, d)) := by
    rw [hl]
    refine (skip_two_runs n _ hg.permits).bind ?_ ?_
    · intro d hd
      exact .pure (c := d) (r := (if d.error ≠ .noError then some d.error else none, d)) hd.permits rfl rfl
    · intro d hd
      cases hd
  rw [hr]
  refine ⟨fun r h => hg.trans (key.grows r h), ?_⟩
  by_cases ha : p.allowMissing = true
  · have hno : ¬ Offends p c { c with missing := c.missing ++ [name] } := by simp [Offends, ha]
    rw [if_pos ha]
    rcases key.split with ⟨h1, h2⟩ | ⟨r', h1, h2, h3⟩
    · exact .inl ⟨h1, fun r h ho => h2 r h ((offends_through hno).mpr ho)⟩
    · exact .inr ⟨r', h1, h2, fun r h => (offends_through hno).mp (h3 r h)⟩
  · rw [if_neg ha]
    have ha : p.allowMissing = false := by simpa using ha
    refine .inr ⟨_, rfl, ⟨_, rfl, .inl ⟨ha, .inl rfl⟩⟩, fun r h => ?_⟩
    exact Offends.left hg (key.grows r h) (.inl ⟨ha, by simp⟩)

theorem matched_strict {e : Err} (h : StrictErr p e) : StrictErr p (matchedMemberResult e) := by
  unfold matchedMemberResult
  split
  · rename_i he
    subst he
    rcases h with ⟨h, _⟩ | ⟨_, h⟩
    · exact .inl ⟨h, .inr rfl⟩
    · cases h
  · exact h

theorem find_two_runs {M : Meta T} (hM : ∀ v ∈ M.visit 0 [], TwoRuns p b v.mem.to) (fuel : Nat) (old : T) (c : Ctx) (asg : List Bool) (hc : c.Permits) :
    TwoOut p b c (M.find fuel old c asg) (M.find fuel old (b.since p c) asg) := by
  have found : ∀ v : Visit T, TwoRuns p b v.mem.to →
      TwoOut p b c ((v.mem.to fuel old c).map fun r => (matchedMemberResult r.1, r.2.1, r.2.2, asg.set v.idx true))
        ((v.mem.to fuel old (b.since p c)).map fun r => (matchedMemberResult r.1, r.2.1, r.2.2, asg.set v.idx true)) :=
    fun v hv => (hv fuel old c hc).map (fun _ => rfl) (fun _ _ => rfl) fun r h => ⟨matched_strict h, matched_ne _⟩
  have done : ∀ (v : Visit T) (d : Ctx), (((v.mem.to fuel old d).map fun r => (matchedMemberResult r.1, r.2.1, r.2.2, asg.set v.idx true)).bind fun r =>
      if r.1 = .missingPropertyMember then M.unpack 0 false fuel r.2.1 r.2.2.1 r.2.2.2 else some r) =
      (v.mem.to fuel old d).map fun r => (matchedMemberResult r.1, r.2.1, r.2.2, asg.set v.idx true) := by
    intro v d
    cases v.mem.to fuel old d with
    | none => rfl
    | some r => simp only [Option.map_some, Option.bind_some, if_neg (matched_ne _)]
  simp only [Meta.find, Option.bind_eq_bind]
  rw [unpack_eq M 0 [] true, unpack_eq M 0 [] true, unpackVisit_find, unpackVisit_find, since_token]
  cases h1 : (M.visit 0 []).find? (fun v => v.mem.named true c.token.name.bytes) with
  | some v =>
    simp only [done]
    exact found v (hM v (List.mem_of_find?_eq_some h1))
  | none =>
    simp only [Option.bind_some, if_true]
    rw [unpack_eq M 0 [] false, unpack_eq M 0 [] false, unpackVisit_find, unpackVisit_find, since_token]
    cases h2 : (M.visit 0 []).find? (fun v => v.mem.named false c.token.name.bytes) with
    | some v => exact found v (hM v (List.mem_of_find?_eq_some h2))
    | none => exact .pure (c := c) (r := (Err.missingPropertyMember, old, c, asg)) hc rfl rfl

theorem structLoop_two_runs {M : Meta T} (hM : ∀ v ∈ M.visit 0 [], TwoRuns p b v.mem.to) (fuel : Nat) : ∀ (n : Nat) (old : T) (c : Ctx) (asg : List Bool), c.Permits →
    TwoOut p b c (structLoop M fuel n old c asg) (structLoop M fuel n old (b.since p c) asg)
  | 0, _, _, _, _ => .none
  | n + 1, old, c, asg, hc => by
    by_cases hv : c.token.valueType = .objectEnd
    · rw [structLoop, structLoop, since_token, if_pos hv, if_pos hv]
      exact .pure (r := (none, old, c, asg)) hc rfl rfl
    · rw [structLoop_succ _ _ _ _ _ _ hv, structLoop_succ _ _ _ _ _ _ (show ¬ (b.since p c).token.valueType = .objectEnd from hv)]
      refine (find_two_runs hM fuel old c asg hc).bind ?_ ?_
      · rintro ⟨e, v, d, as⟩ hd
        replace hd : d.Permits := hd.permits
        refine TwoOut.bind (R := Option Err × Ctx) (c := d) ?_ ?_ ?_
        · exact .ite (fun _ => unknown_two_runs fuel _ d hd) fun _ => .pure (c := d) (r := (if e ≠ .noError then some e else none, d)) hd rfl rfl
        · rintro ⟨stop, d2⟩ hd2
          replace hd2 : d2.Permits := hd2.permits
          cases stop with
          | some e' => exact .pure (c := d2) (r := (some e', v, d2, as)) hd2 rfl rfl
          | none =>
            exact .ite (fun _ => .pure (c := d2) (r := (some d2.next.error, v, d2.next, as)) hd2 rfl rfl) fun _ =>
              (structLoop_two_runs hM fuel n v d2.next as hd2).at rfl rfl
        · rintro ⟨stop, d2⟩ ⟨e', he, h⟩
          obtain rfl : stop = some e' := he
          exact ⟨(some e', v, d2, as), rfl, e', rfl, h⟩
      · rintro ⟨e, v, d, as⟩ ⟨h1, h2⟩
        have h1 : StrictErr p e := h1
        have h2 : e ≠ .missingPropertyMember := h2
        exact ⟨(some e, v, d, as), by simp [h2, strictErr_ne h1], e, rfl, h1⟩

/-- The end of an object. -/
def structTwoEnd (M : Meta T) (v : T) (as : List Bool) (c : Ctx) : Option (Err × T × Ctx) :=
  let ver := M.verify 0 as c.track []
  if ver.1 = .unassignedRequiredMember then
    let c := if c.track then { c with unassigned := c.unassigned ++ ver.2 } else c
    some (if c.allowUnassigned then .noError else ver.1, v, c)
  else some (ver.1, v, c)

theorem structTwoEnd_two_runs (M : Meta T) (v : T) (as : List Bool) (d : Ctx) (hd : d.Permits) :
    TwoOut p b d (structTwoEnd M v as d) (structTwoEnd M v as (b.since p d)) := by
  by_cases hu : unassignedVisits as (M.visit 0 []) = []
  · have h1 : ∀ c : Ctx, structTwoEnd M v as c = some (.noError, v, c) := fun c => by simp [structTwoEnd, verify_eq, verdict, hu]
    rw [h1, h1]
    exact .ret hd _ _
  · have hne : (unassignedVisits as (M.visit 0 [])).map (·.qname) ≠ [] := by simpa using hu
    generalize hl : (unassignedVisits as (M.visit 0 [])).map (·.qname) = l at hne
    have h1 : ∀ c : Ctx, structTwoEnd M v as c = some (if c.allowUnassigned then .noError else .unassignedRequiredMember, v,
        if c.track then { c with unassigned := c.unassigned ++ l } else c) := by
      intro c
      simp only [structTwoEnd, verify_eq, verdict, hu, if_false, if_true, hl]
      cases c.track <;> rfl
    have hg : NamesGrow d { d with unassigned := d.unassigned ++ l } := ⟨hd, List.prefix_refl _, List.prefix_append _ _⟩
    have hr : (if (b.since p d).track = true then { b.since p d with unassigned := (b.since p d).unassigned ++ l } else b.since p d) =
        b.since p { d with unassigned := d.unassigned ++ l } := by
      obtain ⟨am, au, tr⟩ := p
      cases tr <;> rfl
    rw [h1, h1, hr, if_pos hd.2.1, if_pos hd.2.2]
    refine ⟨by rintro r ⟨⟩; exact hg, ?_⟩
    by_cases ha : p.allowUnassigned = true
    · rw [if_pos (show (b.since p d).allowUnassigned = true from ha)]
      refine .inl ⟨rfl, ?_⟩
      rintro r ⟨⟩ (⟨_, h⟩ | ⟨h, _⟩)
      · exact h rfl
      · rw [ha] at h; cases h
    · rw [if_neg (show ¬ (b.since p d).allowUnassigned = true from ha)]
      have ha' : p.allowUnassigned = false := by simpa using ha
      refine .inr ⟨_, rfl, .inr ⟨ha', rfl⟩, ?_⟩
      rintro r ⟨⟩
      exact .inr ⟨ha', fun h => hne (by simpa [ctx] using h)⟩

theorem struct_two_runs {M : Meta T} (hM : ∀ v ∈ M.visit 0 [], TwoRuns p b v.mem.to) : TwoRuns p b (structTo M) := by
  intro n old c hc
  unfold structTo
  refine .ite (fun _ => .ret hc _ _) fun _ => .ite (fun _ => .pure (c := c) (r := (_, old, { c with tz := _, token := _ })) hc rfl rfl) fun _ => ?_
  refine TwoOut.bind (TwoOut.at (structLoop_two_runs hM n n old
    { c with tz := (c.tz.nextToken c.token).2.1, token := (c.tz.nextToken c.token).2.2 } _ hc) (c' := c) rfl rfl) ?_ ?_
  · rintro ⟨stop, v, d, as⟩ hd
    replace hd : d.Permits := hd.permits
    cases stop with
    | some e => exact .ret (c := d) hd e v
    | none => exact structTwoEnd_two_runs M v as d hd
  · rintro ⟨stop, v, d, as⟩ ⟨e, he, h⟩
    obtain rfl : stop = some e := he
    exact ⟨(e, v, d), rfl, h⟩

theorem memberOf_two_runs {h : Handler M} (hs : TwoRuns p b h.to) (names : List Bytes) (opt : Bool) (get : T → M) (set : M → T → T) :
    TwoRuns p b (Member.of names opt h get set).to :=
  fun n old c hc => (hs n (get old) c hc).value fun v => set v old

theorem memberUp_two_runs {m : Member A} (hs : TwoRuns p b m.to) (get : T → A) (set : A → T → T) : TwoRuns p b (m.up get set).to :=
  fun n old c hc => (hs n (get old) c hc).value fun v => set v old

mutual
theorem CType.runs : {T : Type} → (t : CType T) → TwoRuns p b t.handler.to
  | _, .bool => bool_two_runs
  | _, .int I => int_two_runs I
  | _, .double => double_two_runs
  | _, .float => float_two_runs
  | _, .time C => time_two_runs C
  | _, .string m => string_two_runs m
  | _, .enum names U => enum_two_runs names U
  | _, .enumValue U => enumValue_two_runs U
  | _, .nullable t => nullable_two_runs t.runs
  | _, .nullableChecked t => nullableChecked_two_runs t.runs
  | _, .optional t => t.runs
  | _, .optionalChecked t => optionalChecked_two_runs t.runs
  | _, .stdOptional t => stdOptional_two_runs t.runs
  | _, .sharedPtr t => ptr_two_runs t.runs
  | _, .uniquePtr t => ptr_two_runs t.runs
  | _, .silentString m => string_two_runs m
  | _, .silentVector t => vec_two_runs t.runs
  | _, .silentUniquePtr t => ptr_two_runs t.runs
  | _, .vector t => vec_two_runs t.runs
  | _, .oneOrMany t => oneOrMany_two_runs t.runs
  | _, .array N t => arr_two_runs N t.runs
  | _, .arrayVariable N t => avc_two_runs N t.runs
  | _, .tuple ts => tuple_two_runs ts.runs
  | _, .set _ ins t => set_two_runs ins t.runs
  | _, .map ins t => map_two_runs ins t.runs
  | _, .tokens => tokens_two_runs
  | _, .jmap => jmap_two_runs
  | _, .struct _ s => struct_two_runs (all_visit (P := fun m => TwoRuns p b m.to) _ s.runs 0 [])
theorem CTypes.runs : {Ts : Type} → (ts : CTypes Ts) → TwoRuns p b ts.handler.to
  | _, .nil => tupNil_two_runs
  | _, .cons t ts => tupCons_two_runs t.runs ts.runs
theorem CStruct.runs : {T : Type} → (s : CStruct T) → s.meta.All (fun m => TwoRuns p b m.to)
  | _, .mk ms ss => by
    rw [CStruct.meta]
    exact .mk ms.runs ss.runs
theorem CMembers.runs : {T : Type} → (ms : CMembers T) → ∀ m ∈ ms.members, TwoRuns p b m.to
  | _, .nil, m, hm => by simp [CMembers.members] at hm
  | _, .cons names t get set ms, m, hm => by
    rw [CMembers.members] at hm
    rcases List.mem_cons.mp hm with rfl | hm
    · exact memberOf_two_runs t.runs _ _ _ _
    · exact ms.runs m hm
theorem CSupers.runs : {T : Type} → (ss : CSupers T) → SupersAll (fun m => TwoRuns p b m.to) ss.supers
  | _, .nil => .nil
  | _, .cons name get set s ss => by
    rw [CSupers.supers]
    exact .cons (all_up (fun m hm => memberUp_two_runs hm get set) _ s.runs) ss.runs
end

theorem parseTo_two_runs (t : CType T) : TwoRuns p b (parseTo t.handler) := by
  intro n old c hc
  unfold parseTo
  exact enter_two_runs hc fun d hd => (t.runs n old d hd).stored

end JsonStruct
