import Verif.Lemmas.Alike
import Verif.Lemmas.Call

/- A reading that succeeds does so again where all the tokens it was given are given again. -/

namespace JsonStruct

/-- A relation between tokenizers with their token variables: what the left one gives the right one gives, too. -/
structure Follow where
  R : Tz → Token → Tz → Token → Prop
  Dead : Tz → Prop
  /-- After a failed call on the left all calls fail. -/
  sure : Prop
  tok : ∀ {t k t' k'}, R t k t' k' → k.tok = k'.tok
  next : ∀ {t k t' k'}, R t k t' k' → (t.nextToken k).1 = .noError → (t'.nextToken k').1 = .noError ∧
    R (t.nextToken k).2.1 (t.nextToken k).2.2 (t'.nextToken k').2.1 (t'.nextToken k').2.2
  fail : sure → ∀ {t k t' k'}, R t k t' k' → (t.nextToken k).1 ≠ .noError → Dead (t.nextToken k).2.1
  dead : ∀ {t}, Dead t → ∀ k, (t.nextToken k).1 ≠ .noError ∧ Dead (t.nextToken k).2.1

variable (S : Follow)

def Follow.C (c c' : Ctx) : Prop := c.Flags c' ∧ S.R c.tz c.token c'.tz c'.token

/-- If the left one succeeds, so does the right one, with the same value. -/
def Follow.Out (a b : Option (Err × T × Ctx)) : Prop :=
  ∀ v d, a = some (.noError, v, d) → ∃ d', b = some (.noError, v, d') ∧ S.C d d'

def Follow.H (f : Nat → T → Ctx → Option (Err × T × Ctx)) : Prop :=
  ∀ n old c c', S.C c c' → S.Out (f n old c) (f n old c')

variable {S}

theorem Follow.C.tok {c c' : Ctx} (h : S.C c c') : c.token.tok = c'.token.tok := S.tok h.2
theorem Follow.C.ty {c c' : Ctx} (h : S.C c c') : c.token.valueType = c'.token.valueType := congrArg Tok.valueType h.tok
theorem Follow.C.value {c c' : Ctx} (h : S.C c c') : c.token.value.bytes = c'.token.value.bytes := congrArg Tok.value h.tok
theorem Follow.C.name {c c' : Ctx} (h : S.C c c') : c.token.name.bytes = c'.token.name.bytes := congrArg Tok.name h.tok

theorem Follow.C.nextError {c c' : Ctx} (h : S.C c c') (he : c.next.error = .noError) : c'.next.error = .noError := (S.next h.2 he).1

theorem Follow.C.next {c c' : Ctx} (h : S.C c c') (he : c.next.error = .noError) : S.C c.next c'.next :=
  ⟨⟨he.trans (h.nextError he).symm, h.1.missing, h.1.unassigned, h.1.allowMissing, h.1.allowUnassigned, h.1.track⟩, (S.next h.2 he).2⟩

theorem Follow.C.set {c c' : Ctx} (h : S.C c c') (e : Err) : S.C { c with error := e } { c' with error := e } :=
  ⟨⟨rfl, h.1.missing, h.1.unassigned, h.1.allowMissing, h.1.allowUnassigned, h.1.track⟩, h.2⟩

theorem Follow.C.out {c c' : Ctx} (h : S.C c c') (e : Err) (v : T) : S.Out (some (e, v, c)) (some (e, v, c')) := by
  rintro w d ⟨⟩
  exact ⟨c', rfl, h⟩

theorem Follow.Out.none {b : Option (Err × T × Ctx)} : S.Out none b := fun _ _ h => by cases h

theorem Follow.Out.bad {b : Option (Err × T × Ctx)} {e : Err} (he : e ≠ .noError) {v : T} {c : Ctx} : S.Out (some (e, v, c)) b := by
  rintro w d ⟨⟩
  exact absurd rfl he

theorem Follow.Out.bind {a b : Option (Err × T × Ctx)} {f g : Err × T × Ctx → Option (Err × U × Ctx)} (h : S.Out a b)
    (hbad : ∀ e x c v d, e ≠ .noError → f (e, x, c) ≠ some (.noError, v, d))
    (hf : ∀ x c c', S.C c c' → S.Out (f (.noError, x, c)) (g (.noError, x, c'))) : S.Out (a >>= f) (b >>= g) := by
  intro v d hv
  rw [Option.bind_eq_bind, Option.bind_eq_some_iff] at hv
  obtain ⟨⟨e, x, c⟩, h1, h2⟩ := hv
  by_cases he : e = .noError
  · subst he
    obtain ⟨c', hb, hc⟩ := h x c h1
    obtain ⟨d', h3, h4⟩ := hf x c c' hc v d h2
    exact ⟨d', by rw [hb]; exact h3, h4⟩
  · exact absurd h2 (hbad e x c v d he)

theorem Follow.Out.map {a b : Option (Err × T × Ctx)} (h : S.Out a b) (f : T → U) :
    S.Out (a.map fun r => (r.1, f r.2.1, r.2.2)) (b.map fun r => (r.1, f r.2.1, r.2.2)) := by
  intro v d hv
  rw [Option.map_eq_some_iff] at hv
  obtain ⟨⟨e, x, c⟩, h1, h2⟩ := hv
  simp only [Prod.mk.injEq] at h2
  obtain ⟨rfl, rfl, rfl⟩ := h2
  obtain ⟨c', hb, hc⟩ := h x c h1
  exact ⟨c', by rw [hb]; rfl, hc⟩

theorem Follow.Out.mapSet {a b : Option (Err × T × Ctx)} (h : S.Out a b) (f : T → U) :
    S.Out (a.map fun r => (r.1, f r.2.1, { r.2.2 with error := r.1 })) (b.map fun r => (r.1, f r.2.1, { r.2.2 with error := r.1 })) := by
  intro v d hv
  rw [Option.map_eq_some_iff] at hv
  obtain ⟨⟨e, x, c⟩, h1, h2⟩ := hv
  simp only [Prod.mk.injEq] at h2
  obtain ⟨rfl, rfl, rfl⟩ := h2
  obtain ⟨c', hb, hc⟩ := h x c h1
  exact ⟨_, by rw [hb]; rfl, hc.set _⟩

/-! ### Handlers -/

theorem bool_follow : S.H boolH.to := by
  intro n old c c' hc; simp only [boolH, hc.value]; exact hc.out _ _
theorem int_follow (I : IntTy) : S.H (intH I).to := by
  intro n old c c' hc; simp only [intH, hc.value]; exact hc.out _ _
theorem double_follow : S.H doubleH.to := by
  intro n old c c' hc; simp only [doubleH, hc.value]; exact hc.out _ _
theorem float_follow : S.H floatH.to := by
  intro n old c c' hc; simp only [floatH, hc.value]; exact hc.out _ _
theorem time_follow (C : Clock) : S.H (timeH C).to := by
  intro n old c c' hc; simp only [timeH, hc.value]; exact hc.out _ _
theorem string_follow (m : Simd) : S.H (stringH m).to := by
  intro n old c c' hc; simp only [stringH, hc.value]; exact hc.out _ _
theorem enumValue_follow (U : IntTy) : S.H (enumValueH U).to := by
  intro n old c c' hc; simp only [enumValueH, hc.value]; exact hc.out _ _

theorem enum_follow (names : List Bytes) (U : IntTy) : S.H (enumH names U).to := by
  intro n old c c' hc
  simp only [enumH, hc.value, hc.ty]
  split
  · split <;> exact hc.out _ _
  · split
    · split <;> exact hc.out _ _
    · exact hc.out _ _

theorem nullable_follow {h : Handler T} (hs : S.H h.to) : S.H (nullableH h).to := by
  intro n old c c' hc
  simp only [nullableH, hc.ty]
  split
  · exact hc.out _ _
  · exact hs n old c c' hc

theorem nullableChecked_follow {h : Handler T} (hs : S.H h.to) : S.H (nullableCheckedH h).to := by
  intro n old c c' hc
  simp only [nullableCheckedH, hc.ty]
  split
  · exact hc.out _ _
  · exact (hs n old.1 c c' hc).map fun v => (v, false)

theorem optionalChecked_follow {h : Handler T} (hs : S.H h.to) : S.H (optionalCheckedH h).to :=
  fun n old c c' hc => (hs n old.1 c c' hc).map fun v => (v, true)

theorem stdOptional_follow {h : Handler T} (hs : S.H h.to) : S.H (stdOptionalH h).to :=
  fun n _ c c' hc => (hs n h.init c c' hc).map some

theorem ptr_follow {h : Handler T} (hs : S.H h.to) : S.H (ptrH h).to := by
  intro n old c c' hc
  simp only [ptrH, hc.ty]
  split
  · exact (hs n _ c c' hc).map some
  · exact hc.out _ _

/-- The first step into a container. -/
theorem enter_follow {f : Ctx → Option (Err × T × Ctx)} {c c' : Ctx} {old : T} (hc : S.C c c')
    (hf : S.C c.next c'.next → S.Out (f c.next) (f c'.next)) :
    S.Out (if c.next.error ≠ .noError then some (c.next.error, old, c.next) else f c.next)
      (if c'.next.error ≠ .noError then some (c'.next.error, old, c'.next) else f c'.next) := by
  by_cases he : c.next.error = .noError
  · simp only [he, hc.nextError he, ne_eq, not_true_eq_false, if_false]
    exact hf (hc.next he)
  · simp only [he, ne_eq, not_false_eq_true, if_true]
    exact .bad he

theorem vecLoop_follow {h : Handler T} (hs : S.H h.to) (fuel : Nat) : ∀ (n : Nat) (acc : List T) (c c' : Ctx), S.C c c' →
    S.Out (vecLoop h fuel n acc c) (vecLoop h fuel n acc c')
  | 0, _, _, _, _ => .none
  | n + 1, acc, c, c', hc => by
    rw [vecLoop, vecLoop, ← hc.ty]
    split
    · exact hc.out _ _
    · refine (hs fuel h.init c c' hc).bind ?_ ?_
      · intro e x c v d he; simp [he]
      · intro x c1 c1' hc1
        simp only [ne_eq, not_true_eq_false, if_false]
        exact enter_follow (f := vecLoop h fuel n (acc ++ [x])) hc1 fun hn => vecLoop_follow hs fuel n _ _ _ hn

theorem vec_follow {h : Handler T} (hs : S.H h.to) : S.H (vecH h).to := by
  intro n old c c' hc
  simp only [vecH, ← hc.ty]
  split
  · exact hc.out _ _
  · exact enter_follow hc fun hn => vecLoop_follow hs n n [] _ _ hn

theorem oneOrMany_follow {h : Handler T} (hs : S.H h.to) : S.H (oneOrManyH h).to := by
  intro n old c c' hc
  simp only [oneOrManyH, ← hc.ty]
  split
  · exact (vec_follow hs n old c c' hc).mapSet id
  · exact (hs n h.init c c' hc).mapSet fun v => old ++ [v]

theorem setLoop_follow [DecidableEq T] (ins : List T → T → List T) {h : Handler T} (hs : S.H h.to) (fuel : Nat) :
    ∀ (n : Nat) (acc : List T) (c c' : Ctx), S.C c c' → S.Out (setLoop ins h fuel n acc c) (setLoop ins h fuel n acc c')
  | 0, _, _, _, _ => .none
  | n + 1, acc, c, c', hc => by
    rw [setLoop, setLoop, ← hc.ty]
    split
    · exact hc.out _ _
    · refine (hs fuel h.init c c' hc).bind ?_ ?_
      · intro e x c v d he; simp [he]
      · intro x c1 c1' hc1
        simp only [ne_eq, not_true_eq_false, if_false]
        split
        · exact hc1.out _ _
        · exact enter_follow (f := setLoop ins h fuel n (ins acc x)) hc1 fun hn => setLoop_follow ins hs fuel n _ _ _ hn

theorem set_follow [DecidableEq T] (ins : List T → T → List T) {h : Handler T} (hs : S.H h.to) : S.H (setH ins h).to := by
  intro n old c c' hc
  simp only [setH, ← hc.ty]
  split
  · exact hc.out _ _
  · exact enter_follow hc fun hn => setLoop_follow ins hs n n [] _ _ hn

/-- The loops over arrays that end without an error. -/
def Follow.Arr (S : Follow) (a b : Option (Option Err × V × Ctx)) : Prop :=
  (∀ e xs d, a = some (some e, xs, d) → e ≠ .noError) ∧
  ∀ xs d, a = some (none, xs, d) → d.error = .noError → ∃ d', b = some (none, xs, d') ∧ S.C d d'

theorem arrLoop_follow {h : Handler T} (hs : S.H h.to) (fuel : Nat) : ∀ (old : List T) (c c' : Ctx), (c.error = .noError → S.C c c') →
    S.Arr (arrLoop h fuel old c) (arrLoop h fuel old c')
  | [], c, c', hc => by
    refine ⟨by simp [arrLoop], fun xs d g he => ?_⟩
    simp only [arrLoop, Option.some.injEq, Prod.mk.injEq, true_and] at g ⊢
    obtain ⟨rfl, rfl⟩ := g
    exact ⟨c', ⟨rfl, rfl⟩, hc he⟩
  | x :: xs, c, c', hc => by
    by_cases he : c.error = .noError
    · have hC := hc he
      have he' : c'.error = .noError := hC.1.error ▸ he
      rw [arrLoop, arrLoop]
      simp only [he, he', ne_eq, not_true_eq_false, if_false, Option.bind_eq_bind]
      cases h1 : h.to fuel x c with
      | none => exact ⟨by simp, by simp⟩
      | some r =>
        obtain ⟨e, y, c1⟩ := r
        simp only [Option.bind_some]
        by_cases hy : e = .noError
        · subst hy
          obtain ⟨c1', hb, hc1⟩ := hs fuel x c c' hC y c1 h1
          have hn := hc1.set .noError
          have ih := arrLoop_follow hs fuel xs _ _ hn.next
          simp only [hb, Option.bind_some, not_true_eq_false, if_false]
          refine ⟨fun e zs d g => ?_, fun zs d g hd => ?_⟩
          · simp only [Option.bind_eq_some_iff, Option.some.injEq, Prod.mk.injEq, Prod.exists] at g
            obtain ⟨r, ys, c2, g1, rfl, g2⟩ := g
            exact ih.1 _ _ _ g1
          · simp only [Option.bind_eq_some_iff, Option.some.injEq, Prod.mk.injEq, Prod.exists] at g
            obtain ⟨r, ys, c2, g1, rfl, rfl, rfl⟩ := g
            obtain ⟨d', g3, g4⟩ := ih.2 _ _ g1 hd
            exact ⟨d', by rw [g3]; rfl, g4⟩
        · simp only [hy, not_false_eq_true, if_true]
          refine ⟨fun e zs d g => ?_, by simp⟩
          simp only [Option.some.injEq, Prod.mk.injEq] at g
          exact g.1 ▸ hy
    · rw [arrLoop]
      simp only [he, ne_eq, not_false_eq_true, if_true]
      refine ⟨fun e zs d g => ?_, by simp⟩
      simp only [Option.some.injEq, Prod.mk.injEq] at g
      exact g.1 ▸ he

theorem arrEnd_follow {a b : Option (Option Err × V × Ctx)} (h : S.Arr a b) :
    S.Out (a.bind fun r => match r.1 with
      | some e => some (e, r.2.1, r.2.2)
      | none => if r.2.2.token.valueType ≠ .arrayEnd then some (Err.expectedArrayEnd, r.2.1, r.2.2) else some (r.2.2.error, r.2.1, r.2.2))
      (b.bind fun r => match r.1 with
      | some e => some (e, r.2.1, r.2.2)
      | none => if r.2.2.token.valueType ≠ .arrayEnd then some (Err.expectedArrayEnd, r.2.1, r.2.2) else some (r.2.2.error, r.2.1, r.2.2)) := by
  intro v d g
  rw [Option.bind_eq_some_iff] at g
  obtain ⟨⟨r, xs, c⟩, g1, g⟩ := g
  cases r with
  | some e =>
    simp only [Option.some.injEq, Prod.mk.injEq] at g
    exact absurd g.1 (h.1 _ _ _ g1)
  | none =>
    simp only at g
    split at g
    · simp at g
    · next ht =>
      simp only [Option.some.injEq, Prod.mk.injEq] at g
      obtain ⟨he, rfl, rfl⟩ := g
      obtain ⟨d', hb, hc⟩ := h.2 _ _ g1 he
      have hc : S.C c d' := hc
      refine ⟨d', ?_, hc⟩
      rw [hb, Option.bind_some]
      simp only [← hc.ty, if_neg ht, ← hc.1.error, he]

theorem arr_follow (N : Nat) {h : Handler T} (hs : S.H h.to) : S.H (arrH N h).to := by
  intro n old c c' hc
  simp only [arrH, ← hc.ty]
  split
  · exact hc.out _ _
  · exact arrEnd_follow (arrLoop_follow hs n old _ _ hc.next)

/-- As `Follow.Arr`. -/
def Follow.Avc (S : Follow) (a b : Option (Option Err × List T × Nat × Ctx)) : Prop :=
  (∀ e xs sz d, a = some (some e, xs, sz, d) → e ≠ .noError) ∧
  ∀ xs sz d, a = some (none, xs, sz, d) → d.error = .noError → ∃ d', b = some (none, xs, sz, d') ∧ S.C d d'

theorem avcLoop_follow {h : Handler T} (hs : S.H h.to) (fuel size : Nat) : ∀ (old : List T) (i : Nat) (c c' : Ctx), (c.error = .noError → S.C c c') →
    S.Avc (avcLoop h fuel size i old c) (avcLoop h fuel size i old c')
  | [], i, c, c', hc => by
    refine ⟨by simp [avcLoop], fun xs sz d g he => ?_⟩
    simp only [avcLoop, Option.some.injEq, Prod.mk.injEq, true_and] at g ⊢
    obtain ⟨rfl, rfl, rfl⟩ := g
    exact ⟨c', ⟨rfl, rfl, rfl⟩, hc he⟩
  | x :: xs, i, c, c', hc => by
    by_cases he : c.error = .noError
    · have hC := hc he
      have he' : c'.error = .noError := hC.1.error ▸ he
      rw [avcLoop, avcLoop]
      simp only [he, he', ne_eq, not_true_eq_false, if_false, Option.bind_eq_bind, ← hC.ty]
      split
      · refine ⟨by simp, fun zs sz d g _ => ?_⟩
        simp only [Option.some.injEq, Prod.mk.injEq, true_and] at g ⊢
        obtain ⟨rfl, rfl, rfl⟩ := g
        exact ⟨c', ⟨rfl, rfl, rfl⟩, hC⟩
      cases h1 : h.to fuel x c with
      | none => exact ⟨by simp, by simp⟩
      | some r =>
        obtain ⟨e, y, c1⟩ := r
        simp only [Option.bind_some]
        by_cases hy : e = .noError
        · subst hy
          obtain ⟨c1', hb, hc1⟩ := hs fuel x c c' hC y c1 h1
          have hn := hc1.set .noError
          have ih := avcLoop_follow hs fuel size xs (i + 1) _ _ hn.next
          simp only [hb, Option.bind_some, not_true_eq_false, if_false]
          refine ⟨fun e zs sz d g => ?_, fun zs sz d g hd => ?_⟩
          · simp only [Option.bind_eq_some_iff, Option.some.injEq, Prod.mk.injEq, Prod.exists] at g
            obtain ⟨r, ys, sz, c2, g1, rfl, g2⟩ := g
            exact ih.1 _ _ _ _ g1
          · simp only [Option.bind_eq_some_iff, Option.some.injEq, Prod.mk.injEq, Prod.exists] at g
            obtain ⟨r, ys, sz, c2, g1, rfl, rfl, rfl, rfl⟩ := g
            obtain ⟨d', g3, g4⟩ := ih.2 _ _ _ g1 hd
            exact ⟨d', by rw [g3]; rfl, g4⟩
        · simp only [hy, not_false_eq_true, if_true]
          refine ⟨fun e zs sz d g => ?_, by simp⟩
          simp only [Option.some.injEq, Prod.mk.injEq] at g
          exact g.1 ▸ hy
    · rw [avcLoop]
      simp only [he, ne_eq, not_false_eq_true, if_true]
      refine ⟨fun e zs sz d g => ?_, by simp⟩
      simp only [Option.some.injEq, Prod.mk.injEq] at g
      exact g.1 ▸ he

theorem avc_follow (N : Nat) {h : Handler T} (hs : S.H h.to) : S.H (avcH N h).to := by
  intro n old c c' hc v d
  simp only [avcH, ← hc.ty, Option.bind_eq_bind]
  split
  · exact hc.out _ _ _ _
  · intro g
    have hl := avcLoop_follow hs n old.2 old.1 0 _ _ hc.next
    rw [Option.bind_eq_some_iff] at g
    obtain ⟨⟨r, xs, sz, c1⟩, g1, g⟩ := g
    cases r with
    | some e =>
      simp only [Option.some.injEq, Prod.mk.injEq] at g
      exact absurd g.1 (hl.1 _ _ _ _ g1)
    | none =>
      simp only at g
      split at g
      · simp at g
      · next ht =>
        simp only [Option.some.injEq, Prod.mk.injEq] at g
        obtain ⟨he, rfl, rfl⟩ := g
        obtain ⟨d', hb, hc⟩ := hl.2 _ _ _ g1 he
        have hc : S.C c1 d' := hc
        refine ⟨d', ?_, hc⟩
        rw [hb, Option.bind_some]
        simp only [← hc.ty, if_neg ht, ← hc.1.error, he]

theorem tupNil_follow : S.H TupleH.nil.to := fun _ _ _ _ hc => hc.out _ _

theorem tupCons_follow {h : Handler T} {t : TupleH Ts} (hs : S.H h.to) (ht : S.H t.to) : S.H (TupleH.cons h t).to := by
  intro n old c c' hc
  simp only [TupleH.cons]
  refine (hs n old.1 c c' hc).bind ?_ ?_
  · intro e x c v d he; simp [he]
  · intro x c1 c1' hc1
    simp only [ne_eq, not_true_eq_false, if_false]
    exact enter_follow (f := fun c => (t.to n old.2 c).map fun r => (r.1, (x, r.2.1), r.2.2)) hc1 fun hn =>
      (ht n old.2 _ _ hn).map fun v => (x, v)

theorem tuple_follow {t : TupleH Ts} (ht : S.H t.to) : S.H (tupleH t).to := by
  intro n old c c' hc
  simp only [tupleH, ← hc.ty]
  split
  · exact hc.out _ _
  · refine enter_follow (f := fun c => do
        let (e, x, c) ← t.to n old c
        if e ≠ .noError then some (e, x, c)
        else if c.token.valueType ≠ .arrayEnd then some (.expectedArrayEnd, x, c)
        else some (.noError, x, c)) hc fun hn => ?_
    refine (ht n old _ _ hn).bind ?_ ?_
    · intro e x c v d he; simp [he]
    · intro x c1 c1' hc1
      simp only [ne_eq, not_true_eq_false, if_false, ← hc1.ty]
      split <;> exact hc1.out _ _

/-- Nothing comes to life again. -/
theorem Follow.dead_reach (S : Follow) {t t' : Tz} (h : Reach t t') (hd : S.Dead t) : S.Dead t' := by
  induction h with
  | refl => exact hd
  | step k _ ih => exact (S.dead ih k).2

theorem mapLoop_dead (ins : List (Bytes × V) → Bytes × V → List (Bytes × V)) {h : Handler V} (ht : h.Tame) (fuel : Nat) :
    ∀ (n : Nat) (e : Err) (acc : List (Bytes × V)) (c : Ctx) (v : List (Bytes × V)) (d : Ctx), S.Dead c.tz → e ≠ .noError → c.error ≠ .missingFunction →
      mapLoop ins h fuel n e acc c ≠ some (.noError, v, d)
  | 0, _, _, _, _, _, _, _, _ => by simp [mapLoop]
  | n + 1, e0, acc, c, v, d, hd, he0, hk => by
    rw [mapLoop]
    split
    · simp [he0]
    · simp only [Option.bind_eq_bind, ne_eq, Option.bind_eq_some_iff, Prod.exists, not_exists, not_and]
      intro e x c1 g1
      by_cases he : e = .noError
      · simp only [he, not_true_eq_false, if_false]
        have hd1 : S.Dead c1.tz := S.dead_reach (ht _ _ _ _ _ _ g1 hk).1.reach hd
        exact mapLoop_dead ins ht fuel n _ _ _ _ _ (S.dead hd1 _).2 (S.dead hd1 _).1 (next_known _)
      · simp [he]

theorem mapLoop_follow (hf : S.sure) (ins : List (Bytes × V) → Bytes × V → List (Bytes × V)) {h : Handler V} (hs : S.H h.to) (ht : h.Tame) (fuel : Nat) :
    ∀ (n : Nat) (e : Err) (acc : List (Bytes × V)) (c c' : Ctx), S.C c c' → S.Out (mapLoop ins h fuel n e acc c) (mapLoop ins h fuel n e acc c')
  | 0, _, _, _, _, _ => .none
  | n + 1, e0, acc, c, c', hc => by
    rw [mapLoop, mapLoop, ← hc.ty, ← hc.name]
    split
    · exact hc.out _ _
    · refine (hs fuel h.init c c' hc).bind ?_ ?_
      · intro e x c v d he; simp [he]
      · intro x c1 c1' hc1
        simp only [ne_eq, not_true_eq_false, if_false]
        by_cases he : c1.next.error = .noError
        · rw [he, hc1.nextError he]
          exact mapLoop_follow hf ins hs ht fuel n _ _ _ _ (hc1.next he)
        · intro v d g
          exact absurd g (mapLoop_dead ins ht fuel n _ _ _ v d (S.fail hf hc1.2 he) he (next_known _))

theorem map_follow (hf : S.sure) (ins : List (Bytes × V) → Bytes × V → List (Bytes × V)) {h : Handler V} (hs : S.H h.to) (ht : h.Tame) : S.H (mapH ins h).to := by
  intro n old c c' hc
  simp only [mapH, ← hc.ty]
  split
  · exact hc.out _ _
  · exact enter_follow hc fun hn => mapLoop_follow hf ins hs ht n n _ old _ _ hn

theorem tokensLoop_follow : ∀ (n level : Nat) (acc : List Tok) (c c' : Ctx), S.C c c' → S.Out (tokensLoop n level acc c) (tokensLoop n level acc c')
  | 0, _, _, _, _, _ => .none
  | n + 1, level, acc, c, c', hc => by
    rw [tokensLoop, tokensLoop]
    split
    · exact hc.out _ _
    · by_cases he : c.next.error = .noError
      · have hn := hc.next he
        simp only [he, hc.nextError he, ne_eq, not_true_eq_false, if_false, ← hn.tok, ← hn.ty]
        exact tokensLoop_follow n _ _ _ _ hn
      · simp only [he, ne_eq, not_false_eq_true, if_true]
        exact .bad he

theorem tokens_follow : S.H tokensH.to := by
  intro n old c c' hc
  simp only [tokensH, ← hc.ty, ← hc.tok, ← hc.1.error]
  split
  · exact hc.out _ _
  · exact tokensLoop_follow n 1 _ c c' hc

theorem jmap_follow : S.H jmapH.to := by
  intro n old c c' hc v d hv
  simp only [jmapH] at hv ⊢
  obtain ⟨⟨e, ks, c1⟩, h1, h2⟩ := Option.map_eq_some_iff.mp hv
  by_cases he : e = .noError
  · subst he
    obtain ⟨d', h3, h4⟩ := tokens_follow n old.tokens c c' hc _ _ h1
    rw [h3, Option.map_some]
    simp only [jmapRead, if_true] at h2 ⊢
    cases hm : metaForTokens ks with
    | none => simp [hm] at h2
    | some m =>
      simp only [hm, Prod.mk.injEq, true_and] at h2 ⊢
      obtain ⟨rfl, rfl⟩ := h2
      exact ⟨d', rfl, h4⟩
  · simp [jmapRead, he] at h2

/-! ### Structs -/

/-- Skipping that ends without an error. -/
def Follow.Skip (S : Follow) (a b : Option Ctx) : Prop := ∀ d, a = some d → d.error = .noError → ∃ d', b = some d' ∧ S.C d d'

theorem skipLoop_follow (start fin : Ty) : ∀ (n depth : Nat) (c c' : Ctx), S.C c c' →
    S.Skip (skipLoop start fin n depth c) (skipLoop start fin n depth c')
  | 0, _, _, _, _ => by simp [Follow.Skip, skipLoop]
  | n + 1, depth, c, c', hc => by
    rw [skipLoop, skipLoop]
    split
    · rintro d ⟨⟩ _
      exact ⟨c', rfl, hc⟩
    · by_cases he : c.next.error = .noError
      · have hn := hc.next he
        simp only [he, hc.nextError he, ne_eq, not_true_eq_false, if_false, ← hn.ty]
        exact skipLoop_follow start fin n _ _ _ hn
      · simp only [he, ne_eq, not_false_eq_true, if_true]
        rintro d ⟨⟩ hd
        exact absurd hd he

theorem skip_follow (n : Nat) (c c' : Ctx) (hc : S.C c c') : S.Skip (skipArrayOrObject n c) (skipArrayOrObject n c') := by
  simp only [skipArrayOrObject, ← hc.ty]
  split
  · exact skipLoop_follow _ _ n 1 c c' hc
  · split
    · exact skipLoop_follow _ _ n 1 c c' hc
    · rintro d ⟨⟩ _
      exact ⟨c', rfl, hc⟩

/-- Members that are found and read, or not found. -/
def Follow.Find (S : Follow) (a b : Option (Err × T × Ctx × List Bool)) : Prop :=
  ∀ e v d asg, a = some (e, v, d, asg) → e = .noError ∨ e = .missingPropertyMember → ∃ d', b = some (e, v, d', asg) ∧ S.C d d'

theorem matched_ok {e : Err} : matchedMemberResult e = .noError → e = .noError := by
  simp only [matchedMemberResult]
  split <;> simp

theorem find_follow {M : Meta T} (hM : ∀ v ∈ M.visit 0 [], S.H v.mem.to) (fuel : Nat) (old : T) (c c' : Ctx) (asg : List Bool) (hc : S.C c c') :
    S.Find (M.find fuel old c asg) (M.find fuel old c' asg) := by
  have found : ∀ v : Visit T, S.H v.mem.to → ∀ e x d as,
      ((v.mem.to fuel old c).map fun r => (matchedMemberResult r.1, r.2.1, r.2.2, asg.set v.idx true)) = some (e, x, d, as) →
      e ≠ .missingPropertyMember ∧ (e = .noError → ∃ d',
        ((v.mem.to fuel old c').map fun r => (matchedMemberResult r.1, r.2.1, r.2.2, asg.set v.idx true)) = some (e, x, d', as) ∧ S.C d d') := by
    intro v hv e x d as g
    rw [Option.map_eq_some_iff] at g
    obtain ⟨⟨e1, x1, d1⟩, g1, g⟩ := g
    simp only [Prod.mk.injEq] at g
    obtain ⟨rfl, rfl, rfl, rfl⟩ := g
    refine ⟨matched_ne _, fun he => ?_⟩
    have := matched_ok he
    subst this
    obtain ⟨d', hb, hd⟩ := hv fuel old c c' hc _ _ g1
    exact ⟨d', by rw [hb]; rfl, hd⟩
  intro e x d as
  simp only [Meta.find, unpack_eq M 0 [], unpackVisit_find, ← hc.name]
  cases h1 : (M.visit 0 []).find? (fun v => v.mem.named true c.token.name.bytes) with
  | some v =>
    intro g he
    rw [Option.bind_eq_bind, Option.bind_eq_some_iff] at g
    obtain ⟨⟨e1, x1, d1, as1⟩, g1, g⟩ := g
    obtain ⟨f1, f2⟩ := found v (hM v (List.mem_of_find?_eq_some h1)) _ _ _ _ g1
    rw [if_neg f1] at g
    simp only [Option.some.injEq, Prod.mk.injEq] at g
    obtain ⟨rfl, rfl, rfl, rfl⟩ := g
    obtain ⟨d', f3, f4⟩ := f2 (he.resolve_right f1)
    refine ⟨d', ?_, f4⟩
    simp only [Option.bind_eq_bind, f3, Option.bind_some, if_neg f1]
  | none =>
    simp only [Option.bind_eq_bind, Option.bind_some, if_true, ← hc.name]
    cases h2 : (M.visit 0 []).find? (fun v => v.mem.named false c.token.name.bytes) with
    | some v =>
      intro g he
      obtain ⟨f1, f2⟩ := found v (hM v (List.mem_of_find?_eq_some h2)) _ _ _ _ g
      exact f2 (he.resolve_right f1)
    | none =>
      rintro ⟨⟩ _
      exact ⟨c', rfl, hc⟩

theorem unknown_follow (n : Nat) (name : Bytes) (c c' : Ctx) (hc : S.C c c') :
    (∀ e d, c.unknown n name = some (some e, d) → e ≠ .noError) ∧
    ∀ d, c.unknown n name = some (none, d) → ∃ d', c'.unknown n name = some (none, d') ∧ S.C d d' := by
  simp only [Ctx.unknown]
  have key : ∀ d d' : Ctx, S.C d d' →
      (∀ e r, (if d.allowMissing = true then do
        let c ← skipArrayOrObject n d
        some (if c.error ≠ .noError then some c.error else none, c)
      else some (some Err.missingPropertyMember, d)) = some (some e, r) → e ≠ .noError) ∧
      ∀ r, (if d.allowMissing = true then do
        let c ← skipArrayOrObject n d
        some (if c.error ≠ .noError then some c.error else none, c)
      else some (some Err.missingPropertyMember, d)) = some (none, r) → ∃ r', (if d'.allowMissing = true then do
        let c ← skipArrayOrObject n d'
        some (if c.error ≠ .noError then some c.error else none, c)
      else some (some Err.missingPropertyMember, d')) = some (none, r') ∧ S.C r r' := by
    intro d d' hd
    rw [← hd.1.allowMissing]
    split
    · refine ⟨fun e r g => ?_, fun r g => ?_⟩
      · rw [Option.bind_eq_bind, Option.bind_eq_some_iff] at g
        obtain ⟨x, g1, g⟩ := g
        split at g
        · next he => simp only [Option.some.injEq, Prod.mk.injEq] at g; exact g.1 ▸ he
        · simp at g
      · rw [Option.bind_eq_bind, Option.bind_eq_some_iff] at g
        obtain ⟨x, g1, g⟩ := g
        split at g
        · simp at g
        · next he =>
          simp only [Option.some.injEq, Prod.mk.injEq, true_and] at g
          subst g
          obtain ⟨x', h1, h2⟩ := skip_follow n d d' hd x g1 (Decidable.not_not.mp he)
          refine ⟨x', ?_, h2⟩
          rw [Option.bind_eq_bind, h1, Option.bind_some, ← h2.1.error, if_neg he]
    · exact ⟨by rintro e r ⟨⟩; simp, by simp⟩
  rw [← hc.1.track]
  split
  · refine key _ _ ⟨⟨hc.1.error, ?_, hc.1.unassigned, hc.1.allowMissing, hc.1.allowUnassigned, rfl⟩, hc.2⟩
    simp only [hc.1.missing]
  · exact key _ _ hc

/-- The loop over the members. -/
def Follow.Loop (S : Follow) (a b : Option (Option Err × T × Ctx × List Bool)) : Prop :=
  (∀ e v d asg, a = some (some e, v, d, asg) → e ≠ .noError) ∧
  ∀ v d asg, a = some (none, v, d, asg) → ∃ d', b = some (none, v, d', asg) ∧ S.C d d'

theorem structLoop_follow {M : Meta T} (hM : ∀ v ∈ M.visit 0 [], S.H v.mem.to) (fuel : Nat) : ∀ (n : Nat) (old : T) (c c' : Ctx) (asg : List Bool), S.C c c' →
    S.Loop (structLoop M fuel n old c asg) (structLoop M fuel n old c' asg)
  | 0, _, _, _, _, _ => by simp [Follow.Loop, structLoop]
  | n + 1, old, c, c', asg, hc => by
    by_cases hv : c.token.valueType = .objectEnd
    · rw [structLoop, structLoop, ← hc.ty, if_pos hv, if_pos hv]
      refine ⟨by simp, ?_⟩
      rintro v d as ⟨⟩
      exact ⟨c', rfl, hc⟩
    · rw [structLoop_succ _ _ _ _ _ _ hv, structLoop_succ _ _ _ _ _ _ (by rw [← hc.ty]; exact hv), ← hc.name]
      cases h1 : M.find fuel old c asg with
      | none => exact ⟨by simp, by simp⟩
      | some r =>
        obtain ⟨e, v, c1, asg1⟩ := r
        simp only [Option.bind_some]
        by_cases hgood : e = .noError ∨ e = .missingPropertyMember
        · obtain ⟨c1', hb, hc1⟩ := find_follow hM fuel old c c' asg hc _ _ _ _ h1 hgood
          simp only [hb, Option.bind_some]
          have hstep : (∀ e' d, (if e = .missingPropertyMember then c1.unknown fuel c.token.name.bytes else some (if e ≠ .noError then some e else none, c1)) =
                some (some e', d) → e' ≠ .noError) ∧
              ∀ d, (if e = .missingPropertyMember then c1.unknown fuel c.token.name.bytes else some (if e ≠ .noError then some e else none, c1)) = some (none, d) →
                ∃ d', (if e = .missingPropertyMember then c1'.unknown fuel c.token.name.bytes else some (if e ≠ .noError then some e else none, c1')) = some (none, d') ∧
                  S.C d d' := by
            by_cases hmp : e = .missingPropertyMember
            · simp only [if_pos hmp]
              exact unknown_follow fuel _ _ _ hc1
            · have he := hgood.resolve_right hmp
              simp only [he, ne_eq, not_true_eq_false, if_false]
              refine ⟨by simp, ?_⟩
              rintro d ⟨⟩
              exact ⟨c1', rfl, hc1⟩
          cases h2 : (if e = .missingPropertyMember then c1.unknown fuel c.token.name.bytes else some (if e ≠ .noError then some e else none, c1)) with
          | none => exact ⟨by simp, by simp⟩
          | some q =>
            obtain ⟨stop, c2⟩ := q
            simp only [h2, Option.bind_some] at hstep ⊢
            cases stop with
            | some e' =>
              refine ⟨?_, by simp⟩
              rintro e2 v2 d2 as2 ⟨⟩
              exact hstep.1 _ _ rfl
            | none =>
              obtain ⟨c2', hb2, hc2⟩ := hstep.2 c2 rfl
              simp only [hb2, Option.bind_some]
              by_cases hne : c2.next.error = .noError
              · simp only [hne, hc2.nextError hne, ne_eq, not_true_eq_false, if_false]
                exact structLoop_follow hM fuel n v _ _ asg1 (hc2.next hne)
              · simp only [hne, ne_eq, not_false_eq_true, if_true]
                refine ⟨?_, by simp⟩
                rintro e2 v2 d2 as2 ⟨⟩
                exact hne
        · have he : e ≠ .noError := fun h => hgood (.inl h)
          have hmp : e ≠ .missingPropertyMember := fun h => hgood (.inr h)
          simp only [if_neg hmp, if_pos he, Option.bind_some]
          refine ⟨?_, by simp⟩
          rintro e2 v2 d2 as2 ⟨⟩
          exact he

theorem struct_follow {M : Meta T} (hM : ∀ v ∈ M.visit 0 [], S.H v.mem.to) : S.H (structTo M) := by
  intro n old c c' hc
  simp only [structTo, ← hc.ty]
  split
  · exact hc.out _ _
  · by_cases he : (c.tz.nextToken c.token).1 = .noError
    · have hne := S.next hc.2 he
      simp only [he, hne.1, ne_eq, not_true_eq_false, if_false]
      have hC : S.C { c with tz := (c.tz.nextToken c.token).2.1, token := (c.tz.nextToken c.token).2.2 }
        { c' with tz := (c'.tz.nextToken c'.token).2.1, token := (c'.tz.nextToken c'.token).2.2 } :=
        ⟨⟨hc.1.error, hc.1.missing, hc.1.unassigned, hc.1.allowMissing, hc.1.allowUnassigned, hc.1.track⟩, hne.2⟩
      have hl := structLoop_follow hM n n old _ _ (List.replicate M.count false) hC
      intro v d g
      rw [Option.bind_eq_bind, Option.bind_eq_some_iff] at g
      obtain ⟨⟨stop, v1, c1, asg⟩, g1, g⟩ := g
      cases stop with
      | some e =>
        simp only [Option.some.injEq, Prod.mk.injEq] at g
        exact absurd g.1 (hl.1 _ _ _ _ g1)
      | none =>
        obtain ⟨c1', hb, h2⟩ := hl.2 _ _ _ g1
        rw [Option.bind_eq_bind, hb, Option.bind_some]
        have h2 : S.C c1 c1' := h2
        simp only [← h2.1.track] at g ⊢
        revert g
        split
        · split
          · simp only [← h2.1.allowUnassigned]
            refine Follow.C.out ?_ _ _ v d
            exact ⟨⟨h2.1.error, h2.1.missing, by simp only [h2.1.unassigned], h2.1.allowMissing, rfl, rfl⟩, h2.2⟩
          · simp only [← h2.1.allowUnassigned]
            exact h2.out _ _ v d
        · exact h2.out _ _ v d
    · simp only [he, ne_eq, not_false_eq_true, if_true]
      exact .bad he

theorem memberOf_follow {h : Handler M} (hs : S.H h.to) (names : List Bytes) (opt : Bool) (get : T → M) (set : M → T → T) :
    S.H (Member.of names opt h get set).to :=
  fun n old c c' hc => (hs n (get old) c c' hc).map fun v => set v old

theorem memberUp_follow {m : Member A} (hs : S.H m.to) (get : T → A) (set : A → T → T) : S.H (m.up get set).to :=
  fun n old c c' hc => (hs n (get old) c c' hc).map fun v => set v old

mutual
/-- Every type; maps only if all calls after a failed one fail. -/
theorem CType.follow : {T : Type} → (t : CType T) → S.sure ∨ t.NoMap → S.H t.handler.to
  | _, .bool, _ => bool_follow
  | _, .int I, _ => int_follow I
  | _, .double, _ => double_follow
  | _, .float, _ => float_follow
  | _, .time C, _ => time_follow C
  | _, .string m, _ => string_follow m
  | _, .enum names U, _ => enum_follow names U
  | _, .enumValue U, _ => enumValue_follow U
  | _, .nullable t, h => by simp only [CType.NoMap] at h; exact nullable_follow (t.follow h)
  | _, .nullableChecked t, h => by simp only [CType.NoMap] at h; exact nullableChecked_follow (t.follow h)
  | _, .optional t, h => by simp only [CType.NoMap] at h; exact t.follow h
  | _, .optionalChecked t, h => by simp only [CType.NoMap] at h; exact optionalChecked_follow (t.follow h)
  | _, .stdOptional t, h => by simp only [CType.NoMap] at h; exact stdOptional_follow (t.follow h)
  | _, .sharedPtr t, h => by simp only [CType.NoMap] at h; exact ptr_follow (t.follow h)
  | _, .uniquePtr t, h => by simp only [CType.NoMap] at h; exact ptr_follow (t.follow h)
  | _, .silentString m, _ => string_follow m
  | _, .silentVector t, h => by simp only [CType.NoMap] at h; exact vec_follow (t.follow h)
  | _, .silentUniquePtr t, h => by simp only [CType.NoMap] at h; exact ptr_follow (t.follow h)
  | _, .vector t, h => by simp only [CType.NoMap] at h; exact vec_follow (t.follow h)
  | _, .oneOrMany t, h => by simp only [CType.NoMap] at h; exact oneOrMany_follow (t.follow h)
  | _, .array N t, h => by simp only [CType.NoMap] at h; exact arr_follow N (t.follow h)
  | _, .arrayVariable N t, h => by simp only [CType.NoMap] at h; exact avc_follow N (t.follow h)
  | _, .tuple ts, h => by simp only [CType.NoMap] at h; exact tuple_follow (ts.follow h)
  | _, .set eq ins t, h => by simp only [CType.NoMap] at h; exact set_follow ins (t.follow h)
  | _, .map ins t, h => by
    simp only [CType.NoMap, or_false] at h
    exact map_follow h ins (t.follow (.inl h)) t.tame
  | _, .tokens, _ => tokens_follow
  | _, .jmap, _ => jmap_follow
  | _, .struct init s, h => by
    simp only [CType.NoMap] at h
    exact struct_follow (all_visit (P := fun m => S.H m.to) _ (s.follow h) 0 [])
theorem CTypes.follow : {Ts : Type} → (ts : CTypes Ts) → S.sure ∨ ts.NoMap → S.H ts.handler.to
  | _, .nil, _ => tupNil_follow
  | _, .cons t ts, h => by
    simp only [CTypes.NoMap] at h
    exact tupCons_follow (t.follow (h.imp_right And.left)) (ts.follow (h.imp_right And.right))
theorem CStruct.follow : {T : Type} → (s : CStruct T) → S.sure ∨ s.NoMap → s.meta.All (fun m => S.H m.to)
  | _, .mk ms ss, h => by
    simp only [CStruct.NoMap] at h
    rw [CStruct.meta]
    exact .mk (ms.follow (h.imp_right And.left)) (ss.follow (h.imp_right And.right))
theorem CMembers.follow : {T : Type} → (ms : CMembers T) → S.sure ∨ ms.NoMap → ∀ m ∈ ms.members, S.H m.to
  | _, .nil, _, m, hm => by simp [CMembers.members] at hm
  | _, .cons names t get set ms, h, m, hm => by
    simp only [CMembers.NoMap] at h
    rw [CMembers.members] at hm
    rcases List.mem_cons.mp hm with rfl | hm
    · exact memberOf_follow (t.follow (h.imp_right And.left)) _ _ _ _
    · exact ms.follow (h.imp_right And.right) m hm
theorem CSupers.follow : {T : Type} → (ss : CSupers T) → S.sure ∨ ss.NoMap → SupersAll (fun m => S.H m.to) ss.supers
  | _, .nil, _ => .nil
  | _, .cons name get set s ss, h => by
    simp only [CSupers.NoMap] at h
    rw [CSupers.supers]
    exact .cons (all_up (fun m hm => memberUp_follow hm get set) _ (s.follow (h.imp_right And.left))) (ss.follow (h.imp_right And.right))
end

theorem parseTo_follow (t : CType T) (hm : S.sure ∨ t.NoMap) (n : Nat) (old : T) (c c' : Ctx) (hc : S.C c c') :
    S.Out (parseTo t.handler n old c) (parseTo t.handler n old c') := by
  simp only [parseTo]
  exact enter_follow (f := fun c => (t.handler.to n old c).map fun r => (r.1, r.2.1, { r.2.2 with error := r.1 })) hc fun hn =>
    (t.follow hm n old _ _ hn).mapSet id

end JsonStruct
