import Verif.Spec.Checked

/-
One variable after the other: the programs with a wrapper class and those with `std::optional` go hand in hand.
-/

namespace JsonStruct

theorem optional_checked_runs (h : Handler T) (moved : T → T) (hm : moved h.init = h.init) (ops : List (WOp T)) :
    ∀ (w : Nat → T × Bool) (r : Nat → Option T), (∀ i, optOf (w i) = r i ∧ ((w i).2 = false → (w i).1 = h.init)) →
      Along (fun r op => op.Legal r) false h moved r ops →
      ((runOps (optionalCheckedW h.init moved) (optionalCheckedH h) w ops).isSome = (meantOps false h moved r ops).isSome) ∧
      ∀ w' r', runOps (optionalCheckedW h.init moved) (optionalCheckedH h) w ops = some w' → meantOps false h moved r ops = some r' →
        ∀ i, optOf (w' i) = r' i ∧ (optionalCheckedH h).from_ (w' i) = (stdOptionalH h).from_ (r' i) := by
  induction ops with
  | nil =>
    intro w r hw _
    refine ⟨rfl, fun w' r' h1 h2 i => ?_⟩
    obtain rfl := Option.some.inj h1
    obtain rfl := Option.some.inj h2
    refine ⟨(hw i).1, ?_⟩
    rw [← (hw i).1]
    funext k s
    unfold optOf
    cases hb : (w i).2 <;> simp [optionalCheckedH, stdOptionalH, hb]
  | cons op ops ih =>
    intro w r hw hl
    have key : ∀ w1 r1, op.exec (optionalCheckedW h.init moved) (optionalCheckedH h) w = some w1 → op.meant false h moved r = some r1 →
        ∀ i, optOf (w1 i) = r1 i ∧ ((w1 i).2 = false → (w1 i).1 = h.init) := by
      intro w1 r1 e1 e2 k
      have hk := hw k
      cases op with
      | declare i =>
        simp only [WOp.exec, WOp.meant, Option.some.injEq] at e1 e2; subst e1 e2
        simp only [putVar, optionalCheckedW]; split <;> simp_all [optOf]
      | declareWith i t =>
        simp only [WOp.exec, WOp.meant, Option.some.injEq] at e1 e2; subst e1 e2
        simp only [putVar, optionalCheckedW]; split <;> simp_all [optOf]
      | copyFrom i j =>
        simp only [WOp.exec, WOp.meant, Option.some.injEq] at e1 e2; subst e1 e2
        have hj := hw j
        simp only [putVar, optionalCheckedW]; split <;> simp_all [optOf]
      | moveFrom i j =>
        simp only [WOp.exec, WOp.meant, Option.some.injEq] at e1 e2; subst e1 e2
        have hj := hw j
        simp only [putVar, optionalCheckedW]
        split
        · refine ⟨?_, fun hb => by rw [hj.2 hb]; exact hm⟩
          rw [← hj.1]; unfold optOf; dsimp only; split <;> rfl
        · split
          · exact hj
          · exact hk
      | assign i t =>
        simp only [WOp.exec, WOp.meant, Option.some.injEq] at e1 e2; subst e1 e2
        simp only [putVar, optionalCheckedW]; split <;> simp_all [optOf]
      | assignCopy i j =>
        simp only [WOp.exec, WOp.meant, Option.some.injEq] at e1 e2; subst e1 e2
        have hj := hw j
        simp only [putVar, optionalCheckedW]; split <;> simp_all [optOf]
      | assignMove i j =>
        simp only [WOp.exec, WOp.meant, Option.some.injEq] at e1 e2; subst e1 e2
        have hj := hw j
        simp only [putVar, optionalCheckedW]
        split
        · refine ⟨?_, fun hb => by rw [hj.2 hb]; exact hm⟩
          rw [← hj.1]; unfold optOf; dsimp only; split <;> rfl
        · split
          · exact hj
          · exact hk
      | edit i f =>
        simp only [WOp.exec, WOp.meant, Option.some.injEq] at e1 e2; subst e1 e2
        have hi := hw i
        have hs : (r i).isSome := hl.1
        simp only [putVar, optionalCheckedW]
        split
        · rw [← hi.1] at hs ⊢
          cases hb : (w i).2
          · simp [optOf, hb] at hs
          · simp [optOf, hb]
        · exact hk
      | parse i n c =>
        simp only [WOp.exec, WOp.meant, readOptional, Bool.false_eq_true, false_and, if_false, optionalCheckedH, Option.map_map,
          Option.map_eq_some_iff, Function.comp, Prod.exists] at e1 e2
        obtain ⟨e, x, c1, g1, rfl⟩ := e1
        obtain ⟨e', x', c1', g2, rfl⟩ := e2
        have hi := hw i
        have : (r i).getD h.init = (w i).1 := by
          rw [← hi.1]; unfold optOf
          cases hb : (w i).2
          · simp [hi.2 hb]
          · simp
        rw [this, g1] at g2
        simp only [Option.some.injEq, Prod.mk.injEq] at g2
        obtain ⟨_, rfl, _⟩ := g2
        simp only [putVar]
        split
        · simp [optOf]
        · exact hk
    have both : (op.exec (optionalCheckedW h.init moved) (optionalCheckedH h) w).isSome = (op.meant false h moved r).isSome := by
      cases op with
      | parse i n c =>
        have hi := hw i
        have : (r i).getD h.init = (w i).1 := by
          rw [← hi.1]; unfold optOf
          cases hb : (w i).2
          · simp [hi.2 hb]
          · simp
        simp [WOp.exec, WOp.meant, readOptional, optionalCheckedH, this]
      | _ => rfl
    rw [runOps, meantOps]
    cases e1 : op.exec (optionalCheckedW h.init moved) (optionalCheckedH h) w with
    | none =>
      rw [e1] at both
      have e2 : op.meant false h moved r = none := by simpa using both.symm
      rw [e2]; simp
    | some w1 =>
      rw [e1] at both
      obtain ⟨r1, e2⟩ := Option.isSome_iff_exists.mp both.symm
      rw [e2]
      exact ih w1 r1 (key w1 r1 e1 e2) (hl.2 r1 e2)

theorem nullable_checked_runs (h : Handler T) (moved : T → T) (ops : List (WOp T)) :
    ∀ (w : Nat → T × Bool) (r : Nat → Option T), (∀ i, holds (w i) = r i) →
      Along (fun r op => op.Legal r ∧ op.Anew h r) true h moved r ops →
      ((runOps (nullableCheckedW h.init moved) (nullableCheckedH h) w ops).isSome = (meantOps true h moved r ops).isSome) ∧
      ∀ w' r', runOps (nullableCheckedW h.init moved) (nullableCheckedH h) w ops = some w' → meantOps true h moved r ops = some r' →
        ∀ i, holds (w' i) = r' i ∧ (nullableCheckedH h).from_ (w' i) = (ptrH h).from_ (r' i) := by
  induction ops with
  | nil =>
    intro w r hw _
    refine ⟨rfl, fun w' r' h1 h2 i => ?_⟩
    obtain rfl := Option.some.inj h1
    obtain rfl := Option.some.inj h2
    refine ⟨hw i, ?_⟩
    rw [← hw i]
    funext k s
    unfold holds
    cases hb : (w i).2 <;> simp [nullableCheckedH, ptrH, hb]
  | cons op ops ih =>
    intro w r hw hl
    have key : ∀ w1 r1, op.exec (nullableCheckedW h.init moved) (nullableCheckedH h) w = some w1 → op.meant true h moved r = some r1 →
        ∀ i, holds (w1 i) = r1 i := by
      intro w1 r1 e1 e2 k
      have hk := hw k
      cases op with
      | declare i =>
        simp only [WOp.exec, WOp.meant, Option.some.injEq] at e1 e2; subst e1 e2
        simp only [putVar, nullableCheckedW]; split <;> simp_all [holds]
      | declareWith i t =>
        simp only [WOp.exec, WOp.meant, Option.some.injEq] at e1 e2; subst e1 e2
        simp only [putVar, nullableCheckedW]; split <;> simp_all [holds]
      | copyFrom i j =>
        simp only [WOp.exec, WOp.meant, Option.some.injEq] at e1 e2; subst e1 e2
        have hj := hw j
        simp only [putVar, nullableCheckedW]; split <;> simp_all [holds]
      | moveFrom i j =>
        simp only [WOp.exec, WOp.meant, Option.some.injEq] at e1 e2; subst e1 e2
        have hj := hw j
        simp only [putVar, nullableCheckedW]
        split
        · rw [← hj]; unfold holds; dsimp only; split <;> rfl
        · split
          · exact hj
          · exact hk
      | assign i t =>
        simp only [WOp.exec, WOp.meant, Option.some.injEq] at e1 e2; subst e1 e2
        simp only [putVar, nullableCheckedW]; split <;> simp_all [holds]
      | assignCopy i j =>
        simp only [WOp.exec, WOp.meant, Option.some.injEq] at e1 e2; subst e1 e2
        have hj := hw j
        simp only [putVar, nullableCheckedW]; split <;> simp_all [holds]
      | assignMove i j =>
        simp only [WOp.exec, WOp.meant, Option.some.injEq] at e1 e2; subst e1 e2
        have hj := hw j
        simp only [putVar, nullableCheckedW]
        split
        · rw [← hj]; unfold holds; dsimp only; split <;> rfl
        · split
          · exact hj
          · exact hk
      | edit i f =>
        simp only [WOp.exec, WOp.meant, Option.some.injEq] at e1 e2; subst e1 e2
        have hi := hw i
        have hs : (r i).isSome := hl.1.1
        simp only [putVar, nullableCheckedW]
        split
        · rw [← hi] at hs ⊢
          cases hb : (w i).2
          · simp [holds, hb]
          · simp [holds, hb] at hs
        · exact hk
      | parse i n c =>
        have hi := hw i
        have hp : r i = none → c.token.valueType ≠ .null → ∀ a b, (h.to n a c).map (·.2.1) = (h.to n b c).map (·.2.1) := hl.1.2
        simp only [WOp.exec, WOp.meant, readOptional, true_and, nullableCheckedH] at e1 e2
        by_cases hn : c.token.valueType = .null
        · rw [if_pos hn] at e1 e2
          simp only [Option.map_some, Option.some.injEq] at e1 e2
          subst e1 e2
          simp only [putVar]; split
          · simp [holds]
          · exact hk
        · rw [if_neg hn] at e1 e2
          rw [Option.map_map] at e1 e2
          have : (h.to n ((r i).getD h.init) c).map (·.2.1) = (h.to n (w i).1 c).map (·.2.1) := by
            cases hb : (w i).2
            · rw [← hi]; simp [holds, hb]
            · exact hp (by rw [← hi]; simp [holds, hb]) hn _ _
          obtain ⟨q1, g1, rfl⟩ := Option.map_eq_some_iff.mp e1
          obtain ⟨q2, g2, rfl⟩ := Option.map_eq_some_iff.mp e2
          rw [g1, g2] at this
          have := Option.some.inj this
          simp only [putVar, Function.comp]
          split
          · simp [holds, this]
          · exact hk
    have both : (op.exec (nullableCheckedW h.init moved) (nullableCheckedH h) w).isSome = (op.meant true h moved r).isSome := by
      cases op with
      | parse i n c =>
        have hi := hw i
        have hp : r i = none → c.token.valueType ≠ .null → ∀ a b, (h.to n a c).map (·.2.1) = (h.to n b c).map (·.2.1) := hl.1.2
        simp only [WOp.exec, WOp.meant, readOptional, true_and, nullableCheckedH]
        by_cases hn : c.token.valueType = .null
        · rw [if_pos hn, if_pos hn]; rfl
        · rw [if_neg hn, if_neg hn]
          have : (h.to n ((r i).getD h.init) c).map (·.2.1) = (h.to n (w i).1 c).map (·.2.1) := by
            cases hb : (w i).2
            · rw [← hi]; simp [holds, hb]
            · exact hp (by rw [← hi]; simp [holds, hb]) hn _ _
          have := congrArg Option.isSome this
          simpa using this.symm
      | _ => rfl
    rw [runOps, meantOps]
    cases e1 : op.exec (nullableCheckedW h.init moved) (nullableCheckedH h) w with
    | none =>
      rw [e1] at both
      have e2 : op.meant true h moved r = none := by simpa using both.symm
      rw [e2]; simp
    | some w1 =>
      rw [e1] at both
      obtain ⟨r1, e2⟩ := Option.isSome_iff_exists.mp both.symm
      rw [e2]
      exact ih w1 r1 (key w1 r1 e1 e2) (hl.2 r1 e2)

end JsonStruct
