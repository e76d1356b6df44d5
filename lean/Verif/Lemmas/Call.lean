import Verif.Lemmas.Scope
import Verif.Lemmas.Types
import Verif.Model.Call

/-
Function calls: handlers only move the tokenizer forward by `nextToken`, so that they stay inside the scope of their
member; `goToEndOfScope` finds the end of the member from wherever they stop.
-/

set_option linter.unusedSimpArgs false

namespace JsonStruct

/-! ### The tokenizer never reports `MissingFunction` -/

theorem pump_known (n : Nat) (t : Tz) :
    (Tz.pump n t).1 ≠ .missingFunction := by
  have key : ∀ t buf tmp n, (Tz.populateLoop n t buf tmp).1 ≠ .missingFunction := by
    intro t buf tmp n
    have hpe : ∀ (t : Tz) ty p, (t.populateEnd buf p ty).err ≠ .missingFunction := by
      intro t ty p
      unfold Tz.populateEnd
      cases ty <;> simp only <;> (try split) <;> simp
    have hpf : ∀ (t : Tz) ty, (t.populateFrom buf ty).err ≠ .missingFunction := by
      intro t ty
      unfold Tz.populateFrom
      split
      · simp only
        rw [findStart_eq]
        have := startLoop_err t.opts (buf.drop t.cursor) 0 t.cursor t.cursor
        split
        · rcases this with h | h | h <;> simp [h]
        · split
          · simp
          · exact hpe _ _ _
      · exact hpe _ _ _
      · simp
    have hst : ∀ (t : Tz) tmp e t' tok, t.step buf tmp = .ret e t' tok → e ≠ .missingFunction := by
      intro t tmp e t' tok h
      unfold Tz.step at h
      split at h
      · simp only [Tz.stepName] at h
        have hh := hpf t t.inter.nameType
        generalize t.populateFrom buf t.inter.nameType = p at *
        split at h
        · split at h <;> (simp only [Step.ret.injEq] at h; rw [← h.1]; simp)
        · split at h
          · simp only [Step.ret.injEq] at h; rw [← h.1]; exact hh
          · generalize (if p.tz.inter.active = true then _ else p.tz : Tz) = q at h
            generalize (if q.inter.active = true then q.inter.nameType else p.type) = ty at h
            cases ty <;> simp only [Step.ret.injEq, reduceCtorEq] at h
            case objectEnd | arrayEnd =>
              split at h <;> (simp only [Step.ret.injEq] at h; rw [← h.1]; simp)
            all_goals (rw [← h.1]; simp)
      · simp only [Tz.stepDelimiter] at h
        have herr : (findDelimiter t.opts t.stack buf t.cursor).err ≠ .missingFunction := by
          cases t.stack with
          | nil => simp [findDelimiter]
          | cons ct st =>
            rw [findDelimiter_eq]
            rcases delimLoop_err t.opts ct (buf.drop t.cursor) 0 t.cursor t.cursor with h | h | h <;> simp [h]
        generalize findDelimiter t.opts t.stack buf t.cursor = r at *
        split at h
        · simp only [Step.ret.injEq] at h; rw [← h.1]; exact herr
        · split at h
          · simp only [Step.ret.injEq] at h; rw [← h.1]; simp
          · split at h
            · simp only [Step.ret.injEq] at h; rw [← h.1]; simp
            · simp at h
      · simp only [Tz.stepData] at h
        have hh := hpf t t.inter.dataType
        generalize t.populateFrom buf t.inter.dataType = p at *
        split at h
        · simp only [Step.ret.injEq] at h; rw [← h.1]; simp
        · split at h
          · simp only [Step.ret.injEq] at h; rw [← h.1]; exact hh
          · generalize (if p.tz.inter.active = true then _ else p.tz : Tz) = q at h
            generalize (if q.inter.active = true then q.inter.dataType else p.type) = ty at h
            generalize getType _ _ = gt at h
            by_cases hc : gt = Ty.ascii ∧ q.opts.ascii = false
            · rw [if_pos hc] at h; simp only [Step.ret.injEq] at h; rw [← h.1]; simp
            · rw [if_neg hc] at h; simp only [Step.ret.injEq] at h; rw [← h.1]; simp
      · simp only [Tz.stepTokenEnd] at h
        have herr : (findTokenEnd t.opts t.stack buf t.cursor).err ≠ .missingFunction := by
          cases t.stack with
          | nil => simp [findTokenEnd]
          | cons ct st =>
            rw [findTokenEnd_eq]
            rcases tokenEndLoop_err t.opts (buf.drop t.cursor) 0 t.cursor t.cursor with h | h | h <;> simp [h]
        generalize findTokenEnd t.opts t.stack buf t.cursor = r at *
        split at h
        · simp only [Step.ret.injEq] at h; rw [← h.1]; exact herr
        · simp at h
    induction n generalizing t tmp with
    | zero => simp [Tz.populateLoop]
    | succ n ih =>
      simp only [Tz.populateLoop]
      split
      · cases hs : t.step buf tmp with
        | ret e t' tok => exact hst _ _ _ _ _ hs
        | cont t' tmp' => exact ih t' tmp'
      · simp
  induction n generalizing t with
  | zero => simp [Tz.pump]
  | succ n ih =>
    simp only [Tz.pump]
    split
    · simp
    · split
      · exact ih _
      · exact key _ _ _ _


theorem finish_known (t : Tz) (tok : Token) : (t.finish tok).1 ≠ .missingFunction := by
  unfold Tz.finish
  dsimp only
  repeat' split
  all_goals simp

theorem nextToken_known (t : Tz) (next : Token) : (t.nextToken next).1 ≠ .missingFunction := by
  unfold Tz.nextToken
  split
  · simp
  · split
    · unfold Tz.nextParsed; split <;> simp
    · generalize (if t.bufs = [] then t.requestMoreData else t) = t1
      dsimp only
      split
      · simp
      · generalize (if t1.continueAfter = true then t1 else t1.resetForNewToken) = t2
        have := pump_known t2.supply t2
        generalize Tz.pump t2.supply t2 = r at *
        split
        · exact this
        · exact finish_known _ _

/-! ### Handlers move forward -/

/-- Reached by calls of `nextToken`. -/
inductive Reach : Tz → Tz → Prop
  | refl (t) : Reach t t
  | step {a b : Tz} (next : Token) : Reach a b → Reach a (b.nextToken next).2.1

theorem Reach.trans {a b c : Tz} (h : Reach a b) (h' : Reach b c) : Reach a c := by
  induction h' with
  | refl => exact h
  | step next _ ih => exact .step next ih

/-- `c'` is `c` after calls of `nextToken`; the options are the same; `MissingFunction` has not turned up. -/
structure Moves (c c' : Ctx) : Prop where
  reach : Reach c.tz c'.tz
  opts : c'.popts = c.popts
  known : c.error ≠ .missingFunction → c'.error ≠ .missingFunction

theorem Moves.refl (c : Ctx) : Moves c c := ⟨.refl _, rfl, id⟩

theorem Moves.trans {a b c : Ctx} (h : Moves a b) (h' : Moves b c) : Moves a c :=
  ⟨h.reach.trans h'.reach, h'.opts.trans h.opts, fun k => h'.known (h.known k)⟩

theorem Moves.next (c : Ctx) : Moves c c.next := ⟨.step _ (.refl _), rfl, fun _ => nextToken_known _ _⟩

theorem Moves.to_next {c c' : Ctx} (h : Moves c c') : Moves c c'.next := h.trans (.next _)

theorem next_known (c : Ctx) : c.next.error ≠ .missingFunction := nextToken_known _ _

/-- A handler moves forward, and does not report `MissingFunction`. -/
def Tame (f : Nat → T → Ctx → Option (Err × T × Ctx)) : Prop :=
  ∀ n old c e x c', f n old c = some (e, x, c') → c.error ≠ .missingFunction → Moves c c' ∧ e ≠ .missingFunction

def Handler.Tame (h : Handler T) : Prop := JsonStruct.Tame h.to

theorem bool_tame : boolH.Tame := by
  intro n old c e x c' h _
  simp only [boolH, boolTo, Option.some.injEq, Prod.mk.injEq] at h
  obtain ⟨rfl, _, rfl⟩ := h
  refine ⟨.refl _, ?_⟩
  repeat' split
  all_goals simp

theorem intTo_known (I : IntTy) (b : Bytes) : (intTo I b).1 ≠ .missingFunction := by
  simp only [intTo]; split <;> simp

theorem int_tame (I : IntTy) : (intH I).Tame := by
  intro n old c e x c' h _
  simp only [intH, Option.some.injEq, Prod.mk.injEq] at h
  obtain ⟨rfl, _, rfl⟩ := h
  exact ⟨.refl _, intTo_known _ _⟩

theorem doubleTo_known {b : Bytes} {r : Err × Nat} (h : doubleTo b = some r) : r.1 ≠ .missingFunction := by
  unfold doubleTo at h
  simp only at h
  repeat' split at h
  all_goals first | contradiction | (cases h; simp only; try split) <;> simp

theorem floatTo_known {b : Bytes} {r : Err × Nat} (h : floatTo b = some r) : r.1 ≠ .missingFunction := by
  unfold floatTo at h
  simp only at h
  repeat' split at h
  all_goals first | contradiction | (cases h; simp only; try split) <;> simp

theorem double_tame : doubleH.Tame := by
  intro n old c e x c' h _
  simp only [doubleH, Option.some.injEq, Prod.mk.injEq] at h
  obtain ⟨rfl, _, rfl⟩ := h
  refine ⟨.refl _, ?_⟩
  cases hd : doubleTo c.token.value.bytes with
  | none => simp [floatOut]
  | some r => exact doubleTo_known hd

theorem float_tame : floatH.Tame := by
  intro n old c e x c' h _
  simp only [floatH, Option.some.injEq, Prod.mk.injEq] at h
  obtain ⟨rfl, _, rfl⟩ := h
  refine ⟨.refl _, ?_⟩
  cases hd : floatTo c.token.value.bytes with
  | none => simp [floatOut]
  | some r => exact floatTo_known hd

theorem time_tame (C : Clock) : (timeH C).Tame := by
  intro n old c e x c' h _
  simp only [timeH, Option.some.injEq, Prod.mk.injEq] at h
  obtain ⟨rfl, _, rfl⟩ := h
  refine ⟨.refl _, ?_⟩
  simp only [timeTo, Clock.ticks]
  split
  · exact intTo_known _ _
  · repeat' split
    all_goals simp

theorem string_tame (m : Simd) : (stringH m).Tame := by
  intro n old c e x c' h _
  simp only [stringH, Option.some.injEq, Prod.mk.injEq] at h
  obtain ⟨rfl, _, rfl⟩ := h
  exact ⟨.refl _, by simp⟩

theorem enum_tame (names : List Bytes) (U : IntTy) : (enumH names U).Tame := by
  intro n old c e x c' h _
  simp only [enumH] at h
  split at h
  · split at h <;> (simp only [Option.some.injEq, Prod.mk.injEq] at h; obtain ⟨rfl, _, rfl⟩ := h; exact ⟨.refl _, by simp⟩)
  · split at h
    · split at h <;> (simp only [Option.some.injEq, Prod.mk.injEq] at h; obtain ⟨rfl, _, rfl⟩ := h; exact ⟨.refl _, by first | exact intTo_known _ _ | simp⟩)
    · simp only [Option.some.injEq, Prod.mk.injEq] at h; obtain ⟨rfl, _, rfl⟩ := h; exact ⟨.refl _, by simp⟩

theorem enumValue_tame (U : IntTy) : (enumValueH U).Tame := by
  intro n old c e x c' h _
  simp only [enumValueH, Option.some.injEq, Prod.mk.injEq] at h
  obtain ⟨rfl, _, rfl⟩ := h
  exact ⟨.refl _, intTo_known _ _⟩

theorem nullable_tame {h : Handler T} (hh : h.Tame) : (nullableH h).Tame := by
  intro n old c e x c' g k
  simp only [nullableH] at g
  split at g
  · simp only [Option.some.injEq, Prod.mk.injEq] at g; obtain ⟨rfl, _, rfl⟩ := g; exact ⟨.refl _, by simp⟩
  · exact hh _ _ _ _ _ _ g k

theorem map_tame {f : Nat → T → Ctx → Option (Err × T × Ctx)} (hf : Tame f) {F : Err × T × Ctx → Err × S × Ctx}
    {n : Nat} {old : T} {c c' : Ctx} {e : Err} {x : S} (h : (f n old c).map F = some (e, x, c'))
    (hF : ∀ r, (F r).1 = r.1 ∧ (F r).2.2 = r.2.2) (k : c.error ≠ .missingFunction) :
    Moves c c' ∧ e ≠ .missingFunction := by
  obtain ⟨⟨e1, x1, c1⟩, h, he⟩ := Option.map_eq_some_iff.mp h
  obtain ⟨h1, h2⟩ := hF (e1, x1, c1)
  rw [he] at h1 h2
  dsimp only at h1 h2
  subst h1 h2
  exact hf _ _ _ _ _ _ h k

theorem nullableChecked_tame {h : Handler T} (hh : h.Tame) : (nullableCheckedH h).Tame := by
  intro n old c e x c' g k
  simp only [nullableCheckedH] at g
  split at g
  · simp only [Option.some.injEq, Prod.mk.injEq] at g; obtain ⟨rfl, _, rfl⟩ := g; exact ⟨.refl _, by simp⟩
  · exact map_tame hh g (fun _ => ⟨rfl, rfl⟩) k

theorem optionalChecked_tame {h : Handler T} (hh : h.Tame) : (optionalCheckedH h).Tame := by
  intro n old c e x c' g k; simp only [optionalCheckedH] at g; exact map_tame hh g (fun _ => ⟨rfl, rfl⟩) k

theorem stdOptional_tame {h : Handler T} (hh : h.Tame) : (stdOptionalH h).Tame := by
  intro n old c e x c' g k; simp only [stdOptionalH] at g; exact map_tame hh g (fun _ => ⟨rfl, rfl⟩) k

theorem ptr_tame {h : Handler T} (hh : h.Tame) : (ptrH h).Tame := by
  intro n old c e x c' g k
  simp only [ptrH] at g
  split at g
  · exact map_tame hh g (fun _ => ⟨rfl, rfl⟩) k
  · simp only [Option.some.injEq, Prod.mk.injEq] at g; obtain ⟨rfl, _, rfl⟩ := g; exact ⟨.refl _, by simp⟩

theorem vecLoop_tame {h : Handler T} (hh : h.Tame) (fuel n : Nat) : ∀ acc c e x c', vecLoop h fuel n acc c = some (e, x, c') →
    c.error ≠ .missingFunction → Moves c c' ∧ e ≠ .missingFunction := by
  induction n with
  | zero => intro acc c e x c' g; simp [vecLoop] at g
  | succ n ih =>
    intro acc c e x c' g k
    simp only [vecLoop] at g
    split at g
    · simp only [Option.some.injEq, Prod.mk.injEq] at g; obtain ⟨rfl, _, rfl⟩ := g; exact ⟨.refl _, by simp⟩
    · simp only [Option.bind_eq_bind, Option.bind_eq_some_iff, Prod.exists] at g
      obtain ⟨e1, x1, c1, g1, g⟩ := g
      obtain ⟨m1, k1⟩ := hh _ _ _ _ _ _ g1 k
      try dsimp only at g
      split at g
      · simp only [Option.some.injEq, Prod.mk.injEq] at g; obtain ⟨rfl, _, rfl⟩ := g; exact ⟨m1, k1⟩
      · split at g
        · simp only [Option.some.injEq, Prod.mk.injEq] at g; obtain ⟨rfl, _, rfl⟩ := g; exact ⟨m1.to_next, next_known _⟩
        · obtain ⟨m2, k2⟩ := ih _ _ _ _ _ g (next_known _)
          exact ⟨m1.to_next.trans m2, k2⟩

theorem vec_tame {h : Handler T} (hh : h.Tame) : (vecH h).Tame := by
  intro n old c e x c' g k
  simp only [vecH] at g
  split at g
  · simp only [Option.some.injEq, Prod.mk.injEq] at g; obtain ⟨rfl, _, rfl⟩ := g; exact ⟨.refl _, by simp⟩
  · split at g
    · simp only [Option.some.injEq, Prod.mk.injEq] at g; obtain ⟨rfl, _, rfl⟩ := g; exact ⟨.next _, next_known _⟩
    · obtain ⟨m2, k2⟩ := vecLoop_tame hh _ _ _ _ _ _ _ g (next_known _)
      exact ⟨(Moves.next _).trans m2, k2⟩

theorem Moves.setError {c c' : Ctx} (h : Moves c c') {e : Err} (he : e ≠ .missingFunction) : Moves c { c' with error := e } :=
  ⟨h.reach, h.opts, fun _ => he⟩

theorem oneOrMany_tame {h : Handler T} (hh : h.Tame) : (oneOrManyH h).Tame := by
  intro n old c e x c' g k
  simp only [oneOrManyH] at g
  split at g
  · simp only [Option.map_eq_some_iff, Prod.mk.injEq, Prod.exists] at g
    obtain ⟨_, _, _, g, rfl, _, rfl⟩ := g
    obtain ⟨m, k⟩ := vec_tame hh _ _ _ _ _ _ g k
    exact ⟨m.setError k, k⟩
  · simp only [Option.map_eq_some_iff, Prod.mk.injEq, Prod.exists] at g
    obtain ⟨_, _, _, g, rfl, _, rfl⟩ := g
    obtain ⟨m, k⟩ := hh _ _ _ _ _ _ g k
    exact ⟨m.setError k, k⟩

theorem arrLoop_tame {h : Handler T} (hh : h.Tame) (fuel : Nat) (old : List T) : ∀ c r x c', arrLoop h fuel old c = some (r, x, c') →
    c.error ≠ .missingFunction → Moves c c' ∧ r ≠ some .missingFunction := by
  induction old with
  | nil =>
    intro c r x c' g k
    simp only [arrLoop, Option.some.injEq, Prod.mk.injEq] at g; obtain ⟨rfl, _, rfl⟩ := g; exact ⟨.refl _, by simp⟩
  | cons o os ih =>
    intro c r x c' g k
    simp only [arrLoop] at g
    split at g
    · simp only [Option.some.injEq, Prod.mk.injEq] at g; obtain ⟨rfl, _, rfl⟩ := g; exact ⟨.refl _, by simpa using k⟩
    · simp only [Option.bind_eq_bind, Option.bind_eq_some_iff, Prod.exists] at g
      obtain ⟨e1, x1, c1, g1, g⟩ := g
      obtain ⟨m1, k1⟩ := hh _ _ _ _ _ _ g1 k
      try dsimp only at g
      split at g
      · simp only [Option.some.injEq, Prod.mk.injEq] at g; obtain ⟨rfl, _, rfl⟩ := g; exact ⟨m1.setError k1, by simpa using k1⟩
      · simp only [Option.bind_eq_some_iff, Prod.exists, Option.some.injEq, Prod.mk.injEq] at g
        obtain ⟨r2, x2, c2, g2, rfl, _, rfl⟩ := g
        obtain ⟨m2, k2⟩ := ih _ _ _ _ g2 (next_known _)
        exact ⟨(m1.setError k1).to_next.trans m2, k2⟩

theorem arr_tame (N : Nat) {h : Handler T} (hh : h.Tame) : (arrH N h).Tame := by
  intro n old c e x c' g k
  simp only [arrH] at g
  split at g
  · simp only [Option.some.injEq, Prod.mk.injEq] at g; obtain ⟨rfl, _, rfl⟩ := g; exact ⟨.refl _, by simp⟩
  · simp only [Option.bind_eq_bind, Option.bind_eq_some_iff, Prod.exists] at g
    obtain ⟨r1, x1, c1, g1, g⟩ := g
    obtain ⟨m1, k1⟩ := arrLoop_tame hh _ _ _ _ _ _ g1 (next_known _)
    try dsimp only at g
    have m2 := (Moves.next c).trans m1
    cases r1 with
    | some r1 =>
      simp only [Option.some.injEq, Prod.mk.injEq] at g; obtain ⟨rfl, _, rfl⟩ := g
      exact ⟨m2, by simpa using k1⟩
    | none =>
      simp only at g
      split at g
      · simp only [Option.some.injEq, Prod.mk.injEq] at g; obtain ⟨rfl, _, rfl⟩ := g; exact ⟨m2, by simp⟩
      · simp only [Option.some.injEq, Prod.mk.injEq] at g; obtain ⟨rfl, _, rfl⟩ := g; exact ⟨m2, m2.known k⟩

theorem avcLoop_tame {h : Handler T} (hh : h.Tame) (fuel size : Nat) (old : List T) : ∀ i c r x s c', avcLoop h fuel size i old c = some (r, x, s, c') →
    c.error ≠ .missingFunction → Moves c c' ∧ r ≠ some .missingFunction := by
  induction old with
  | nil =>
    intro i c r x s c' g k
    simp only [avcLoop, Option.some.injEq, Prod.mk.injEq] at g; obtain ⟨rfl, _, _, rfl⟩ := g; exact ⟨.refl _, by simp⟩
  | cons o os ih =>
    intro i c r x s c' g k
    simp only [avcLoop] at g
    split at g
    · simp only [Option.some.injEq, Prod.mk.injEq] at g; obtain ⟨rfl, _, _, rfl⟩ := g; exact ⟨.refl _, by simpa using k⟩
    · split at g
      · simp only [Option.some.injEq, Prod.mk.injEq] at g; obtain ⟨rfl, _, _, rfl⟩ := g; exact ⟨.refl _, by simp⟩
      · simp only [Option.bind_eq_bind, Option.bind_eq_some_iff, Prod.exists] at g
        obtain ⟨e1, x1, c1, g1, g⟩ := g
        obtain ⟨m1, k1⟩ := hh _ _ _ _ _ _ g1 k
        try dsimp only at g
        split at g
        · simp only [Option.some.injEq, Prod.mk.injEq] at g; obtain ⟨rfl, _, _, rfl⟩ := g; exact ⟨m1.setError k1, by simpa using k1⟩
        · simp only [Option.bind_eq_some_iff, Prod.exists, Option.some.injEq, Prod.mk.injEq] at g
          obtain ⟨r2, x2, s2, c2, g2, rfl, _, _, rfl⟩ := g
          obtain ⟨m2, k2⟩ := ih _ _ _ _ _ _ g2 (next_known _)
          exact ⟨(m1.setError k1).to_next.trans m2, k2⟩

theorem avc_tame (N : Nat) {h : Handler T} (hh : h.Tame) : (avcH N h).Tame := by
  intro n old c e x c' g k
  simp only [avcH] at g
  split at g
  · simp only [Option.some.injEq, Prod.mk.injEq] at g; obtain ⟨rfl, _, rfl⟩ := g; exact ⟨.refl _, by simp⟩
  · simp only [Option.bind_eq_bind, Option.bind_eq_some_iff, Prod.exists] at g
    obtain ⟨r1, x1, s1, c1, g1, g⟩ := g
    obtain ⟨m1, k1⟩ := avcLoop_tame hh _ _ _ _ _ _ _ _ _ g1 (next_known _)
    try dsimp only at g
    have m2 := (Moves.next c).trans m1
    cases r1 with
    | some r1 =>
      simp only [Option.some.injEq, Prod.mk.injEq] at g; obtain ⟨rfl, _, rfl⟩ := g
      exact ⟨m2, by simpa using k1⟩
    | none =>
      simp only at g
      split at g
      · simp only [Option.some.injEq, Prod.mk.injEq] at g; obtain ⟨rfl, _, rfl⟩ := g; exact ⟨m2, by simp⟩
      · simp only [Option.some.injEq, Prod.mk.injEq] at g; obtain ⟨rfl, _, rfl⟩ := g; exact ⟨m2, m2.known k⟩

theorem tupNil_tame : Tame TupleH.nil.to := by
  intro n old c e x c' g k
  simp only [TupleH.nil, Option.some.injEq, Prod.mk.injEq] at g; obtain ⟨rfl, _, rfl⟩ := g; exact ⟨.refl _, by simp⟩

theorem tupCons_tame {h : Handler T} {t : TupleH Ts} (hh : h.Tame) (ht : Tame t.to) : Tame (TupleH.cons h t).to := by
  intro n old c e x c' g k
  simp only [TupleH.cons, Option.bind_eq_bind, Option.bind_eq_some_iff, Prod.exists] at g
  obtain ⟨e1, x1, c1, g1, g⟩ := g
  obtain ⟨m1, k1⟩ := hh _ _ _ _ _ _ g1 k
  try dsimp only at g
  split at g
  · simp only [Option.some.injEq, Prod.mk.injEq] at g; obtain ⟨rfl, _, rfl⟩ := g; exact ⟨m1, k1⟩
  · split at g
    · simp only [Option.some.injEq, Prod.mk.injEq] at g; obtain ⟨rfl, _, rfl⟩ := g; exact ⟨m1.to_next, next_known _⟩
    · obtain ⟨m2, k2⟩ := map_tame ht g (fun _ => ⟨rfl, rfl⟩) (next_known _)
      exact ⟨m1.to_next.trans m2, k2⟩

theorem tuple_tame {t : TupleH Ts} (ht : Tame t.to) : (tupleH t).Tame := by
  intro n old c e x c' g k
  simp only [tupleH] at g
  split at g
  · simp only [Option.some.injEq, Prod.mk.injEq] at g; obtain ⟨rfl, _, rfl⟩ := g; exact ⟨.refl _, by simp⟩
  · split at g
    · simp only [Option.some.injEq, Prod.mk.injEq] at g; obtain ⟨rfl, _, rfl⟩ := g; exact ⟨.next _, next_known _⟩
    · simp only [Option.bind_eq_bind, Option.bind_eq_some_iff, Prod.exists] at g
      obtain ⟨e1, x1, c1, g1, g⟩ := g
      obtain ⟨m1, k1⟩ := ht _ _ _ _ _ _ g1 (next_known _)
      have m2 := (Moves.next c).trans m1
      try dsimp only at g
      split at g
      · simp only [Option.some.injEq, Prod.mk.injEq] at g; obtain ⟨rfl, _, rfl⟩ := g; exact ⟨m2, k1⟩
      · split at g <;> (simp only [Option.some.injEq, Prod.mk.injEq] at g; obtain ⟨rfl, _, rfl⟩ := g; exact ⟨m2, by simp⟩)

theorem setLoop_tame [DecidableEq T] (ins : List T → T → List T) {h : Handler T} (hh : h.Tame) (fuel n : Nat) : ∀ acc c e x c',
    setLoop ins h fuel n acc c = some (e, x, c') → c.error ≠ .missingFunction → Moves c c' ∧ e ≠ .missingFunction := by
  induction n with
  | zero => intro acc c e x c' g; simp [setLoop] at g
  | succ n ih =>
    intro acc c e x c' g k
    simp only [setLoop] at g
    split at g
    · simp only [Option.some.injEq, Prod.mk.injEq] at g; obtain ⟨rfl, _, rfl⟩ := g; exact ⟨.refl _, by simp⟩
    · simp only [Option.bind_eq_bind, Option.bind_eq_some_iff, Prod.exists] at g
      obtain ⟨e1, x1, c1, g1, g⟩ := g
      obtain ⟨m1, k1⟩ := hh _ _ _ _ _ _ g1 k
      try dsimp only at g
      split at g
      · simp only [Option.some.injEq, Prod.mk.injEq] at g; obtain ⟨rfl, _, rfl⟩ := g; exact ⟨m1, k1⟩
      · split at g
        · simp only [Option.some.injEq, Prod.mk.injEq] at g; obtain ⟨rfl, _, rfl⟩ := g; exact ⟨m1, by simp⟩
        · split at g
          · simp only [Option.some.injEq, Prod.mk.injEq] at g; obtain ⟨rfl, _, rfl⟩ := g; exact ⟨m1.to_next, next_known _⟩
          · obtain ⟨m2, k2⟩ := ih _ _ _ _ _ g (next_known _)
            exact ⟨m1.to_next.trans m2, k2⟩

theorem set_tame [DecidableEq T] (ins : List T → T → List T) {h : Handler T} (hh : h.Tame) : (setH ins h).Tame := by
  intro n old c e x c' g k
  simp only [setH] at g
  split at g
  · simp only [Option.some.injEq, Prod.mk.injEq] at g; obtain ⟨rfl, _, rfl⟩ := g; exact ⟨.refl _, by simp⟩
  · split at g
    · simp only [Option.some.injEq, Prod.mk.injEq] at g; obtain ⟨rfl, _, rfl⟩ := g; exact ⟨.next _, next_known _⟩
    · obtain ⟨m2, k2⟩ := setLoop_tame ins hh _ _ _ _ _ _ _ g (next_known _)
      exact ⟨(Moves.next _).trans m2, k2⟩

theorem mapLoop_tame (ins : List (Bytes × V) → Bytes × V → List (Bytes × V)) {h : Handler V} (hh : h.Tame) (fuel n : Nat) : ∀ e0 acc c e x c',
    mapLoop ins h fuel n e0 acc c = some (e, x, c') → c.error ≠ .missingFunction → e0 ≠ .missingFunction → Moves c c' ∧ e ≠ .missingFunction := by
  induction n with
  | zero => intro e0 acc c e x c' g; simp [mapLoop] at g
  | succ n ih =>
    intro e0 acc c e x c' g k k0
    simp only [mapLoop] at g
    split at g
    · simp only [Option.some.injEq, Prod.mk.injEq] at g; obtain ⟨rfl, _, rfl⟩ := g; exact ⟨.refl _, k0⟩
    · simp only [Option.bind_eq_bind, Option.bind_eq_some_iff, Prod.exists] at g
      obtain ⟨e1, x1, c1, g1, g⟩ := g
      obtain ⟨m1, k1⟩ := hh _ _ _ _ _ _ g1 k
      try dsimp only at g
      split at g
      · simp only [Option.some.injEq, Prod.mk.injEq] at g; obtain ⟨rfl, _, rfl⟩ := g; exact ⟨m1, k1⟩
      · obtain ⟨m2, k2⟩ := ih _ _ _ _ _ _ g (next_known _) (next_known _)
        exact ⟨m1.to_next.trans m2, k2⟩

theorem map_handler_tame (ins : List (Bytes × V) → Bytes × V → List (Bytes × V)) {h : Handler V} (hh : h.Tame) : (mapH ins h).Tame := by
  intro n old c e x c' g k
  simp only [mapH] at g
  split at g
  · simp only [Option.some.injEq, Prod.mk.injEq] at g; obtain ⟨rfl, _, rfl⟩ := g; exact ⟨.refl _, by simp⟩
  · split at g
    · simp only [Option.some.injEq, Prod.mk.injEq] at g; obtain ⟨rfl, _, rfl⟩ := g; exact ⟨.next _, next_known _⟩
    · obtain ⟨m2, k2⟩ := mapLoop_tame ins hh _ _ _ _ _ _ _ _ g (next_known _) (by simp)
      exact ⟨(Moves.next _).trans m2, k2⟩

theorem tokensLoop_tame (n : Nat) : ∀ L acc c e x c', tokensLoop n L acc c = some (e, x, c') → Moves c c' ∧ e ≠ .missingFunction := by
  induction n with
  | zero => intro L acc c e x c' g; simp [tokensLoop] at g
  | succ n ih =>
    intro L acc c e x c' g
    simp only [tokensLoop] at g
    split at g
    · simp only [Option.some.injEq, Prod.mk.injEq] at g; obtain ⟨rfl, _, rfl⟩ := g; exact ⟨.refl _, by simp⟩
    · split at g
      · simp only [Option.some.injEq, Prod.mk.injEq] at g; obtain ⟨rfl, _, rfl⟩ := g; exact ⟨.next _, next_known _⟩
      · obtain ⟨m2, k2⟩ := ih _ _ _ _ _ _ g
        exact ⟨(Moves.next _).trans m2, k2⟩

theorem tokens_tame : tokensH.Tame := by
  intro n old c e x c' g k
  simp only [tokensH] at g
  split at g
  · simp only [Option.some.injEq, Prod.mk.injEq] at g; obtain ⟨rfl, _, rfl⟩ := g; exact ⟨.refl _, k⟩
  · exact tokensLoop_tame _ _ _ _ _ _ _ g

theorem jmap_tame : jmapH.Tame := by
  intro n old c e x c' g k
  simp only [jmapH] at g
  obtain ⟨⟨e1, ks, c1⟩, h1, h2⟩ := Option.map_eq_some_iff.mp g
  obtain ⟨m1, k1⟩ := tokens_tame n old.tokens c e1 ks c1 h1 k
  simp only [jmapRead] at h2
  split at h2
  · split at h2 <;> (simp only [Prod.mk.injEq] at h2; obtain ⟨rfl, -, rfl⟩ := h2; exact ⟨m1, by simp⟩)
  · simp only [Prod.mk.injEq] at h2; obtain ⟨rfl, -, rfl⟩ := h2; exact ⟨m1, k1⟩

theorem skipLoop_moves (a b : Ty) (n : Nat) : ∀ L c c', skipLoop a b n L c = some c' → Moves c c' := by
  induction n with
  | zero => intro L c c' g; simp [skipLoop] at g
  | succ n ih =>
    intro L c c' g
    simp only [skipLoop] at g
    split at g
    · simp only [Option.some.injEq] at g; subst g; exact .refl _
    · split at g
      · simp only [Option.some.injEq] at g; subst g; exact .next _
      · exact (Moves.next _).trans (ih _ _ _ g)

theorem skip_moves {n : Nat} {c c' : Ctx} (h : skipArrayOrObject n c = some c') : Moves c c' := by
  unfold skipArrayOrObject at h
  split at h
  · exact skipLoop_moves _ _ _ _ _ _ h
  · split at h
    · exact skipLoop_moves _ _ _ _ _ _ h
    · simp only [Option.some.injEq] at h; subst h; exact .refl _

/-! ### Structs -/

mutual
/-- All members of a struct and its super classes are tame. -/
def Meta.Tame : Meta T → Prop
  | .mk ms ss => (∀ m ∈ ms, JsonStruct.Tame m.to) ∧ supersTame ss
def supersTame : List (Bytes × Meta T) → Prop
  | [] => True
  | (_, m) :: ss => m.Tame ∧ supersTame ss
end

theorem member_up_tame (get : T → S) (set : S → T → T) {m : Member S} (h : Tame m.to) : Tame (m.up get set).to := by
  intro n old c e x c' g k
  simp only [Member.up] at g
  exact map_tame h g (fun _ => ⟨rfl, rfl⟩) k

mutual
theorem up_tame (get : T → S) (set : S → T → T) (M : Meta S) (h : M.Tame) : (M.up get set).Tame := by
  match M, h with
  | .mk ms ss, h =>
    refine ⟨?_, supersUp_tame get set ss h.2⟩
    intro m hm
    obtain ⟨m', hm', rfl⟩ := List.mem_map.mp hm
    exact member_up_tame get set (h.1 m' hm')
theorem supersUp_tame (get : T → S) (set : S → T → T) (ss : List (Bytes × Meta S)) (h : supersTame ss) : supersTame (supersUp get set ss) := by
  match ss, h with
  | [], _ => trivial
  | (_, m) :: ss, h => exact ⟨up_tame get set m h.1, supersUp_tame get set ss h.2⟩
end

theorem matched_known {e : Err} (h : e ≠ .missingFunction) : matchedMemberResult e ≠ .missingFunction := by
  unfold matchedMemberResult; split
  · simp
  · exact h

theorem unpackRev_tame (page : Nat) (primary : Bool) (fuel : Nat) (ms : List (Member T)) (h : ∀ m ∈ ms, Tame m.to) :
    ∀ old c as e x c' as', unpackRev page primary fuel old c as ms = some (e, x, c', as') → c.error ≠ .missingFunction →
      Moves c c' ∧ e ≠ .missingFunction := by
  induction ms with
  | nil =>
    intro old c as e x c' as' g k
    simp only [unpackRev, Option.some.injEq, Prod.mk.injEq] at g; obtain ⟨rfl, _, rfl, _⟩ := g; exact ⟨.refl _, by simp⟩
  | cons m ms ih =>
    intro old c as e x c' as' g k
    simp only [unpackRev, Option.bind_eq_bind, Option.bind_eq_some_iff, Prod.exists] at g
    obtain ⟨e1, x1, c1, as1, g1, g⟩ := g
    have hm : Moves c c1 ∧ e1 ≠ .missingFunction := by
      unfold unpackMember at g1
      split at g1
      · simp only [Option.map_eq_some_iff, Prod.mk.injEq, Prod.exists] at g1
        obtain ⟨_, _, _, g1, rfl, _, rfl, _⟩ := g1
        obtain ⟨m1, k1⟩ := h m (List.mem_cons_self ..) _ _ _ _ _ _ g1 k
        exact ⟨m1, matched_known k1⟩
      · simp only [Option.some.injEq, Prod.mk.injEq] at g1; obtain ⟨rfl, _, rfl, _⟩ := g1; exact ⟨.refl _, by simp⟩
    try dsimp only at g
    split at g
    · simp only [Option.some.injEq, Prod.mk.injEq] at g; obtain ⟨rfl, _, rfl, _⟩ := g; exact hm
    · obtain ⟨m2, k2⟩ := ih (fun m hm => h m (List.mem_cons_of_mem _ hm)) _ _ _ _ _ _ _ g (hm.1.known k)
      exact ⟨hm.1.trans m2, k2⟩

mutual
theorem unpack_tame (page : Nat) (primary : Bool) (fuel : Nat) (M : Meta T) (h : M.Tame) :
    ∀ old c as e x c' as', M.unpack page primary fuel old c as = some (e, x, c', as') → c.error ≠ .missingFunction →
      Moves c c' ∧ e ≠ .missingFunction := by
  intro old c as e x c' as' g k
  match M, h with
  | .mk ms ss, h =>
    simp only [Meta.unpack, Option.bind_eq_bind, Option.bind_eq_some_iff, Prod.exists] at g
    obtain ⟨e1, x1, c1, as1, g1, g⟩ := g
    obtain ⟨m1, k1⟩ := unpackRev_tame page primary fuel ms.reverse (fun m hm => h.1 m (List.mem_reverse.mp hm)) _ _ _ _ _ _ _ g1 k
    try dsimp only at g
    split at g
    · simp only [Option.some.injEq, Prod.mk.injEq] at g; obtain ⟨rfl, _, rfl, _⟩ := g; exact ⟨m1, k1⟩
    · obtain ⟨m2, k2⟩ := unpackSupers_tame _ primary fuel ss h.2 _ _ _ _ _ _ _ g (m1.known k)
      exact ⟨m1.trans m2, k2⟩
theorem unpackSupers_tame (page : Nat) (primary : Bool) (fuel : Nat) (ss : List (Bytes × Meta T)) (h : supersTame ss) :
    ∀ old c as e x c' as', unpackSupers page primary fuel old c as ss = some (e, x, c', as') → c.error ≠ .missingFunction →
      Moves c c' ∧ e ≠ .missingFunction := by
  intro old c as e x c' as' g k
  match ss, h with
  | [], _ =>
    simp only [unpackSupers, Option.some.injEq, Prod.mk.injEq] at g; obtain ⟨rfl, _, rfl, _⟩ := g; exact ⟨.refl _, by simp⟩
  | (_, m) :: ss, h =>
    simp only [unpackSupers, Option.bind_eq_bind, Option.bind_eq_some_iff, Prod.exists] at g
    obtain ⟨e1, x1, c1, as1, g1, g⟩ := g
    obtain ⟨m1, k1⟩ := unpack_tame page primary fuel m h.1 _ _ _ _ _ _ _ g1 k
    try dsimp only at g
    split at g
    · simp only [Option.some.injEq, Prod.mk.injEq] at g; obtain ⟨rfl, _, rfl, _⟩ := g; exact ⟨m1, k1⟩
    · obtain ⟨m2, k2⟩ := unpackSupers_tame _ primary fuel ss h.2 _ _ _ _ _ _ _ g (m1.known k)
      exact ⟨m1.trans m2, k2⟩
end

theorem find_tame (M : Meta T) (h : M.Tame) (fuel : Nat) :
    ∀ old c as e x c' as', M.find fuel old c as = some (e, x, c', as') → c.error ≠ .missingFunction →
      Moves c c' ∧ e ≠ .missingFunction := by
  intro old c as e x c' as' g k
  simp only [Meta.find, Option.bind_eq_bind, Option.bind_eq_some_iff, Prod.exists] at g
  obtain ⟨e1, x1, c1, as1, g1, g⟩ := g
  obtain ⟨m1, k1⟩ := unpack_tame _ _ _ M h _ _ _ _ _ _ _ g1 k
  try dsimp only at g
  split at g
  · obtain ⟨m2, k2⟩ := unpack_tame _ _ _ M h _ _ _ _ _ _ _ g (m1.known k)
    exact ⟨m1.trans m2, k2⟩
  · simp only [Option.some.injEq, Prod.mk.injEq] at g; obtain ⟨rfl, _, rfl, _⟩ := g; exact ⟨m1, k1⟩

theorem unknown_tame {c c' : Ctx} {fuel : Nat} {name : Bytes} {r : Option Err} (g : c.unknown fuel name = some (r, c'))
    (k : c.error ≠ .missingFunction) : Moves c c' ∧ r ≠ some .missingFunction := by
  have h0 : Moves c (if c.track = true then { c with missing := c.missing ++ [name] } else c) := by
    split
    · exact ⟨.refl _, rfl, id⟩
    · exact .refl _
  simp only [Ctx.unknown] at g
  generalize (if c.track = true then { c with missing := c.missing ++ [name] } else c) = c0 at h0 g
  split at g
  · simp only [Option.bind_eq_bind, Option.bind_eq_some_iff, Option.some.injEq, Prod.mk.injEq] at g
    obtain ⟨c1, g1, rfl, rfl⟩ := g
    have m := h0.trans (skip_moves g1)
    refine ⟨m, ?_⟩
    split
    · simpa using m.known k
    · simp
  · simp only [Option.some.injEq, Prod.mk.injEq] at g; obtain ⟨rfl, rfl⟩ := g; exact ⟨h0, by simp⟩

theorem structLoop_tame (M : Meta T) (h : M.Tame) (fuel n : Nat) :
    ∀ old c as r x c' as', structLoop M fuel n old c as = some (r, x, c', as') → c.error ≠ .missingFunction →
      Moves c c' ∧ r ≠ some .missingFunction := by
  induction n with
  | zero => intro old c as r x c' as' g; simp [structLoop] at g
  | succ n ih =>
    intro old c as r x c' as' g k
    simp only [structLoop] at g
    split at g
    · simp only [Option.some.injEq, Prod.mk.injEq] at g; obtain ⟨rfl, _, rfl, _⟩ := g; exact ⟨.refl _, by simp⟩
    · simp only [Option.bind_eq_bind, Option.bind_eq_some_iff, Prod.exists] at g
      obtain ⟨e1, x1, c1, as1, g1, g⟩ := g
      obtain ⟨m1, k1⟩ := find_tame M h fuel _ _ _ _ _ _ _ g1 k
      obtain ⟨r2, c2, g2, g⟩ : ∃ r2 c2, (if e1 = .missingPropertyMember then c1.unknown fuel c.token.name.bytes
          else some (if e1 ≠ .noError then some e1 else none, c1)) = some (r2, c2) ∧
          (match r2 with
          | some e => some (some e, x1, c2, as1)
          | none => if c2.next.error ≠ .noError then some (some c2.next.error, x1, c2.next, as1)
            else structLoop M fuel n x1 c2.next as1) = some (r, x, c', as') := by
        by_cases he : e1 = .missingPropertyMember
        · simp only [he, if_true, Option.bind_eq_some_iff, Prod.exists] at g ⊢
          exact g
        · simp only [he, if_false] at g ⊢
          exact ⟨_, _, rfl, g⟩
      have h2 : Moves c c2 ∧ r2 ≠ some .missingFunction := by
        split at g2
        · obtain ⟨m2, k2⟩ := unknown_tame g2 (m1.known k)
          exact ⟨m1.trans m2, k2⟩
        · simp only [Option.some.injEq, Prod.mk.injEq] at g2; obtain ⟨rfl, rfl⟩ := g2
          refine ⟨m1, ?_⟩
          split
          · simpa using k1
          · simp
      try dsimp only at g
      cases r2 with
      | some e => simp only [Option.some.injEq, Prod.mk.injEq] at g; obtain ⟨rfl, _, rfl, _⟩ := g; exact h2
      | none =>
        simp only at g
        split at g
        · simp only [Option.some.injEq, Prod.mk.injEq] at g; obtain ⟨rfl, _, rfl, _⟩ := g
          exact ⟨h2.1.to_next, by simpa using next_known _⟩
        · obtain ⟨m3, k3⟩ := ih _ _ _ _ _ _ _ g (next_known _)
          exact ⟨h2.1.to_next.trans m3, k3⟩

theorem verifyBoth_known {a b : Err × List Bytes} (ha : a.1 ≠ .missingFunction) (hb : b.1 ≠ .missingFunction) : (verifyBoth a b).1 ≠ .missingFunction := by
  unfold verifyBoth; dsimp only; split <;> assumption

theorem verifyMember_known (m : Member T) (i : Nat) (as : List Bool) (t : Bool) (sn : Bytes) : (verifyMember m i as t sn).1 ≠ .missingFunction := by
  unfold verifyMember
  split
  · simp
  · split <;> simp

theorem verifyRev_known (page : Nat) (as : List Bool) (t : Bool) (sn : Bytes) (ms : List (Member T)) :
    (verifyRev page as t sn ms).1 ≠ .missingFunction := by
  induction ms with
  | nil => simp [verifyRev]
  | cons m ms ih => exact verifyBoth_known (verifyMember_known _ _ _ _ _) ih

mutual
theorem verify_known (page : Nat) (as : List Bool) (t : Bool) (sn : Bytes) (M : Meta T) : (M.verify page as t sn).1 ≠ .missingFunction := by
  match M with
  | .mk ms ss => simp only [Meta.verify]; exact verifyBoth_known (verifyRev_known _ _ _ _ _) (verifySupers_known _ as t ss)
theorem verifySupers_known (page : Nat) (as : List Bool) (t : Bool) (ss : List (Bytes × Meta T)) :
    (verifySupers page as t ss).1 ≠ .missingFunction := by
  match ss with
  | [] => simp [verifySupers]
  | (n, m) :: ss => simp only [verifySupers]; exact verifyBoth_known (verify_known _ as t n m) (verifySupers_known _ as t ss)
end

theorem struct_tame {M : Meta T} (h : M.Tame) (init : T) : (structH init M).Tame := by
  intro n old c e x c' g k
  simp only [structH, structTo] at g
  split at g
  · simp only [Option.some.injEq, Prod.mk.injEq] at g; obtain ⟨rfl, _, rfl⟩ := g; exact ⟨.refl _, by simp⟩
  · have m0 : Moves c { c with tz := (c.tz.nextToken c.token).2.1, token := (c.tz.nextToken c.token).2.2 } :=
      ⟨.step _ (.refl _), rfl, id⟩
    split at g
    · simp only [Option.some.injEq, Prod.mk.injEq] at g; obtain ⟨rfl, _, rfl⟩ := g
      exact ⟨m0, nextToken_known _ _⟩
    · simp only [Option.bind_eq_bind, Option.bind_eq_some_iff, Prod.exists] at g
      obtain ⟨r1, x1, c1, as1, g1, g⟩ := g
      obtain ⟨m1, k1⟩ := structLoop_tame M h _ _ _ _ _ _ _ _ _ g1 k
      have m2 := m0.trans m1
      try dsimp only at g
      cases r1 with
      | some e => simp only [Option.some.injEq, Prod.mk.injEq] at g; obtain ⟨rfl, _, rfl⟩ := g; exact ⟨m2, by simpa using k1⟩
      | none =>
        simp only at g
        split at g
        · simp only [Option.some.injEq, Prod.mk.injEq] at g; obtain ⟨rfl, _, rfl⟩ := g
          constructor
          · split
            · exact m2.trans ⟨.refl _, rfl, id⟩
            · exact m2
          · have := verify_known 0 as1 c1.track [] M
            have h0 : Err.noError ≠ .missingFunction := by simp
            repeat' split
            all_goals assumption
        · simp only [Option.some.injEq, Prod.mk.injEq] at g; obtain ⟨rfl, _, rfl⟩ := g
          exact ⟨m2, verify_known _ _ _ _ _⟩

mutual
theorem CType.tame : {T : Type} → (t : CType T) → t.handler.Tame
  | _, .bool => bool_tame
  | _, .int I => int_tame I
  | _, .double => double_tame
  | _, .float => float_tame
  | _, .time C => time_tame C
  | _, .string m => string_tame m
  | _, .enum names U => enum_tame names U
  | _, .enumValue U => enumValue_tame U
  | _, .nullable t => nullable_tame t.tame
  | _, .nullableChecked t => nullableChecked_tame t.tame
  | _, .optional t => t.tame
  | _, .optionalChecked t => optionalChecked_tame t.tame
  | _, .stdOptional t => stdOptional_tame t.tame
  | _, .sharedPtr t => ptr_tame t.tame
  | _, .uniquePtr t => ptr_tame t.tame
  | _, .silentString m => string_tame m
  | _, .silentVector t => vec_tame t.tame
  | _, .silentUniquePtr t => ptr_tame t.tame
  | _, .vector t => vec_tame t.tame
  | _, .oneOrMany t => oneOrMany_tame t.tame
  | _, .array N t => arr_tame N t.tame
  | _, .arrayVariable count t => avc_tame count t.tame
  | _, .tuple ts => tuple_tame ts.tame
  | _, .set _ ins t => set_tame ins t.tame
  | _, .map ins t => map_handler_tame ins t.tame
  | _, .tokens => tokens_tame
  | _, .jmap => jmap_tame
  | _, .struct init s => struct_tame s.tame init
theorem CTypes.tame : {Ts : Type} → (ts : CTypes Ts) → Tame ts.handler.to
  | _, .nil => tupNil_tame
  | _, .cons t ts => tupCons_tame t.tame ts.tame
theorem CStruct.tame : {T : Type} → (s : CStruct T) → s.meta.Tame
  | _, .mk ms ss => ⟨ms.tame, ss.tame⟩
theorem CMembers.tame : {T : Type} → (ms : CMembers T) → ∀ m ∈ ms.members, Tame m.to
  | _, .nil => by simp [CMembers.members]
  | _, .cons names t get set ms => by
    simp only [CMembers.members, List.mem_cons]
    rintro m (rfl | hm)
    · intro n old c e x c' g k
      exact map_tame t.tame g (fun _ => ⟨rfl, rfl⟩) k
    · exact ms.tame m hm
theorem CSupers.tame : {T : Type} → (ss : CSupers T) → supersTame ss.supers
  | _, .nil => trivial
  | _, .cons name get set s ss => ⟨up_tame get set _ s.tame, ss.tame⟩
end

/-! ### Staying inside the scope of a member -/

theorem goToEnd_mono {n m : Nat} {c c' : Ctx} (h : c.goToEnd n = some c') (hm : n ≤ m) : c.goToEnd m = some c' := by
  have key : ∀ (n m : Nat) (t : Tz) (tok : Token), n ≤ m →
      ¬ ((Tz.goToEndOfScope n t tok).1 = .noError ∧ ((Tz.goToEndOfScope n t tok).2.1.scopes.head?.map Scope.depth) ≠ some 0) →
      Tz.goToEndOfScope m t tok = Tz.goToEndOfScope n t tok := by
    intro n
    induction n with
    | zero =>
      intro m t tok _ h
      simp only [Tz.goToEndOfScope, ne_eq, true_and, Decidable.not_not] at h ⊢
      cases m with
      | zero => rfl
      | succ m =>
        cases hs : t.scopes with
        | nil => simp [hs] at h
        | cons s ss =>
          simp only [hs, List.head?_cons, Option.map_some, Option.some.injEq] at h
          simp only [Tz.goToEndOfScope, hs, h, if_true]
    | succ n ih =>
      intro m t tok hm h
      obtain ⟨m, rfl⟩ : ∃ k, m = k + 1 := ⟨m - 1, by omega⟩
      simp only [Tz.goToEndOfScope] at h ⊢
      cases hs : t.scopes with
      | nil => rfl
      | cons s ss =>
        simp only [hs] at h ⊢
        by_cases hd : s.depth = 0
        · simp only [hd, if_true]
        · simp only [hd, if_false] at h ⊢
          by_cases he : (t.nextToken tok).1 = .noError
          · simp only [he, if_true] at h ⊢
            exact ih m _ _ (by omega) h
          · simp only [he, if_false]
  simp only [Ctx.goToEnd] at h ⊢
  split at h
  · simp at h
  · rename_i hh
    rw [key n m c.tz c.token hm hh, if_neg hh]
    exact h

/-- The tokenizer is inside a scope pushed when there was none, behind whose end the tokens `rest` follow. -/
def InScope (rest : List Tok) (u : Tz) : Prop :=
  ∃ t ty L ts, u = t.sc [⟨ty, L⟩] ∧ t.scopes = [] ∧ Delivers t (ts ++ rest) ∧
    ((ts = [] ∧ L = 0) ∨ (ts ≠ [] ∧ (ty = .arrayStart ∨ ty = .objectStart) ∧ Above (kindLevel ty ty.closing) L ts ∧
      Below (kindLevel ty ty.closing) 65535 L ts ∧ L ≤ 65535 ∧ levelAfter (kindLevel ty ty.closing) L ts = 0))

theorem inside_next {rest : List Tok} {u : Tz} (h : InScope rest u) (next : Token) : InScope rest (u.nextToken next).2.1 := by
  obtain ⟨t, ty, L, ts, rfl, hs, hd, ⟨rfl, rfl⟩ | ⟨hne, hty, ha, hb, hL, hz⟩⟩ := h
  · have : (t.sc [⟨ty, 0⟩]).nextToken next = (.scopeHasEnded, t.sc [⟨ty, 0⟩], next) := by simp [Tz.nextToken, Tz.sc]
    rw [this]
    exact ⟨t, ty, 0, [], rfl, hs, hd, .inl ⟨rfl, rfl⟩⟩
  · cases ts with
    | nil => exact absurd rfl hne
    | cons k ts =>
      obtain ⟨t1, tok1, h1, h2, h3⟩ := hd
      obtain ⟨ha1, ha2⟩ := ha
      obtain ⟨hb1, hb2⟩ := hb
      have hv : tok1.valueType = k.valueType := by rw [← h2]; rfl
      obtain ⟨h4, h5⟩ := nextToken_sc t [⟨ty, L⟩] next hs (by simp [Tz.sc, Tz.ended]; omega) (h1 next)
      rw [show handleScope [⟨ty, L⟩] tok1.valueType = [Scope.handleType ⟨ty, L⟩ tok1.valueType] from rfl, hv,
        handleType_level hty ha1 _ hb1 hL] at h4
      rw [h4]
      refine ⟨t1, ty, _, ts, rfl, h5, h3, ?_⟩
      by_cases hts : ts = []
      · subst hts; exact .inl ⟨rfl, hz⟩
      · exact .inr ⟨hts, hty, ha2, hb2, hb1, hz⟩

theorem inside_reach {rest : List Tok} {u u' : Tz} (h : InScope rest u) (hr : Reach u u') : InScope rest u' := by
  induction hr with
  | refl => exact h
  | step next _ ih => exact inside_next ih next

/-- The end of the scope is found from here; behind it come the tokens `rest`. -/
def EndsBefore (rest : List Tok) (u : Tz) (tok0 : Token) : Prop :=
  ∃ t ty tok N, t.scopes = [] ∧ Delivers t rest ∧
    ∀ n, N ≤ n → Tz.goToEndOfScope n u tok0 = (.noError, t.sc [⟨ty, 0⟩], tok)

/-- From inside the scope, its end is found. -/
theorem inside_end {rest : List Tok} {u : Tz} (h : InScope rest u) (tok0 : Token) : EndsBefore rest u tok0 := by
  obtain ⟨t, ty, L, ts, hu, hs, hd, ⟨rfl, rfl⟩ | ⟨hne, hty, ha, hb, hL, hz⟩⟩ := h
  · refine ⟨t, ty, tok0, 1, hs, hd, fun n hn => ?_⟩
    obtain ⟨n, rfl⟩ : ∃ k, n = k + 1 := ⟨n - 1, by omega⟩
    simp [hu, Tz.goToEndOfScope, Tz.sc]
  · obtain ⟨t', tok', g1, g2, _, g4⟩ := go_run hty rest [] ts t L tok0 hs hne hd ha hb hL hz
    refine ⟨t', ty, tok', ts.length + 1, g2, g4, fun n hn => ?_⟩
    rw [hu]
    exact g1 n (by omega)

theorem ends_goToEnd {rest : List Tok} {c : Ctx} (h : EndsBefore rest c.tz c.token) :
    ∃ t ty tok N, t.scopes = [] ∧ Delivers t rest ∧
      (∀ n, N ≤ n → c.goToEnd n = some { c with tz := t.sc [⟨ty, 0⟩], token := tok }) ∧
      (∀ n c', c.goToEnd n = some c' → c' = { c with tz := t.sc [⟨ty, 0⟩], token := tok }) := by
  obtain ⟨t, ty, tok, N, h1, h2, h3⟩ := h
  have h3 : ∀ n, N ≤ n → c.goToEnd n = some { c with tz := t.sc [⟨ty, 0⟩], token := tok } := by
    intro n hn
    simp only [Ctx.goToEnd, h3 n hn]
    simp [Tz.sc]
  refine ⟨t, ty, tok, N, h1, h2, h3, fun n c' hc => ?_⟩
  have := goToEnd_mono hc (Nat.le_max_left n N)
  rw [h3 _ (Nat.le_max_right n N)] at this
  simpa using this.symm

/-- InScope the scope, the tokens up to its end are delivered. -/
theorem delivers_inside {ty : Ty} (hty : ty = .arrayStart ∨ ty = .objectStart) (rest : List Tok) (ts : List Tok) :
    ∀ (t : Tz) (L : Nat), t.scopes = [] → Delivers t (ts ++ rest) → Above (kindLevel ty ty.closing) L ts →
      Below (kindLevel ty ty.closing) 65535 L ts → L ≤ 65535 → Delivers (t.sc [⟨ty, L⟩]) ts := by
  induction ts with
  | nil => intros; trivial
  | cons k ts ih =>
    intro t L hs hd ha hb hL
    obtain ⟨t1, tok1, h1, h2, h3⟩ := hd
    obtain ⟨ha1, ha2⟩ := ha
    obtain ⟨hb1, hb2⟩ := hb
    have hv : tok1.valueType = k.valueType := by rw [← h2]; rfl
    have h4 := fun next => nextToken_sc t [⟨ty, L⟩] next hs (by simp [Tz.sc, Tz.ended]; omega) (h1 next)
    refine ⟨t1.sc [⟨ty, kindLevel ty ty.closing L k.valueType⟩], tok1, fun next => ?_, h2, ih t1 _ (h4 {}).2 h3 ha2 hb2 hb1⟩
    rw [(h4 next).1, show handleScope [⟨ty, L⟩] tok1.valueType = [Scope.handleType ⟨ty, L⟩ tok1.valueType] from rfl, hv,
      handleType_level hty ha1 _ hb1 hL]

/-- What `pushScope` does when the current token is the first one of a value. -/
theorem inside_push {c : Ctx} {v : JVal} {n : Bytes} {nt : Ty} {rest : List Tok} (hs : c.tz.scopes = [])
    (hst : c.Stream (v.toks n nt ++ rest)) (hdepth : v.depth ≤ 65535) :
    InScope rest (c.tz.pushScope c.token.valueType) ∧
    { c with tz := c.tz.pushScope c.token.valueType }.Stream (v.toks n nt) := by
  obtain ⟨he, k, ks', hk, htok, hd⟩ := hst
  by_cases hc : v.isContainer = true
  · have key : ∃ a b ks ty, v.toks n nt = a :: (ks ++ [b]) ∧ (ty = Ty.arrayStart ∨ ty = .objectStart) ∧ a.valueType = ty ∧
        b.valueType = ty.closing ∧ Flat (kindLevel ty ty.closing) ks ∧ Below (kindLevel ty ty.closing) 65535 1 ks := by
      cases v with
      | arr vs =>
        refine ⟨_, _, elemToks vs, .arrayStart, rfl, .inl rfl, rfl, rfl, flat_elems arr_counts vs, below_elems arr_counts _ vs 1 (by omega) ?_⟩
        simp only [JVal.depth] at hdepth; omega
      | obj ms =>
        refine ⟨_, _, memberToks ms, .objectStart, rfl, .inr rfl, rfl, rfl, flat_members obj_counts ms, below_members obj_counts _ ms 1 (by omega) ?_⟩
        simp only [JVal.depth] at hdepth; omega
      | _ => simp [JVal.isContainer] at hc
    obtain ⟨a, b, ks, ty, hv, hty, ha, hb, hf, hbel⟩ := key
    rw [hv] at hk ⊢
    simp only [List.cons_append, List.cons.injEq] at hk
    obtain ⟨rfl, rfl⟩ := hk
    have hkk : kindLevel ty ty.closing 1 ty.closing = 0 := by rcases hty with rfl | rfl <;> rfl
    obtain ⟨h4, h5⟩ := inner_toks (b := b) (by rw [hb]; exact hkk) hf
    have h6 : Below (kindLevel ty ty.closing) 65535 1 (ks ++ [b]) := by
      refine below_append hbel ?_
      rw [(hf 1 (by omega)).2]
      exact ⟨by rw [hb, hkk]; omega, trivial⟩
    have hty' : c.token.valueType = ty := by rw [← ha, ← htok]; rfl
    have hp : c.tz.pushScope c.token.valueType = c.tz.sc [⟨ty, 1⟩] := by
      rw [hty']; simp only [Tz.pushScope, Tz.sc, hs]; rcases hty with rfl | rfl <;> rfl
    refine ⟨⟨c.tz, ty, 1, ks ++ [b], hp, hs, hd, .inr ⟨by simp, hty, h4, h6, by omega, h5⟩⟩, he, a, ks ++ [b], rfl, htok, ?_⟩
    rw [hp]
    exact delivers_inside hty rest (ks ++ [b]) c.tz 1 hs hd h4 h6 (by omega)
  · have key : v.toks n nt = [k] ∧ ks' = rest ∧ k.valueType ≠ .arrayStart ∧ k.valueType ≠ .objectStart := by
      cases v with
      | bool b => cases b <;> (simp only [JVal.toks, List.cons_append, List.nil_append, List.cons.injEq] at hk ⊢; obtain ⟨rfl, rfl⟩ := hk; simp)
      | arr | obj => simp [JVal.isContainer] at hc
      | _ => simp only [JVal.toks, List.cons_append, List.nil_append, List.cons.injEq] at hk ⊢; obtain ⟨rfl, rfl⟩ := hk; simp
    obtain ⟨h1, rfl, h2, h3⟩ := key
    have hty' : c.token.valueType = k.valueType := by rw [← htok]; rfl
    have hp : c.tz.pushScope c.token.valueType = c.tz.sc [⟨k.valueType, 0⟩] := by
      rw [hty']; simp [Tz.pushScope, Tz.sc, hs, h2, h3]
    exact ⟨⟨c.tz, k.valueType, 0, [], hp, hs, hd, .inl ⟨rfl, rfl⟩⟩, he, k, [], h1, htok, trivial⟩

end JsonStruct
