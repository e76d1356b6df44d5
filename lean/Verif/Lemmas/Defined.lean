import Verif.Spec.Defined
import Verif.Lemmas.Success
import Verif.Lemmas.Call

/- Reading is defined: handlers do not report `ub` where the texts of all tokens are in a set on which the type is defined. -/

namespace JsonStruct

/-- The tokenizer is in a state that calls lead to, nothing undefined has happened, and the texts of the token at hand and of all
that follow are in `P`. -/
structure Ctx.Fine (P : Bytes → Prop) (c : Ctx) : Prop where
  sane : c.Sane
  err : c.error ≠ .ub
  texts : ∀ n, P (c.tz.calls n c.token).2.value.bytes

variable {P : Bytes → Prop}

theorem Ctx.Fine.text {c : Ctx} (h : c.Fine P) : P c.token.value.bytes := h.texts 0

theorem Ctx.Fine.next {c : Ctx} (h : c.Fine P) : c.next.Fine P :=
  ⟨next_sane h.sane, (nextToken_ok c.tz c.token h.sane.1 h.sane.2).notub, fun n => h.texts (n + 1)⟩

theorem Ctx.Fine.setError {c : Ctx} (h : c.Fine P) {e : Err} (he : e ≠ .ub) : Ctx.Fine P { c with error := e } := ⟨h.sane, he, h.texts⟩

theorem Ctx.Fine.same {c c' : Ctx} (h : c.Fine P) (h1 : c'.tz = c.tz) (h2 : c'.token = c.token) (h3 : c'.error = c.error) : c'.Fine P :=
  ⟨⟨by rw [h1]; exact h.sane.1, by rw [h1]; exact h.sane.2⟩, by rw [h3]; exact h.err, by rw [h1, h2]; exact h.texts⟩

/-- A handler does nothing undefined. -/
def Mild (P : Bytes → Prop) (f : Nat → T → Ctx → Option (Err × T × Ctx)) : Prop :=
  ∀ n old c e x c', f n old c = some (e, x, c') → c.Fine P → c'.Fine P ∧ e ≠ .ub

def Handler.Mild (P : Bytes → Prop) (h : Handler T) : Prop := JsonStruct.Mild P h.to

theorem bool_mild : boolH.Mild P := by
  intro n old c e x c' h k
  simp only [boolH, boolTo, Option.some.injEq, Prod.mk.injEq] at h
  obtain ⟨rfl, _, rfl⟩ := h
  refine ⟨k, ?_⟩
  repeat' split
  all_goals simp

theorem intTo_sober (I : IntTy) (b : Bytes) : (intTo I b).1 ≠ .ub := by
  simp only [intTo]; split <;> simp

theorem int_mild (I : IntTy) : (intH I).Mild P := by
  intro n old c e x c' h k
  simp only [intH, Option.some.injEq, Prod.mk.injEq] at h
  obtain ⟨rfl, _, rfl⟩ := h
  exact ⟨k, intTo_sober _ _⟩

theorem double_mild (hp : ∀ s, P s → (doubleTo s).isSome) : doubleH.Mild P := by
  intro n old c e x c' h k
  simp only [doubleH, Option.some.injEq, Prod.mk.injEq] at h
  obtain ⟨rfl, _, rfl⟩ := h
  refine ⟨k, ?_⟩
  obtain ⟨r, hd⟩ := Option.isSome_iff_exists.mp (hp _ k.text)
  rw [hd]
  unfold doubleTo at hd
  simp only at hd
  repeat' split at hd
  all_goals first | contradiction | (cases hd; simp only [floatOut]; try split) <;> simp

theorem float_mild (hp : ∀ s, P s → (floatTo s).isSome) : floatH.Mild P := by
  intro n old c e x c' h k
  simp only [floatH, Option.some.injEq, Prod.mk.injEq] at h
  obtain ⟨rfl, _, rfl⟩ := h
  refine ⟨k, ?_⟩
  obtain ⟨r, hd⟩ := Option.isSome_iff_exists.mp (hp _ k.text)
  rw [hd]
  unfold floatTo at hd
  simp only at hd
  repeat' split at hd
  all_goals first | contradiction | (cases hd; simp only [floatOut]; try split) <;> simp

theorem time_mild (C : Clock) (hp : ∀ s, P s → ∀ old, (timeTo C old s).1 ≠ .ub) : (timeH C).Mild P := by
  intro n old c e x c' h k
  simp only [timeH, Option.some.injEq, Prod.mk.injEq] at h
  obtain ⟨rfl, _, rfl⟩ := h
  exact ⟨k, hp _ k.text _⟩

theorem string_mild (m : Simd) : (stringH m).Mild P := by
  intro n old c e x c' h k
  simp only [stringH, Option.some.injEq, Prod.mk.injEq] at h
  obtain ⟨rfl, _, rfl⟩ := h
  exact ⟨k, by simp⟩

theorem enum_mild (names : List Bytes) (U : IntTy) : (enumH names U).Mild P := by
  intro n old c e x c' h k
  simp only [enumH] at h
  split at h
  · split at h <;> (simp only [Option.some.injEq, Prod.mk.injEq] at h; obtain ⟨rfl, _, rfl⟩ := h; exact ⟨k, by simp⟩)
  · split at h
    · split at h <;> (simp only [Option.some.injEq, Prod.mk.injEq] at h; obtain ⟨rfl, _, rfl⟩ := h; exact ⟨k, by first | exact intTo_sober _ _ | simp⟩)
    · simp only [Option.some.injEq, Prod.mk.injEq] at h; obtain ⟨rfl, _, rfl⟩ := h; exact ⟨k, by simp⟩

theorem enumValue_mild (U : IntTy) : (enumValueH U).Mild P := by
  intro n old c e x c' h k
  simp only [enumValueH, Option.some.injEq, Prod.mk.injEq] at h
  obtain ⟨rfl, _, rfl⟩ := h
  exact ⟨k, intTo_sober _ _⟩

theorem nullable_mild {h : Handler T} (hh : h.Mild P) : (nullableH h).Mild P := by
  intro n old c e x c' g k
  simp only [nullableH] at g
  split at g
  · simp only [Option.some.injEq, Prod.mk.injEq] at g; obtain ⟨rfl, _, rfl⟩ := g; exact ⟨k, by simp⟩
  · exact hh _ _ _ _ _ _ g k

theorem map_mild {f : Nat → T → Ctx → Option (Err × T × Ctx)} (hf : Mild P f) {F : Err × T × Ctx → Err × S × Ctx}
    {n : Nat} {old : T} {c c' : Ctx} {e : Err} {x : S} (h : (f n old c).map F = some (e, x, c'))
    (hF : ∀ r, (F r).1 = r.1 ∧ (F r).2.2 = r.2.2) (k : c.Fine P) :
    c'.Fine P ∧ e ≠ .ub := by
  obtain ⟨⟨e1, x1, c1⟩, h, he⟩ := Option.map_eq_some_iff.mp h
  obtain ⟨h1, h2⟩ := hF (e1, x1, c1)
  rw [he] at h1 h2
  dsimp only at h1 h2
  subst h1 h2
  exact hf _ _ _ _ _ _ h k

theorem nullableChecked_mild {h : Handler T} (hh : h.Mild P) : (nullableCheckedH h).Mild P := by
  intro n old c e x c' g k
  simp only [nullableCheckedH] at g
  split at g
  · simp only [Option.some.injEq, Prod.mk.injEq] at g; obtain ⟨rfl, _, rfl⟩ := g; exact ⟨k, by simp⟩
  · exact map_mild hh g (fun _ => ⟨rfl, rfl⟩) k

theorem optionalChecked_mild {h : Handler T} (hh : h.Mild P) : (optionalCheckedH h).Mild P := by
  intro n old c e x c' g k; simp only [optionalCheckedH] at g; exact map_mild hh g (fun _ => ⟨rfl, rfl⟩) k

theorem stdOptional_mild {h : Handler T} (hh : h.Mild P) : (stdOptionalH h).Mild P := by
  intro n old c e x c' g k; simp only [stdOptionalH] at g; exact map_mild hh g (fun _ => ⟨rfl, rfl⟩) k

theorem ptr_mild {h : Handler T} (hh : h.Mild P) : (ptrH h).Mild P := by
  intro n old c e x c' g k
  simp only [ptrH] at g
  split at g
  · exact map_mild hh g (fun _ => ⟨rfl, rfl⟩) k
  · simp only [Option.some.injEq, Prod.mk.injEq] at g; obtain ⟨rfl, _, rfl⟩ := g; exact ⟨k, by simp⟩

theorem vecLoop_mild {h : Handler T} (hh : h.Mild P) (fuel n : Nat) : ∀ acc c e x c', vecLoop h fuel n acc c = some (e, x, c') →
    c.Fine P → c'.Fine P ∧ e ≠ .ub := by
  induction n with
  | zero => intro acc c e x c' g; simp [vecLoop] at g
  | succ n ih =>
    intro acc c e x c' g k
    simp only [vecLoop] at g
    split at g
    · simp only [Option.some.injEq, Prod.mk.injEq] at g; obtain ⟨rfl, _, rfl⟩ := g; exact ⟨k, by simp⟩
    · simp only [Option.bind_eq_bind, Option.bind_eq_some_iff, Prod.exists] at g
      obtain ⟨e1, x1, c1, g1, g⟩ := g
      obtain ⟨m1, k1⟩ := hh _ _ _ _ _ _ g1 k
      try dsimp only at g
      split at g
      · simp only [Option.some.injEq, Prod.mk.injEq] at g; obtain ⟨rfl, _, rfl⟩ := g; exact ⟨m1, k1⟩
      · split at g
        · simp only [Option.some.injEq, Prod.mk.injEq] at g; obtain ⟨rfl, _, rfl⟩ := g; exact ⟨m1.next, m1.next.err⟩
        · obtain ⟨m2, k2⟩ := ih _ _ _ _ _ g m1.next
          exact ⟨m2, k2⟩

theorem vec_mild {h : Handler T} (hh : h.Mild P) : (vecH h).Mild P := by
  intro n old c e x c' g k
  simp only [vecH] at g
  split at g
  · simp only [Option.some.injEq, Prod.mk.injEq] at g; obtain ⟨rfl, _, rfl⟩ := g; exact ⟨k, by simp⟩
  · split at g
    · simp only [Option.some.injEq, Prod.mk.injEq] at g; obtain ⟨rfl, _, rfl⟩ := g; exact ⟨k.next, k.next.err⟩
    · obtain ⟨m2, k2⟩ := vecLoop_mild hh _ _ _ _ _ _ _ g k.next
      exact ⟨m2, k2⟩

theorem oneOrMany_mild {h : Handler T} (hh : h.Mild P) : (oneOrManyH h).Mild P := by
  intro n old c e x c' g k
  simp only [oneOrManyH] at g
  split at g
  · simp only [Option.map_eq_some_iff, Prod.mk.injEq, Prod.exists] at g
    obtain ⟨_, _, _, g, rfl, _, rfl⟩ := g
    obtain ⟨m, k⟩ := vec_mild hh _ _ _ _ _ _ g k
    exact ⟨m.setError k, k⟩
  · simp only [Option.map_eq_some_iff, Prod.mk.injEq, Prod.exists] at g
    obtain ⟨_, _, _, g, rfl, _, rfl⟩ := g
    obtain ⟨m, k⟩ := hh _ _ _ _ _ _ g k
    exact ⟨m.setError k, k⟩

theorem arrLoop_mild {h : Handler T} (hh : h.Mild P) (fuel : Nat) (old : List T) : ∀ c r x c', arrLoop h fuel old c = some (r, x, c') →
    c.Fine P → c'.Fine P ∧ r ≠ some .ub := by
  induction old with
  | nil =>
    intro c r x c' g k
    simp only [arrLoop, Option.some.injEq, Prod.mk.injEq] at g; obtain ⟨rfl, _, rfl⟩ := g; exact ⟨k, by simp⟩
  | cons o os ih =>
    intro c r x c' g k
    simp only [arrLoop] at g
    split at g
    · simp only [Option.some.injEq, Prod.mk.injEq] at g; obtain ⟨rfl, _, rfl⟩ := g; exact ⟨k, by simpa using k.err⟩
    · simp only [Option.bind_eq_bind, Option.bind_eq_some_iff, Prod.exists] at g
      obtain ⟨e1, x1, c1, g1, g⟩ := g
      obtain ⟨m1, k1⟩ := hh _ _ _ _ _ _ g1 k
      try dsimp only at g
      split at g
      · simp only [Option.some.injEq, Prod.mk.injEq] at g; obtain ⟨rfl, _, rfl⟩ := g; exact ⟨m1.setError k1, by simpa using k1⟩
      · simp only [Option.bind_eq_some_iff, Prod.exists, Option.some.injEq, Prod.mk.injEq] at g
        obtain ⟨r2, x2, c2, g2, rfl, _, rfl⟩ := g
        obtain ⟨m2, k2⟩ := ih _ _ _ _ g2 (m1.setError k1).next
        exact ⟨m2, k2⟩

theorem arr_mild (N : Nat) {h : Handler T} (hh : h.Mild P) : (arrH N h).Mild P := by
  intro n old c e x c' g k
  simp only [arrH] at g
  split at g
  · simp only [Option.some.injEq, Prod.mk.injEq] at g; obtain ⟨rfl, _, rfl⟩ := g; exact ⟨k, by simp⟩
  · simp only [Option.bind_eq_bind, Option.bind_eq_some_iff, Prod.exists] at g
    obtain ⟨r1, x1, c1, g1, g⟩ := g
    obtain ⟨m1, k1⟩ := arrLoop_mild hh _ _ _ _ _ _ g1 k.next
    try dsimp only at g
    have m2 := m1
    cases r1 with
    | some r1 =>
      simp only [Option.some.injEq, Prod.mk.injEq] at g; obtain ⟨rfl, _, rfl⟩ := g
      exact ⟨m2, by simpa using k1⟩
    | none =>
      simp only at g
      split at g
      · simp only [Option.some.injEq, Prod.mk.injEq] at g; obtain ⟨rfl, _, rfl⟩ := g; exact ⟨m2, by simp⟩
      · simp only [Option.some.injEq, Prod.mk.injEq] at g; obtain ⟨rfl, _, rfl⟩ := g; exact ⟨m2, m2.err⟩

theorem avcLoop_mild {h : Handler T} (hh : h.Mild P) (fuel size : Nat) (old : List T) : ∀ i c r x s c', avcLoop h fuel size i old c = some (r, x, s, c') →
    c.Fine P → c'.Fine P ∧ r ≠ some .ub := by
  induction old with
  | nil =>
    intro i c r x s c' g k
    simp only [avcLoop, Option.some.injEq, Prod.mk.injEq] at g; obtain ⟨rfl, _, _, rfl⟩ := g; exact ⟨k, by simp⟩
  | cons o os ih =>
    intro i c r x s c' g k
    simp only [avcLoop] at g
    split at g
    · simp only [Option.some.injEq, Prod.mk.injEq] at g; obtain ⟨rfl, _, _, rfl⟩ := g; exact ⟨k, by simpa using k.err⟩
    · split at g
      · simp only [Option.some.injEq, Prod.mk.injEq] at g; obtain ⟨rfl, _, _, rfl⟩ := g; exact ⟨k, by simp⟩
      · simp only [Option.bind_eq_bind, Option.bind_eq_some_iff, Prod.exists] at g
        obtain ⟨e1, x1, c1, g1, g⟩ := g
        obtain ⟨m1, k1⟩ := hh _ _ _ _ _ _ g1 k
        try dsimp only at g
        split at g
        · simp only [Option.some.injEq, Prod.mk.injEq] at g; obtain ⟨rfl, _, _, rfl⟩ := g; exact ⟨m1.setError k1, by simpa using k1⟩
        · simp only [Option.bind_eq_some_iff, Prod.exists, Option.some.injEq, Prod.mk.injEq] at g
          obtain ⟨r2, x2, s2, c2, g2, rfl, _, _, rfl⟩ := g
          obtain ⟨m2, k2⟩ := ih _ _ _ _ _ _ g2 (m1.setError k1).next
          exact ⟨m2, k2⟩

theorem avc_mild (N : Nat) {h : Handler T} (hh : h.Mild P) : (avcH N h).Mild P := by
  intro n old c e x c' g k
  simp only [avcH] at g
  split at g
  · simp only [Option.some.injEq, Prod.mk.injEq] at g; obtain ⟨rfl, _, rfl⟩ := g; exact ⟨k, by simp⟩
  · simp only [Option.bind_eq_bind, Option.bind_eq_some_iff, Prod.exists] at g
    obtain ⟨r1, x1, s1, c1, g1, g⟩ := g
    obtain ⟨m1, k1⟩ := avcLoop_mild hh _ _ _ _ _ _ _ _ _ g1 k.next
    try dsimp only at g
    have m2 := m1
    cases r1 with
    | some r1 =>
      simp only [Option.some.injEq, Prod.mk.injEq] at g; obtain ⟨rfl, _, rfl⟩ := g
      exact ⟨m2, by simpa using k1⟩
    | none =>
      simp only at g
      split at g
      · simp only [Option.some.injEq, Prod.mk.injEq] at g; obtain ⟨rfl, _, rfl⟩ := g; exact ⟨m2, by simp⟩
      · simp only [Option.some.injEq, Prod.mk.injEq] at g; obtain ⟨rfl, _, rfl⟩ := g; exact ⟨m2, m2.err⟩

theorem tupNil_mild : Mild P TupleH.nil.to := by
  intro n old c e x c' g k
  simp only [TupleH.nil, Option.some.injEq, Prod.mk.injEq] at g; obtain ⟨rfl, _, rfl⟩ := g; exact ⟨k, by simp⟩

theorem tupCons_mild {h : Handler T} {t : TupleH Ts} (hh : h.Mild P) (ht : Mild P t.to) : Mild P (TupleH.cons h t).to := by
  intro n old c e x c' g k
  simp only [TupleH.cons, Option.bind_eq_bind, Option.bind_eq_some_iff, Prod.exists] at g
  obtain ⟨e1, x1, c1, g1, g⟩ := g
  obtain ⟨m1, k1⟩ := hh _ _ _ _ _ _ g1 k
  try dsimp only at g
  split at g
  · simp only [Option.some.injEq, Prod.mk.injEq] at g; obtain ⟨rfl, _, rfl⟩ := g; exact ⟨m1, k1⟩
  · split at g
    · simp only [Option.some.injEq, Prod.mk.injEq] at g; obtain ⟨rfl, _, rfl⟩ := g; exact ⟨m1.next, m1.next.err⟩
    · obtain ⟨m2, k2⟩ := map_mild ht g (fun _ => ⟨rfl, rfl⟩) m1.next
      exact ⟨m2, k2⟩

theorem tuple_mild {t : TupleH Ts} (ht : Mild P t.to) : (tupleH t).Mild P := by
  intro n old c e x c' g k
  simp only [tupleH] at g
  split at g
  · simp only [Option.some.injEq, Prod.mk.injEq] at g; obtain ⟨rfl, _, rfl⟩ := g; exact ⟨k, by simp⟩
  · split at g
    · simp only [Option.some.injEq, Prod.mk.injEq] at g; obtain ⟨rfl, _, rfl⟩ := g; exact ⟨k.next, k.next.err⟩
    · simp only [Option.bind_eq_bind, Option.bind_eq_some_iff, Prod.exists] at g
      obtain ⟨e1, x1, c1, g1, g⟩ := g
      obtain ⟨m1, k1⟩ := ht _ _ _ _ _ _ g1 k.next
      have m2 := m1
      try dsimp only at g
      split at g
      · simp only [Option.some.injEq, Prod.mk.injEq] at g; obtain ⟨rfl, _, rfl⟩ := g; exact ⟨m2, k1⟩
      · split at g <;> (simp only [Option.some.injEq, Prod.mk.injEq] at g; obtain ⟨rfl, _, rfl⟩ := g; exact ⟨m2, by simp⟩)

theorem setLoop_mild [DecidableEq T] (ins : List T → T → List T) {h : Handler T} (hh : h.Mild P) (fuel n : Nat) : ∀ acc c e x c',
    setLoop ins h fuel n acc c = some (e, x, c') → c.Fine P → c'.Fine P ∧ e ≠ .ub := by
  induction n with
  | zero => intro acc c e x c' g; simp [setLoop] at g
  | succ n ih =>
    intro acc c e x c' g k
    simp only [setLoop] at g
    split at g
    · simp only [Option.some.injEq, Prod.mk.injEq] at g; obtain ⟨rfl, _, rfl⟩ := g; exact ⟨k, by simp⟩
    · simp only [Option.bind_eq_bind, Option.bind_eq_some_iff, Prod.exists] at g
      obtain ⟨e1, x1, c1, g1, g⟩ := g
      obtain ⟨m1, k1⟩ := hh _ _ _ _ _ _ g1 k
      try dsimp only at g
      split at g
      · simp only [Option.some.injEq, Prod.mk.injEq] at g; obtain ⟨rfl, _, rfl⟩ := g; exact ⟨m1, k1⟩
      · split at g
        · simp only [Option.some.injEq, Prod.mk.injEq] at g; obtain ⟨rfl, _, rfl⟩ := g; exact ⟨m1, by simp⟩
        · split at g
          · simp only [Option.some.injEq, Prod.mk.injEq] at g; obtain ⟨rfl, _, rfl⟩ := g; exact ⟨m1.next, m1.next.err⟩
          · obtain ⟨m2, k2⟩ := ih _ _ _ _ _ g m1.next
            exact ⟨m2, k2⟩

theorem set_mild [DecidableEq T] (ins : List T → T → List T) {h : Handler T} (hh : h.Mild P) : (setH ins h).Mild P := by
  intro n old c e x c' g k
  simp only [setH] at g
  split at g
  · simp only [Option.some.injEq, Prod.mk.injEq] at g; obtain ⟨rfl, _, rfl⟩ := g; exact ⟨k, by simp⟩
  · split at g
    · simp only [Option.some.injEq, Prod.mk.injEq] at g; obtain ⟨rfl, _, rfl⟩ := g; exact ⟨k.next, k.next.err⟩
    · obtain ⟨m2, k2⟩ := setLoop_mild ins hh _ _ _ _ _ _ _ g k.next
      exact ⟨m2, k2⟩

theorem mapLoop_mild (ins : List (Bytes × V) → Bytes × V → List (Bytes × V)) {h : Handler V} (hh : h.Mild P) (fuel n : Nat) : ∀ e0 acc c e x c',
    mapLoop ins h fuel n e0 acc c = some (e, x, c') → c.Fine P → e0 ≠ .ub → c'.Fine P ∧ e ≠ .ub := by
  induction n with
  | zero => intro e0 acc c e x c' g; simp [mapLoop] at g
  | succ n ih =>
    intro e0 acc c e x c' g k k0
    simp only [mapLoop] at g
    split at g
    · simp only [Option.some.injEq, Prod.mk.injEq] at g; obtain ⟨rfl, _, rfl⟩ := g; exact ⟨k, k0⟩
    · simp only [Option.bind_eq_bind, Option.bind_eq_some_iff, Prod.exists] at g
      obtain ⟨e1, x1, c1, g1, g⟩ := g
      obtain ⟨m1, k1⟩ := hh _ _ _ _ _ _ g1 k
      try dsimp only at g
      split at g
      · simp only [Option.some.injEq, Prod.mk.injEq] at g; obtain ⟨rfl, _, rfl⟩ := g; exact ⟨m1, k1⟩
      · obtain ⟨m2, k2⟩ := ih _ _ _ _ _ _ g m1.next m1.next.err
        exact ⟨m2, k2⟩

theorem map_handler_mild (ins : List (Bytes × V) → Bytes × V → List (Bytes × V)) {h : Handler V} (hh : h.Mild P) : (mapH ins h).Mild P := by
  intro n old c e x c' g k
  simp only [mapH] at g
  split at g
  · simp only [Option.some.injEq, Prod.mk.injEq] at g; obtain ⟨rfl, _, rfl⟩ := g; exact ⟨k, by simp⟩
  · split at g
    · simp only [Option.some.injEq, Prod.mk.injEq] at g; obtain ⟨rfl, _, rfl⟩ := g; exact ⟨k.next, k.next.err⟩
    · obtain ⟨m2, k2⟩ := mapLoop_mild ins hh _ _ _ _ _ _ _ _ g k.next (by simp)
      exact ⟨m2, k2⟩

theorem tokensLoop_mild (n : Nat) : ∀ L acc c e x c', tokensLoop n L acc c = some (e, x, c') → c.Fine P → c'.Fine P ∧ e ≠ .ub := by
  induction n with
  | zero => intro L acc c e x c' g; simp [tokensLoop] at g
  | succ n ih =>
    intro L acc c e x c' g k
    simp only [tokensLoop] at g
    split at g
    · simp only [Option.some.injEq, Prod.mk.injEq] at g; obtain ⟨rfl, _, rfl⟩ := g; exact ⟨k, by simp⟩
    · split at g
      · simp only [Option.some.injEq, Prod.mk.injEq] at g; obtain ⟨rfl, _, rfl⟩ := g; exact ⟨k.next, k.next.err⟩
      · obtain ⟨m2, k2⟩ := ih _ _ _ _ _ _ g k.next
        exact ⟨m2, k2⟩

theorem tokens_mild : tokensH.Mild P := by
  intro n old c e x c' g k
  simp only [tokensH] at g
  split at g
  · simp only [Option.some.injEq, Prod.mk.injEq] at g; obtain ⟨rfl, _, rfl⟩ := g; exact ⟨k, k.err⟩
  · exact tokensLoop_mild _ _ _ _ _ _ _ g k

theorem skipLoop_fine (a b : Ty) (n : Nat) : ∀ L c c', skipLoop a b n L c = some c' → c.Fine P → c'.Fine P := by
  induction n with
  | zero => intro L c c' g; simp [skipLoop] at g
  | succ n ih =>
    intro L c c' g k
    simp only [skipLoop] at g
    split at g
    · simp only [Option.some.injEq] at g; subst g; exact k
    · split at g
      · simp only [Option.some.injEq] at g; subst g; exact k.next
      · exact ih _ _ _ g k.next

theorem skip_fine {n : Nat} {c c' : Ctx} (h : skipArrayOrObject n c = some c') (k : c.Fine P) : c'.Fine P := by
  unfold skipArrayOrObject at h
  split at h
  · exact skipLoop_fine _ _ _ _ _ _ h k
  · split at h
    · exact skipLoop_fine _ _ _ _ _ _ h k
    · simp only [Option.some.injEq] at h; subst h; exact k

/-! ### Structs -/

mutual
/-- No member of a struct and its super classes does anything undefined. -/
def Meta.Mild (P : Bytes → Prop) : Meta T → Prop
  | .mk ms ss => (∀ m ∈ ms, JsonStruct.Mild P m.to) ∧ supersMild P ss
def supersMild (P : Bytes → Prop) : List (Bytes × Meta T) → Prop
  | [] => True
  | (_, m) :: ss => m.Mild P ∧ supersMild P ss
end

theorem member_up_mild (get : T → S) (set : S → T → T) {m : Member S} (h : Mild P m.to) : Mild P (m.up get set).to := by
  intro n old c e x c' g k
  simp only [Member.up] at g
  exact map_mild h g (fun _ => ⟨rfl, rfl⟩) k

mutual
theorem up_mild (get : T → S) (set : S → T → T) (M : Meta S) (h : M.Mild P) : (M.up get set).Mild P := by
  match M, h with
  | .mk ms ss, h =>
    refine ⟨?_, supersUp_mild get set ss h.2⟩
    intro m hm
    obtain ⟨m', hm', rfl⟩ := List.mem_map.mp hm
    exact member_up_mild get set (h.1 m' hm')
theorem supersUp_mild (get : T → S) (set : S → T → T) (ss : List (Bytes × Meta S)) (h : supersMild P ss) : supersMild P (supersUp get set ss) := by
  match ss, h with
  | [], _ => trivial
  | (_, m) :: ss, h => exact ⟨up_mild get set m h.1, supersUp_mild get set ss h.2⟩
end

theorem matched_sober {e : Err} (h : e ≠ .ub) : matchedMemberResult e ≠ .ub := by
  unfold matchedMemberResult; split
  · simp
  · exact h

theorem unpackRev_mild (page : Nat) (primary : Bool) (fuel : Nat) (ms : List (Member T)) (h : ∀ m ∈ ms, Mild P m.to) :
    ∀ old c as e x c' as', unpackRev page primary fuel old c as ms = some (e, x, c', as') → c.Fine P →
      c'.Fine P ∧ e ≠ .ub := by
  induction ms with
  | nil =>
    intro old c as e x c' as' g k
    simp only [unpackRev, Option.some.injEq, Prod.mk.injEq] at g; obtain ⟨rfl, _, rfl, _⟩ := g; exact ⟨k, by simp⟩
  | cons m ms ih =>
    intro old c as e x c' as' g k
    simp only [unpackRev, Option.bind_eq_bind, Option.bind_eq_some_iff, Prod.exists] at g
    obtain ⟨e1, x1, c1, as1, g1, g⟩ := g
    have hm : c1.Fine P ∧ e1 ≠ .ub := by
      unfold unpackMember at g1
      split at g1
      · simp only [Option.map_eq_some_iff, Prod.mk.injEq, Prod.exists] at g1
        obtain ⟨_, _, _, g1, rfl, _, rfl, _⟩ := g1
        obtain ⟨m1, k1⟩ := h m (List.mem_cons_self ..) _ _ _ _ _ _ g1 k
        exact ⟨m1, matched_sober k1⟩
      · simp only [Option.some.injEq, Prod.mk.injEq] at g1; obtain ⟨rfl, _, rfl, _⟩ := g1; exact ⟨k, by simp⟩
    try dsimp only at g
    split at g
    · simp only [Option.some.injEq, Prod.mk.injEq] at g; obtain ⟨rfl, _, rfl, _⟩ := g; exact hm
    · obtain ⟨m2, k2⟩ := ih (fun m hm => h m (List.mem_cons_of_mem _ hm)) _ _ _ _ _ _ _ g hm.1
      exact ⟨m2, k2⟩

mutual
theorem unpack_mild (page : Nat) (primary : Bool) (fuel : Nat) (M : Meta T) (h : M.Mild P) :
    ∀ old c as e x c' as', M.unpack page primary fuel old c as = some (e, x, c', as') → c.Fine P →
      c'.Fine P ∧ e ≠ .ub := by
  intro old c as e x c' as' g k
  match M, h with
  | .mk ms ss, h =>
    simp only [Meta.unpack, Option.bind_eq_bind, Option.bind_eq_some_iff, Prod.exists] at g
    obtain ⟨e1, x1, c1, as1, g1, g⟩ := g
    obtain ⟨m1, k1⟩ := unpackRev_mild page primary fuel ms.reverse (fun m hm => h.1 m (List.mem_reverse.mp hm)) _ _ _ _ _ _ _ g1 k
    try dsimp only at g
    split at g
    · simp only [Option.some.injEq, Prod.mk.injEq] at g; obtain ⟨rfl, _, rfl, _⟩ := g; exact ⟨m1, k1⟩
    · obtain ⟨m2, k2⟩ := unpackSupers_mild _ primary fuel ss h.2 _ _ _ _ _ _ _ g m1
      exact ⟨m2, k2⟩
theorem unpackSupers_mild (page : Nat) (primary : Bool) (fuel : Nat) (ss : List (Bytes × Meta T)) (h : supersMild P ss) :
    ∀ old c as e x c' as', unpackSupers page primary fuel old c as ss = some (e, x, c', as') → c.Fine P →
      c'.Fine P ∧ e ≠ .ub := by
  intro old c as e x c' as' g k
  match ss, h with
  | [], _ =>
    simp only [unpackSupers, Option.some.injEq, Prod.mk.injEq] at g; obtain ⟨rfl, _, rfl, _⟩ := g; exact ⟨k, by simp⟩
  | (_, m) :: ss, h =>
    simp only [unpackSupers, Option.bind_eq_bind, Option.bind_eq_some_iff, Prod.exists] at g
    obtain ⟨e1, x1, c1, as1, g1, g⟩ := g
    obtain ⟨m1, k1⟩ := unpack_mild page primary fuel m h.1 _ _ _ _ _ _ _ g1 k
    try dsimp only at g
    split at g
    · simp only [Option.some.injEq, Prod.mk.injEq] at g; obtain ⟨rfl, _, rfl, _⟩ := g; exact ⟨m1, k1⟩
    · obtain ⟨m2, k2⟩ := unpackSupers_mild _ primary fuel ss h.2 _ _ _ _ _ _ _ g m1
      exact ⟨m2, k2⟩
end

theorem find_mild (M : Meta T) (h : M.Mild P) (fuel : Nat) :
    ∀ old c as e x c' as', M.find fuel old c as = some (e, x, c', as') → c.Fine P →
      c'.Fine P ∧ e ≠ .ub := by
  intro old c as e x c' as' g k
  simp only [Meta.find, Option.bind_eq_bind, Option.bind_eq_some_iff, Prod.exists] at g
  obtain ⟨e1, x1, c1, as1, g1, g⟩ := g
  obtain ⟨m1, k1⟩ := unpack_mild _ _ _ M h _ _ _ _ _ _ _ g1 k
  try dsimp only at g
  split at g
  · obtain ⟨m2, k2⟩ := unpack_mild _ _ _ M h _ _ _ _ _ _ _ g m1
    exact ⟨m2, k2⟩
  · simp only [Option.some.injEq, Prod.mk.injEq] at g; obtain ⟨rfl, _, rfl, _⟩ := g; exact ⟨m1, k1⟩

theorem unknown_mild {c c' : Ctx} {fuel : Nat} {name : Bytes} {r : Option Err} (g : c.unknown fuel name = some (r, c'))
    (k : c.Fine P) : c'.Fine P ∧ r ≠ some .ub := by
  have h0 : Ctx.Fine P (if c.track = true then { c with missing := c.missing ++ [name] } else c) := by
    split
    · exact k.same rfl rfl rfl
    · exact k
  simp only [Ctx.unknown] at g
  generalize (if c.track = true then { c with missing := c.missing ++ [name] } else c) = c0 at h0 g
  split at g
  · simp only [Option.bind_eq_bind, Option.bind_eq_some_iff, Option.some.injEq, Prod.mk.injEq] at g
    obtain ⟨c1, g1, rfl, rfl⟩ := g
    have m := skip_fine g1 h0
    refine ⟨m, ?_⟩
    split
    · simpa using m.err
    · simp
  · simp only [Option.some.injEq, Prod.mk.injEq] at g; obtain ⟨rfl, rfl⟩ := g; exact ⟨h0, by simp⟩

theorem structLoop_mild (M : Meta T) (h : M.Mild P) (fuel n : Nat) :
    ∀ old c as r x c' as', structLoop M fuel n old c as = some (r, x, c', as') → c.Fine P →
      c'.Fine P ∧ r ≠ some .ub := by
  induction n with
  | zero => intro old c as r x c' as' g; simp [structLoop] at g
  | succ n ih =>
    intro old c as r x c' as' g k
    simp only [structLoop] at g
    split at g
    · simp only [Option.some.injEq, Prod.mk.injEq] at g; obtain ⟨rfl, _, rfl, _⟩ := g; exact ⟨k, by simp⟩
    · simp only [Option.bind_eq_bind, Option.bind_eq_some_iff, Prod.exists] at g
      obtain ⟨e1, x1, c1, as1, g1, g⟩ := g
      obtain ⟨m1, k1⟩ := find_mild M h fuel _ _ _ _ _ _ _ g1 k
      obtain ⟨r2, c2, g2, g⟩ : ∃ r2 c2, (if e1 = .missingPropertyMember then c1.unknown fuel c.token.name.bytes
          else some (if e1 ≠ .noError then some e1 else none, c1)) = some (r2, c2) ∧
          (match r2 with
          | some e => some (some e, x1, c2, as1)
          | none => if c2.next.error ≠ .noError then some (some c2.next.error, x1, c2.next, as1)
            else structLoop M fuel n x1 c2.next as1) = some (r, x, c', as') := by
        by_cases he : e1 = .missingPropertyMember
        · simp only [he, if_true, Option.bind_eq_some_iff, Prod.exists] at g ⊢
          exact g
        · simp only [he, if_false] at g ⊢
          exact ⟨_, _, rfl, g⟩
      have h2 : c2.Fine P ∧ r2 ≠ some .ub := by
        split at g2
        · obtain ⟨m2, k2⟩ := unknown_mild g2 m1
          exact ⟨m2, k2⟩
        · simp only [Option.some.injEq, Prod.mk.injEq] at g2; obtain ⟨rfl, rfl⟩ := g2
          refine ⟨m1, ?_⟩
          split
          · simpa using k1
          · simp
      try dsimp only at g
      cases r2 with
      | some e => simp only [Option.some.injEq, Prod.mk.injEq] at g; obtain ⟨rfl, _, rfl, _⟩ := g; exact h2
      | none =>
        simp only at g
        split at g
        · simp only [Option.some.injEq, Prod.mk.injEq] at g; obtain ⟨rfl, _, rfl, _⟩ := g
          exact ⟨h2.1.next, by simpa using h2.1.next.err⟩
        · obtain ⟨m3, k3⟩ := ih _ _ _ _ _ _ _ g h2.1.next
          exact ⟨m3, k3⟩

theorem verifyBoth_sober {a b : Err × List Bytes} (ha : a.1 ≠ .ub) (hb : b.1 ≠ .ub) : (verifyBoth a b).1 ≠ .ub := by
  unfold verifyBoth; dsimp only; split <;> assumption

theorem verifyMember_sober (m : Member T) (i : Nat) (as : List Bool) (t : Bool) (sn : Bytes) : (verifyMember m i as t sn).1 ≠ .ub := by
  unfold verifyMember
  split
  · simp
  · split <;> simp

theorem verifyRev_sober (page : Nat) (as : List Bool) (t : Bool) (sn : Bytes) (ms : List (Member T)) :
    (verifyRev page as t sn ms).1 ≠ .ub := by
  induction ms with
  | nil => simp [verifyRev]
  | cons m ms ih => exact verifyBoth_sober (verifyMember_sober _ _ _ _ _) ih

mutual
theorem verify_sober (page : Nat) (as : List Bool) (t : Bool) (sn : Bytes) (M : Meta T) : (M.verify page as t sn).1 ≠ .ub := by
  match M with
  | .mk ms ss => simp only [Meta.verify]; exact verifyBoth_sober (verifyRev_sober _ _ _ _ _) (verifySupers_sober _ as t ss)
theorem verifySupers_sober (page : Nat) (as : List Bool) (t : Bool) (ss : List (Bytes × Meta T)) :
    (verifySupers page as t ss).1 ≠ .ub := by
  match ss with
  | [] => simp [verifySupers]
  | (n, m) :: ss => simp only [verifySupers]; exact verifyBoth_sober (verify_sober _ as t n m) (verifySupers_sober _ as t ss)
end

theorem struct_mild {M : Meta T} (h : M.Mild P) (init : T) : (structH init M).Mild P := by
  intro n old c e x c' g k
  simp only [structH, structTo] at g
  split at g
  · simp only [Option.some.injEq, Prod.mk.injEq] at g; obtain ⟨rfl, _, rfl⟩ := g; exact ⟨k, by simp⟩
  · have m0 : Ctx.Fine P { c with tz := (c.tz.nextToken c.token).2.1, token := (c.tz.nextToken c.token).2.2 } :=
      ⟨k.next.sane, k.err, k.next.texts⟩
    split at g
    · simp only [Option.some.injEq, Prod.mk.injEq] at g; obtain ⟨rfl, _, rfl⟩ := g
      exact ⟨m0, k.next.err⟩
    · simp only [Option.bind_eq_bind, Option.bind_eq_some_iff, Prod.exists] at g
      obtain ⟨r1, x1, c1, as1, g1, g⟩ := g
      obtain ⟨m1, k1⟩ := structLoop_mild M h _ _ _ _ _ _ _ _ _ g1 m0
      have m2 := m1
      try dsimp only at g
      cases r1 with
      | some e => simp only [Option.some.injEq, Prod.mk.injEq] at g; obtain ⟨rfl, _, rfl⟩ := g; exact ⟨m2, by simpa using k1⟩
      | none =>
        simp only at g
        split at g
        · simp only [Option.some.injEq, Prod.mk.injEq] at g; obtain ⟨rfl, _, rfl⟩ := g
          constructor
          · split
            · exact m2.same rfl rfl rfl
            · exact m2
          · have := verify_sober 0 as1 c1.track [] M
            have h0 : Err.noError ≠ .ub := by simp
            repeat' split
            all_goals assumption
        · simp only [Option.some.injEq, Prod.mk.injEq] at g; obtain ⟨rfl, _, rfl⟩ := g
          exact ⟨m2, verify_sober _ _ _ _ _⟩

mutual
theorem CType.mild : {T : Type} → (t : CType T) → t.DefinedOn P → t.handler.Mild P
  | _, .bool, _ => bool_mild
  | _, .int I, _ => int_mild I
  | _, .double, h => double_mild (by simpa only [CType.DefinedOn] using h)
  | _, .float, h => float_mild (by simpa only [CType.DefinedOn] using h)
  | _, .time C, h => time_mild C (by simpa only [CType.DefinedOn] using h)
  | _, .string m, _ => string_mild m
  | _, .enum names U, _ => enum_mild names U
  | _, .enumValue U, _ => enumValue_mild U
  | _, .nullable t, h => nullable_mild (t.mild (by simpa only [CType.DefinedOn] using h))
  | _, .nullableChecked t, h => nullableChecked_mild (t.mild (by simpa only [CType.DefinedOn] using h))
  | _, .optional t, h => t.mild (by simpa only [CType.DefinedOn] using h)
  | _, .optionalChecked t, h => optionalChecked_mild (t.mild (by simpa only [CType.DefinedOn] using h))
  | _, .stdOptional t, h => stdOptional_mild (t.mild (by simpa only [CType.DefinedOn] using h))
  | _, .sharedPtr t, h => ptr_mild (t.mild (by simpa only [CType.DefinedOn] using h))
  | _, .uniquePtr t, h => ptr_mild (t.mild (by simpa only [CType.DefinedOn] using h))
  | _, .silentString m, _ => string_mild m
  | _, .silentVector t, h => vec_mild (t.mild (by simpa only [CType.DefinedOn] using h))
  | _, .silentUniquePtr t, h => ptr_mild (t.mild (by simpa only [CType.DefinedOn] using h))
  | _, .vector t, h => vec_mild (t.mild (by simpa only [CType.DefinedOn] using h))
  | _, .oneOrMany t, h => oneOrMany_mild (t.mild (by simpa only [CType.DefinedOn] using h))
  | _, .array N t, h => arr_mild N (t.mild (by simpa only [CType.DefinedOn] using h))
  | _, .arrayVariable count t, h => avc_mild count (t.mild (by simpa only [CType.DefinedOn] using h))
  | _, .tuple ts, h => tuple_mild (ts.mild (by simpa only [CType.DefinedOn] using h))
  | _, .set _ ins t, h => set_mild ins (t.mild (by simpa only [CType.DefinedOn] using h))
  | _, .map ins t, h => map_handler_mild ins (t.mild (by simpa only [CType.DefinedOn] using h))
  | _, .tokens, _ => tokens_mild
  | _, .jmap, h => by simp only [CType.DefinedOn] at h
  | _, .struct init s, h => struct_mild (s.mild (by simpa only [CType.DefinedOn] using h)) init
theorem CTypes.mild : {Ts : Type} → (ts : CTypes Ts) → ts.DefinedOn P → Mild P ts.handler.to
  | _, .nil, _ => tupNil_mild
  | _, .cons t ts, h => by simp only [CTypes.DefinedOn] at h; exact tupCons_mild (t.mild h.1) (ts.mild h.2)
theorem CStruct.mild : {T : Type} → (s : CStruct T) → s.DefinedOn P → s.meta.Mild P
  | _, .mk ms ss, h => by simp only [CStruct.DefinedOn] at h; exact ⟨ms.mild h.1, ss.mild h.2⟩
theorem CMembers.mild : {T : Type} → (ms : CMembers T) → ms.DefinedOn P → ∀ m ∈ ms.members, Mild P m.to
  | _, .nil, _ => by simp [CMembers.members]
  | _, .cons names t get set ms, h => by
    simp only [CMembers.DefinedOn] at h
    simp only [CMembers.members, List.mem_cons]
    rintro m (rfl | hm)
    · intro n old c e x c' g k
      exact map_mild (t.mild h.1) g (fun _ => ⟨rfl, rfl⟩) k
    · exact ms.mild h.2 m hm
theorem CSupers.mild : {T : Type} → (ss : CSupers T) → ss.DefinedOn P → supersMild P ss.supers
  | _, .nil, _ => trivial
  | _, .cons name get set s ss, h => by simp only [CSupers.DefinedOn] at h; exact ⟨up_mild get set _ (s.mild h.1), ss.mild h.2⟩
end

/-! ### Maps -/

/-- The number of open brackets behind the tokens; `none` if one is closed that was not opened. -/
def openCount : Nat → List Tok → Option Nat
  | d, [] => some d
  | d, k :: ks =>
    if k.valueType = .arrayEnd ∨ k.valueType = .objectEnd then (match d with | 0 => none | d + 1 => openCount d ks)
    else if k.valueType = .arrayStart ∨ k.valueType = .objectStart then openCount (d + 1) ks
    else openCount d ks

theorem metaLoop_open (i : Nat) (ks : List Tok) (m : List JMeta) (parent : List Nat) :
    (metaLoop i ks m parent).isSome = (openCount parent.length ks).isSome := by
  induction ks generalizing i m parent with
  | nil => rfl
  | cons k ks ih =>
    simp only [metaLoop, openCount]
    split
    · cases parent with
      | nil => rfl
      | cons x parent => exact ih _ _ _
    · split
      · rw [ih]; rfl
      · exact ih _ _ _

theorem meta_open (ks : List Tok) : (metaForTokens ks).isSome = (openCount 0 ks).isSome := metaLoop_open _ _ _ _

theorem openCount_snoc (d : Nat) (ks : List Tok) (k : Tok) :
    openCount d (ks ++ [k]) = (openCount d ks).bind fun d => openCount d [k] := by
  induction ks generalizing d with
  | nil => rfl
  | cons x ks ih =>
    simp only [List.cons_append, openCount]
    split
    · cases d with
      | zero => rfl
      | succ d => exact ih _
    · split <;> exact ih _

theorem tokensLoop_open (n : Nat) (level : Nat) (acc : List Tok) (c : Ctx) (e : Err) (x : List Tok) (c' : Ctx)
    (h : tokensLoop n level acc c = some (e, x, c')) (k : c.Fine P) (ho : openCount 0 acc = some level) :
    e ≠ .ub ∧ (metaForTokens x).isSome := by
  induction n generalizing level acc c with
  | zero => cases h
  | succ n ih =>
    rw [tokensLoop] at h
    split at h
    · cases h
      exact ⟨by simp, by rw [meta_open, ho]; rfl⟩
    · rename_i hl
      obtain ⟨l, rfl⟩ := Nat.exists_eq_succ_of_ne_zero hl
      have ho' : openCount 0 (acc ++ [c.next.token.tok]) = some (if c.next.token.valueType = .arrayStart ∨ c.next.token.valueType = .objectStart then l + 1 + 1
          else if c.next.token.valueType = .arrayEnd ∨ c.next.token.valueType = .objectEnd then l + 1 - 1 else l + 1) := by
        rw [openCount_snoc, ho]
        simp only [Option.bind_some, openCount, show c.next.token.tok.valueType = c.next.token.valueType from rfl]
        split
        · rename_i h1
          rw [if_neg (by rcases h1 with h1 | h1 <;> rw [h1] <;> decide)]
          rfl
        · split <;> rfl
      simp only at h
      split at h
      · cases h
        exact ⟨k.next.err, by rw [meta_open, ho']; rfl⟩
      · exact ih _ _ _ h k.next ho'

end JsonStruct
