import Verif.Spec.Success
import Verif.Lemmas.Struct
import Verif.Lemmas.Inv

/- Handlers end, and swallow no errors of the tokenizer. -/

namespace JsonStruct

/-- The tokenizer of the context reads bytes and is in a state that calls lead to. -/
def Ctx.Sane (c : Ctx) : Prop := c.tz.Ok ∧ c.tz.parsed = none

/-- Bytes still to come. -/
def Ctx.left (c : Ctx) : Nat := c.tz.avail + c.tz.pend

theorem Accepted.trans {t t' t'' : Tz} {k k' k'' : Token} (h : Accepted t k t' k') (g : Accepted t' k' t'' k'') : Accepted t k t'' k'' := by
  induction h with
  | refl => exact g
  | call h _ ih => exact .call h (ih g)

/-- From `c` to `c'` by calls without an error. -/
def Ctx.Acc (c c' : Ctx) : Prop := Accepted c.tz c.token c'.tz c'.token

theorem Ctx.Acc.refl (c : Ctx) : c.Acc c := Accepted.refl

theorem Ctx.Acc.trans {a b c : Ctx} (h : a.Acc b) (g : b.Acc c) : a.Acc c := Accepted.trans h g

theorem accepted_keeps {t t' : Tz} {k k' : Token} (h : Accepted t k t' k') (ho : t.Ok) (hp : t.parsed = none) :
    t'.Ok ∧ t'.parsed = none ∧ t'.avail + t'.pend ≤ t.avail + t.pend := by
  induction h with
  | refl => exact ⟨ho, hp, Nat.le_refl _⟩
  | @call t t' t'' k k' k'' h _ ih =>
    have hn := nextToken_ok t k ho hp
    rw [h] at hn
    obtain ⟨a, b, d⟩ := ih hn.inv hn.parsed
    exact ⟨a, b, Nat.le_trans d hn.noIncrease⟩

theorem Ctx.Acc.sane {c c' : Ctx} (h : c.Acc c') (hs : c.Sane) : c'.Sane :=
  let r := accepted_keeps h hs.1 hs.2; ⟨r.1, r.2.1⟩

theorem Ctx.Acc.left {c c' : Ctx} (h : c.Acc c') (hs : c.Sane) : c'.left ≤ c.left :=
  (accepted_keeps h hs.1 hs.2).2.2

theorem next_sane {c : Ctx} (hs : c.Sane) : c.next.Sane :=
  let h := nextToken_ok c.tz c.token hs.1 hs.2; ⟨h.inv, h.parsed⟩

theorem next_acc {c : Ctx} (he : c.next.error = .noError) : c.Acc c.next :=
  .call (t' := c.next.tz) (k' := c.next.token) (by rw [← he]; rfl) .refl

theorem next_left {c : Ctx} (hs : c.Sane) (he : c.next.error = .noError) : c.next.left < c.left :=
  (nextToken_ok c.tz c.token hs.1 hs.2).progress he

/-- Reading ends, with the same result whatever larger bound is put on the loops; success means that all tokens were
accepted. -/
def Handler.Sound (f : Nat → T → Ctx → Option (Err × T × Ctx)) : Prop :=
  ∀ old c, c.Sane → ∃ r, (∀ n, c.left < n → f n old c = some r) ∧ (r.1 = .noError → c.Acc r.2.2)

theorem sound_now {f : Nat → T → Ctx → Option (Err × T × Ctx)} (h : ∀ old c, ∃ e v, ∀ n, f n old c = some (e, v, c)) : Handler.Sound f := by
  intro old c _
  obtain ⟨e, v, h⟩ := h old c
  exact ⟨_, fun n _ => h n, fun _ => .refl c⟩

theorem bool_sound : Handler.Sound boolH.to := sound_now fun _ _ => ⟨_, _, fun _ => rfl⟩

theorem int_sound (I : IntTy) : Handler.Sound (intH I).to := sound_now fun _ _ => ⟨_, _, fun _ => rfl⟩

theorem double_sound : Handler.Sound doubleH.to := sound_now fun _ _ => ⟨_, _, fun _ => rfl⟩

theorem float_sound : Handler.Sound floatH.to := sound_now fun _ _ => ⟨_, _, fun _ => rfl⟩

theorem time_sound (C : Clock) : Handler.Sound (timeH C).to := sound_now fun _ _ => ⟨_, _, fun _ => rfl⟩

theorem string_sound (m : Simd) : Handler.Sound (stringH m).to := sound_now fun _ _ => ⟨_, _, fun _ => rfl⟩

theorem enumValue_sound (U : IntTy) : Handler.Sound (enumValueH U).to := sound_now fun _ _ => ⟨_, _, fun _ => rfl⟩

theorem enum_sound (names : List Bytes) (U : IntTy) : Handler.Sound (enumH names U).to := by
  refine sound_now fun old c => ?_
  simp only [enumH]
  split
  · split <;> exact ⟨_, _, fun _ => rfl⟩
  · split
    · split <;> exact ⟨_, _, fun _ => rfl⟩
    · exact ⟨_, _, fun _ => rfl⟩

theorem sound_map {f : Nat → S → Ctx → Option (Err × S × Ctx)} (hf : Handler.Sound f) {old : S} {c : Ctx} (hs : c.Sane) (g : Err × S × Ctx → Err × T × Ctx)
    (hg : ∀ r, (g r).1 = .noError → r.1 = .noError ∧ (g r).2.2.tz = r.2.2.tz ∧ (g r).2.2.token = r.2.2.token) :
    ∃ r, (∀ n, c.left < n → (f n old c).map g = some r) ∧ (r.1 = .noError → c.Acc r.2.2) := by
  obtain ⟨r, h1, h2⟩ := hf old c hs
  refine ⟨g r, fun n hn => by rw [h1 n hn]; rfl, fun he => ?_⟩
  obtain ⟨a, b, d⟩ := hg r he
  have := h2 a
  unfold Ctx.Acc at *
  rw [b, d]; exact this

theorem nullable_sound {h : Handler T} (hs : Handler.Sound h.to) : Handler.Sound (nullableH h).to := by
  intro old c hc
  simp only [nullableH]
  split
  · exact ⟨_, fun _ _ => rfl, fun _ => .refl c⟩
  · exact hs old c hc

theorem nullableChecked_sound {h : Handler T} (hs : Handler.Sound h.to) : Handler.Sound (nullableCheckedH h).to := by
  intro old c hc
  simp only [nullableCheckedH]
  split
  · exact ⟨_, fun _ _ => rfl, fun _ => .refl c⟩
  · exact sound_map hs hc _ fun r he => ⟨he, rfl, rfl⟩

theorem optionalChecked_sound {h : Handler T} (hs : Handler.Sound h.to) : Handler.Sound (optionalCheckedH h).to :=
  fun old c hc => sound_map hs hc _ fun r he => ⟨he, rfl, rfl⟩

theorem stdOptional_sound {h : Handler T} (hs : Handler.Sound h.to) : Handler.Sound (stdOptionalH h).to :=
  fun old c hc => sound_map hs hc _ fun r he => ⟨he, rfl, rfl⟩

theorem ptr_sound {h : Handler T} (hs : Handler.Sound h.to) : Handler.Sound (ptrH h).to := by
  intro old c hc
  simp only [ptrH]
  split
  · exact sound_map hs hc _ fun r he => ⟨he, rfl, rfl⟩
  · exact ⟨_, fun _ _ => rfl, fun _ => .refl c⟩

theorem vecLoop_sound {h : Handler T} (hs : Handler.Sound h.to) : ∀ (m : Nat) (acc : List T) (c : Ctx), c.Sane → c.left < m →
    ∃ r, (∀ n fuel, c.left < n → c.left < fuel → vecLoop h fuel n acc c = some r) ∧ (r.1 = .noError → c.Acc r.2.2) := by
  intro m
  induction m with
  | zero => intro acc c hc hm; omega
  | succ m ih =>
    intro acc c hc hm
    obtain ⟨⟨e, x, c1⟩, h1, h2⟩ := hs h.init c hc
    by_cases hv : c.token.valueType = .arrayEnd
    · refine ⟨(.noError, acc, c), fun n fuel hn _ => ?_, fun _ => .refl c⟩
      cases n with
      | zero => omega
      | succ n => rw [vecLoop, if_pos hv]
    · by_cases he : e = .noError
      · have ha : c.Acc c1 := h2 he
        have hl := ha.left hc
        have hb := ha.sane hc
        by_cases hne : c1.next.error = .noError
        · have hlt := next_left hb hne
          obtain ⟨r, g1, g2⟩ := ih (acc ++ [x]) c1.next (next_sane hb) (by omega)
          refine ⟨r, fun n fuel hn hf => ?_, fun h => ha.trans ((next_acc hne).trans (g2 h))⟩
          cases n with
          | zero => omega
          | succ n => simp [vecLoop, hv, h1 fuel hf, he, hne, g1 n fuel (by omega) (by omega)]
        · refine ⟨(c1.next.error, acc ++ [x], c1.next), fun n fuel hn hf => ?_, fun h => absurd h hne⟩
          cases n with
          | zero => omega
          | succ n => simp [vecLoop, hv, h1 fuel hf, he, hne]
      · refine ⟨(e, acc ++ [x], c1), fun n fuel hn hf => ?_, fun h => absurd h he⟩
        cases n with
        | zero => omega
        | succ n => simp [vecLoop, hv, h1 fuel hf, he]

/-- The first step into a container. -/
theorem enter_sound {f : Nat → Ctx → Option (Err × T × Ctx)} {c : Ctx} {old : T} (hc : c.Sane)
    (hf : c.next.error = .noError → ∃ r, (∀ n, c.next.left < n → f n c.next = some r) ∧ (r.1 = .noError → c.next.Acc r.2.2)) :
    ∃ r, (∀ n, c.left < n → (if c.next.error ≠ .noError then some (c.next.error, old, c.next) else f n c.next) = some r) ∧
      (r.1 = .noError → c.Acc r.2.2) := by
  by_cases hne : c.next.error = .noError
  · obtain ⟨r, g1, g2⟩ := hf hne
    have := next_left hc hne
    exact ⟨r, fun n hn => by rw [if_neg (by simp [hne]), g1 n (by omega)], fun h => (next_acc hne).trans (g2 h)⟩
  · exact ⟨(c.next.error, old, c.next), fun n hn => by rw [if_pos hne], fun h => absurd h hne⟩

theorem vec_sound {h : Handler T} (hs : Handler.Sound h.to) : Handler.Sound (vecH h).to := by
  intro old c hc
  simp only [vecH]
  split
  · exact ⟨_, fun _ _ => rfl, fun h => by cases h⟩
  · refine enter_sound (f := fun n c => vecLoop h n n [] c) hc fun _ => ?_
    obtain ⟨r, g1, g2⟩ := vecLoop_sound hs (c.next.left + 1) [] c.next (next_sane hc) (by omega)
    exact ⟨r, fun n hn => g1 n n hn hn, g2⟩

theorem oneOrMany_sound {h : Handler T} (hs : Handler.Sound h.to) : Handler.Sound (oneOrManyH h).to := by
  intro old c hc
  simp only [oneOrManyH]
  split
  · exact sound_map (vec_sound hs) hc _ fun r he => ⟨he, rfl, rfl⟩
  · exact sound_map hs hc _ fun r he => ⟨he, rfl, rfl⟩

theorem setLoop_sound [DecidableEq T] (ins : List T → T → List T) {h : Handler T} (hs : Handler.Sound h.to) :
    ∀ (m : Nat) (acc : List T) (c : Ctx), c.Sane → c.left < m →
    ∃ r, (∀ n fuel, c.left < n → c.left < fuel → setLoop ins h fuel n acc c = some r) ∧ (r.1 = .noError → c.Acc r.2.2) := by
  intro m
  induction m with
  | zero => intro acc c hc hm; omega
  | succ m ih =>
    intro acc c hc hm
    obtain ⟨⟨e, x, c1⟩, h1, h2⟩ := hs h.init c hc
    by_cases hv : c.token.valueType = .arrayEnd
    · refine ⟨(.noError, acc, c), fun n fuel hn _ => ?_, fun _ => .refl c⟩
      cases n with
      | zero => omega
      | succ n => rw [setLoop, if_pos hv]
    · by_cases he : e = .noError
      · have ha : c.Acc c1 := h2 he
        have hl := ha.left hc
        have hb := ha.sane hc
        by_cases hx : x ∈ acc
        · refine ⟨(.duplicateInSet, acc, c1), fun n fuel hn hf => ?_, fun h => by cases h⟩
          cases n with
          | zero => omega
          | succ n => simp [setLoop, hv, h1 fuel hf, he, hx]
        by_cases hne : c1.next.error = .noError
        · have hlt := next_left hb hne
          obtain ⟨r, g1, g2⟩ := ih (ins acc x) c1.next (next_sane hb) (by omega)
          refine ⟨r, fun n fuel hn hf => ?_, fun h => ha.trans ((next_acc hne).trans (g2 h))⟩
          cases n with
          | zero => omega
          | succ n => simp [setLoop, hv, h1 fuel hf, he, hne, hx, g1 n fuel (by omega) (by omega)]
        · refine ⟨(c1.next.error, ins acc x, c1.next), fun n fuel hn hf => ?_, fun h => absurd h hne⟩
          cases n with
          | zero => omega
          | succ n => simp [setLoop, hv, h1 fuel hf, he, hne, hx]
      · refine ⟨(e, acc, c1), fun n fuel hn hf => ?_, fun h => absurd h he⟩
        cases n with
        | zero => omega
        | succ n => simp [setLoop, hv, h1 fuel hf, he]

theorem set_sound [DecidableEq T] (ins : List T → T → List T) {h : Handler T} (hs : Handler.Sound h.to) : Handler.Sound (setH ins h).to := by
  intro old c hc
  simp only [setH]
  split
  · exact ⟨_, fun _ _ => rfl, fun h => by cases h⟩
  · refine enter_sound (f := fun n c => setLoop ins h n n [] c) hc fun _ => ?_
    obtain ⟨r, g1, g2⟩ := setLoop_sound ins hs (c.next.left + 1) [] c.next (next_sane hc) (by omega)
    exact ⟨r, fun n hn => g1 n n hn hn, g2⟩

theorem arrLoop_sound {h : Handler T} (hs : Handler.Sound h.to) : ∀ (old : List T) (c : Ctx), c.Sane →
    ∃ r, (∀ fuel, c.left < fuel → arrLoop h fuel old c = some r) ∧ (∀ e, r.1 = some e → e ≠ .noError) ∧
      (r.1 = none → r.2.2.error = .noError → c.error = .noError ∧ c.Acc r.2.2) := by
  intro old
  induction old with
  | nil => intro c hc; exact ⟨_, fun _ _ => rfl, by simp, fun _ h => ⟨h, .refl c⟩⟩
  | cons x xs ih =>
    intro c hc
    by_cases he : c.error = .noError
    · obtain ⟨⟨e, y, c1⟩, h1, h2⟩ := hs x c hc
      by_cases hy : e = .noError
      · have ha : c.Acc c1 := h2 hy
        have hb : Ctx.Sane { c1 with error := e } := ha.sane hc
        have hl : Ctx.left { c1 with error := e } ≤ c.left := ha.left hc
        have hac : c.Acc { c1 with error := e } := ha
        have hnl := (nextToken_ok _ (Ctx.token { c1 with error := e }) hb.1 hb.2).noIncrease
        obtain ⟨⟨e2, ys, c2⟩, g1, g2, g3⟩ := ih (Ctx.next { c1 with error := e }) (next_sane hb)
        refine ⟨(e2, y :: ys, c2), fun fuel hf => ?_, g2, fun hn hok => ?_⟩
        · have : Ctx.left (Ctx.next { c1 with error := e }) < fuel := Nat.lt_of_le_of_lt hnl (Nat.lt_of_le_of_lt hl hf)
          simp only [arrLoop, he, ne_eq, not_true_eq_false, if_false, h1 fuel hf, Option.bind_eq_bind, Option.bind_some, hy]
          rw [← hy, g1 fuel this]; rfl
        · obtain ⟨p, q⟩ := g3 hn hok
          exact ⟨he, hac.trans ((next_acc p).trans q)⟩
      · refine ⟨(some e, y :: xs, { c1 with error := e }), fun fuel hf => ?_, by simpa using hy, by simp⟩
        simp [arrLoop, he, h1 fuel hf, hy]
    · exact ⟨(some c.error, x :: xs, c), fun fuel hf => by simp [arrLoop, he], by simpa using he, by simp⟩

theorem arr_sound (N : Nat) {h : Handler T} (hs : Handler.Sound h.to) : Handler.Sound (arrH N h).to := by
  intro old c hc
  simp only [arrH]
  split
  · exact ⟨_, fun _ _ => rfl, fun h => by cases h⟩
  · obtain ⟨⟨e, xs, c1⟩, g1, g2, g3⟩ := arrLoop_sound hs old c.next (next_sane hc)
    have hnl : c.next.left ≤ c.left := (nextToken_ok c.tz c.token hc.1 hc.2).noIncrease
    cases e with
    | some e =>
      refine ⟨(e, xs, c1), fun n hn => by rw [g1 n (by omega)]; rfl, fun h => absurd h (g2 e rfl)⟩
    | none =>
      by_cases hv : c1.token.valueType = .arrayEnd
      · refine ⟨(c1.error, xs, c1), fun n hn => by rw [g1 n (by omega)]; simp [hv], fun h => ?_⟩
        obtain ⟨p, q⟩ := g3 rfl h
        exact (next_acc p).trans q
      · exact ⟨(.expectedArrayEnd, xs, c1), fun n hn => by rw [g1 n (by omega)]; simp [hv], fun h => by cases h⟩

theorem avcLoop_sound {h : Handler T} (hs : Handler.Sound h.to) (size : Nat) : ∀ (old : List T) (i : Nat) (c : Ctx), c.Sane →
    ∃ r, (∀ fuel, c.left < fuel → avcLoop h fuel size i old c = some r) ∧ (∀ e, r.1 = some e → e ≠ .noError) ∧
      (r.1 = none → r.2.2.2.error = .noError → c.error = .noError ∧ c.Acc r.2.2.2) := by
  intro old
  induction old with
  | nil => intro i c hc; exact ⟨_, fun _ _ => rfl, by simp, fun _ h => ⟨h, .refl c⟩⟩
  | cons x xs ih =>
    intro i c hc
    by_cases he : c.error = .noError
    · by_cases hv : c.token.valueType = .arrayEnd
      · exact ⟨(none, x :: xs, i, c), fun fuel hf => by simp [avcLoop, he, hv], by simp, fun _ _ => ⟨he, .refl c⟩⟩
      obtain ⟨⟨e, y, c1⟩, h1, h2⟩ := hs x c hc
      by_cases hy : e = .noError
      · have ha : c.Acc c1 := h2 hy
        have hb : Ctx.Sane { c1 with error := e } := ha.sane hc
        have hl : Ctx.left { c1 with error := e } ≤ c.left := ha.left hc
        have hac : c.Acc { c1 with error := e } := ha
        have hnl := (nextToken_ok _ (Ctx.token { c1 with error := e }) hb.1 hb.2).noIncrease
        obtain ⟨⟨e2, ys, sz, c2⟩, g1, g2, g3⟩ := ih (i + 1) (Ctx.next { c1 with error := e }) (next_sane hb)
        refine ⟨(e2, y :: ys, sz, c2), fun fuel hf => ?_, g2, fun hn hok => ?_⟩
        · have : Ctx.left (Ctx.next { c1 with error := e }) < fuel := Nat.lt_of_le_of_lt hnl (Nat.lt_of_le_of_lt hl hf)
          simp only [avcLoop, he, hv, ne_eq, not_true_eq_false, if_false, h1 fuel hf, Option.bind_eq_bind, Option.bind_some, hy]
          rw [← hy, g1 fuel this]; rfl
        · obtain ⟨p, q⟩ := g3 hn hok
          exact ⟨he, hac.trans ((next_acc p).trans q)⟩
      · refine ⟨(some e, y :: xs, size, { c1 with error := e }), fun fuel hf => ?_, by simpa using hy, by simp⟩
        simp [avcLoop, he, hv, h1 fuel hf, hy]
    · exact ⟨(some c.error, x :: xs, size, c), fun fuel hf => by simp [avcLoop, he], by simpa using he, by simp⟩

theorem avc_sound (N : Nat) {h : Handler T} (hs : Handler.Sound h.to) : Handler.Sound (avcH N h).to := by
  intro old c hc
  simp only [avcH]
  split
  · exact ⟨_, fun _ _ => rfl, fun h => by cases h⟩
  · obtain ⟨⟨e, xs, sz, c1⟩, g1, g2, g3⟩ := avcLoop_sound hs old.2 old.1 0 c.next (next_sane hc)
    have hnl : c.next.left ≤ c.left := (nextToken_ok c.tz c.token hc.1 hc.2).noIncrease
    cases e with
    | some e =>
      refine ⟨(e, (xs, sz), c1), fun n hn => by rw [g1 n (by omega)]; rfl, fun h => absurd h (g2 e rfl)⟩
    | none =>
      by_cases hv : c1.token.valueType = .arrayEnd
      · refine ⟨(c1.error, (xs, sz), c1), fun n hn => by rw [g1 n (by omega)]; simp [hv], fun h => ?_⟩
        obtain ⟨p, q⟩ := g3 rfl h
        exact (next_acc p).trans q
      · exact ⟨(.expectedArrayEnd, (xs, sz), c1), fun n hn => by rw [g1 n (by omega)]; simp [hv], fun h => by cases h⟩

theorem tupNil_sound : Handler.Sound TupleH.nil.to := sound_now fun _ _ => ⟨_, _, fun _ => rfl⟩

theorem tupCons_sound {h : Handler T} {t : TupleH Ts} (hs : Handler.Sound h.to) (ht : Handler.Sound t.to) : Handler.Sound (TupleH.cons h t).to := by
  intro old c hc
  obtain ⟨⟨e, x, c1⟩, h1, h2⟩ := hs old.1 c hc
  by_cases he : e = .noError
  · have ha : c.Acc c1 := h2 he
    have hl := ha.left hc
    have hb := ha.sane hc
    by_cases hne : c1.next.error = .noError
    · have hlt := next_left hb hne
      obtain ⟨⟨e2, y, c2⟩, g1, g2⟩ := ht old.2 c1.next (next_sane hb)
      refine ⟨(e2, (x, y), c2), fun n hn => ?_, fun h => ha.trans ((next_acc hne).trans (g2 h))⟩
      simp [TupleH.cons, h1 n hn, he, hne, g1 n (by omega)]
    · refine ⟨(c1.next.error, (x, old.2), c1.next), fun n hn => ?_, fun h => absurd h hne⟩
      simp [TupleH.cons, h1 n hn, he, hne]
  · refine ⟨(e, (x, old.2), c1), fun n hn => ?_, fun h => absurd h he⟩
    simp [TupleH.cons, h1 n hn, he]

theorem tuple_sound {t : TupleH Ts} (ht : Handler.Sound t.to) : Handler.Sound (tupleH t).to := by
  intro old c hc
  simp only [tupleH]
  split
  · exact ⟨_, fun _ _ => rfl, fun h => by cases h⟩
  · refine enter_sound (f := fun n c => do
        let (e, x, c) ← t.to n old c
        if e ≠ .noError then some (e, x, c)
        else if c.token.valueType ≠ .arrayEnd then some (.expectedArrayEnd, x, c)
        else some (.noError, x, c)) hc fun hne => ?_
    obtain ⟨⟨e, x, c1⟩, g1, g2⟩ := ht old c.next (next_sane hc)
    by_cases he : e = .noError
    · by_cases hv : c1.token.valueType = .arrayEnd
      · exact ⟨(.noError, x, c1), fun n hn => by simp [g1 n hn, he, hv], fun _ => g2 he⟩
      · exact ⟨(.expectedArrayEnd, x, c1), fun n hn => by simp [g1 n hn, he, hv], fun h => by cases h⟩
    · exact ⟨(e, x, c1), fun n hn => by simp [g1 n hn, he], fun h => absurd h he⟩

theorem tokensLoop_sound : ∀ (m level : Nat) (acc : List Tok) (c : Ctx), c.Sane → c.left < m →
    ∃ r, (∀ n, c.left < n → tokensLoop n level acc c = some r) ∧ (r.1 = .noError → c.Acc r.2.2) := by
  intro m
  induction m with
  | zero => intro _ _ c _ hm; omega
  | succ m ih =>
    intro level acc c hc hm
    by_cases hl : level = 0
    · refine ⟨(.noError, acc, c), fun n hn => ?_, fun _ => .refl c⟩
      cases n with
      | zero => omega
      | succ n => simp [tokensLoop, hl]
    · by_cases hne : c.next.error = .noError
      · have hlt := next_left hc hne
        obtain ⟨r, g1, g2⟩ := ih (if c.next.token.valueType = .arrayStart ∨ c.next.token.valueType = .objectStart then level + 1
          else if c.next.token.valueType = .arrayEnd ∨ c.next.token.valueType = .objectEnd then level - 1 else level)
          (acc ++ [c.next.token.tok]) c.next (next_sane hc) (by omega)
        refine ⟨r, fun n hn => ?_, fun h => (next_acc hne).trans (g2 h)⟩
        cases n with
        | zero => omega
        | succ n =>
          rw [tokensLoop, if_neg hl]
          simp only [hne, ne_eq, not_true_eq_false, if_false]
          exact g1 n (by omega)
      · refine ⟨(c.next.error, acc ++ [c.next.token.tok], c.next), fun n hn => ?_, fun h => absurd h hne⟩
        cases n with
        | zero => omega
        | succ n =>
          rw [tokensLoop, if_neg hl]
          simp only [ne_eq, hne, not_false_eq_true, if_true]

theorem tokens_sound : Handler.Sound tokensH.to := by
  intro old c hc
  simp only [tokensH]
  split
  · exact ⟨_, fun _ _ => rfl, fun _ => .refl c⟩
  · exact tokensLoop_sound (c.left + 1) 1 _ c hc (by omega)

theorem jmap_sound : Handler.Sound jmapH.to := by
  intro old c hc
  obtain ⟨r, h1, h2⟩ := tokens_sound old.tokens c hc
  refine ⟨jmapRead old r, fun n hn => by simp only [jmapH, h1 n hn, Option.map_some], fun he => ?_⟩
  simp only [jmapRead] at he ⊢
  split at he
  · next h => rw [if_pos h]; split <;> exact h2 h
  · next h => exact absurd he h

/-! ### Structs -/

theorem skipLoop_sound (start fin : Ty) : ∀ (m depth : Nat) (c : Ctx), c.Sane → c.left < m →
    ∃ r, (∀ n, c.left < n → skipLoop start fin n depth c = some r) ∧ (r.error = .noError → c.Acc r) := by
  intro m
  induction m with
  | zero => intro _ c _ hm; omega
  | succ m ih =>
    intro depth c hc hm
    by_cases hl : depth = 0
    · refine ⟨c, fun n hn => ?_, fun _ => .refl c⟩
      cases n with
      | zero => omega
      | succ n => simp [skipLoop, hl]
    · by_cases hne : c.next.error = .noError
      · have hlt := next_left hc hne
        obtain ⟨r, g1, g2⟩ := ih (if c.next.token.valueType = start then depth + 1
          else if c.next.token.valueType = fin then depth - 1 else depth) c.next (next_sane hc) (by omega)
        refine ⟨r, fun n hn => ?_, fun h => (next_acc hne).trans (g2 h)⟩
        cases n with
        | zero => omega
        | succ n =>
          rw [skipLoop, if_neg hl]
          simp only [hne, ne_eq, not_true_eq_false, if_false]
          exact g1 n (by omega)
      · refine ⟨c.next, fun n hn => ?_, fun h => absurd h hne⟩
        cases n with
        | zero => omega
        | succ n =>
          rw [skipLoop, if_neg hl]
          simp only [ne_eq, hne, not_false_eq_true, if_true]

theorem skip_sound (c : Ctx) (hc : c.Sane) :
    ∃ r, (∀ n, c.left < n → skipArrayOrObject n c = some r) ∧ (r.error = .noError → c.Acc r) := by
  simp only [skipArrayOrObject]
  split
  · exact skipLoop_sound _ _ (c.left + 1) 1 c hc (by omega)
  · split
    · exact skipLoop_sound _ _ (c.left + 1) 1 c hc (by omega)
    · exact ⟨c, fun _ _ => rfl, fun _ => .refl c⟩

/-- The search for a member. -/
theorem find_sound {M : Meta T} (hM : ∀ v ∈ M.visit 0 [], Handler.Sound v.mem.to) (old : T) (c : Ctx) (asg : List Bool) (hc : c.Sane) :
    ∃ r, (∀ fuel, c.left < fuel → M.find fuel old c asg = some r) ∧ (r.1 = .noError → c.Acc r.2.2.1) ∧
      (r.1 = .missingPropertyMember → r.2.2.1 = c) := by
  have found : ∀ v : Visit T, Handler.Sound v.mem.to →
      ∃ r, (∀ fuel, c.left < fuel → ((v.mem.to fuel old c).map fun r => (matchedMemberResult r.1, r.2.1, r.2.2, asg.set v.idx true)) = some r) ∧
        (r.1 = .noError → c.Acc r.2.2.1) ∧ r.1 ≠ .missingPropertyMember := by
    intro v hv
    obtain ⟨r, g1, g2⟩ := hv old c hc
    refine ⟨_, fun fuel hf => by rw [g1 fuel hf]; rfl, fun h => g2 ?_, matched_ne _⟩
    revert h
    simp only [matchedMemberResult]
    split <;> simp
  simp only [Meta.find, unpack_eq M 0 [], unpackVisit_find]
  cases h1 : (M.visit 0 []).find? (fun v => v.mem.named true c.token.name.bytes) with
  | some v =>
    obtain ⟨r, g1, g2, g3⟩ := found v (hM v (List.mem_of_find?_eq_some h1))
    exact ⟨r, fun fuel hf => by simp only [g1 fuel hf, Option.bind_eq_bind, Option.bind_some, if_neg g3], g2, fun h => absurd h g3⟩
  | none =>
    simp only [Option.bind_eq_bind, Option.bind_some, if_true]
    cases h2 : (M.visit 0 []).find? (fun v => v.mem.named false c.token.name.bytes) with
    | some v =>
      obtain ⟨r, g1, g2, g3⟩ := found v (hM v (List.mem_of_find?_eq_some h2))
      exact ⟨r, fun fuel hf => g1 fuel hf, g2, fun h => absurd h g3⟩
    | none => exact ⟨_, fun _ _ => rfl, (fun h => by cases h), fun _ => rfl⟩

theorem unknown_sound (c : Ctx) (name : Bytes) (hc : c.Sane) :
    ∃ r, (∀ n, c.left < n → c.unknown n name = some r) ∧ (∀ e, r.1 = some e → e ≠ .noError) ∧ (r.1 = none → c.Acc r.2) := by
  simp only [Ctx.unknown]
  have hsame : ∀ d : Ctx, d.tz = c.tz → d.token = c.token →
      ∃ r, (∀ n, c.left < n → (if d.allowMissing = true then do
        let c ← skipArrayOrObject n d
        some (if c.error ≠ .noError then some c.error else none, c)
      else some (some Err.missingPropertyMember, d)) = some r) ∧ (∀ e, r.1 = some e → e ≠ .noError) ∧ (r.1 = none → c.Acc r.2) := by
    intro d h1 h2
    have hd : d.Sane := by unfold Ctx.Sane at *; rw [h1]; exact hc
    have hl : d.left = c.left := by unfold Ctx.left; rw [h1]
    by_cases ha : d.allowMissing = true
    · obtain ⟨r, g1, g2⟩ := skip_sound d hd
      refine ⟨(if r.error ≠ .noError then some r.error else none, r), fun n hn => ?_, ?_, ?_⟩
      · rw [if_pos ha, g1 n (by omega)]; rfl
      · intro e he
        simp only [ne_eq, ite_not] at he
        split at he
        · cases he
        · cases he; assumption
      · intro he
        simp only [ne_eq, ite_not] at he
        split at he
        · have := g2 (by assumption)
          unfold Ctx.Acc at *
          rw [h1, h2] at this
          exact this
        · cases he
    · exact ⟨(some .missingPropertyMember, d), fun n hn => by rw [if_neg ha], by simp, by simp⟩
  split
  · exact hsame _ rfl rfl
  · exact hsame _ rfl rfl

theorem structLoop_succ (M : Meta T) (fuel n : Nat) (old : T) (c : Ctx) (asg : List Bool) (hv : ¬c.token.valueType = .objectEnd) :
    structLoop M fuel (n + 1) old c asg = (M.find fuel old c asg).bind fun r =>
      (if r.1 = .missingPropertyMember then r.2.2.1.unknown fuel c.token.name.bytes
        else some (if r.1 ≠ .noError then some r.1 else none, r.2.2.1)).bind fun q =>
        match q.1 with
        | some e => some (some e, r.2.1, q.2, r.2.2.2)
        | none => if q.2.next.error ≠ .noError then some (some q.2.next.error, r.2.1, q.2.next, r.2.2.2)
          else structLoop M fuel n r.2.1 q.2.next r.2.2.2 := by
  rw [structLoop, if_neg hv]
  simp only [Option.bind_eq_bind]
  congr 1
  funext r
  split
  · rfl
  · rfl

theorem structLoop_sound {M : Meta T} (hM : ∀ v ∈ M.visit 0 [], Handler.Sound v.mem.to) :
    ∀ (m : Nat) (old : T) (c : Ctx) (asg : List Bool), c.Sane → c.left < m →
    ∃ r, (∀ n fuel, c.left < n → c.left < fuel → structLoop M fuel n old c asg = some r) ∧ (∀ e, r.1 = some e → e ≠ .noError) ∧
      (r.1 = none → c.Acc r.2.2.1) := by
  intro m
  induction m with
  | zero => intro _ c _ _ hm; omega
  | succ m ih =>
    intro old c asg hc hm
    by_cases hv : c.token.valueType = .objectEnd
    · refine ⟨(none, old, c, asg), fun n fuel hn _ => ?_, by simp, fun _ => .refl c⟩
      cases n with
      | zero => omega
      | succ n => rw [structLoop, if_pos hv]
    · obtain ⟨⟨e, v, c1, asg1⟩, h1, h2, h3⟩ := find_sound hM old c asg hc
      -- what happens to the member
      have hstep : ∃ r : Option Err × Ctx, (∀ fuel, c.left < fuel → (if e = .missingPropertyMember then c1.unknown fuel c.token.name.bytes
          else some (if e ≠ .noError then some e else none, c1)) = some r) ∧ (∀ e, r.1 = some e → e ≠ .noError) ∧ (r.1 = none → c.Acc r.2) := by
        by_cases hmp : e = .missingPropertyMember
        · have hc1 : c1 = c := h3 hmp
          subst hc1
          obtain ⟨r, g1, g2, g3⟩ := unknown_sound c1 c1.token.name.bytes hc
          exact ⟨r, fun fuel hf => by rw [if_pos hmp, g1 fuel hf], g2, g3⟩
        · refine ⟨(if e ≠ .noError then some e else none, c1), fun _ _ => by rw [if_neg hmp], ?_, ?_⟩
          · intro e' he'
            simp only [ne_eq, ite_not] at he'
            split at he'
            · cases he'
            · cases he'; assumption
          · intro he'
            simp only [ne_eq, ite_not] at he'
            split at he'
            · exact h2 (by assumption)
            · cases he'
      obtain ⟨⟨stop, c2⟩, g1, g2, g3⟩ := hstep
      cases stop with
      | some e' =>
        refine ⟨(some e', v, c2, asg1), fun n fuel hn hf => ?_, by simpa using g2 e' rfl, by simp⟩
        cases n with
        | zero => omega
        | succ n =>
          have g := g1 fuel hf
          rw [structLoop_succ _ _ _ _ _ _ hv, h1 fuel hf, Option.bind_some, g]; rfl
      | none =>
        have ha : c.Acc c2 := g3 rfl
        have hl := ha.left hc
        have hb := ha.sane hc
        by_cases hne : c2.next.error = .noError
        · have hlt := next_left hb hne
          obtain ⟨r, k1, k2, k3⟩ := ih v c2.next asg1 (next_sane hb) (by omega)
          refine ⟨r, fun n fuel hn hf => ?_, k2, fun h => ha.trans ((next_acc hne).trans (k3 h))⟩
          cases n with
          | zero => omega
          | succ n =>
            have g := g1 fuel hf
            rw [structLoop_succ _ _ _ _ _ _ hv, h1 fuel hf, Option.bind_some, g]
            simp only [Option.bind_some, hne, ne_eq, not_true_eq_false, if_false]
            exact k1 n fuel (by omega) (by omega)
        · refine ⟨(some c2.next.error, v, c2.next, asg1), fun n fuel hn hf => ?_, by simpa using hne, by simp⟩
          cases n with
          | zero => omega
          | succ n =>
            have g := g1 fuel hf
            rw [structLoop_succ _ _ _ _ _ _ hv, h1 fuel hf, Option.bind_some, g]
            simp only [Option.bind_some, hne, ne_eq, not_false_eq_true, if_true]

theorem struct_sound {M : Meta T} (hM : ∀ v ∈ M.visit 0 [], Handler.Sound v.mem.to) : Handler.Sound (structTo M) := by
  intro old c hc
  simp only [structTo]
  split
  · exact ⟨_, fun _ _ => rfl, fun h => by cases h⟩
  · have hk := nextToken_ok c.tz c.token hc.1 hc.2
    split
    · rename_i he
      exact ⟨_, fun _ _ => rfl, fun h => absurd h he⟩
    · rename_i he
      have he : (c.tz.nextToken c.token).1 = .noError := by simpa using he
      have hp := hk.progress he
      generalize hd : ({ c with tz := (c.tz.nextToken c.token).2.1, token := (c.tz.nextToken c.token).2.2 } : Ctx) = d
      have hds : d.Sane := by subst hd; exact ⟨hk.inv, hk.parsed⟩
      have hdl : d.left < c.left := by subst hd; exact hp
      have hda : c.Acc d := by
        subst hd
        exact .call (t' := (c.tz.nextToken c.token).2.1) (k' := (c.tz.nextToken c.token).2.2) (by rw [← he]) .refl
      obtain ⟨⟨stop, v, c1, asg⟩, g1, g2, g3⟩ := structLoop_sound hM (d.left + 1) old d (List.replicate M.count false) hds (by omega)
      cases stop with
      | some e =>
        exact ⟨(e, v, c1), fun n hn => by rw [g1 n n (by omega) (by omega)]; rfl, fun h => absurd h (g2 e rfl)⟩
      | none =>
        have ha : d.Acc c1 := g3 rfl
        have fin : ∃ r : Err × T × Ctx, (let ver := M.verify 0 asg c1.track []
            if ver.1 = .unassignedRequiredMember then
              let c := if c1.track then { c1 with unassigned := c1.unassigned ++ ver.2 } else c1
              some (if c.allowUnassigned then .noError else ver.1, v, c)
            else some (ver.1, v, c1)) = some r ∧ r.2.2.tz = c1.tz ∧ r.2.2.token = c1.token := by
          simp only
          split
          · split <;> exact ⟨_, rfl, rfl, rfl⟩
          · exact ⟨_, rfl, rfl, rfl⟩
        obtain ⟨r, hr, hr1, hr2⟩ := fin
        refine ⟨r, fun n hn => by rw [g1 n n (by omega) (by omega)]; exact hr, fun _ => hda.trans ?_⟩
        unfold Ctx.Acc at *
        rw [hr1, hr2]; exact ha

theorem memberOf_sound {h : Handler M} (hs : Handler.Sound h.to) (names : List Bytes) (opt : Bool) (get : T → M) (set : M → T → T) :
    Handler.Sound (Member.of names opt h get set).to :=
  fun old c hc => sound_map hs hc _ fun r he => ⟨he, rfl, rfl⟩

theorem memberUp_sound {m : Member S} (hs : Handler.Sound m.to) (get : T → S) (set : S → T → T) : Handler.Sound (m.up get set).to :=
  fun old c hc => sound_map hs hc _ fun r he => ⟨he, rfl, rfl⟩

theorem revVisit_mem (page : Nat) (sn : Bytes) (ms : List (Member T)) (v : Visit T) (h : v ∈ revVisit page sn ms) : v.mem ∈ ms := by
  induction ms with
  | nil => simp [revVisit] at h
  | cons m ms ih =>
    simp only [revVisit, List.mem_cons] at h
    rcases h with rfl | h
    · simp
    · exact List.mem_cons_of_mem _ (ih h)

mutual
/-- All members, also those of super classes. -/
inductive Meta.All (P : Member T → Prop) : Meta T → Prop
  | mk {ms ss} : (∀ m ∈ ms, P m) → SupersAll P ss → Meta.All P (.mk ms ss)
inductive SupersAll (P : Member T → Prop) : List (Bytes × Meta T) → Prop
  | nil : SupersAll P []
  | cons {n m ss} : Meta.All P m → SupersAll P ss → SupersAll P ((n, m) :: ss)
end

mutual
theorem all_visit {P : Member T → Prop} (M : Meta T) (h : M.All P) (page : Nat) (sn : Bytes) : ∀ v ∈ M.visit page sn, P v.mem := by
  match M, h with
  | .mk ms ss, .mk h1 h2 =>
    intro v hv
    rw [Meta.visit] at hv
    rcases List.mem_append.mp hv with hv | hv
    · exact h1 _ (List.mem_reverse.mp (revVisit_mem _ _ _ _ hv))
    · exact all_visitSupers ss h2 _ v hv
theorem all_visitSupers {P : Member T → Prop} (ss : List (Bytes × Meta T)) (h : SupersAll P ss) (page : Nat) : ∀ v ∈ visitSupers page ss, P v.mem := by
  match ss, h with
  | [], _ => simp [visitSupers]
  | (n, m) :: ss, .cons h1 h2 =>
    intro v hv
    rw [visitSupers] at hv
    rcases List.mem_append.mp hv with hv | hv
    · exact all_visit m h1 _ _ v hv
    · exact all_visitSupers ss h2 _ v hv
end

mutual
theorem all_up {P : Member S → Prop} {Q : Member T → Prop} {get : T → S} {set : S → T → T} (hPQ : ∀ m, P m → Q (m.up get set)) (M : Meta S) (h : M.All P) :
    (M.up get set).All Q := by
  match M, h with
  | .mk ms ss, .mk h1 h2 =>
    rw [Meta.up]
    refine .mk (fun m hm => ?_) (all_supersUp hPQ ss h2)
    obtain ⟨m', hm', rfl⟩ := List.mem_map.mp hm
    exact hPQ _ (h1 m' hm')
theorem all_supersUp {P : Member S → Prop} {Q : Member T → Prop} {get : T → S} {set : S → T → T} (hPQ : ∀ m, P m → Q (m.up get set))
    (ss : List (Bytes × Meta S)) (h : SupersAll P ss) : SupersAll Q (supersUp get set ss) := by
  match ss, h with
  | [], _ => rw [supersUp]; exact .nil
  | (n, m) :: ss, .cons h1 h2 => rw [supersUp]; exact .cons (all_up hPQ m h1) (all_supersUp hPQ ss h2)
end

mutual
/-- Every type without maps. -/
theorem CType.sound : {T : Type} → (t : CType T) → t.NoMap → Handler.Sound t.handler.to
  | _, .bool, _ => bool_sound
  | _, .int I, _ => int_sound I
  | _, .double, _ => double_sound
  | _, .float, _ => float_sound
  | _, .time C, _ => time_sound C
  | _, .string m, _ => string_sound m
  | _, .enum names U, _ => enum_sound names U
  | _, .enumValue U, _ => enumValue_sound U
  | _, .nullable t, h => by simp only [CType.NoMap] at h; exact nullable_sound (t.sound h)
  | _, .nullableChecked t, h => by simp only [CType.NoMap] at h; exact nullableChecked_sound (t.sound h)
  | _, .optional t, h => by simp only [CType.NoMap] at h; exact t.sound h
  | _, .optionalChecked t, h => by simp only [CType.NoMap] at h; exact optionalChecked_sound (t.sound h)
  | _, .stdOptional t, h => by simp only [CType.NoMap] at h; exact stdOptional_sound (t.sound h)
  | _, .sharedPtr t, h => by simp only [CType.NoMap] at h; exact ptr_sound (t.sound h)
  | _, .uniquePtr t, h => by simp only [CType.NoMap] at h; exact ptr_sound (t.sound h)
  | _, .silentString m, _ => string_sound m
  | _, .silentVector t, h => by simp only [CType.NoMap] at h; exact vec_sound (t.sound h)
  | _, .silentUniquePtr t, h => by simp only [CType.NoMap] at h; exact ptr_sound (t.sound h)
  | _, .vector t, h => by simp only [CType.NoMap] at h; exact vec_sound (t.sound h)
  | _, .oneOrMany t, h => by simp only [CType.NoMap] at h; exact oneOrMany_sound (t.sound h)
  | _, .array N t, h => by simp only [CType.NoMap] at h; exact arr_sound N (t.sound h)
  | _, .arrayVariable N t, h => by simp only [CType.NoMap] at h; exact avc_sound N (t.sound h)
  | _, .tuple ts, h => by simp only [CType.NoMap] at h; exact tuple_sound (ts.sound h)
  | _, .set eq ins t, h => by simp only [CType.NoMap] at h; exact set_sound ins (t.sound h)
  | _, .map _ _, h => by simp only [CType.NoMap] at h
  | _, .tokens, _ => tokens_sound
  | _, .jmap, _ => jmap_sound
  | _, .struct init s, h => by
    simp only [CType.NoMap] at h
    exact struct_sound (all_visit (P := fun m => Handler.Sound m.to) _ (s.sound h) 0 [])
theorem CTypes.sound : {Ts : Type} → (ts : CTypes Ts) → ts.NoMap → Handler.Sound ts.handler.to
  | _, .nil, _ => tupNil_sound
  | _, .cons t ts, h => by simp only [CTypes.NoMap] at h; exact tupCons_sound (t.sound h.1) (ts.sound h.2)
theorem CStruct.sound : {T : Type} → (s : CStruct T) → s.NoMap → s.meta.All (fun m => Handler.Sound m.to)
  | _, .mk ms ss, h => by
    simp only [CStruct.NoMap] at h
    rw [CStruct.meta]
    exact .mk (ms.sound h.1) (ss.sound h.2)
theorem CMembers.sound : {T : Type} → (ms : CMembers T) → ms.NoMap → ∀ m ∈ ms.members, Handler.Sound m.to
  | _, .nil, _, m, hm => by simp [CMembers.members] at hm
  | _, .cons names t get set ms, h, m, hm => by
    simp only [CMembers.NoMap] at h
    rw [CMembers.members] at hm
    rcases List.mem_cons.mp hm with rfl | hm
    · exact memberOf_sound (t.sound h.1) _ _ _ _
    · exact ms.sound h.2 m hm
theorem CSupers.sound : {T : Type} → (ss : CSupers T) → ss.NoMap → SupersAll (fun m => Handler.Sound m.to) ss.supers
  | _, .nil, _ => .nil
  | _, .cons name get set s ss, h => by
    simp only [CSupers.NoMap] at h
    rw [CSupers.supers]
    exact .cons (all_up (fun m hm => memberUp_sound hm get set) _ (s.sound h.1)) (ss.sound h.2)
end

end JsonStruct
