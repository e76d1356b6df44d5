import Verif.Spec.Alike
import Verif.Lemmas.Success

/- Handlers look at a tokenizer only through the answers of `nextToken`. -/

namespace JsonStruct

/-- Two relations between tokenizers with their token variables: `R` as long as no call failed, `E` after one failed. -/
structure Likeness where
  R : Tz → Token → Tz → Token → Prop
  E : Tz → Token → Tz → Token → Prop
  /-- Calls after a failed one are alike, too. -/
  full : Prop
  /-- Values are compared after errors, too. -/
  vals : Prop
  tok : ∀ {t k t' k'}, R t k t' k' → k.tok = k'.tok
  err : ∀ {t k t' k'}, R t k t' k' → (t.nextToken k).1 = (t'.nextToken k').1
  next : ∀ {t k t' k'}, R t k t' k' → (t.nextToken k).1 = .noError →
    R (t.nextToken k).2.1 (t.nextToken k).2.2 (t'.nextToken k').2.1 (t'.nextToken k').2.2
  fail : ∀ {t k t' k'}, R t k t' k' → E (t.nextToken k).2.1 (t.nextToken k).2.2 (t'.nextToken k').2.1 (t'.nextToken k').2.2
  ty : ∀ {t k t' k'}, E t k t' k' → k.valueType = k'.valueType
  weak : ∀ {t k t' k'}, R t k t' k' → E t k t' k'
  all : full → ∀ {t k t' k'}, E t k t' k' → R t k t' k'

variable (S : Likeness)

/-- The parts of a context besides the tokenizer. -/
structure Ctx.Flags (c c' : Ctx) : Prop where
  error : c.error = c'.error
  missing : c.missing = c'.missing
  unassigned : c.unassigned = c'.unassigned
  allowMissing : c.allowMissing = c'.allowMissing
  allowUnassigned : c.allowUnassigned = c'.allowUnassigned
  track : c.track = c'.track

def Likeness.C (c c' : Ctx) : Prop := c.Flags c' ∧ S.R c.tz c.token c'.tz c'.token
def Likeness.D (c c' : Ctx) : Prop := c.Flags c' ∧ S.E c.tz c.token c'.tz c'.token

variable {S}

theorem Likeness.C.weak {c c' : Ctx} (h : S.C c c') : S.D c c' := ⟨h.1, S.weak h.2⟩
theorem Likeness.C.tok {c c' : Ctx} (h : S.C c c') : c.token.tok = c'.token.tok := S.tok h.2
theorem Likeness.D.ty {c c' : Ctx} (h : S.D c c') : c.token.valueType = c'.token.valueType := S.ty h.2
theorem Likeness.C.ty {c c' : Ctx} (h : S.C c c') : c.token.valueType = c'.token.valueType := h.weak.ty
theorem Likeness.C.value {c c' : Ctx} (h : S.C c c') : c.token.value.bytes = c'.token.value.bytes := congrArg Tok.value h.tok
theorem Likeness.C.name {c c' : Ctx} (h : S.C c c') : c.token.name.bytes = c'.token.name.bytes := congrArg Tok.name h.tok
theorem Likeness.D.all {c c' : Ctx} (h : S.D c c') (hf : S.full) : S.C c c' := ⟨h.1, S.all hf h.2⟩

theorem Likeness.C.nextError {c c' : Ctx} (h : S.C c c') : c.next.error = c'.next.error := S.err h.2

theorem Likeness.C.fail {c c' : Ctx} (h : S.C c c') : S.D c.next c'.next :=
  ⟨⟨h.nextError, h.1.missing, h.1.unassigned, h.1.allowMissing, h.1.allowUnassigned, h.1.track⟩, S.fail h.2⟩

theorem Likeness.C.next {c c' : Ctx} (h : S.C c c') (he : c.next.error = .noError) : S.C c.next c'.next :=
  ⟨h.fail.1, S.next h.2 he⟩

theorem Likeness.C.set {c c' : Ctx} (h : S.C c c') (e : Err) : S.C { c with error := e } { c' with error := e } :=
  ⟨⟨rfl, h.1.missing, h.1.unassigned, h.1.allowMissing, h.1.allowUnassigned, h.1.track⟩, h.2⟩

theorem Likeness.D.set {c c' : Ctx} (h : S.D c c') (e : Err) : S.D { c with error := e } { c' with error := e } :=
  ⟨⟨rfl, h.1.missing, h.1.unassigned, h.1.allowMissing, h.1.allowUnassigned, h.1.track⟩, h.2⟩

variable (S)

/-- The same error; the same value, if there is no error. -/
structure Likeness.Out (r r' : Err × T × Ctx) : Prop where
  err : r.1 = r'.1
  after : S.D r.2.2 r'.2.2
  ok : r.1 = .noError → r.2.1 = r'.2.1 ∧ S.C r.2.2 r'.2.2
  vals : S.vals → r.2.1 = r'.2.1

/-- Both end, or none. -/
def Likeness.Opt (P : α → α → Prop) (_S : Likeness) (a b : Option α) : Prop :=
  (a = none ∧ b = none) ∨ ∃ x y, a = some x ∧ b = some y ∧ P x y

def Likeness.H (f : Nat → T → Ctx → Option (Err × T × Ctx)) : Prop :=
  ∀ n old c c', S.C c c' → Likeness.Opt S.Out S (f n old c) (f n old c')

variable {S}

theorem Likeness.Opt.none {P : α → α → Prop} : Likeness.Opt P S none none := .inl ⟨rfl, rfl⟩
theorem Likeness.Opt.some {P : α → α → Prop} {x y : α} (h : P x y) : Likeness.Opt P S (some x) (some y) := .inr ⟨x, y, rfl, rfl, h⟩

theorem Likeness.Opt.bind {P : α → α → Prop} {Q : β → β → Prop} {a b : Option α} {f g : α → Option β} (h : Likeness.Opt P S a b)
    (hf : ∀ x y, P x y → Likeness.Opt Q S (f x) (g y)) : Likeness.Opt Q S (a >>= f) (b >>= g) := by
  rcases h with ⟨rfl, rfl⟩ | ⟨x, y, rfl, rfl, hp⟩
  · exact .none
  · exact hf x y hp

theorem Likeness.Opt.map {P : α → α → Prop} {Q : β → β → Prop} {a b : Option α} {f g : α → β} (h : Likeness.Opt P S a b)
    (hf : ∀ x y, P x y → Q (f x) (g y)) : Likeness.Opt Q S (a.map f) (b.map g) := by
  rcases h with ⟨rfl, rfl⟩ | ⟨x, y, rfl, rfl, hp⟩
  · exact .none
  · exact .some (hf x y hp)

theorem Likeness.Opt.mono {P Q : α → α → Prop} {a b : Option α} (h : Likeness.Opt P S a b) (hf : ∀ x y, P x y → Q x y) : Likeness.Opt Q S a b := by
  rcases h with ⟨rfl, rfl⟩ | ⟨x, y, rfl, rfl, hp⟩
  · exact .none
  · exact .some (hf x y hp)

/-- The same value and related contexts. -/
theorem Likeness.C.out {c c' : Ctx} (h : S.C c c') (e : Err) (v : T) : S.Out (e, v, c) (e, v, c') :=
  ⟨rfl, h.weak, fun _ => ⟨rfl, h⟩, fun _ => rfl⟩

theorem Likeness.D.out {c c' : Ctx} (h : S.D c c') {e : Err} (he : e ≠ .noError) (v : T) : S.Out (e, v, c) (e, v, c') :=
  ⟨rfl, h, fun h => absurd h he, fun _ => rfl⟩

theorem Likeness.Out.mapVal {r r' : Err × A × Ctx} (h : S.Out r r') (f : A → B) : S.Out (r.1, f r.2.1, r.2.2) (r'.1, f r'.2.1, r'.2.2) :=
  ⟨h.err, h.after, fun he => ⟨by rw [(h.ok he).1], (h.ok he).2⟩, fun hv => by rw [h.vals hv]⟩

theorem Likeness.Out.setErr {r r' : Err × A × Ctx} (h : S.Out r r') (f : A → B) :
    S.Out (r.1, f r.2.1, { r.2.2 with error := r.1 }) (r'.1, f r'.2.1, { r'.2.2 with error := r'.1 }) := by
  have := h.err
  refine ⟨h.err, ?_, fun he => ⟨by rw [(h.ok he).1], ?_⟩, fun hv => by rw [h.vals hv]⟩
  · simp only [← this]; exact h.after.set _
  · simp only [← this]; exact (h.ok he).2.set _

/-! ### Handlers -/

theorem sim_now {f : Nat → T → Ctx → Option (Err × T × Ctx)} (g : T → Tok → Err × T)
    (h : ∀ n old c, f n old c = some ((g old c.token.tok).1, (g old c.token.tok).2, c)) : S.H f := by
  intro n old c c' hc
  rw [h, h, hc.tok]
  exact .some (hc.out _ _)

theorem bool_alike : S.H boolH.to := sim_now (fun old k => boolTo old k.value) fun _ _ _ => rfl
theorem int_alike (I : IntTy) : S.H (intH I).to := sim_now (fun _ k => intTo I k.value) fun _ _ _ => rfl
theorem double_alike : S.H doubleH.to := by
  intro n old c c' hc
  simp only [doubleH, hc.value]
  exact .some (hc.out _ _)
theorem float_alike : S.H floatH.to := by
  intro n old c c' hc
  simp only [floatH, hc.value]
  exact .some (hc.out _ _)
theorem time_alike (C : Clock) : S.H (timeH C).to := by
  intro n old c c' hc
  simp only [timeH, hc.value]
  exact .some (hc.out _ _)
theorem string_alike (m : Simd) : S.H (stringH m).to := by
  intro n old c c' hc
  simp only [stringH, hc.value]
  exact .some (hc.out _ _)
theorem enumValue_alike (U : IntTy) : S.H (enumValueH U).to := by
  intro n old c c' hc
  simp only [enumValueH, hc.value]
  exact .some (hc.out _ _)

theorem enum_alike (names : List Bytes) (U : IntTy) : S.H (enumH names U).to := by
  intro n old c c' hc
  simp only [enumH, hc.value, hc.ty]
  split
  · split <;> exact .some (hc.out _ _)
  · split
    · split <;> exact .some (hc.out _ _)
    · exact .some (hc.out _ _)

theorem nullable_alike {h : Handler T} (hs : S.H h.to) : S.H (nullableH h).to := by
  intro n old c c' hc
  simp only [nullableH, hc.ty]
  split
  · exact .some (hc.out _ _)
  · exact hs n old c c' hc

theorem nullableChecked_alike {h : Handler T} (hs : S.H h.to) : S.H (nullableCheckedH h).to := by
  intro n old c c' hc
  simp only [nullableCheckedH, hc.ty]
  split
  · exact .some (hc.out _ _)
  · exact (hs n old.1 c c' hc).map fun x y h => h.mapVal fun v => (v, false)

theorem optionalChecked_alike {h : Handler T} (hs : S.H h.to) : S.H (optionalCheckedH h).to :=
  fun n old c c' hc => (hs n old.1 c c' hc).map fun _ _ h => h.mapVal fun v => (v, true)

theorem stdOptional_alike {h : Handler T} (hs : S.H h.to) : S.H (stdOptionalH h).to :=
  fun n _ c c' hc => (hs n h.init c c' hc).map fun _ _ h => h.mapVal some

theorem ptr_alike {h : Handler T} (hs : S.H h.to) : S.H (ptrH h).to := by
  intro n old c c' hc
  simp only [ptrH, hc.ty]
  split
  · exact (hs n _ c c' hc).map fun _ _ h => h.mapVal some
  · exact .some (hc.out _ _)

/-- The first step into a container. -/
theorem enter_alike {f : Ctx → Option (Err × T × Ctx)} {c c' : Ctx} {old : T} (hc : S.C c c')
    (hf : S.C c.next c'.next → Likeness.Opt S.Out S (f c.next) (f c'.next)) :
    Likeness.Opt S.Out S (if c.next.error ≠ .noError then some (c.next.error, old, c.next) else f c.next)
      (if c'.next.error ≠ .noError then some (c'.next.error, old, c'.next) else f c'.next) := by
  rw [← hc.nextError]
  by_cases he : c.next.error = .noError
  · simp only [he, ne_eq, not_true_eq_false, if_false]
    exact hf (hc.next he)
  · simp only [he, ne_eq, not_false_eq_true, if_true]
    exact .some (hc.fail.out he _)

theorem vecLoop_alike {h : Handler T} (hs : S.H h.to) (fuel : Nat) : ∀ (n : Nat) (acc : List T) (c c' : Ctx), S.C c c' →
    Likeness.Opt S.Out S (vecLoop h fuel n acc c) (vecLoop h fuel n acc c')
  | 0, _, _, _, _ => .none
  | n + 1, acc, c, c', hc => by
    rw [vecLoop, vecLoop, ← hc.ty]
    split
    · exact .some (hc.out _ _)
    · refine (hs fuel h.init c c' hc).bind ?_
      rintro ⟨e, x, c1⟩ ⟨e', x', c1'⟩ ho
      obtain rfl : e = e' := ho.err
      by_cases he : e = .noError
      · obtain ⟨hx, hc1⟩ := ho.ok he
        obtain rfl : x = x' := hx
        simp only [he, ne_eq, not_true_eq_false, if_false]
        exact enter_alike (f := vecLoop h fuel n (acc ++ [x])) hc1 fun hn => vecLoop_alike hs fuel n _ _ _ hn
      · simp only [he, ne_eq, not_false_eq_true, if_true]
        exact .some (ho.mapVal fun x => acc ++ [x])

theorem vec_alike {h : Handler T} (hs : S.H h.to) : S.H (vecH h).to := by
  intro n old c c' hc
  simp only [vecH, ← hc.ty]
  split
  · exact .some (hc.out _ _)
  · exact enter_alike hc fun hn => vecLoop_alike hs n n [] _ _ hn

theorem oneOrMany_alike {h : Handler T} (hs : S.H h.to) : S.H (oneOrManyH h).to := by
  intro n old c c' hc
  simp only [oneOrManyH, ← hc.ty]
  split
  · exact (vec_alike hs n old c c' hc).map fun _ _ h => h.setErr id
  · exact (hs n h.init c c' hc).map fun _ _ h => h.setErr fun v => old ++ [v]

theorem setLoop_alike [DecidableEq T] (ins : List T → T → List T) {h : Handler T} (hs : S.H h.to) (fuel : Nat) :
    ∀ (n : Nat) (acc : List T) (c c' : Ctx), S.C c c' → Likeness.Opt S.Out S (setLoop ins h fuel n acc c) (setLoop ins h fuel n acc c')
  | 0, _, _, _, _ => .none
  | n + 1, acc, c, c', hc => by
    rw [setLoop, setLoop, ← hc.ty]
    split
    · exact .some (hc.out _ _)
    · refine (hs fuel h.init c c' hc).bind ?_
      rintro ⟨e, x, c1⟩ ⟨e', x', c1'⟩ ho
      obtain rfl : e = e' := ho.err
      by_cases he : e = .noError
      · obtain ⟨hx, hc1⟩ := ho.ok he
        obtain rfl : x = x' := hx
        simp only [he, ne_eq, not_true_eq_false, if_false]
        split
        · exact .some (hc1.out _ _)
        · exact enter_alike (f := setLoop ins h fuel n (ins acc x)) hc1 fun hn => setLoop_alike ins hs fuel n _ _ _ hn
      · simp only [he, ne_eq, not_false_eq_true, if_true]
        exact .some (ho.mapVal fun _ => acc)

theorem set_alike [DecidableEq T] (ins : List T → T → List T) {h : Handler T} (hs : S.H h.to) : S.H (setH ins h).to := by
  intro n old c c' hc
  simp only [setH, ← hc.ty]
  split
  · exact .some (hc.out _ _)
  · exact enter_alike hc fun hn => setLoop_alike ins hs n n [] _ _ hn

/-- What the loops over arrays leave. -/
structure ArrOut (S : Likeness) (r r' : Option Err × V × Ctx) : Prop where
  err : r.1 = r'.1
  bad : ∀ e, r.1 = some e → e ≠ .noError
  after : S.D r.2.2 r'.2.2
  ok : r.1 = none → r.2.2.error = .noError → r.2.1 = r'.2.1 ∧ S.C r.2.2 r'.2.2
  vals : S.vals → r.2.1 = r'.2.1

theorem arrLoop_alike {h : Handler T} (hs : S.H h.to) (fuel : Nat) : ∀ (old : List T) (c c' : Ctx), S.D c c' → (c.error = .noError → S.C c c') →
    Likeness.Opt (ArrOut S) S (arrLoop h fuel old c) (arrLoop h fuel old c')
  | [], c, c', hd, hc => .some ⟨rfl, by simp, hd, fun _ he => ⟨rfl, hc he⟩, fun _ => rfl⟩
  | x :: xs, c, c', hd, hc => by
    rw [arrLoop, arrLoop, ← hd.1.error]
    by_cases he : c.error = .noError
    · simp only [he, ne_eq, not_true_eq_false, if_false]
      refine (hs fuel x c c' (hc he)).bind ?_
      rintro ⟨e, y, c1⟩ ⟨e', y', c1'⟩ ho
      obtain rfl : e = e' := ho.err
      by_cases hy : e = .noError
      · obtain ⟨hx, hc1⟩ := ho.ok hy
        obtain rfl : y = y' := hx
        simp only [hy, not_true_eq_false, if_false]
        have hn := hc1.set .noError
        refine (arrLoop_alike hs fuel xs _ _ hn.fail hn.next).bind ?_
        rintro ⟨r, ys, c2⟩ ⟨r', ys', c2'⟩ h2
        exact .some ⟨h2.err, h2.bad, h2.after, fun a b => ⟨by simpa using (h2.ok a b).1, (h2.ok a b).2⟩, fun hv => by simpa using h2.vals hv⟩
      · simp only [hy, not_false_eq_true, if_true]
        refine .some ⟨rfl, by simpa using hy, ho.after.set e, by simp, fun hv => ?_⟩
        have : y = y' := ho.vals hv
        rw [this]
    · simp only [he, ne_eq, not_false_eq_true, if_true]
      exact .some ⟨rfl, by simpa using he, hd, by simp, fun _ => rfl⟩

theorem arrEnd_alike {old : V} {r r' : Option Err × V × Ctx} (h : ArrOut S r r') :
    Likeness.Opt S.Out S (match r.1 with
      | some e => some (e, r.2.1, r.2.2)
      | none => if r.2.2.token.valueType ≠ .arrayEnd then some (Err.expectedArrayEnd, r.2.1, r.2.2) else some (r.2.2.error, r.2.1, r.2.2))
      (match r'.1 with
      | some e => some (e, r'.2.1, r'.2.2)
      | none => if r'.2.2.token.valueType ≠ .arrayEnd then some (Err.expectedArrayEnd, r'.2.1, r'.2.2) else some (r'.2.2.error, r'.2.1, r'.2.2)) := by
  obtain ⟨r, xs, c⟩ := r
  obtain ⟨r', xs', c'⟩ := r'
  obtain rfl : r = r' := h.err
  cases r with
  | some e => exact .some ⟨rfl, h.after, fun he => absurd he (h.bad e rfl), h.vals⟩
  | none =>
    have ht : c.token.valueType = c'.token.valueType := h.after.ty
    simp only [← ht]
    split
    · exact .some ⟨rfl, h.after, fun he => by simp at he, h.vals⟩
    · exact .some ⟨h.after.1.error, h.after, fun he => h.ok rfl he, h.vals⟩

theorem arr_alike (N : Nat) {h : Handler T} (hs : S.H h.to) : S.H (arrH N h).to := by
  intro n old c c' hc
  simp only [arrH, ← hc.ty]
  split
  · exact .some (hc.out _ _)
  · exact (arrLoop_alike hs n old _ _ hc.fail hc.next).bind fun x y h => arrEnd_alike (old := old) h

theorem avcLoop_alike {h : Handler T} (hs : S.H h.to) (fuel size : Nat) : ∀ (old : List T) (i : Nat) (c c' : Ctx), S.D c c' → (c.error = .noError → S.C c c') →
    Likeness.Opt (fun r r' => ArrOut S (r.1, (r.2.1, r.2.2.1), r.2.2.2) (r'.1, (r'.2.1, r'.2.2.1), r'.2.2.2)) S (avcLoop h fuel size i old c) (avcLoop h fuel size i old c')
  | [], i, c, c', hd, hc => .some ⟨rfl, by simp, hd, fun _ he => ⟨rfl, hc he⟩, fun _ => rfl⟩
  | x :: xs, i, c, c', hd, hc => by
    rw [avcLoop, avcLoop, ← hd.1.error, ← hd.ty]
    by_cases he : c.error = .noError
    · simp only [he, ne_eq, not_true_eq_false, if_false]
      split
      · exact .some ⟨rfl, by simp, hd, fun _ _ => ⟨rfl, hc he⟩, fun _ => rfl⟩
      refine (hs fuel x c c' (hc he)).bind ?_
      rintro ⟨e, y, c1⟩ ⟨e', y', c1'⟩ ho
      obtain rfl : e = e' := ho.err
      by_cases hy : e = .noError
      · obtain ⟨hx, hc1⟩ := ho.ok hy
        obtain rfl : y = y' := hx
        simp only [hy, not_true_eq_false, if_false]
        have hn := hc1.set .noError
        refine (avcLoop_alike hs fuel size xs (i + 1) _ _ hn.fail hn.next).bind ?_
        rintro ⟨r, ys, sz, c2⟩ ⟨r', ys', sz', c2'⟩ h2
        exact .some ⟨h2.err, h2.bad, h2.after, fun a b => ⟨by simpa using (h2.ok a b).1, (h2.ok a b).2⟩, fun hv => by simpa using h2.vals hv⟩
      · simp only [hy, not_false_eq_true, if_true]
        refine .some ⟨rfl, by simpa using hy, ho.after.set e, by simp, fun hv => ?_⟩
        have : y = y' := ho.vals hv
        rw [this]
    · simp only [he, ne_eq, not_false_eq_true, if_true]
      exact .some ⟨rfl, by simpa using he, hd, by simp, fun _ => rfl⟩

theorem avc_alike (N : Nat) {h : Handler T} (hs : S.H h.to) : S.H (avcH N h).to := by
  intro n old c c' hc
  simp only [avcH, ← hc.ty]
  split
  · exact .some (hc.out _ _)
  · exact (avcLoop_alike hs n old.2 old.1 0 _ _ hc.fail hc.next).bind fun x y h => arrEnd_alike (old := old) h

theorem tupNil_alike : S.H TupleH.nil.to := fun _ _ _ _ hc => .some (hc.out _ _)

theorem tupCons_alike {h : Handler T} {t : TupleH Ts} (hs : S.H h.to) (ht : S.H t.to) : S.H (TupleH.cons h t).to := by
  intro n old c c' hc
  simp only [TupleH.cons]
  refine (hs n old.1 c c' hc).bind ?_
  rintro ⟨e, x, c1⟩ ⟨e', x', c1'⟩ ho
  obtain rfl : e = e' := ho.err
  by_cases he : e = .noError
  · obtain ⟨hx, hc1⟩ := ho.ok he
    obtain rfl : x = x' := hx
    simp only [he, ne_eq, not_true_eq_false, if_false]
    exact enter_alike (f := fun c => (t.to n old.2 c).map fun r => (r.1, (x, r.2.1), r.2.2)) hc1 fun hn =>
      (ht n old.2 _ _ hn).map fun _ _ h => h.mapVal fun v => (x, v)
  · simp only [he, ne_eq, not_false_eq_true, if_true]
    exact .some (ho.mapVal fun x => (x, old.2))

theorem tuple_alike {t : TupleH Ts} (ht : S.H t.to) : S.H (tupleH t).to := by
  intro n old c c' hc
  simp only [tupleH, ← hc.ty]
  split
  · exact .some (hc.out _ _)
  · refine enter_alike (f := fun c => do
        let (e, x, c) ← t.to n old c
        if e ≠ .noError then some (e, x, c)
        else if c.token.valueType ≠ .arrayEnd then some (.expectedArrayEnd, x, c)
        else some (.noError, x, c)) hc fun hn => ?_
    refine (ht n old _ _ hn).bind ?_
    rintro ⟨e, x, c1⟩ ⟨e', x', c1'⟩ ho
    obtain rfl : e = e' := ho.err
    by_cases he : e = .noError
    · obtain ⟨hx, hc1⟩ := ho.ok he
      obtain rfl : x = x' := hx
      have ht : c1.token.valueType = c1'.token.valueType := hc1.ty
      simp only [he, ne_eq, not_true_eq_false, if_false, ← ht]
      split <;> exact .some (hc1.out _ _)
    · simp only [he, ne_eq, not_false_eq_true, if_true]
      exact .some ho

theorem mapLoop_alike (hf : S.full) (ins : List (Bytes × V) → Bytes × V → List (Bytes × V)) {h : Handler V} (hs : S.H h.to) (fuel : Nat) :
    ∀ (n : Nat) (e : Err) (acc : List (Bytes × V)) (c c' : Ctx), S.C c c' →
      Likeness.Opt S.Out S (mapLoop ins h fuel n e acc c) (mapLoop ins h fuel n e acc c')
  | 0, _, _, _, _, _ => .none
  | n + 1, e0, acc, c, c', hc => by
    rw [mapLoop, mapLoop, ← hc.ty, ← hc.name]
    split
    · exact .some (hc.out _ _)
    · refine (hs fuel h.init c c' hc).bind ?_
      rintro ⟨e, x, c1⟩ ⟨e', x', c1'⟩ ho
      obtain rfl : e = e' := ho.err
      by_cases he : e = .noError
      · obtain ⟨hx, hc1⟩ := ho.ok he
        obtain rfl : x = x' := hx
        simp only [he, ne_eq, not_true_eq_false, if_false, ← hc1.nextError]
        exact mapLoop_alike hf ins hs fuel n _ _ _ _ (hc1.fail.all hf)
      · simp only [he, ne_eq, not_false_eq_true, if_true]
        exact .some (ho.mapVal fun x => mapSet ins acc (escapesIn c.token.name.bytes) x)

theorem map_alike (hf : S.full) (ins : List (Bytes × V) → Bytes × V → List (Bytes × V)) {h : Handler V} (hs : S.H h.to) : S.H (mapH ins h).to := by
  intro n old c c' hc
  simp only [mapH, ← hc.ty]
  split
  · exact .some (hc.out _ _)
  · exact enter_alike hc fun hn => mapLoop_alike hf ins hs n n _ old _ _ hn

theorem tokensLoop_alike (hv : S.full ∨ ¬S.vals) : ∀ (n level : Nat) (acc : List Tok) (c c' : Ctx), S.C c c' →
    Likeness.Opt S.Out S (tokensLoop n level acc c) (tokensLoop n level acc c')
  | 0, _, _, _, _, _ => .none
  | n + 1, level, acc, c, c', hc => by
    rw [tokensLoop, tokensLoop]
    split
    · exact .some (hc.out _ _)
    · simp only [← hc.nextError, ← hc.fail.ty]
      by_cases he : c.next.error = .noError
      · have hn := hc.next he
        simp only [he, ne_eq, not_true_eq_false, if_false, ← hn.tok]
        exact tokensLoop_alike hv n _ _ _ _ hn
      · simp only [he, ne_eq, not_false_eq_true, if_true]
        refine .some ⟨rfl, hc.fail, fun h => absurd h he, fun h => ?_⟩
        have hf : S.full := hv.resolve_right (fun hh => hh h)
        rw [(hc.fail.all hf).tok]

theorem tokens_alike (hv : S.full ∨ ¬S.vals) : S.H tokensH.to := by
  intro n old c c' hc
  simp only [tokensH, ← hc.ty, ← hc.tok, ← hc.1.error]
  split
  · exact .some (hc.out _ _)
  · exact tokensLoop_alike hv n 1 _ c c' hc

theorem jmap_alike (hv : S.full ∨ ¬S.vals) : S.H jmapH.to := by
  intro n old c c' hc
  refine (tokens_alike hv n old.tokens c c' hc).map fun x y hxy => ?_
  simp only [jmapRead, ← hxy.err]
  by_cases he : x.1 = .noError
  · obtain ⟨h1, h2⟩ := hxy.ok he
    simp only [if_pos he, ← h1]
    split
    · exact h2.out _ _
    · exact h2.out _ _
  · simp only [if_neg he]
    exact ⟨rfl, hxy.after, fun h => absurd h he, fun h => by rw [hxy.vals h]⟩

/-! ### Structs -/

/-- What skipping leaves. -/
def SkipOut (S : Likeness) (c c' : Ctx) : Prop := S.D c c' ∧ (c.error = .noError → S.C c c')

theorem skipLoop_alike (start fin : Ty) : ∀ (n depth : Nat) (c c' : Ctx), S.C c c' →
    Likeness.Opt (SkipOut S) S (skipLoop start fin n depth c) (skipLoop start fin n depth c')
  | 0, _, _, _, _ => .none
  | n + 1, depth, c, c', hc => by
    rw [skipLoop, skipLoop]
    split
    · exact .some ⟨hc.weak, fun _ => hc⟩
    · simp only [← hc.nextError, ← hc.fail.ty]
      by_cases he : c.next.error = .noError
      · simp only [he, ne_eq, not_true_eq_false, if_false]
        exact skipLoop_alike start fin n _ _ _ (hc.next he)
      · simp only [he, ne_eq, not_false_eq_true, if_true]
        exact .some ⟨hc.fail, fun h => absurd h he⟩

theorem skip_alike (n : Nat) (c c' : Ctx) (hc : S.C c c') : Likeness.Opt (SkipOut S) S (skipArrayOrObject n c) (skipArrayOrObject n c') := by
  simp only [skipArrayOrObject, ← hc.ty]
  split
  · exact skipLoop_alike _ _ n 1 c c' hc
  · split
    · exact skipLoop_alike _ _ n 1 c c' hc
    · exact .some ⟨hc.weak, fun _ => hc⟩

/-- What looking for a member leaves. -/
structure FindOut (S : Likeness) (r r' : Err × T × Ctx × List Bool) : Prop where
  out : S.Out (r.1, r.2.1, r.2.2.1) (r'.1, r'.2.1, r'.2.2.1)
  asg : r.2.2.2 = r'.2.2.2
  miss : r.1 = .missingPropertyMember → r.2.1 = r'.2.1 ∧ S.C r.2.2.1 r'.2.2.1

theorem find_alike {M : Meta T} (hM : ∀ v ∈ M.visit 0 [], S.H v.mem.to) (fuel : Nat) (old : T) (c c' : Ctx) (asg : List Bool) (hc : S.C c c') :
    Likeness.Opt (FindOut S) S (M.find fuel old c asg) (M.find fuel old c' asg) := by
  have found : ∀ v : Visit T, S.H v.mem.to →
      Likeness.Opt (fun r r' => FindOut S r r' ∧ r.1 ≠ .missingPropertyMember ∧ r'.1 ≠ .missingPropertyMember) S
        ((v.mem.to fuel old c).map fun r => (matchedMemberResult r.1, r.2.1, r.2.2, asg.set v.idx true))
        ((v.mem.to fuel old c').map fun r => (matchedMemberResult r.1, r.2.1, r.2.2, asg.set v.idx true)) := by
    intro v hv
    refine (hv fuel old c c' hc).map fun x y h => ⟨⟨⟨?_, h.after, fun he => h.ok ?_, h.vals⟩, rfl, fun h => absurd h (matched_ne _)⟩, matched_ne _, matched_ne _⟩
    · simp only [h.err]
    · revert he
      simp only [matchedMemberResult]
      split <;> simp
  simp only [Meta.find, unpack_eq M 0 [], unpackVisit_find, ← hc.name]
  cases h1 : (M.visit 0 []).find? (fun v => v.mem.named true c.token.name.bytes) with
  | some v =>
    refine (found v (hM v (List.mem_of_find?_eq_some h1))).bind ?_
    rintro x y ⟨h, g, g'⟩
    rw [if_neg g, if_neg g']
    exact .some h
  | none =>
    simp only [Option.bind_eq_bind, Option.bind_some, if_true, ← hc.name]
    cases h2 : (M.visit 0 []).find? (fun v => v.mem.named false c.token.name.bytes) with
    | some v => exact (found v (hM v (List.mem_of_find?_eq_some h2))).mono fun x y h => h.1
    | none => exact .some ⟨hc.out _ _, rfl, fun _ => ⟨rfl, hc⟩⟩

/-- What an unknown member leaves. -/
structure StopOut (S : Likeness) (r r' : Option Err × Ctx) : Prop where
  err : r.1 = r'.1
  bad : ∀ e, r.1 = some e → e ≠ .noError
  after : S.D r.2 r'.2
  ok : r.1 = none → S.C r.2 r'.2

theorem unknown_alike (n : Nat) (name : Bytes) (c c' : Ctx) (hc : S.C c c') : Likeness.Opt (StopOut S) S (c.unknown n name) (c'.unknown n name) := by
  simp only [Ctx.unknown]
  have key : ∀ d d' : Ctx, S.C d d' → Likeness.Opt (StopOut S) S
      (if d.allowMissing = true then do
        let c ← skipArrayOrObject n d
        some (if c.error ≠ .noError then some c.error else none, c)
      else some (some Err.missingPropertyMember, d))
      (if d'.allowMissing = true then do
        let c ← skipArrayOrObject n d'
        some (if c.error ≠ .noError then some c.error else none, c)
      else some (some Err.missingPropertyMember, d')) := by
    intro d d' hd
    rw [← hd.1.allowMissing]
    split
    · refine (skip_alike n d d' hd).bind ?_
      rintro x y ⟨h1, h2⟩
      refine .some ⟨by simp only [h1.1.error], ?_, h1, ?_⟩
      · intro e he
        simp only [ne_eq, ite_not] at he
        split at he
        · cases he
        · cases he; assumption
      · intro he
        simp only [ne_eq, ite_not] at he
        split at he
        · exact h2 (by assumption)
        · cases he
    · exact .some ⟨rfl, by simp, hd.weak, by simp⟩
  rw [← hc.1.track]
  split
  · refine key _ _ ⟨⟨hc.1.error, ?_, hc.1.unassigned, hc.1.allowMissing, hc.1.allowUnassigned, rfl⟩, hc.2⟩
    simp only [hc.1.missing]
  · exact key _ _ hc

/-- What the loop over the members leaves. -/
structure LoopOut (S : Likeness) (r r' : Option Err × T × Ctx × List Bool) : Prop where
  err : r.1 = r'.1
  bad : ∀ e, r.1 = some e → e ≠ .noError
  after : S.D r.2.2.1 r'.2.2.1
  ok : r.1 = none → r.2.1 = r'.2.1 ∧ S.C r.2.2.1 r'.2.2.1 ∧ r.2.2.2 = r'.2.2.2
  vals : S.vals → r.2.1 = r'.2.1

theorem structLoop_alike {M : Meta T} (hM : ∀ v ∈ M.visit 0 [], S.H v.mem.to) (fuel : Nat) : ∀ (n : Nat) (old : T) (c c' : Ctx) (asg : List Bool), S.C c c' →
    Likeness.Opt (LoopOut S) S (structLoop M fuel n old c asg) (structLoop M fuel n old c' asg)
  | 0, _, _, _, _, _ => .none
  | n + 1, old, c, c', asg, hc => by
    by_cases hv : c.token.valueType = .objectEnd
    · rw [structLoop, structLoop, ← hc.ty, if_pos hv, if_pos hv]
      exact .some ⟨rfl, by simp, hc.weak, fun _ => ⟨rfl, hc, rfl⟩, fun _ => rfl⟩
    · rw [structLoop_succ _ _ _ _ _ _ hv, structLoop_succ _ _ _ _ _ _ (by rw [← hc.ty]; exact hv), ← hc.name]
      refine (find_alike hM fuel old c c' asg hc).bind ?_
      rintro ⟨e, v, c1, asg1⟩ ⟨e', v', c1', asg1'⟩ ⟨ho, ha, hm⟩
      obtain rfl : e = e' := ho.err
      obtain rfl : asg1 = asg1' := ha
      have hstep : Likeness.Opt (fun q q' => StopOut S q q' ∧ (q.1 = none → v = v') ∧ (S.vals → v = v')) S
          (if e = .missingPropertyMember then c1.unknown fuel c.token.name.bytes else some (if e ≠ .noError then some e else none, c1))
          (if e = .missingPropertyMember then c1'.unknown fuel c.token.name.bytes else some (if e ≠ .noError then some e else none, c1')) := by
        by_cases hmp : e = .missingPropertyMember
        · obtain ⟨hv1, hc1⟩ := hm hmp
          rw [if_pos hmp, if_pos hmp]
          exact (unknown_alike fuel _ _ _ hc1).mono fun x y h => ⟨h, fun _ => hv1, fun _ => hv1⟩
        · rw [if_neg hmp, if_neg hmp]
          by_cases he : e = .noError
          · obtain ⟨hv1, hc1⟩ := ho.ok he
            simp only [he, ne_eq, not_true_eq_false, if_false]
            exact .some ⟨⟨rfl, by simp, hc1.weak, fun _ => hc1⟩, fun _ => hv1, fun _ => hv1⟩
          · simp only [he, ne_eq, not_false_eq_true, if_true]
            exact .some ⟨⟨rfl, by simpa using he, ho.after, by simp⟩, by simp, ho.vals⟩
      refine hstep.bind ?_
      rintro ⟨stop, c2⟩ ⟨stop', c2'⟩ ⟨hs, hvv, hvals⟩
      obtain rfl : stop = stop' := hs.err
      cases stop with
      | some e' => exact .some ⟨rfl, hs.bad, hs.after, by simp, hvals⟩
      | none =>
        have hc2 := hs.ok rfl
        obtain rfl : v = v' := hvv rfl
        simp only [← Likeness.C.nextError hc2]
        by_cases hne : c2.next.error = .noError
        · simp only [hne, ne_eq, not_true_eq_false, if_false]
          exact structLoop_alike hM fuel n v _ _ asg1 (Likeness.C.next hc2 hne)
        · simp only [hne, ne_eq, not_false_eq_true, if_true]
          exact .some ⟨rfl, by simpa using hne, Likeness.C.fail hc2, by simp, fun _ => rfl⟩

theorem struct_alike {M : Meta T} (hM : ∀ v ∈ M.visit 0 [], S.H v.mem.to) : S.H (structTo M) := by
  intro n old c c' hc
  simp only [structTo, ← hc.ty]
  split
  · exact .some (hc.out _ _)
  · have hne := S.err hc.2
    have hD : S.D { c with tz := (c.tz.nextToken c.token).2.1, token := (c.tz.nextToken c.token).2.2 }
        { c' with tz := (c'.tz.nextToken c'.token).2.1, token := (c'.tz.nextToken c'.token).2.2 } := ⟨⟨hc.1.error, hc.1.missing, hc.1.unassigned, hc.1.allowMissing, hc.1.allowUnassigned, hc.1.track⟩, S.fail hc.2⟩
    rw [← hne]
    by_cases he : (c.tz.nextToken c.token).1 = .noError
    · simp only [he, ne_eq, not_true_eq_false, if_false]
      have hC : S.C { c with tz := (c.tz.nextToken c.token).2.1, token := (c.tz.nextToken c.token).2.2 }
        { c' with tz := (c'.tz.nextToken c'.token).2.1, token := (c'.tz.nextToken c'.token).2.2 } := ⟨hD.1, S.next hc.2 he⟩
      refine (structLoop_alike hM n n old _ _ (List.replicate M.count false) hC).bind ?_
      rintro ⟨stop, v, c1, asg⟩ ⟨stop', v', c1', asg'⟩ hl
      obtain rfl : stop = stop' := hl.err
      cases stop with
      | some e => exact .some ⟨rfl, hl.after, fun h => absurd h (hl.bad e rfl), hl.vals⟩
      | none =>
        obtain ⟨h1, h2, h3⟩ := hl.ok rfl
        obtain rfl : v = v' := h1
        obtain rfl : asg = asg' := h3
        have h2 : S.C c1 c1' := h2
        simp only [← h2.1.track]
        split
        · split
          · simp only [← h2.1.allowUnassigned]
            refine .some (Likeness.C.out ?_ _ _)
            exact ⟨⟨h2.1.error, h2.1.missing, by simp only [h2.1.unassigned], h2.1.allowMissing, rfl, rfl⟩, h2.2⟩
          · simp only [← h2.1.allowUnassigned]
            exact .some (h2.out _ _)
        · exact .some (h2.out _ _)
    · simp only [he, ne_eq, not_false_eq_true, if_true]
      exact .some (hD.out he _)

theorem memberOf_alike {h : Handler M} (hs : S.H h.to) (names : List Bytes) (opt : Bool) (get : T → M) (set : M → T → T) :
    S.H (Member.of names opt h get set).to :=
  fun n old c c' hc => (hs n (get old) c c' hc).map fun _ _ h => h.mapVal fun v => set v old

theorem memberUp_alike {m : Member A} (hs : S.H m.to) (get : T → A) (set : A → T → T) : S.H (m.up get set).to :=
  fun n old c c' hc => (hs n (get old) c c' hc).map fun _ _ h => h.mapVal fun v => set v old

mutual
/-- Every type; maps only if what follows a failed call is alike. -/
theorem CType.alike : {T : Type} → (t : CType T) → S.full ∨ t.NoMap → S.full ∨ ¬S.vals ∨ t.NoTokens → S.H t.handler.to
  | _, .bool, _, _ => bool_alike
  | _, .int I, _, _ => int_alike I
  | _, .double, _, _ => double_alike
  | _, .float, _, _ => float_alike
  | _, .time C, _, _ => time_alike C
  | _, .string m, _, _ => string_alike m
  | _, .enum names U, _, _ => enum_alike names U
  | _, .enumValue U, _, _ => enumValue_alike U
  | _, .nullable t, h, g => by simp only [CType.NoMap, CType.NoTokens] at h g; exact nullable_alike (t.alike h g)
  | _, .nullableChecked t, h, g => by simp only [CType.NoMap, CType.NoTokens] at h g; exact nullableChecked_alike (t.alike h g)
  | _, .optional t, h, g => by simp only [CType.NoMap, CType.NoTokens] at h g; exact t.alike h g
  | _, .optionalChecked t, h, g => by simp only [CType.NoMap, CType.NoTokens] at h g; exact optionalChecked_alike (t.alike h g)
  | _, .stdOptional t, h, g => by simp only [CType.NoMap, CType.NoTokens] at h g; exact stdOptional_alike (t.alike h g)
  | _, .sharedPtr t, h, g => by simp only [CType.NoMap, CType.NoTokens] at h g; exact ptr_alike (t.alike h g)
  | _, .uniquePtr t, h, g => by simp only [CType.NoMap, CType.NoTokens] at h g; exact ptr_alike (t.alike h g)
  | _, .silentString m, _, _ => string_alike m
  | _, .silentVector t, h, g => by simp only [CType.NoMap, CType.NoTokens] at h g; exact vec_alike (t.alike h g)
  | _, .silentUniquePtr t, h, g => by simp only [CType.NoMap, CType.NoTokens] at h g; exact ptr_alike (t.alike h g)
  | _, .vector t, h, g => by simp only [CType.NoMap, CType.NoTokens] at h g; exact vec_alike (t.alike h g)
  | _, .oneOrMany t, h, g => by simp only [CType.NoMap, CType.NoTokens] at h g; exact oneOrMany_alike (t.alike h g)
  | _, .array N t, h, g => by simp only [CType.NoMap, CType.NoTokens] at h g; exact arr_alike N (t.alike h g)
  | _, .arrayVariable N t, h, g => by simp only [CType.NoMap, CType.NoTokens] at h g; exact avc_alike N (t.alike h g)
  | _, .tuple ts, h, g => by simp only [CType.NoMap, CType.NoTokens] at h g; exact tuple_alike (ts.alike h g)
  | _, .set eq ins t, h, g => by simp only [CType.NoMap, CType.NoTokens] at h g; exact set_alike ins (t.alike h g)
  | _, .map ins t, h, g => by
    simp only [CType.NoMap, CType.NoTokens, or_false] at h g
    exact map_alike h ins (t.alike (.inl h) g)
  | _, .tokens, _, g => by simp only [CType.NoTokens, or_false] at g; exact tokens_alike g
  | _, .jmap, _, g => by simp only [CType.NoTokens, or_false] at g; exact jmap_alike g
  | _, .struct init s, h, g => by
    simp only [CType.NoMap, CType.NoTokens] at h g
    exact struct_alike (all_visit (P := fun m => S.H m.to) _ (s.alike h g) 0 [])
theorem CTypes.alike : {Ts : Type} → (ts : CTypes Ts) → S.full ∨ ts.NoMap → S.full ∨ ¬S.vals ∨ ts.NoTokens → S.H ts.handler.to
  | _, .nil, _, _ => tupNil_alike
  | _, .cons t ts, h, g => by
    simp only [CTypes.NoMap, CTypes.NoTokens] at h g
    exact tupCons_alike (t.alike (h.imp_right And.left) (g.imp_right fun g => g.imp_right And.left))
      (ts.alike (h.imp_right And.right) (g.imp_right fun g => g.imp_right And.right))
theorem CStruct.alike : {T : Type} → (s : CStruct T) → S.full ∨ s.NoMap → S.full ∨ ¬S.vals ∨ s.NoTokens → s.meta.All (fun m => S.H m.to)
  | _, .mk ms ss, h, g => by
    simp only [CStruct.NoMap, CStruct.NoTokens] at h g
    rw [CStruct.meta]
    exact .mk (ms.alike (h.imp_right And.left) (g.imp_right fun g => g.imp_right And.left))
      (ss.alike (h.imp_right And.right) (g.imp_right fun g => g.imp_right And.right))
theorem CMembers.alike : {T : Type} → (ms : CMembers T) → S.full ∨ ms.NoMap → S.full ∨ ¬S.vals ∨ ms.NoTokens → ∀ m ∈ ms.members, S.H m.to
  | _, .nil, _, _, m, hm => by simp [CMembers.members] at hm
  | _, .cons names t get set ms, h, g, m, hm => by
    simp only [CMembers.NoMap, CMembers.NoTokens] at h g
    rw [CMembers.members] at hm
    rcases List.mem_cons.mp hm with rfl | hm
    · exact memberOf_alike (t.alike (h.imp_right And.left) (g.imp_right fun g => g.imp_right And.left)) _ _ _ _
    · exact ms.alike (h.imp_right And.right) (g.imp_right fun g => g.imp_right And.right) m hm
theorem CSupers.alike : {T : Type} → (ss : CSupers T) → S.full ∨ ss.NoMap → S.full ∨ ¬S.vals ∨ ss.NoTokens → SupersAll (fun m => S.H m.to) ss.supers
  | _, .nil, _, _ => .nil
  | _, .cons name get set s ss, h, g => by
    simp only [CSupers.NoMap, CSupers.NoTokens] at h g
    rw [CSupers.supers]
    exact .cons (all_up (fun m hm => memberUp_alike hm get set) _ (s.alike (h.imp_right And.left) (g.imp_right fun g => g.imp_right And.left)))
      (ss.alike (h.imp_right And.right) (g.imp_right fun g => g.imp_right And.right))
end

theorem parseTo_alike (t : CType T) (hm : S.full ∨ t.NoMap) (hk : S.full ∨ ¬S.vals ∨ t.NoTokens) (n : Nat) (old : T) (c c' : Ctx) (hc : S.C c c') :
    Likeness.Opt S.Out S (parseTo t.handler n old c) (parseTo t.handler n old c') := by
  simp only [parseTo]
  exact enter_alike (f := fun c => (t.handler.to n old c).map fun r => (r.1, r.2.1, { r.2.2 with error := r.1 })) hc fun hn =>
    (t.alike hm hk n old _ _ hn).map fun _ _ h => h.setErr id

end JsonStruct
