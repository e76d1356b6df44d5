import Verif.Lemmas.Saved
import Verif.Lemmas.Defined
import Verif.Props.Float
import Verif.Props.Float32
import Verif.Lemmas.Time

/- Reading keeps `CType.Kept`, and gives values for which something is written. -/

namespace JsonStruct

theorem min_nonpos (I : IntTy) : I.min ≤ 0 := by
  unfold IntTy.min
  split
  · exact Int.neg_nonpos_of_nonneg (Int.natCast_nonneg _)
  · exact Int.le_refl _

theorem makeInteger_inRange {I : IntTy} (h : I.Supported) (k : Nat) (b : Bool) : I.InRange (makeInteger I k b) := by
  have h0 := min_nonpos I
  have h1 : I.signed = true → I.min = -((I.max : Int) + 1) := fun hs => (by have := (tyOk h).min_eq hs; omega)
  unfold makeInteger IntTy.InRange
  split
  · next hs =>
    have := h1 hs
    split
    · split <;> constructor <;> omega
    · split <;> constructor <;> omega
  · split <;> constructor <;> omega

theorem convert_inRange {I : IntTy} (h : I.Supported) (p : Parsed) : I.InRange (convertToInteger I p) := by
  have h0 := min_nonpos I
  have hz : I.InRange 0 := ⟨h0, by omega⟩
  unfold convertToInteger
  dsimp only
  repeat' split
  all_goals first
    | exact hz
    | exact makeInteger_inRange h _ _
    | (constructor <;> omega)

theorem intTo_inRange {I : IntTy} (h : I.Supported) (b : Bytes) : I.InRange (intTo I b).2 := by
  have hz : I.InRange 0 := ⟨min_nonpos I, by omega⟩
  unfold intTo
  dsimp only
  repeat' split
  all_goals first | exact convert_inRange h _ | exact hz

/-- Reading keeps `K`, and what was read has `G`. -/
def Stores (K G : T → Prop) (f : Nat → T → Ctx → Option (Err × T × Ctx)) : Prop :=
  ∀ n old c v c', f n old c = some (.noError, v, c') → K old → G v

theorem vecLoop_stores {h : Handler T} {K G : T → Prop} (hh : Stores K G h.to) (hi : K h.init) (fuel n : Nat) : ∀ acc c x c',
    vecLoop h fuel n acc c = some (.noError, x, c') → (∀ y ∈ acc, G y) → ∀ y ∈ x, G y := by
  induction n with
  | zero => intro acc c x c' g; simp [vecLoop] at g
  | succ n ih =>
    intro acc c x c' g k
    simp only [vecLoop] at g
    split at g
    · simp only [Option.some.injEq, Prod.mk.injEq] at g; obtain ⟨_, rfl, _⟩ := g; exact k
    · simp only [Option.bind_eq_bind, Option.bind_eq_some_iff, Prod.exists] at g
      obtain ⟨e1, x1, c1, g1, g⟩ := g
      try dsimp only at g
      split at g
      · next he => simp only [Option.some.injEq, Prod.mk.injEq] at g; exact absurd g.1 he
      · next he =>
        have he : e1 = .noError := by simpa using he
        subst he
        have hx := hh _ _ _ _ _ g1 hi
        split at g
        · next he => simp only [Option.some.injEq, Prod.mk.injEq] at g; exact absurd g.1 he
        · refine ih _ _ _ _ g fun y hy => ?_
          rcases List.mem_append.mp hy with hy | hy
          · exact k y hy
          · rw [List.mem_singleton.mp hy]; exact hx

theorem vec_stores {h : Handler T} {K G : T → Prop} (hh : Stores K G h.to) (hi : K h.init) :
    Stores (fun _ => True) (fun v => ∀ y ∈ v, G y) (vecH h).to := by
  intro n old c v c' g _
  simp only [vecH] at g
  split at g
  · simp at g
  · split at g
    · next he => simp only [Option.some.injEq, Prod.mk.injEq] at g; exact absurd g.1 he
    · exact vecLoop_stores hh hi _ _ _ _ _ _ g (by simp)

theorem oneOrMany_stores {h : Handler T} {K G : T → Prop} (hh : Stores K G h.to) (hi : K h.init) :
    Stores (fun v => ∀ y ∈ v, G y) (fun v => ∀ y ∈ v, G y) (oneOrManyH h).to := by
  intro n old c v c' g k
  simp only [oneOrManyH] at g
  split at g
  · simp only [Option.map_eq_some_iff, Prod.mk.injEq, Prod.exists] at g
    obtain ⟨e1, _, _, g, rfl, rfl, _⟩ := g
    exact vec_stores hh hi _ _ _ _ _ g trivial
  · simp only [Option.map_eq_some_iff, Prod.mk.injEq, Prod.exists] at g
    obtain ⟨e1, x1, _, g, rfl, rfl, _⟩ := g
    intro y hy
    rcases List.mem_append.mp hy with hy | hy
    · exact k y hy
    · rw [List.mem_singleton.mp hy]; exact hh _ _ _ _ _ g hi

theorem arrLoop_stores {h : Handler T} {K G : T → Prop} (hh : Stores K G h.to) (fuel : Nat) (old : List T) : ∀ c r x c',
    arrLoop h fuel old c = some (r, x, c') → (∀ y ∈ old, K y) → r ≠ some .noError ∧ (r = none → x.length = old.length ∧ ∀ y ∈ x, G y) := by
  induction old with
  | nil =>
    intro c r x c' g k
    simp only [arrLoop, Option.some.injEq, Prod.mk.injEq] at g; obtain ⟨rfl, rfl, _⟩ := g; simp
  | cons o os ih =>
    intro c r x c' g k
    simp only [arrLoop] at g
    split at g
    · next he =>
      simp only [Option.some.injEq, Prod.mk.injEq] at g; obtain ⟨rfl, _, _⟩ := g
      exact ⟨by simpa using he, by simp⟩
    · simp only [Option.bind_eq_bind, Option.bind_eq_some_iff, Prod.exists] at g
      obtain ⟨e1, x1, c1, g1, g⟩ := g
      try dsimp only at g
      split at g
      · next he =>
        simp only [Option.some.injEq, Prod.mk.injEq] at g; obtain ⟨rfl, _, _⟩ := g
        exact ⟨by simpa using he, by simp⟩
      · next he =>
        have he : e1 = .noError := by simpa using he
        subst he
        have hx := hh _ _ _ _ _ g1 (k _ (List.mem_cons_self ..))
        simp only [Option.bind_eq_some_iff, Prod.exists, Option.some.injEq, Prod.mk.injEq] at g
        obtain ⟨r2, x2, c2, g2, rfl, rfl, _⟩ := g
        obtain ⟨m1, m2⟩ := ih _ _ _ _ g2 fun y hy => k y (List.mem_cons_of_mem _ hy)
        refine ⟨m1, fun hr => ?_⟩
        obtain ⟨m2, m3⟩ := m2 hr
        exact ⟨by simp [m2], by simpa using ⟨hx, m3⟩⟩

theorem arr_stores (N : Nat) {h : Handler T} {K G : T → Prop} (hh : Stores K G h.to) :
    Stores (fun v => v.length = N ∧ ∀ y ∈ v, K y) (fun v => v.length = N ∧ ∀ y ∈ v, G y) (arrH N h).to := by
  intro n old c x c' g k
  simp only [arrH] at g
  split at g
  · simp at g
  · simp only [Option.bind_eq_bind, Option.bind_eq_some_iff, Prod.exists] at g
    obtain ⟨r1, x1, c1, g1, g⟩ := g
    obtain ⟨m1, m2⟩ := arrLoop_stores hh _ _ _ _ _ _ g1 k.2
    try dsimp only at g
    cases r1 with
    | some r1 =>
      simp only [Option.some.injEq, Prod.mk.injEq] at g; obtain ⟨rfl, _, _⟩ := g
      exact absurd rfl m1
    | none =>
      simp only at g
      obtain ⟨m2, m3⟩ := m2 rfl
      split at g
      · simp at g
      · simp only [Option.some.injEq, Prod.mk.injEq] at g; obtain ⟨_, rfl, _⟩ := g; exact ⟨m2.trans k.1, m3⟩

theorem avcLoop_stores {h : Handler T} {K G : T → Prop} (hh : Stores K G h.to) (hGK : ∀ y, G y → K y) (fuel size : Nat) (old : List T) : ∀ i c r x s c',
    avcLoop h fuel size i old c = some (r, x, s, c') → (∀ y ∈ old, K y) →
    r ≠ some .noError ∧ (r = none → x.length = old.length ∧ (∀ y ∈ x, K y) ∧
      ((s = size ∧ ∀ y ∈ x, G y) ∨ ∃ k, k < old.length ∧ s = i + k ∧ ∀ y ∈ x.take k, G y)) := by
  induction old with
  | nil =>
    intro i c r x s c' g k
    simp only [avcLoop, Option.some.injEq, Prod.mk.injEq] at g; obtain ⟨rfl, rfl, rfl, _⟩ := g; simp
  | cons o os ih =>
    intro i c r x s c' g k
    simp only [avcLoop] at g
    split at g
    · next he =>
      simp only [Option.some.injEq, Prod.mk.injEq] at g; obtain ⟨rfl, _, _⟩ := g
      exact ⟨by simpa using he, by simp⟩
    · split at g
      · simp only [Option.some.injEq, Prod.mk.injEq] at g; obtain ⟨rfl, rfl, rfl, _⟩ := g
        exact ⟨by simp, fun _ => ⟨rfl, k, .inr ⟨0, by simp, rfl, by simp⟩⟩⟩
      · simp only [Option.bind_eq_bind, Option.bind_eq_some_iff, Prod.exists] at g
        obtain ⟨e1, x1, c1, g1, g⟩ := g
        try dsimp only at g
        split at g
        · next he =>
          simp only [Option.some.injEq, Prod.mk.injEq] at g; obtain ⟨rfl, _, _⟩ := g
          exact ⟨by simpa using he, by simp⟩
        · next he =>
          have he : e1 = .noError := by simpa using he
          subst he
          have hx := hh _ _ _ _ _ g1 (k _ (List.mem_cons_self ..))
          simp only [Option.bind_eq_some_iff, Prod.exists, Option.some.injEq, Prod.mk.injEq] at g
          obtain ⟨r2, x2, s2, c2, g2, rfl, rfl, rfl, _⟩ := g
          obtain ⟨m1, m2⟩ := ih _ _ _ _ _ _ g2 fun y hy => k y (List.mem_cons_of_mem _ hy)
          refine ⟨m1, fun hr => ?_⟩
          obtain ⟨m2, m3, m4⟩ := m2 hr
          refine ⟨by simp [m2], by simpa using ⟨hGK _ hx, m3⟩, ?_⟩
          rcases m4 with ⟨m4, m5⟩ | ⟨j, m4, m5, m6⟩
          · exact .inl ⟨m4, by simpa using ⟨hx, m5⟩⟩
          · exact .inr ⟨j + 1, by simp; omega, by omega, by simpa using ⟨hx, m6⟩⟩

theorem avc_stores (N : Nat) {h : Handler T} {K G : T → Prop} (hh : Stores K G h.to) (hGK : ∀ y, G y → K y) :
    Stores (fun v => v.1.length = N ∧ (v.2 < N ∨ v.2 = 0) ∧ ∀ y ∈ v.1, K y)
      (fun v => v.1.length = N ∧ (v.2 < N ∨ v.2 = 0) ∧ (∀ y ∈ v.1, K y) ∧ ∀ y ∈ v.1.take v.2, G y) (avcH N h).to := by
  intro n old c x c' g k
  simp only [avcH] at g
  split at g
  · simp at g
  · simp only [Option.bind_eq_bind, Option.bind_eq_some_iff, Prod.exists] at g
    obtain ⟨r1, x1, s1, c1, g1, g⟩ := g
    obtain ⟨m1, m2⟩ := avcLoop_stores hh hGK _ _ _ _ _ _ _ _ _ g1 k.2.2
    try dsimp only at g
    cases r1 with
    | some r1 =>
      simp only [Option.some.injEq, Prod.mk.injEq] at g; obtain ⟨rfl, _, _⟩ := g
      exact absurd rfl m1
    | none =>
      simp only at g
      obtain ⟨m2, m3, m4⟩ := m2 rfl
      split at g
      · simp at g
      · simp only [Option.some.injEq, Prod.mk.injEq] at g; obtain ⟨_, rfl, _⟩ := g
        dsimp only
        refine ⟨m2.trans k.1, ?_, m3, ?_⟩
        · rcases m4 with ⟨m4, _⟩ | ⟨j, m4, m5, _⟩
          · rw [m4]; exact k.2.1
          · left; have := k.1; omega
        · rcases m4 with ⟨_, m5⟩ | ⟨j, m4, m5, m6⟩
          · exact fun y hy => m5 y (List.mem_of_mem_take hy)
          · rw [m5, Nat.zero_add]; exact m6

theorem tupCons_stores {h : Handler T} {t : TupleH Ts} {K G : T → Prop} {K' G' : Ts → Prop} (hh : Stores K G h.to) (ht : Stores K' G' t.to) :
    Stores (fun v => K v.1 ∧ K' v.2) (fun v => G v.1 ∧ G' v.2) (TupleH.cons h t).to := by
  intro n old c x c' g k
  simp only [TupleH.cons, Option.bind_eq_bind, Option.bind_eq_some_iff, Prod.exists] at g
  obtain ⟨e1, x1, c1, g1, g⟩ := g
  try dsimp only at g
  split at g
  · next he => simp only [Option.some.injEq, Prod.mk.injEq] at g; exact absurd g.1 he
  · next he =>
    have he : e1 = .noError := by simpa using he
    subst he
    split at g
    · next he => simp only [Option.some.injEq, Prod.mk.injEq] at g; exact absurd g.1 he
    · simp only [Option.map_eq_some_iff, Prod.mk.injEq, Prod.exists] at g
      obtain ⟨_, x2, _, g, rfl, rfl, _⟩ := g
      exact ⟨hh _ _ _ _ _ g1 k.1, ht _ _ _ _ _ g k.2⟩

theorem tuple_stores {t : TupleH Ts} {K G : Ts → Prop} (ht : Stores K G t.to) : Stores K G (tupleH t).to := by
  intro n old c x c' g k
  simp only [tupleH] at g
  split at g
  · simp at g
  · split at g
    · next he => simp only [Option.some.injEq, Prod.mk.injEq] at g; exact absurd g.1 he
    · simp only [Option.bind_eq_bind, Option.bind_eq_some_iff, Prod.exists] at g
      obtain ⟨e1, x1, c1, g1, g⟩ := g
      try dsimp only at g
      split at g
      · next he => simp only [Option.some.injEq, Prod.mk.injEq] at g; exact absurd g.1 he
      · next he =>
        have he : e1 = .noError := by simpa using he
        subst he
        split at g
        · simp at g
        · simp only [Option.some.injEq, Prod.mk.injEq] at g; obtain ⟨_, rfl, _⟩ := g
          exact ht _ _ _ _ _ g1 k

theorem setLoop_stores [DecidableEq T] {ins : List T → T → List T} (hp : ∀ l x, (ins l x).Perm (x :: l)) (ho : SetKeepsOrder ins)
    {h : Handler T} {K G : T → Prop} (hh : Stores K G h.to) (hi : K h.init) (fuel n : Nat) : ∀ acc c x c',
    setLoop ins h fuel n acc c = some (.noError, x, c') → (acc.Nodup ∧ acc.foldl ins [] = acc ∧ ∀ y ∈ acc, G y) →
      x.Nodup ∧ x.foldl ins [] = x ∧ ∀ y ∈ x, G y := by
  induction n with
  | zero => intro acc c x c' g; simp [setLoop] at g
  | succ n ih =>
    intro acc c x c' g k
    simp only [setLoop] at g
    split at g
    · simp only [Option.some.injEq, Prod.mk.injEq] at g; obtain ⟨_, rfl, _⟩ := g; exact k
    · simp only [Option.bind_eq_bind, Option.bind_eq_some_iff, Prod.exists] at g
      obtain ⟨e1, x1, c1, g1, g⟩ := g
      try dsimp only at g
      split at g
      · next he => simp only [Option.some.injEq, Prod.mk.injEq] at g; exact absurd g.1 he
      · next he =>
        have he : e1 = .noError := by simpa using he
        subst he
        have hx := hh _ _ _ _ _ g1 hi
        split at g
        · simp at g
        · next hm =>
          split at g
          · next he => simp only [Option.some.injEq, Prod.mk.injEq] at g; exact absurd g.1 he
          · refine ih _ _ _ _ g ⟨?_, ho _ _ k.1 k.2.1 hm, fun y hy => ?_⟩
            · rw [(hp acc x1).nodup_iff, List.nodup_cons]; exact ⟨hm, k.1⟩
            · rcases List.mem_cons.mp ((hp acc x1).mem_iff.mp hy) with rfl | hy
              · exact hx
              · exact k.2.2 y hy

theorem set_stores [DecidableEq T] {ins : List T → T → List T} (hp : ∀ l x, (ins l x).Perm (x :: l)) (ho : SetKeepsOrder ins)
    {h : Handler T} {K G : T → Prop} (hh : Stores K G h.to) (hi : K h.init) :
    Stores (fun _ => True) (fun v => v.Nodup ∧ v.foldl ins [] = v ∧ ∀ y ∈ v, G y) (setH ins h).to := by
  intro n old c v c' g _
  simp only [setH] at g
  split at g
  · simp at g
  · split at g
    · next he => simp only [Option.some.injEq, Prod.mk.injEq] at g; exact absurd g.1 he
    · exact setLoop_stores hp ho hh hi _ _ _ _ _ _ g (by simp)

theorem mapSet_stores {ins : List (Bytes × V) → Bytes × V → List (Bytes × V)} (hp : ∀ l x, (ins l x).Perm (x :: l)) (ho : MapKeepsOrder ins)
    {G : V → Prop} {m : List (Bytes × V)} (hm : (m.map Prod.fst).Nodup ∧ m.foldl ins [] = m ∧ ∀ e ∈ m, G e.2) {key : Bytes} {v : V} (hv : G v) :
    ((mapSet ins m key v).map Prod.fst).Nodup ∧ (mapSet ins m key v).foldl ins [] = mapSet ins m key v ∧ ∀ e ∈ mapSet ins m key v, G e.2 := by
  unfold mapSet
  split
  · refine ⟨?_, (ho _ hm.1 hm.2.1).2 _ _, fun e he => ?_⟩
    · have : (m.map fun e => if e.1 = key then (key, v) else e).map Prod.fst = m.map Prod.fst := by
        rw [List.map_map]
        apply List.map_congr_left
        intro e _
        simp only [Function.comp]
        split
        · next h => exact h.symm
        · rfl
      rw [this]; exact hm.1
    · obtain ⟨e', he', rfl⟩ := List.mem_map.mp he
      split
      · exact hv
      · exact hm.2.2 e' he'
  · next hk =>
    refine ⟨?_, (ho _ hm.1 hm.2.1).1 _ hk, fun e he => ?_⟩
    · rw [((hp m (key, v)).map Prod.fst).nodup_iff, List.map_cons, List.nodup_cons]; exact ⟨hk, hm.1⟩
    · rcases List.mem_cons.mp ((hp m _).mem_iff.mp he) with rfl | he
      · exact hv
      · exact hm.2.2 e he

theorem mapLoop_stores {ins : List (Bytes × V) → Bytes × V → List (Bytes × V)} (hp : ∀ l x, (ins l x).Perm (x :: l)) (ho : MapKeepsOrder ins)
    {h : Handler V} {K G : V → Prop} (hh : Stores K G h.to) (hi : K h.init) (fuel n : Nat) : ∀ e0 acc c x c',
    mapLoop ins h fuel n e0 acc c = some (.noError, x, c') → ((acc.map Prod.fst).Nodup ∧ acc.foldl ins [] = acc ∧ ∀ y ∈ acc, G y.2) →
      (x.map Prod.fst).Nodup ∧ x.foldl ins [] = x ∧ ∀ y ∈ x, G y.2 := by
  induction n with
  | zero => intro e0 acc c x c' g; simp [mapLoop] at g
  | succ n ih =>
    intro e0 acc c x c' g k
    simp only [mapLoop] at g
    split at g
    · simp only [Option.some.injEq, Prod.mk.injEq] at g; obtain ⟨_, rfl, _⟩ := g; exact k
    · simp only [Option.bind_eq_bind, Option.bind_eq_some_iff, Prod.exists] at g
      obtain ⟨e1, x1, c1, g1, g⟩ := g
      try dsimp only at g
      split at g
      · next he => simp only [Option.some.injEq, Prod.mk.injEq] at g; exact absurd g.1 he
      · next he =>
        have he : e1 = .noError := by simpa using he
        subst he
        exact ih _ _ _ _ _ g (mapSet_stores hp ho k (hh _ _ _ _ _ g1 hi))

theorem map_stores {ins : List (Bytes × V) → Bytes × V → List (Bytes × V)} (hp : ∀ l x, (ins l x).Perm (x :: l)) (ho : MapKeepsOrder ins)
    {h : Handler V} {K G : V → Prop} (hh : Stores K G h.to) (hi : K h.init) :
    Stores (fun v => (v.map Prod.fst).Nodup ∧ v.foldl ins [] = v ∧ ∀ y ∈ v, G y.2)
      (fun v => (v.map Prod.fst).Nodup ∧ v.foldl ins [] = v ∧ ∀ y ∈ v, G y.2) (mapH ins h).to := by
  intro n old c v c' g k
  simp only [mapH] at g
  split at g
  · simp at g
  · split at g
    · next he => simp only [Option.some.injEq, Prod.mk.injEq] at g; exact absurd g.1 he
    · exact mapLoop_stores hp ho hh hi _ _ _ _ _ _ _ g k

/-! ### Structs -/

theorem unpackRev_stores {Q : T → Prop} (page : Nat) (primary : Bool) (fuel : Nat) (ms : List (Member T)) (h : ∀ m ∈ ms, Stores Q Q m.to) :
    ∀ old c as e x c' as', unpackRev page primary fuel old c as ms = some (e, x, c', as') → Q old →
      e = .noError ∨ e = .missingPropertyMember → Q x := by
  induction ms with
  | nil =>
    intro old c as e x c' as' g k _
    simp only [unpackRev, Option.some.injEq, Prod.mk.injEq] at g; obtain ⟨_, rfl, _⟩ := g; exact k
  | cons m ms ih =>
    intro old c as e x c' as' g k ke
    simp only [unpackRev, Option.bind_eq_bind, Option.bind_eq_some_iff, Prod.exists] at g
    obtain ⟨e1, x1, c1, as1, g1, g⟩ := g
    have hm : e1 = .noError ∨ e1 = .missingPropertyMember → Q x1 := by
      intro he
      unfold unpackMember at g1
      split at g1
      · simp only [Option.map_eq_some_iff, Prod.mk.injEq, Prod.exists] at g1
        obtain ⟨e2, _, _, g1, he2, rfl, _⟩ := g1
        have : e2 = .noError := by
          unfold matchedMemberResult at he2
          split at he2
          · subst he2; simp at he
          · next hn => subst he2; rcases he with he | he
                       · exact he
                       · exact absurd he hn
        subst this
        exact h m (List.mem_cons_self ..) _ _ _ _ _ g1 k
      · simp only [Option.some.injEq, Prod.mk.injEq] at g1; obtain ⟨_, rfl, _⟩ := g1; exact k
    try dsimp only at g
    split at g
    · simp only [Option.some.injEq, Prod.mk.injEq] at g; obtain ⟨rfl, rfl, _⟩ := g; exact hm ke
    · next he =>
      exact ih (fun m hm => h m (List.mem_cons_of_mem _ hm)) _ _ _ _ _ _ _ g (hm (.inr (by simpa using he))) ke

mutual
theorem unpack_stores {Q : T → Prop} (page : Nat) (primary : Bool) (fuel : Nat) (M : Meta T) (h : M.All fun m => Stores Q Q m.to) :
    ∀ old c as e x c' as', M.unpack page primary fuel old c as = some (e, x, c', as') → Q old →
      e = .noError ∨ e = .missingPropertyMember → Q x := by
  intro old c as e x c' as' g k ke
  match M, h with
  | .mk ms ss, .mk h1 h2 =>
    simp only [Meta.unpack, Option.bind_eq_bind, Option.bind_eq_some_iff, Prod.exists] at g
    obtain ⟨e1, x1, c1, as1, g1, g⟩ := g
    have hm := unpackRev_stores page primary fuel ms.reverse (fun m hm => h1 m (List.mem_reverse.mp hm)) _ _ _ _ _ _ _ g1 k
    try dsimp only at g
    split at g
    · simp only [Option.some.injEq, Prod.mk.injEq] at g; obtain ⟨rfl, rfl, _⟩ := g; exact hm ke
    · next he => exact unpackSupers_stores _ primary fuel ss h2 _ _ _ _ _ _ _ g (hm (.inr (by simpa using he))) ke
theorem unpackSupers_stores {Q : T → Prop} (page : Nat) (primary : Bool) (fuel : Nat) (ss : List (Bytes × Meta T))
    (h : SupersAll (fun m => Stores Q Q m.to) ss) :
    ∀ old c as e x c' as', unpackSupers page primary fuel old c as ss = some (e, x, c', as') → Q old →
      e = .noError ∨ e = .missingPropertyMember → Q x := by
  intro old c as e x c' as' g k ke
  match ss, h with
  | [], _ =>
    simp only [unpackSupers, Option.some.injEq, Prod.mk.injEq] at g; obtain ⟨_, rfl, _⟩ := g; exact k
  | (_, m) :: ss, .cons h1 h2 =>
    simp only [unpackSupers, Option.bind_eq_bind, Option.bind_eq_some_iff, Prod.exists] at g
    obtain ⟨e1, x1, c1, as1, g1, g⟩ := g
    have hm := unpack_stores page primary fuel m h1 _ _ _ _ _ _ _ g1 k
    try dsimp only at g
    split at g
    · simp only [Option.some.injEq, Prod.mk.injEq] at g; obtain ⟨rfl, rfl, _⟩ := g; exact hm ke
    · next he => exact unpackSupers_stores _ primary fuel ss h2 _ _ _ _ _ _ _ g (hm (.inr (by simpa using he))) ke
end

theorem find_stores {Q : T → Prop} (M : Meta T) (h : M.All fun m => Stores Q Q m.to) (fuel : Nat) :
    ∀ old c as e x c' as', M.find fuel old c as = some (e, x, c', as') → Q old →
      e = .noError ∨ e = .missingPropertyMember → Q x := by
  intro old c as e x c' as' g k ke
  simp only [Meta.find, Option.bind_eq_bind, Option.bind_eq_some_iff, Prod.exists] at g
  obtain ⟨e1, x1, c1, as1, g1, g⟩ := g
  have hm := unpack_stores _ _ _ M h _ _ _ _ _ _ _ g1 k
  try dsimp only at g
  split at g
  · next he => exact unpack_stores _ _ _ M h _ _ _ _ _ _ _ g (hm (.inr he)) ke
  · simp only [Option.some.injEq, Prod.mk.injEq] at g; obtain ⟨rfl, rfl, _⟩ := g; exact hm ke

theorem structLoop_stores {Q : T → Prop} (M : Meta T) (h : M.All fun m => Stores Q Q m.to) (fuel n : Nat) :
    ∀ old c as r x c' as', structLoop M fuel n old c as = some (r, x, c', as') → Q old → r = none ∨ r = some .noError → Q x := by
  induction n with
  | zero => intro old c as r x c' as' g; simp [structLoop] at g
  | succ n ih =>
    intro old c as r x c' as' g k kr
    simp only [structLoop] at g
    split at g
    · simp only [Option.some.injEq, Prod.mk.injEq] at g; obtain ⟨_, rfl, _⟩ := g; exact k
    · simp only [Option.bind_eq_bind, Option.bind_eq_some_iff, Prod.exists] at g
      obtain ⟨e1, x1, c1, as1, g1, g⟩ := g
      have hm := find_stores M h fuel _ _ _ _ _ _ _ g1 k
      obtain ⟨r2, c2, g2, g⟩ : ∃ r2 c2, (if e1 = .missingPropertyMember then c1.unknown fuel c.token.name.bytes
          else some (if e1 ≠ .noError then some e1 else none, c1)) = some (r2, c2) ∧
          (match r2 with
          | some e => some (some e, x1, c2, as1)
          | none => if c2.next.error ≠ .noError then some (some c2.next.error, x1, c2.next, as1)
            else structLoop M fuel n x1 c2.next as1) = some (r, x, c', as') := by
        by_cases he : e1 = .missingPropertyMember
        · simp only [he, if_true, Option.bind_eq_some_iff, Prod.exists] at g ⊢
          exact g
        · simp only [he, if_false] at g ⊢
          exact ⟨_, _, rfl, g⟩
      have hx : (r2 = none ∨ r2 = some .noError) → Q x1 := by
        intro hr
        refine hm ?_
        by_cases he : e1 = .missingPropertyMember
        · exact .inr he
        · left
          rw [if_neg he] at g2
          simp only [Option.some.injEq, Prod.mk.injEq] at g2
          obtain ⟨rfl, _⟩ := g2
          by_cases h0 : e1 = .noError
          · exact h0
          · simp [h0] at hr
      try dsimp only at g
      cases r2 with
      | some e =>
        simp only [Option.some.injEq, Prod.mk.injEq] at g; obtain ⟨rfl, rfl, _⟩ := g
        exact hx kr
      | none =>
        simp only at g
        split at g
        · simp only [Option.some.injEq, Prod.mk.injEq] at g; obtain ⟨_, rfl, _⟩ := g
          exact hx (.inl rfl)
        · exact ih _ _ _ _ _ _ _ g (hx (.inl rfl)) kr

theorem struct_stores {Q : T → Prop} {M : Meta T} (h : M.All fun m => Stores Q Q m.to) (init : T) : Stores Q Q (structH init M).to := by
  intro n old c x c' g k
  simp only [structH, structTo] at g
  split at g
  · simp at g
  · split at g
    · next he => simp only [Option.some.injEq, Prod.mk.injEq] at g; exact absurd g.1 he
    · simp only [Option.bind_eq_bind, Option.bind_eq_some_iff, Prod.exists] at g
      obtain ⟨r1, x1, c1, as1, g1, g⟩ := g
      have hm := structLoop_stores M h _ _ _ _ _ _ _ _ _ g1 k
      try dsimp only at g
      cases r1 with
      | some e => simp only [Option.some.injEq, Prod.mk.injEq] at g; obtain ⟨rfl, rfl, _⟩ := g; exact hm (.inr rfl)
      | none =>
        simp only at g
        split at g <;> (simp only [Option.some.injEq, Prod.mk.injEq] at g; obtain ⟨_, rfl, _⟩ := g; exact hm (.inl rfl))

/-- Reading the entry `e` of a struct. -/
def Entry.reads (e : Entry T) (n : Nat) (old : T) (c : Ctx) : Option (Err × T × Ctx) :=
  (e.type.handler.to n (e.get old) c).map fun r => (r.1, e.set r.2.1 old, r.2.2)

mutual
theorem Meta.All.mono {P Q : Member T → Prop} (hPQ : ∀ m, P m → Q m) (M : Meta T) (h : M.All P) : M.All Q := by
  match M, h with
  | .mk ms ss, .mk h1 h2 => exact .mk (fun m hm => hPQ m (h1 m hm)) (SupersAll.mono hPQ ss h2)
theorem SupersAll.mono {P Q : Member T → Prop} (hPQ : ∀ m, P m → Q m) (ss : List (Bytes × Meta T)) (h : SupersAll P ss) : SupersAll Q ss := by
  match ss, h with
  | [], _ => exact .nil
  | (n, m) :: ss, .cons h1 h2 => exact .cons (Meta.All.mono hPQ m h1) (SupersAll.mono hPQ ss h2)
end

mutual
theorem CStruct.reads_entries : {T : Type} → (s : CStruct T) → s.meta.All fun m => ∃ e ∈ s.entries, m.to = e.reads
  | _, .mk ms ss => by
    rw [CStruct.meta, CStruct.entries]
    refine .mk (fun m hm => ?_) (SupersAll.mono ?_ _ ss.reads_entries)
    · obtain ⟨e, he, h⟩ := ms.reads_entries m hm
      exact ⟨e, List.mem_append_left _ he, h⟩
    · rintro m ⟨e, he, h⟩
      exact ⟨e, List.mem_append_right _ he, h⟩
theorem CMembers.reads_entries : {T : Type} → (ms : CMembers T) → ∀ m ∈ ms.members, ∃ e ∈ ms.entries, m.to = e.reads
  | _, .nil => by simp [CMembers.members]
  | _, .cons names t get set ms => by
    rw [CMembers.members, CMembers.entries]
    intro m hm
    rcases List.mem_cons.mp hm with rfl | hm
    · exact ⟨_, List.mem_cons_self .., rfl⟩
    · obtain ⟨e, he, h⟩ := ms.reads_entries m hm
      exact ⟨e, List.mem_cons_of_mem _ he, h⟩
theorem CSupers.reads_entries : {T : Type} → (ss : CSupers T) → SupersAll (fun m => ∃ e ∈ ss.entries, m.to = e.reads) ss.supers
  | _, .nil => by rw [CSupers.supers]; exact .nil
  | _, .cons name get set s ss => by
    rw [CSupers.supers, CSupers.entries]
    refine .cons (all_up ?_ _ s.reads_entries) (SupersAll.mono ?_ _ ss.reads_entries)
    · rintro m ⟨e, he, h⟩
      refine ⟨e.up get set, List.mem_append_left _ (List.mem_map_of_mem he), ?_⟩
      funext n old c
      simp only [Member.up, h, Entry.reads, Entry.up, Option.map_map]
      rfl
    · rintro m ⟨e, he, h⟩
      exact ⟨e, List.mem_append_right _ he, h⟩
end

/-- Setting an entry keeps what holds of all entries. -/
theorem CStruct.Sensible.set_keeps {s : CStruct T} (hs : s.Sensible) (P : (e : Entry T) → e.M → Prop) {old : T} (k : ∀ e ∈ s.entries, P e (e.get old))
    {e : Entry T} (he : e ∈ s.entries) {x : e.M} (hx : P e x) : ∀ e' ∈ s.entries, P e' (e'.get (e.set x old)) := by
  intro e' he'
  obtain ⟨i, hi, rfl⟩ := List.mem_iff_getElem.mp he
  obtain ⟨j, hj, rfl⟩ := List.mem_iff_getElem.mp he'
  have hap := List.pairwise_iff_getElem.mp hs.apart
  rcases Nat.lt_trichotomy i j with h | h | h
  · have := hap i j (by simpa using hi) (by simpa using hj) h
    simp only [List.getElem_map] at this
    have h2 := this.2.1 x old
    simp only [Entry.access] at h2
    rw [h2]; exact k _ he'
  · subst h
    rw [hs.stored _ he]; exact hx
  · have := hap j i (by simpa using hj) (by simpa using hi) h
    simp only [List.getElem_map] at this
    have h2 := this.1 x old
    simp only [Entry.access] at h2
    rw [h2]; exact k _ he'

/-- What was read can be saved, and something is written for it; `null` only if `null` was read. -/
def CType.Saves (t : CType T) : Prop :=
  ∀ n old c v c', t.handler.to n old c = some (.noError, v, c') → t.Kept old →
    t.Kept v ∧ (t.Shown → t.Ordinary v → ∃ j, t.enc v = some j ∧ (j = .null → c.token.valueType = .null))

theorem CType.Saves.elem {t : CType T} (h : t.Saves) (hs : t.Shown) :
    Stores t.Kept (fun x => t.Kept x ∧ (t.Ordinary x → (t.enc x).isSome)) t.handler.to := by
  intro n old c v c' g k
  obtain ⟨h1, h2⟩ := h n old c v c' g k
  refine ⟨h1, fun ho => ?_⟩
  obtain ⟨j, hj, _⟩ := h2 hs ho
  rw [hj]; rfl

theorem CType.Saves.solid {t : CType T} (h : t.Saves) (hs : t.Shown) {n : Nat} {old : T} {c : Ctx} {v : T} {c' : Ctx}
    (g : t.handler.to n old c = some (.noError, v, c')) (k : t.Kept old) (hn : c.token.valueType ≠ .null) : t.Ordinary v → t.Solid v := by
  intro ho
  obtain ⟨j, hj, h2⟩ := (h n old c v c' g k).2 hs ho
  exact ⟨j, hj, fun hc => hn (h2 hc)⟩

theorem ptr_saves {t : CType T} (h : t.Saves) (hs : t.Shown) (hi : t.Kept t.init) {n : Nat} {old : Option T} {c : Ctx} {v : Option T} {c' : Ctx}
    (g : (ptrH t.handler).to n old c = some (.noError, v, c')) (k : ∀ x, old = some x → t.Kept x) :
    (∀ x, v = some x → t.Kept x ∧ (t.Ordinary x → t.Solid x)) ∧ (v = none → c.token.valueType = .null) := by
  simp only [ptrH] at g
  split at g
  · next hn =>
    simp only [Option.map_eq_some_iff, Prod.mk.injEq, Prod.exists] at g
    obtain ⟨_, x, _, g, rfl, rfl, _⟩ := g
    have hk : t.Kept (old.getD t.handler.init) := by
      cases old with
      | none => exact hi
      | some y => exact k y rfl
    refine ⟨fun y hy => ?_, by simp⟩
    obtain rfl : x = y := by simpa using hy
    exact ⟨(h _ _ _ _ _ g hk).1, h.solid hs g hk hn⟩
  · next hn =>
    simp only [Option.some.injEq, Prod.mk.injEq] at g
    obtain ⟨_, rfl, _⟩ := g
    exact ⟨by simp, fun _ => by simpa using hn⟩

theorem shown_ptr {t : CType T} {v : Option T} {c : Ctx} (h1 : ∀ x, v = some x → t.Kept x ∧ (t.Ordinary x → t.Solid x))
    (h2 : v = none → c.token.valueType = .null) (ho : ∀ x, v = some x → t.Ordinary x) :
    ∃ j, (match v with | none => some JVal.null | some x => t.enc x) = some j ∧ (j = .null → c.token.valueType = .null) := by
  cases v with
  | none => exact ⟨_, rfl, fun _ => h2 rfl⟩
  | some x =>
    obtain ⟨j, hj, hn⟩ := (h1 x rfl).2 (ho x rfl)
    exact ⟨j, hj, fun hc => absurd hc hn⟩

theorem shown_text {o : Option Bytes} {text : Bytes} (h : o = some text) {P : Prop} : ∃ j, o.map JVal.num = some j ∧ (j = .null → P) :=
  ⟨.num text, by rw [h]; rfl, fun hc => nomatch hc⟩

theorem shown_val {o : Option JVal} {j : JVal} (h : o = some j) (hn : j ≠ .null) {P : Prop} : ∃ j, o = some j ∧ (j = .null → P) :=
  ⟨j, h, fun hc => absurd hc hn⟩

mutual
theorem CType.saves : {T : Type} → (t : CType T) → t.Lawful → t.Storable → t.Saves
  | _, .bool, _, _ => fun _ _ _ _ _ _ _ => ⟨trivial, fun _ _ => ⟨_, rfl, fun hc => nomatch hc⟩⟩
  | _, .string _, _, _ => fun _ _ _ _ _ _ _ => ⟨trivial, fun _ _ => ⟨_, rfl, fun hc => nomatch hc⟩⟩
  | _, .silentString _, _, _ => fun _ _ _ _ _ _ _ => ⟨trivial, fun hs => hs.elim⟩
  | _, .double, _, _ => fun _ _ _ v _ _ _ => ⟨trivial, fun _ ho => by
      simp only [CType.Ordinary] at ho
      obtain ⟨text, ht, _⟩ := C33_double_round_trip_partial v ho.1 ho.2.1 ho.2.2
      simp only [CType.enc, if_pos ho.2.1]
      exact shown_text ht⟩
  | _, .float, _, _ => fun _ _ _ v _ _ _ => ⟨trivial, fun _ ho => by
      simp only [CType.Ordinary] at ho
      obtain ⟨text, ht, _⟩ := C33_float_round_trip v ho.1 ho.2
      simp only [CType.enc, if_pos ho.2]
      exact shown_text ht⟩
  | _, .time C, _, _ => fun _ _ _ v _ _ _ => ⟨trivial, fun _ ho => by
      simp only [CType.Ordinary] at ho
      obtain ⟨text, ht, _⟩ := time_trip ho 0
      simp only [CType.enc]
      exact shown_text ht⟩
  | _, .int I, _, _ => fun _ _ c v _ g k => by
      simp only [CType.Kept] at k ⊢
      simp only [CType.handler, intH, Option.some.injEq, Prod.mk.injEq] at g
      obtain ⟨_, rfl, _⟩ := g
      have hr := intTo_inRange k.1 c.token.value.bytes
      refine ⟨⟨k.1, hr⟩, fun _ _ => ?_⟩
      obtain ⟨text, ht, _⟩ := C14_integer_round_trip I k.1 _ hr
      simp only [CType.enc]
      exact shown_text ht
  | _, .enumValue I, _, _ => fun _ _ c v _ g k => by
      simp only [CType.Kept] at k ⊢
      simp only [CType.handler, enumValueH, Option.some.injEq, Prod.mk.injEq] at g
      obtain ⟨h1, rfl, _⟩ := g
      rw [if_pos h1]
      have hr := intTo_inRange k.1 c.token.value.bytes
      refine ⟨⟨k.1, hr⟩, fun _ _ => ?_⟩
      obtain ⟨text, ht, _⟩ := C14_integer_round_trip I k.1 _ hr
      simp only [CType.enc]
      exact shown_text ht
  | _, .enum names U, _, _ => fun _ _ c v _ g k => by
      simp only [CType.Kept] at k ⊢
      refine ⟨k, fun _ ho => ?_⟩
      simp only [CType.Ordinary] at ho
      have hlt : v.toNat < names.length := by omega
      simp only [CType.enc]
      exact ⟨.str names[v.toNat], by rw [List.getElem?_eq_getElem hlt]; rfl, fun hc => nomatch hc⟩
  | _, .nullable t, hl, hs => fun n old c v c' g k => by
      simp only [CType.Lawful, CType.Storable] at hl hs
      simp only [CType.Kept] at k ⊢
      have ih := t.saves hl hs.1
      simp only [CType.handler, nullableH] at g
      split at g
      · next hn =>
        simp only [Option.some.injEq, Prod.mk.injEq] at g
        obtain ⟨_, rfl, _⟩ := g
        refine ⟨k, fun hsh ho => ?_⟩
        simp only [CType.Shown, CType.Ordinary, CType.enc] at hsh ho ⊢
        obtain ⟨j, hj⟩ := Option.isSome_iff_exists.mp (hsh _ (t.valid_of _ k.1 ho))
        exact ⟨j, hj, fun _ => hn⟩
      · next hn =>
        obtain ⟨h1, h2⟩ := ih _ _ _ _ _ g k.1
        refine ⟨⟨h1, fun ho hc => ?_⟩, fun _ ho => ?_⟩
        · obtain ⟨j, hj, hnn⟩ := ih.solid hs.2 g k.1 hn ho
          rw [hc] at hj
          exact hnn (Option.some.inj hj).symm
        · simp only [CType.Ordinary, CType.enc] at ho ⊢
          exact h2 hs.2 ho
  | _, .nullableChecked t, hl, hs => fun n old c v c' g k => by
      simp only [CType.Lawful, CType.Storable] at hl hs
      simp only [CType.Kept] at k ⊢
      have ih := t.saves hl hs.1
      simp only [CType.handler, nullableCheckedH] at g
      split at g
      · next hn =>
        simp only [Option.some.injEq, Prod.mk.injEq] at g
        obtain ⟨_, rfl, _⟩ := g
        exact ⟨⟨k.1, by simp⟩, fun _ _ => ⟨.null, by simp only [CType.enc, if_true], fun _ => hn⟩⟩
      · next hn =>
        simp only [Option.map_eq_some_iff, Prod.mk.injEq, Prod.exists] at g
        obtain ⟨_, x, _, g, rfl, rfl, _⟩ := g
        obtain ⟨h1, h2⟩ := ih _ _ _ _ _ g k.1
        refine ⟨⟨h1, fun _ => ih.solid hs.2.1 g k.1 hn⟩, fun _ ho => ?_⟩
        simp only [CType.Ordinary, CType.enc, Bool.false_eq_true, if_false] at ho ⊢
        exact h2 hs.2.1 ho
  | _, .optional t, hl, hs => fun n old c v c' g k => by
      simp only [CType.Lawful, CType.Storable] at hl hs
      simp only [CType.Kept] at k ⊢
      obtain ⟨h1, h2⟩ := t.saves hl hs n old c v c' g k
      exact ⟨h1, fun hsh ho => by simp only [CType.Shown, CType.Ordinary, CType.enc] at hsh ho ⊢; exact h2 hsh ho⟩
  | _, .optionalChecked t, hl, hs => fun n old c v c' g k => by
      simp only [CType.Lawful, CType.Storable] at hl hs
      simp only [CType.Kept] at k ⊢
      have ih := t.saves hl hs.1
      simp only [CType.handler, optionalCheckedH, Option.map_eq_some_iff, Prod.mk.injEq, Prod.exists] at g
      obtain ⟨_, x, _, g, rfl, rfl, _⟩ := g
      obtain ⟨h1, h2⟩ := ih _ _ _ _ _ g k.1
      refine ⟨⟨h1, fun _ => (ih.elem hs.2.1 _ _ _ _ _ g k.1).2, by simp⟩, fun _ ho => ?_⟩
      simp only [CType.Ordinary, CType.enc, if_true] at ho ⊢
      exact h2 hs.2.1 (ho trivial)
  | _, .stdOptional t, hl, hs => fun n old c v c' g k => by
      simp only [CType.Lawful, CType.Storable] at hl hs
      simp only [CType.Kept] at k ⊢
      have ih := t.saves hl hs.1
      have hi : t.Kept t.handler.init := t.kept_of hs.1 _ hs.2.2
      simp only [CType.handler, stdOptionalH, Option.map_eq_some_iff, Prod.mk.injEq, Prod.exists] at g
      obtain ⟨_, x, _, g, rfl, rfl, _⟩ := g
      refine ⟨fun y hy => ?_, fun _ ho => ?_⟩
      · obtain rfl : x = y := by simpa using hy
        exact ih.elem hs.2.1 _ _ _ _ _ g hi
      · simp only [CType.Ordinary, CType.enc, Option.bind_some] at ho ⊢
        exact (ih _ _ _ _ _ g hi).2 hs.2.1 (ho x rfl)
  | _, .sharedPtr t, hl, hs => fun n old c v c' g k => by
      simp only [CType.Lawful, CType.Storable] at hl hs
      simp only [CType.Kept] at k ⊢
      obtain ⟨h1, h2⟩ := ptr_saves (t.saves hl hs.1) hs.2.1 (t.kept_of hs.1 _ hs.2.2) (by simpa only [CType.handler] using g) fun x hx => (k x hx).1
      refine ⟨h1, fun _ ho => ?_⟩
      simp only [CType.Ordinary] at ho
      have := shown_ptr h1 h2 ho
      cases v <;> simpa only [CType.enc] using this
  | _, .uniquePtr t, hl, hs => fun n old c v c' g k => by
      simp only [CType.Lawful, CType.Storable] at hl hs
      simp only [CType.Kept] at k ⊢
      obtain ⟨h1, h2⟩ := ptr_saves (t.saves hl hs.1) hs.2.1 (t.kept_of hs.1 _ hs.2.2) (by simpa only [CType.handler] using g) fun x hx => (k x hx).1
      refine ⟨h1, fun _ ho => ?_⟩
      simp only [CType.Ordinary] at ho
      have := shown_ptr h1 h2 ho
      cases v <;> simpa only [CType.enc] using this
  | _, .silentUniquePtr t, hl, hs => fun n old c v c' g k => by
      simp only [CType.Lawful, CType.Storable] at hl hs
      simp only [CType.Kept] at k ⊢
      obtain ⟨h1, _⟩ := ptr_saves (t.saves hl hs.1) hs.2.1 (t.kept_of hs.1 _ hs.2.2) (by simpa only [CType.handler, silentPtrH] using g) fun x hx => (k x hx).1
      exact ⟨h1, fun hsh => hsh.elim⟩
  | _, .silentVector t, hl, hs => fun n old c v c' g k => by
      simp only [CType.Lawful, CType.Storable] at hl hs
      simp only [CType.Kept] at k ⊢
      refine ⟨?_, fun hsh => hsh.elim⟩
      exact vec_stores ((t.saves hl hs.1).elem hs.2.1) (t.kept_of hs.1 _ hs.2.2) n old c v c' (by simpa only [CType.handler, silentVecH] using g) trivial
  | _, .vector t, hl, hs => fun n old c v c' g k => by
      simp only [CType.Lawful, CType.Storable] at hl hs
      simp only [CType.Kept] at k ⊢
      refine ⟨?_, fun _ _ => shown_val (by rw [CType.enc]) (by simp)⟩
      exact vec_stores ((t.saves hl hs.1).elem hs.2.1) (t.kept_of hs.1 _ hs.2.2) n old c v c' (by simpa only [CType.handler] using g) trivial
  | _, .oneOrMany t, hl, hs => fun n old c v c' g k => by
      simp only [CType.Lawful, CType.Storable] at hl hs
      simp only [CType.Kept] at k ⊢
      refine ⟨⟨?_, fun x vs _ => hs.2 x vs⟩, fun hsh => hsh.elim⟩
      exact oneOrMany_stores ((t.saves hl hs.1.1).elem hs.1.2.1) (t.kept_of hs.1.1 _ hs.1.2.2) n old c v c' (by simpa only [CType.handler] using g) k.1
  | _, .array N t, hl, hs => fun n old c v c' g k => by
      simp only [CType.Lawful, CType.Storable] at hl hs
      simp only [CType.Kept] at k ⊢
      refine ⟨?_, fun _ _ => shown_val (by rw [CType.enc]) (by simp)⟩
      exact arr_stores N ((t.saves hl hs.1).elem hs.2) n old c v c' (by simpa only [CType.handler] using g) ⟨k.1, fun y hy => (k.2 y hy).1⟩
  | _, .arrayVariable N t, hl, hs => fun n old c v c' g k => by
      simp only [CType.Lawful, CType.Storable] at hl hs
      simp only [CType.Kept] at k ⊢
      refine ⟨?_, fun _ _ => shown_val (by rw [CType.enc]) (by simp)⟩
      obtain ⟨m1, m2, m3, m4⟩ := avc_stores N ((t.saves hl hs.1).elem hs.2.1) (fun _ h => h.1) n old c v c' (by simpa only [CType.handler] using g)
        ⟨k.1, k.2.1, k.2.2.1⟩
      exact ⟨m1, m2, m3, fun x hx => (m4 x hx).2⟩
  | _, .set _ ins t, hl, hs => fun n old c v c' g k => by
      simp only [CType.Lawful, CType.Storable] at hl hs
      simp only [CType.Kept] at k ⊢
      refine ⟨?_, fun _ _ => shown_val (by rw [CType.enc]) (by simp)⟩
      exact set_stores hl.1 hs.2 ((t.saves hl.2 hs.1.1).elem hs.1.2.1) (t.kept_of hs.1.1 _ hs.1.2.2) n old c v c' (by simpa only [CType.handler] using g) trivial
  | _, .map ins t, hl, hs => fun n old c v c' g k => by
      simp only [CType.Lawful, CType.Storable] at hl hs
      simp only [CType.Kept] at k ⊢
      refine ⟨?_, fun _ _ => shown_val (by rw [CType.enc]) (by simp)⟩
      exact map_stores hl.1 hs.2 ((t.saves hl.2 hs.1.1).elem hs.1.2.1) (t.kept_of hs.1.1 _ hs.1.2.2) n old c v c' (by simpa only [CType.handler] using g) k
  | _, .tuple ts, hl, hs => fun n old c v c' g k => by
      simp only [CType.Lawful, CType.Storable] at hl hs
      simp only [CType.Kept] at k ⊢
      refine ⟨?_, fun _ _ => shown_val (by rw [CType.enc]) (by simp)⟩
      exact tuple_stores (ts.saves hl hs) n old c v c' (by simpa only [CType.handler] using g) k
  | _, .tokens, _, hs => by simp only [CType.Storable] at hs
  | _, .jmap, _, hs => by simp only [CType.Storable] at hs
  | _, .struct init s, hl, hs => fun n old c v c' g k => by
      simp only [CType.Lawful, CType.Storable] at hl hs
      simp only [CType.Kept] at k ⊢
      refine ⟨?_, fun _ _ => shown_val (by rw [CType.enc]) (by simp)⟩
      have hall := s.saves hl.2.2 hs
      refine struct_stores (Q := s.Kept) (Meta.All.mono ?_ _ s.reads_entries) init n old c v c' (by simpa only [CType.handler] using g) k
      rintro m ⟨e, he, hm⟩
      rw [hm]
      intro n old c v c' g k
      simp only [Entry.reads, Option.map_eq_some_iff, Prod.mk.injEq, Prod.exists] at g
      obtain ⟨_, x, _, g, rfl, rfl, _⟩ := g
      rw [s.kept_entries] at k ⊢
      exact hl.1.set_keeps (fun e x => e.type.Kept x) k he (hall e he _ _ _ _ _ g (k e he)).1
theorem CTypes.saves : {Ts : Type} → (ts : CTypes Ts) → ts.Lawful → ts.Storable → Stores ts.Kept ts.Kept ts.handler.to
  | _, .nil, _, _ => fun _ _ _ _ _ _ _ => by simp only [CTypes.Kept]
  | _, .cons t ts, hl, hs => fun n old c v c' g k => by
      simp only [CTypes.Lawful, CTypes.Storable] at hl hs
      simp only [CTypes.Kept] at k ⊢
      exact tupCons_stores ((t.saves hl.1 hs.1.1).elem hs.1.2) (ts.saves hl.2 hs.2) n old c v c' (by simpa only [CTypes.handler] using g) ⟨k.1.1, k.2⟩
theorem CStruct.saves : {T : Type} → (s : CStruct T) → s.Lawful → s.Storable → ∀ e ∈ s.entries, e.type.Saves
  | _, .mk ms ss, hl, hs => by
      simp only [CStruct.Lawful, CStruct.Storable, CStruct.entries] at hl hs ⊢
      intro e he
      rcases List.mem_append.mp he with he | he
      · exact ms.saves hl.1 hs.1 e he
      · exact ss.saves hl.2 hs.2 e he
theorem CMembers.saves : {T : Type} → (ms : CMembers T) → ms.Lawful → ms.Storable → ∀ e ∈ ms.entries, e.type.Saves
  | _, .nil, _, _ => by simp [CMembers.entries]
  | _, .cons _ t _ _ ms, hl, hs => by
      simp only [CMembers.Lawful, CMembers.Storable, CMembers.entries] at hl hs ⊢
      intro e he
      rcases List.mem_cons.mp he with rfl | he
      · exact t.saves hl.1 hs.1
      · exact ms.saves hl.2 hs.2 e he
theorem CSupers.saves : {T : Type} → (ss : CSupers T) → ss.Lawful → ss.Storable → ∀ e ∈ ss.entries, e.type.Saves
  | _, .nil, _, _ => by simp [CSupers.entries]
  | _, .cons _ get set s ss, hl, hs => by
      simp only [CSupers.Lawful, CSupers.Storable, CSupers.entries] at hl hs ⊢
      intro e he
      rcases List.mem_append.mp he with he | he
      · obtain ⟨e', he', rfl⟩ := List.mem_map.mp he
        exact s.saves hl.1 hs.1 e' he'
      · exact ss.saves hl.2 hs.2 e he
end

theorem CType.kept_loaded (t : CType T) (hl : t.Lawful) (hs : t.Storable) {old v : T} (h : Loaded t.handler old v) (hold : t.Valid old) : t.Kept v := by
  induction h with
  | none => exact t.kept_of hs _ hold
  | more _ h ih =>
    simp only [parseTo] at h
    split at h
    · next he => simp only [Option.some.injEq, Prod.mk.injEq] at h; exact absurd h.1 he
    · simp only [Option.map_eq_some_iff, Prod.mk.injEq, Prod.exists] at h
      obtain ⟨_, x, _, g, rfl, rfl, _⟩ := h
      exact (t.saves hl hs _ _ _ _ _ g ih).1

end JsonStruct
