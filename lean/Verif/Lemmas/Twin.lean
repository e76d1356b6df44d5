import Verif.Lemmas.Alike
import Mathlib.Data.List.Forall2

/- Two handlers that look at the same tokens and do the same, as parts of types. -/

namespace JsonStruct

variable (S : Likeness)

/-- From related contexts the two functions come to related results. -/
def Likeness.H2 (f g : Nat → T → Ctx → Option (Err × T × Ctx)) : Prop :=
  ∀ n old c c', S.C c c' → Likeness.Opt S.Out S (f n old c) (g n old c')

def Likeness.Two (h h' : Handler T) : Prop := h.init = h'.init ∧ S.H2 h.to h'.to
def Likeness.TwoT (h h' : TupleH T) : Prop := h.init = h'.init ∧ S.H2 h.to h'.to

/-- Two members with the same names. -/
structure Likeness.TwoM (m m' : Member T) : Prop where
  names : m.names = m'.names
  opt : m.optional = m'.optional
  reads : S.H2 m.to m'.to

mutual
inductive Meta.Two : Meta T → Meta T → Prop
  | mk {ms ms' ss ss'} : List.Forall₂ (S.TwoM (T := T)) ms ms' → SupersTwo ss ss' → Meta.Two (.mk ms ss) (.mk ms' ss')
inductive SupersTwo : List (Bytes × Meta T) → List (Bytes × Meta T) → Prop
  | nil : SupersTwo [] []
  | cons {n m m' ss ss'} : Meta.Two m m' → SupersTwo ss ss' → SupersTwo ((n, m) :: ss) ((n, m') :: ss')
end

variable {S}

theorem Likeness.H.two {h : Handler T} (hs : S.H h.to) : S.Two h h := ⟨rfl, hs⟩

theorem nullable_twin {h h' : Handler T} (hs : S.Two h h') : S.Two (nullableH h) (nullableH h') := by
  refine ⟨hs.1, ?_⟩
  intro n old c c' hc
  simp only [nullableH, hc.ty]
  split
  · exact .some (hc.out _ _)
  · exact hs.2 n old c c' hc

theorem nullableChecked_twin {h h' : Handler T} (hs : S.Two h h') : S.Two (nullableCheckedH h) (nullableCheckedH h') := by
  refine ⟨by simp only [nullableCheckedH, hs.1], ?_⟩
  intro n old c c' hc
  simp only [nullableCheckedH, hc.ty]
  split
  · exact .some (hc.out _ _)
  · exact (hs.2 n old.1 c c' hc).map fun x y h => h.mapVal fun v => (v, false)

theorem optionalChecked_twin {h h' : Handler T} (hs : S.Two h h') : S.Two (optionalCheckedH h) (optionalCheckedH h') :=
  ⟨by simp only [optionalCheckedH, hs.1], fun n old c c' hc => (hs.2 n old.1 c c' hc).map fun _ _ h => h.mapVal fun v => (v, true)⟩

theorem stdOptional_twin {h h' : Handler T} (hs : S.Two h h') : S.Two (stdOptionalH h) (stdOptionalH h') := by
  refine ⟨rfl, ?_⟩
  intro n _ c c' hc
  simp only [stdOptionalH, ← hs.1]
  exact (hs.2 n h.init c c' hc).map fun _ _ h => h.mapVal some

theorem ptr_twin {h h' : Handler T} (hs : S.Two h h') : S.Two (ptrH h) (ptrH h') := by
  refine ⟨rfl, ?_⟩
  intro n old c c' hc
  simp only [ptrH, hc.ty, ← hs.1]
  split
  · exact (hs.2 n _ c c' hc).map fun _ _ h => h.mapVal some
  · exact .some (hc.out _ _)

/-- The first step into a container. -/
theorem enter_twin {f g : Ctx → Option (Err × T × Ctx)} {c c' : Ctx} {old : T} (hc : S.C c c')
    (hf : S.C c.next c'.next → Likeness.Opt S.Out S (f c.next) (g c'.next)) :
    Likeness.Opt S.Out S (if c.next.error ≠ .noError then some (c.next.error, old, c.next) else f c.next)
      (if c'.next.error ≠ .noError then some (c'.next.error, old, c'.next) else g c'.next) := by
  rw [← hc.nextError]
  by_cases he : c.next.error = .noError
  · simp only [he, ne_eq, not_true_eq_false, if_false]
    exact hf (hc.next he)
  · simp only [he, ne_eq, not_false_eq_true, if_true]
    exact .some (hc.fail.out he _)

theorem vecLoop_twin {h h' : Handler T} (hs : S.Two h h') (fuel : Nat) : ∀ (n : Nat) (acc : List T) (c c' : Ctx), S.C c c' →
    Likeness.Opt S.Out S (vecLoop h fuel n acc c) (vecLoop h' fuel n acc c')
  | 0, _, _, _, _ => .none
  | n + 1, acc, c, c', hc => by
    rw [vecLoop, vecLoop, ← hc.ty, ← hs.1]
    split
    · exact .some (hc.out _ _)
    · refine (hs.2 fuel h.init c c' hc).bind ?_
      rintro ⟨e, x, c1⟩ ⟨e', x', c1'⟩ ho
      obtain rfl : e = e' := ho.err
      by_cases he : e = .noError
      · obtain ⟨hx, hc1⟩ := ho.ok he
        obtain rfl : x = x' := hx
        simp only [he, ne_eq, not_true_eq_false, if_false]
        exact enter_twin (f := vecLoop h fuel n (acc ++ [x])) (g := vecLoop h' fuel n (acc ++ [x])) hc1 fun hn => vecLoop_twin hs fuel n _ _ _ hn
      · simp only [he, ne_eq, not_false_eq_true, if_true]
        exact .some (ho.mapVal fun x => acc ++ [x])

theorem vec_twin {h h' : Handler T} (hs : S.Two h h') : S.Two (vecH h) (vecH h') := by
  refine ⟨rfl, ?_⟩
  intro n old c c' hc
  simp only [vecH, ← hc.ty]
  split
  · exact .some (hc.out _ _)
  · exact enter_twin hc fun hn => vecLoop_twin hs n n [] _ _ hn

theorem oneOrMany_twin {h h' : Handler T} (hs : S.Two h h') : S.Two (oneOrManyH h) (oneOrManyH h') := by
  refine ⟨rfl, ?_⟩
  intro n old c c' hc
  simp only [oneOrManyH, ← hc.ty, ← hs.1]
  split
  · exact ((vec_twin hs).2 n old c c' hc).map fun _ _ h => h.setErr id
  · exact (hs.2 n h.init c c' hc).map fun _ _ h => h.setErr fun v => old ++ [v]

theorem setLoop_twin [DecidableEq T] (ins : List T → T → List T) {h h' : Handler T} (hs : S.Two h h') (fuel : Nat) :
    ∀ (n : Nat) (acc : List T) (c c' : Ctx), S.C c c' → Likeness.Opt S.Out S (setLoop ins h fuel n acc c) (setLoop ins h' fuel n acc c')
  | 0, _, _, _, _ => .none
  | n + 1, acc, c, c', hc => by
    rw [setLoop, setLoop, ← hc.ty, ← hs.1]
    split
    · exact .some (hc.out _ _)
    · refine (hs.2 fuel h.init c c' hc).bind ?_
      rintro ⟨e, x, c1⟩ ⟨e', x', c1'⟩ ho
      obtain rfl : e = e' := ho.err
      by_cases he : e = .noError
      · obtain ⟨hx, hc1⟩ := ho.ok he
        obtain rfl : x = x' := hx
        simp only [he, ne_eq, not_true_eq_false, if_false]
        split
        · exact .some (hc1.out _ _)
        · exact enter_twin (f := setLoop ins h fuel n (ins acc x)) (g := setLoop ins h' fuel n (ins acc x)) hc1 fun hn => setLoop_twin ins hs fuel n _ _ _ hn
      · simp only [he, ne_eq, not_false_eq_true, if_true]
        exact .some (ho.mapVal fun _ => acc)

theorem set_twin [DecidableEq T] (ins : List T → T → List T) {h h' : Handler T} (hs : S.Two h h') : S.Two (setH ins h) (setH ins h') := by
  refine ⟨rfl, ?_⟩
  intro n old c c' hc
  simp only [setH, ← hc.ty]
  split
  · exact .some (hc.out _ _)
  · exact enter_twin hc fun hn => setLoop_twin ins hs n n [] _ _ hn

theorem arrLoop_twin {h h' : Handler T} (hs : S.Two h h') (fuel : Nat) : ∀ (old : List T) (c c' : Ctx), S.D c c' → (c.error = .noError → S.C c c') →
    Likeness.Opt (ArrOut S) S (arrLoop h fuel old c) (arrLoop h' fuel old c')
  | [], c, c', hd, hc => .some ⟨rfl, by simp, hd, fun _ he => ⟨rfl, hc he⟩, fun _ => rfl⟩
  | x :: xs, c, c', hd, hc => by
    rw [arrLoop, arrLoop, ← hd.1.error]
    by_cases he : c.error = .noError
    · simp only [he, ne_eq, not_true_eq_false, if_false]
      refine (hs.2 fuel x c c' (hc he)).bind ?_
      rintro ⟨e, y, c1⟩ ⟨e', y', c1'⟩ ho
      obtain rfl : e = e' := ho.err
      by_cases hy : e = .noError
      · obtain ⟨hx, hc1⟩ := ho.ok hy
        obtain rfl : y = y' := hx
        simp only [hy, not_true_eq_false, if_false]
        have hn := hc1.set .noError
        refine (arrLoop_twin hs fuel xs _ _ hn.fail hn.next).bind ?_
        rintro ⟨r, ys, c2⟩ ⟨r', ys', c2'⟩ h2
        exact .some ⟨h2.err, h2.bad, h2.after, fun a b => ⟨by simpa using (h2.ok a b).1, (h2.ok a b).2⟩, fun hv => by simpa using h2.vals hv⟩
      · simp only [hy, not_false_eq_true, if_true]
        refine .some ⟨rfl, by simpa using hy, ho.after.set e, by simp, fun hv => ?_⟩
        have : y = y' := ho.vals hv
        rw [this]
    · simp only [he, ne_eq, not_false_eq_true, if_true]
      exact .some ⟨rfl, by simpa using he, hd, by simp, fun _ => rfl⟩

theorem arr_twin (N : Nat) {h h' : Handler T} (hs : S.Two h h') : S.Two (arrH N h) (arrH N h') := by
  refine ⟨by simp only [arrH, hs.1], ?_⟩
  intro n old c c' hc
  simp only [arrH, ← hc.ty]
  split
  · exact .some (hc.out _ _)
  · exact (arrLoop_twin hs n old _ _ hc.fail hc.next).bind fun x y h => arrEnd_alike (old := old) h

theorem avcLoop_twin {h h' : Handler T} (hs : S.Two h h') (fuel size : Nat) : ∀ (old : List T) (i : Nat) (c c' : Ctx), S.D c c' → (c.error = .noError → S.C c c') →
    Likeness.Opt (fun r r' => ArrOut S (r.1, (r.2.1, r.2.2.1), r.2.2.2) (r'.1, (r'.2.1, r'.2.2.1), r'.2.2.2)) S (avcLoop h fuel size i old c) (avcLoop h' fuel size i old c')
  | [], i, c, c', hd, hc => .some ⟨rfl, by simp, hd, fun _ he => ⟨rfl, hc he⟩, fun _ => rfl⟩
  | x :: xs, i, c, c', hd, hc => by
    rw [avcLoop, avcLoop, ← hd.1.error, ← hd.ty]
    by_cases he : c.error = .noError
    · simp only [he, ne_eq, not_true_eq_false, if_false]
      split
      · exact .some ⟨rfl, by simp, hd, fun _ _ => ⟨rfl, hc he⟩, fun _ => rfl⟩
      refine (hs.2 fuel x c c' (hc he)).bind ?_
      rintro ⟨e, y, c1⟩ ⟨e', y', c1'⟩ ho
      obtain rfl : e = e' := ho.err
      by_cases hy : e = .noError
      · obtain ⟨hx, hc1⟩ := ho.ok hy
        obtain rfl : y = y' := hx
        simp only [hy, not_true_eq_false, if_false]
        have hn := hc1.set .noError
        refine (avcLoop_twin hs fuel size xs (i + 1) _ _ hn.fail hn.next).bind ?_
        rintro ⟨r, ys, sz, c2⟩ ⟨r', ys', sz', c2'⟩ h2
        exact .some ⟨h2.err, h2.bad, h2.after, fun a b => ⟨by simpa using (h2.ok a b).1, (h2.ok a b).2⟩, fun hv => by simpa using h2.vals hv⟩
      · simp only [hy, not_false_eq_true, if_true]
        refine .some ⟨rfl, by simpa using hy, ho.after.set e, by simp, fun hv => ?_⟩
        have : y = y' := ho.vals hv
        rw [this]
    · simp only [he, ne_eq, not_false_eq_true, if_true]
      exact .some ⟨rfl, by simpa using he, hd, by simp, fun _ => rfl⟩

theorem avc_twin (N : Nat) {h h' : Handler T} (hs : S.Two h h') : S.Two (avcH N h) (avcH N h') := by
  refine ⟨by simp only [avcH, hs.1], ?_⟩
  intro n old c c' hc
  simp only [avcH, ← hc.ty]
  split
  · exact .some (hc.out _ _)
  · exact (avcLoop_twin hs n old.2 old.1 0 _ _ hc.fail hc.next).bind fun x y h => arrEnd_alike (old := old) h

theorem tupNil_twin : S.TwoT TupleH.nil TupleH.nil := ⟨rfl, fun _ _ _ _ hc => .some (hc.out _ _)⟩

theorem tupCons_twin {h h' : Handler T} {t t' : TupleH Ts} (hs : S.Two h h') (ht : S.TwoT t t') : S.TwoT (TupleH.cons h t) (TupleH.cons h' t') := by
  refine ⟨by simp only [TupleH.cons, hs.1, ht.1], ?_⟩
  intro n old c c' hc
  simp only [TupleH.cons]
  refine (hs.2 n old.1 c c' hc).bind ?_
  rintro ⟨e, x, c1⟩ ⟨e', x', c1'⟩ ho
  obtain rfl : e = e' := ho.err
  by_cases he : e = .noError
  · obtain ⟨hx, hc1⟩ := ho.ok he
    obtain rfl : x = x' := hx
    simp only [he, ne_eq, not_true_eq_false, if_false]
    exact enter_twin (f := fun c => (t.to n old.2 c).map fun r => (r.1, (x, r.2.1), r.2.2)) (g := fun c => (t'.to n old.2 c).map fun r => (r.1, (x, r.2.1), r.2.2)) hc1 fun hn =>
      (ht.2 n old.2 _ _ hn).map fun _ _ h => h.mapVal fun v => (x, v)
  · simp only [he, ne_eq, not_false_eq_true, if_true]
    exact .some (ho.mapVal fun x => (x, old.2))

theorem tuple_twin {t t' : TupleH Ts} (ht : S.TwoT t t') : S.Two (tupleH t) (tupleH t') := by
  refine ⟨ht.1, ?_⟩
  intro n old c c' hc
  simp only [tupleH, ← hc.ty]
  split
  · exact .some (hc.out _ _)
  · refine enter_twin (f := fun c => do
        let (e, x, c) ← t.to n old c
        if e ≠ .noError then some (e, x, c)
        else if c.token.valueType ≠ .arrayEnd then some (.expectedArrayEnd, x, c)
        else some (.noError, x, c)) (g := fun c => do
        let (e, x, c) ← t'.to n old c
        if e ≠ .noError then some (e, x, c)
        else if c.token.valueType ≠ .arrayEnd then some (.expectedArrayEnd, x, c)
        else some (.noError, x, c)) hc fun hn => ?_
    refine (ht.2 n old _ _ hn).bind ?_
    rintro ⟨e, x, c1⟩ ⟨e', x', c1'⟩ ho
    obtain rfl : e = e' := ho.err
    by_cases he : e = .noError
    · obtain ⟨hx, hc1⟩ := ho.ok he
      obtain rfl : x = x' := hx
      have ht : c1.token.valueType = c1'.token.valueType := hc1.ty
      simp only [he, ne_eq, not_true_eq_false, if_false, ← ht]
      split <;> exact .some (hc1.out _ _)
    · simp only [he, ne_eq, not_false_eq_true, if_true]
      exact .some ho

/-! ### Structs -/

mutual
theorem Meta.Two.count {M M' : Meta T} (h : Meta.Two S M M') : M.count = M'.count := by
  match M, M', h with
  | .mk ms ss, .mk ms' ss', .mk h1 h2 => rw [Meta.count, Meta.count, h1.length_eq, h2.count]
theorem SupersTwo.count {ss ss' : List (Bytes × Meta T)} (h : SupersTwo S ss ss') : supersCount ss = supersCount ss' := by
  match ss, ss', h with
  | [], [], .nil => rfl
  | (n, m) :: ss, (_, m') :: ss', .cons h1 h2 => rw [supersCount, supersCount, h1.count, h2.count]
end

theorem revVisit_two (page : Nat) (sn : Bytes) {ms ms' : List (Member T)} (h : List.Forall₂ S.TwoM ms ms') :
    List.Forall₂ (fun v v' : Visit T => v.idx = v'.idx ∧ S.TwoM v.mem v'.mem) (revVisit page sn ms) (revVisit page sn ms') := by
  induction h with
  | nil => exact .nil
  | cons h hs ih =>
    rw [revVisit, revVisit, hs.length_eq]
    exact .cons ⟨rfl, h⟩ ih

mutual
theorem Meta.Two.visit {M M' : Meta T} (h : Meta.Two S M M') (page : Nat) (sn : Bytes) :
    List.Forall₂ (fun v v' : Visit T => v.idx = v'.idx ∧ S.TwoM v.mem v'.mem) (M.visit page sn) (M'.visit page sn) := by
  match M, M', h with
  | .mk ms ss, .mk ms' ss', .mk h1 h2 =>
    rw [Meta.visit, Meta.visit, ← h1.length_eq]
    exact List.rel_append (revVisit_two page sn (List.forall₂_reverse_iff.mpr h1)) (h2.visit (page + ms.length))
theorem SupersTwo.visit {ss ss' : List (Bytes × Meta T)} (h : SupersTwo S ss ss') (page : Nat) :
    List.Forall₂ (fun v v' : Visit T => v.idx = v'.idx ∧ S.TwoM v.mem v'.mem) (visitSupers page ss) (visitSupers page ss') := by
  match ss, ss', h with
  | [], [], .nil => exact .nil
  | (n, m) :: ss, (_, m') :: ss', .cons h1 h2 =>
    rw [visitSupers, visitSupers, ← h1.count]
    exact List.rel_append (h1.visit page n) (h2.visit (page + m.count))
end

theorem verifyRev_two (page : Nat) (asg : List Bool) (track : Bool) (sn : Bytes) {ms ms' : List (Member T)} (h : List.Forall₂ S.TwoM ms ms') :
    verifyRev page asg track sn ms = verifyRev page asg track sn ms' := by
  induction h with
  | nil => rfl
  | cons h hs ih =>
    rw [verifyRev, verifyRev, ih, hs.length_eq]
    simp only [verifyMember, h.opt, h.names]

mutual
theorem Meta.Two.verify {M M' : Meta T} (h : Meta.Two S M M') (page : Nat) (asg : List Bool) (track : Bool) (sn : Bytes) :
    M.verify page asg track sn = M'.verify page asg track sn := by
  match M, M', h with
  | .mk ms ss, .mk ms' ss', .mk h1 h2 =>
    rw [Meta.verify, Meta.verify, ← h1.length_eq, verifyRev_two page asg track sn (List.forall₂_reverse_iff.mpr h1), h2.verify]
theorem SupersTwo.verify {ss ss' : List (Bytes × Meta T)} (h : SupersTwo S ss ss') (page : Nat) (asg : List Bool) (track : Bool) :
    verifySupers page asg track ss = verifySupers page asg track ss' := by
  match ss, ss', h with
  | [], [], .nil => rfl
  | (n, m) :: ss, (_, m') :: ss', .cons h1 h2 => rw [verifySupers, verifySupers, ← h1.count, h1.verify, h2.verify]
end

theorem find_two {α : Type} {R : α → α → Prop} {p : α → Bool} (hp : ∀ x y, R x y → p x = p y) {xs ys : List α} (h : List.Forall₂ R xs ys) :
    (xs.find? p = none ∧ ys.find? p = none) ∨ ∃ x y, xs.find? p = some x ∧ ys.find? p = some y ∧ R x y := by
  induction h with
  | nil => exact .inl ⟨rfl, rfl⟩
  | @cons x y xs ys h hs ih =>
    rw [List.find?_cons, List.find?_cons, ← hp x y h]
    cases p x with
    | true => exact .inr ⟨x, y, rfl, rfl, h⟩
    | false => exact ih

theorem named_two {m m' : Member T} (h : S.TwoM m m') (primary : Bool) (name : Bytes) : m.named primary name = m'.named primary name := by
  simp only [Member.named, h.names]

theorem find_twin {M M' : Meta T} (hM : Meta.Two S M M') (fuel : Nat) (old : T) (c c' : Ctx) (asg : List Bool) (hc : S.C c c') :
    Likeness.Opt (FindOut S) S (M.find fuel old c asg) (M'.find fuel old c' asg) := by
  have found : ∀ v v' : Visit T, v.idx = v'.idx → S.H2 v.mem.to v'.mem.to →
      Likeness.Opt (fun r r' => FindOut S r r' ∧ r.1 ≠ .missingPropertyMember ∧ r'.1 ≠ .missingPropertyMember) S
        ((v.mem.to fuel old c).map fun r => (matchedMemberResult r.1, r.2.1, r.2.2, asg.set v.idx true))
        ((v'.mem.to fuel old c').map fun r => (matchedMemberResult r.1, r.2.1, r.2.2, asg.set v'.idx true)) := by
    intro v v' hi hv
    rw [← hi]
    refine (hv fuel old c c' hc).map fun x y h => ⟨⟨⟨?_, h.after, fun he => h.ok ?_, h.vals⟩, rfl, fun h => absurd h (matched_ne _)⟩, matched_ne _, matched_ne _⟩
    · simp only [h.err]
    · revert he
      simp only [matchedMemberResult]
      split <;> simp
  have hvis := hM.visit 0 []
  simp only [Meta.find, unpack_eq M 0 [], unpack_eq M' 0 [], unpackVisit_find, ← hc.name]
  rcases find_two (p := fun v => v.mem.named true c.token.name.bytes) (fun x y h => named_two h.2 _ _) hvis with ⟨h1, h1'⟩ | ⟨v, v', h1, h1', hv⟩
  swap
  · rw [h1, h1']
    refine (found v v' hv.1 hv.2.reads).bind ?_
    rintro x y ⟨h, g, g'⟩
    rw [if_neg g, if_neg g']
    exact .some h
  · rw [h1, h1']
    simp only [Option.bind_eq_bind, Option.bind_some, if_true, ← hc.name]
    rcases find_two (p := fun v => v.mem.named false c.token.name.bytes) (fun x y h => named_two h.2 _ _) hvis with ⟨h2, h2'⟩ | ⟨v, v', h2, h2', hv⟩
    swap
    · rw [h2, h2']
      exact (found v v' hv.1 hv.2.reads).mono fun x y h => h.1
    · rw [h2, h2']
      exact .some ⟨hc.out _ _, rfl, fun _ => ⟨rfl, hc⟩⟩

theorem structLoop_twin {M M' : Meta T} (hM : Meta.Two S M M') (fuel : Nat) : ∀ (n : Nat) (old : T) (c c' : Ctx) (asg : List Bool), S.C c c' →
    Likeness.Opt (LoopOut S) S (structLoop M fuel n old c asg) (structLoop M' fuel n old c' asg)
  | 0, _, _, _, _, _ => .none
  | n + 1, old, c, c', asg, hc => by
    by_cases hv : c.token.valueType = .objectEnd
    · rw [structLoop, structLoop, ← hc.ty, if_pos hv, if_pos hv]
      exact .some ⟨rfl, by simp, hc.weak, fun _ => ⟨rfl, hc, rfl⟩, fun _ => rfl⟩
    · rw [structLoop_succ _ _ _ _ _ _ hv, structLoop_succ _ _ _ _ _ _ (by rw [← hc.ty]; exact hv), ← hc.name]
      refine (find_twin hM fuel old c c' asg hc).bind ?_
      rintro ⟨e, v, c1, asg1⟩ ⟨e', v', c1', asg1'⟩ ⟨ho, ha, hm⟩
      obtain rfl : e = e' := ho.err
      obtain rfl : asg1 = asg1' := ha
      have hstep : Likeness.Opt (fun q q' => StopOut S q q' ∧ (q.1 = none → v = v') ∧ (S.vals → v = v')) S
          (if e = .missingPropertyMember then c1.unknown fuel c.token.name.bytes else some (if e ≠ .noError then some e else none, c1))
          (if e = .missingPropertyMember then c1'.unknown fuel c.token.name.bytes else some (if e ≠ .noError then some e else none, c1')) := by
        by_cases hmp : e = .missingPropertyMember
        · obtain ⟨hv1, hc1⟩ := hm hmp
          rw [if_pos hmp, if_pos hmp]
          exact (unknown_alike fuel _ _ _ hc1).mono fun x y h => ⟨h, fun _ => hv1, fun _ => hv1⟩
        · rw [if_neg hmp, if_neg hmp]
          by_cases he : e = .noError
          · obtain ⟨hv1, hc1⟩ := ho.ok he
            simp only [he, ne_eq, not_true_eq_false, if_false]
            exact .some ⟨⟨rfl, by simp, hc1.weak, fun _ => hc1⟩, fun _ => hv1, fun _ => hv1⟩
          · simp only [he, ne_eq, not_false_eq_true, if_true]
            exact .some ⟨⟨rfl, by simpa using he, ho.after, by simp⟩, by simp, ho.vals⟩
      refine hstep.bind ?_
      rintro ⟨stop, c2⟩ ⟨stop', c2'⟩ ⟨hs, hvv, hvals⟩
      obtain rfl : stop = stop' := hs.err
      cases stop with
      | some e' => exact .some ⟨rfl, hs.bad, hs.after, by simp, hvals⟩
      | none =>
        have hc2 := hs.ok rfl
        obtain rfl : v = v' := hvv rfl
        simp only [← Likeness.C.nextError hc2]
        by_cases hne : c2.next.error = .noError
        · simp only [hne, ne_eq, not_true_eq_false, if_false]
          exact structLoop_twin hM fuel n v _ _ asg1 (Likeness.C.next hc2 hne)
        · simp only [hne, ne_eq, not_false_eq_true, if_true]
          exact .some ⟨rfl, by simpa using hne, Likeness.C.fail hc2, by simp, fun _ => rfl⟩

theorem struct_twin {M M' : Meta T} (hM : Meta.Two S M M') : S.H2 (structTo M) (structTo M') := by
  intro n old c c' hc
  simp only [structTo, ← hc.ty, ← hM.count, ← hM.verify]
  split
  · exact .some (hc.out _ _)
  · have hne := S.err hc.2
    have hD : S.D { c with tz := (c.tz.nextToken c.token).2.1, token := (c.tz.nextToken c.token).2.2 }
        { c' with tz := (c'.tz.nextToken c'.token).2.1, token := (c'.tz.nextToken c'.token).2.2 } := ⟨⟨hc.1.error, hc.1.missing, hc.1.unassigned, hc.1.allowMissing, hc.1.allowUnassigned, hc.1.track⟩, S.fail hc.2⟩
    rw [← hne]
    by_cases he : (c.tz.nextToken c.token).1 = .noError
    · simp only [he, ne_eq, not_true_eq_false, if_false]
      have hC : S.C { c with tz := (c.tz.nextToken c.token).2.1, token := (c.tz.nextToken c.token).2.2 }
        { c' with tz := (c'.tz.nextToken c'.token).2.1, token := (c'.tz.nextToken c'.token).2.2 } := ⟨hD.1, S.next hc.2 he⟩
      refine (structLoop_twin hM n n old _ _ (List.replicate M.count false) hC).bind ?_
      rintro ⟨stop, v, c1, asg⟩ ⟨stop', v', c1', asg'⟩ hl
      obtain rfl : stop = stop' := hl.err
      cases stop with
      | some e => exact .some ⟨rfl, hl.after, fun h => absurd h (hl.bad e rfl), hl.vals⟩
      | none =>
        obtain ⟨h1, h2, h3⟩ := hl.ok rfl
        obtain rfl : v = v' := h1
        obtain rfl : asg = asg' := h3
        have h2 : S.C c1 c1' := h2
        simp only [← h2.1.track]
        split
        · split
          · simp only [← h2.1.allowUnassigned]
            refine .some (Likeness.C.out ?_ _ _)
            exact ⟨⟨h2.1.error, h2.1.missing, by simp only [h2.1.unassigned], h2.1.allowMissing, rfl, rfl⟩, h2.2⟩
          · simp only [← h2.1.allowUnassigned]
            exact .some (h2.out _ _)
        · exact .some (h2.out _ _)
    · simp only [he, ne_eq, not_false_eq_true, if_true]
      exact .some (hD.out he _)

theorem memberOf_twin {h h' : Handler M} (hs : S.Two h h') (names : List Bytes) (opt : Bool) (get : T → M) (set : M → T → T) :
    S.TwoM (Member.of names opt h get set) (Member.of names opt h' get set) :=
  ⟨rfl, rfl, fun n old c c' hc => (hs.2 n (get old) c c' hc).map fun _ _ h => h.mapVal fun v => set v old⟩

theorem memberUp_twin {m m' : Member A} (hs : S.TwoM m m') (get : T → A) (set : A → T → T) : S.TwoM (m.up get set) (m'.up get set) :=
  ⟨hs.names, hs.opt, fun n old c c' hc => (hs.reads n (get old) c c' hc).map fun _ _ h => h.mapVal fun v => set v old⟩

mutual
theorem Meta.Two.up {M M' : Meta A} (h : Meta.Two S M M') (get : T → A) (set : A → T → T) : Meta.Two S (M.up get set) (M'.up get set) := by
  match M, M', h with
  | .mk ms ss, .mk ms' ss', .mk h1 h2 =>
    rw [Meta.up, Meta.up]
    refine .mk ?_ (h2.up get set)
    rw [List.forall₂_map_left_iff, List.forall₂_map_right_iff]
    exact h1.imp fun _ _ h => memberUp_twin h get set
theorem SupersTwo.up {ss ss' : List (Bytes × Meta A)} (h : SupersTwo S ss ss') (get : T → A) (set : A → T → T) : SupersTwo S (supersUp get set ss) (supersUp get set ss') := by
  match ss, ss', h with
  | [], [], .nil => exact .nil
  | (n, m) :: ss, (_, m') :: ss', .cons h1 h2 =>
    rw [supersUp, supersUp]
    exact .cons (h1.up get set) (h2.up get set)
end

theorem parseTo_twin {h h' : Handler T} (hs : S.Two h h') (n : Nat) (old : T) (c c' : Ctx) (hc : S.C c c') :
    Likeness.Opt S.Out S (parseTo h n old c) (parseTo h' n old c') := by
  simp only [parseTo]
  exact enter_twin (f := fun c => (h.to n old c).map fun r => (r.1, r.2.1, { r.2.2 with error := r.1 }))
    (g := fun c => (h'.to n old c).map fun r => (r.1, r.2.1, { r.2.2 with error := r.1 })) hc fun hn =>
    (hs.2 n old _ _ hn).map fun _ _ h => h.setErr id

end JsonStruct
