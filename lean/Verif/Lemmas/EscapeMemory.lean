import Verif.Model.EscapeMemory
import Verif.Spec.WellEscaped
import Verif.Lemmas.Escape

namespace JsonStruct

theorem readAt_append (p r : Bytes) (i : Nat) (h : i < r.length) : readAt (p ++ r) (p.length + i) = .ok (r.getD i 0) := by
  simp [readAt, h]

theorem hexLoop_append (p r : Bytes) (i : Nat) (h : i + 4 ≤ r.length) :
    (∃ v, hex4 (r.drop i) = some v ∧ ∃ ds, hexLoop (p ++ r) (p.length + i) 4 [] = .ok (true, ds) ∧ combineDigits ds = .ok v) ∨
    (hex4 (r.drop i) = none ∧ ∃ ds, hexLoop (p ++ r) (p.length + i) 4 [] = .ok (false, ds) ∧ combineDigits ds = .error .unset) := by
  obtain ⟨a, b, c, d, t, ht⟩ : ∃ a b c d t, r.drop i = a :: b :: c :: d :: t := by
    have : 4 ≤ (r.drop i).length := by simp; omega
    match h : r.drop i, this with
    | a :: b :: c :: d :: t, _ => exact ⟨a, b, c, d, t, rfl⟩
  have g : ∀ j, j < 4 → readAt (p ++ r) (p.length + i + j) = .ok ((r.drop i).getD j 0) := by
    intro j hj
    rw [Nat.add_assoc, readAt_append _ _ _ (by omega)]
    simp
  have g0 := g 0 (by omega)
  have g1 := g 1 (by omega)
  have g2 := g 2 (by omega)
  have g3 := g 3 (by omega)
  rw [ht] at g0 g1 g2 g3 ⊢
  simp only [List.getD_cons_zero, List.getD_cons_succ, Nat.add_zero] at g0 g1 g2 g3
  simp only [hexLoop, List.length_nil, Nat.add_zero, g0, bind, Except.bind, hex4]
  cases hexDigit a with
  | none => exact .inr ⟨by simp, [], rfl, rfl⟩
  | some va =>
    simp only [List.nil_append, List.length_cons, List.length_nil, g1, Nat.zero_add]
    cases hexDigit b with
    | none => exact .inr ⟨by simp, [va], rfl, rfl⟩
    | some vb =>
      simp only [List.cons_append, List.nil_append, List.length_cons, List.length_nil, g2, Nat.zero_add, Nat.reduceAdd]
      cases hexDigit c with
      | none => exact .inr ⟨by simp, [va, vb], rfl, rfl⟩
      | some vc =>
        simp only [g3]
        cases hexDigit d with
        | none => exact .inr ⟨rfl, [va, vb, vc], rfl, rfl⟩
        | some vd => exact .inl ⟨_, rfl, [va, vb, vc, vd], rfl, rfl⟩

/-- The second group of digits: it is complete, or read although it is not. -/
theorem surrogateAt_append (p r : Bytes) (c0 c1 : Byte) (cp : Nat) :
    surrogateAt (p ++ c0 :: c1 :: r) p.length r.length cp = .ok (surrogate cp r) ∨
    (surrogateAt (p ++ c0 :: c1 :: r) p.length r.length cp = .error .unset ∧ r.getD 4 0 = BSL ∧ r.getD 5 0 = 117 ∧ 10 ≤ r.length ∧ hex4 (r.drop 6) = none) := by
  unfold surrogateAt surrogate
  by_cases h1 : 0xD800 ≤ cp ∧ cp ≤ 0xDBFF ∧ 10 ≤ r.length
  swap
  · left
    rw [if_neg h1, if_neg (by tauto)]
  rw [if_pos h1]
  have e6 := readAt_append p (c0 :: c1 :: r) 6 (by simp; omega)
  have e7 := readAt_append p (c0 :: c1 :: r) 7 (by simp; omega)
  simp only [List.getD_cons_succ] at e6 e7
  simp only [e6, bind, Except.bind]
  by_cases h2 : r.getD 4 0 = BSL
  swap
  · left
    rw [if_pos h2, if_neg (by tauto)]
  rw [if_neg (by simpa using h2)]
  simp only [e7]
  by_cases h3 : r.getD 5 0 = 117
  swap
  · left
    rw [if_pos h3, if_neg (by tauto)]
  rw [if_neg (by simpa using h3), if_pos ⟨h1.1, h1.2.1, h1.2.2, h2, h3⟩]
  have := hexLoop_append p (c0 :: c1 :: r) 8 (by simp; omega)
  simp only [List.drop_succ_cons] at this
  rcases this with ⟨v, g1, ds, g2, g3⟩ | ⟨g1, ds, g2, g3⟩
  · left
    simp only [g2, g3, g1, true_and]
  · right
    simp only [g2, g3]
    exact ⟨trivial, h2, h3, h1.2.2, g1⟩

theorem WellEscaped.behind {r : Bytes} (h : WellEscaped (BSL :: 117 :: r)) : ∃ v, hex4 r = some v ∧ WellEscaped (r.drop 4) := by
  generalize ht : BSL :: 117 :: r = t at h
  cases h with
  | nil => cases ht
  | plain h => injection ht with h1; exact absurd h1.symm h
  | esc h => injection ht with _ h1; injection h1 with h1; exact absurd h1.symm h
  | uni h hs =>
    simp only [List.cons_append, List.nil_append, List.cons.injEq] at ht
    obtain ⟨_, _, rfl⟩ := ht
    obtain ⟨g1, g2⟩ := hex4_of h _
    exact ⟨_, g1, by rw [← g2, List.drop_left]; exact hs⟩

theorem WellEscaped.escape {c : Byte} {r : Bytes} (h : WellEscaped (BSL :: c :: r)) (hc : c ≠ 117) : WellEscaped r := by
  generalize ht : BSL :: c :: r = t at h
  cases h with
  | nil => cases ht
  | plain h => injection ht with h1; exact absurd h1.symm h
  | esc h hs => injection ht with _ h1; injection h1 with h1 h2; rwa [h2]
  | uni h hs =>
    simp only [List.cons_append, List.nil_append, List.cons.injEq] at ht
    exact absurd ht.2.1 hc

theorem WellEscaped.plains {a t : Bytes} (ha : ∀ b ∈ a, b ≠ BSL) (h : WellEscaped (a ++ t)) : WellEscaped t := by
  induction a with
  | nil => exact h
  | cons b a ih =>
    refine ih (fun x hx => ha x (List.mem_cons_of_mem _ hx)) ?_
    have hb := ha b List.mem_cons_self
    generalize hs : b :: a ++ t = s at h
    cases h with
    | nil => cases hs
    | plain _ h =>
      simp only [List.cons_append, List.cons.injEq] at hs
      rw [hs.2]
      exact h
    | esc _ h => injection hs with h1; exact absurd h1 hb
    | uni _ h => injection hs with h1; exact absurd h1 hb

/-- A second group of digits is only read if the text is not well escaped, or if it is complete. -/
theorem WellEscaped.pair {r : Bytes} (h : WellEscaped (BSL :: 117 :: r)) (h4 : r.getD 4 0 = BSL) (h5 : r.getD 5 0 = 117) (h10 : 10 ≤ r.length) :
    hex4 (r.drop 6) ≠ none := by
  obtain ⟨_, _, h⟩ := h.behind
  match r, h10 with
  | a :: b :: c :: d :: e :: f :: r, _ =>
    simp only [List.getD_cons_succ, List.getD_cons_zero] at h4 h5
    subst h4 h5
    obtain ⟨v, hv, _⟩ := h.behind
    simp only [List.drop_succ_cons, List.drop_zero]
    rw [hv]
    simp

/-- What comes behind the escape is well escaped too. -/
theorem WellEscaped.rest {r : Bytes} (h : WellEscaped (BSL :: 117 :: r)) (cp : Nat) : WellEscaped (r.drop (surrogate cp r).2) := by
  obtain ⟨_, _, h'⟩ := h.behind
  unfold surrogate
  split
  · next hc =>
    split
    · split
      · obtain ⟨_, _, h10, h4, h5⟩ := hc
        match r, h10 with
        | a :: b :: c :: d :: e :: f :: r, _ =>
          simp only [List.getD_cons_succ, List.getD_cons_zero] at h4 h5
          subst h4 h5
          obtain ⟨v, hv, g⟩ := h'.behind
          exact g
      · exact h'
    · exact h'
  · exact h'

theorem surrogate_within (cp : Nat) (r : Bytes) (h : 4 ≤ r.length) : (surrogate cp r).2 ≤ r.length := by
  unfold surrogate
  split
  · next hc =>
    split
    · split
      · exact hc.2.2.1
      · exact h
    · exact h
  · exact h

theorem split_backslash (r : Bytes) (hk : r.findIdx (· = BSL) ≠ r.length) :
    ∃ a t, r = a ++ BSL :: t ∧ (∀ b ∈ a, b ≠ BSL) ∧ a.length = r.findIdx (· = BSL) := by
  induction r with
  | nil => exact absurd rfl hk
  | cons c r ih =>
    by_cases hc : c = BSL
    · subst hc
      exact ⟨[], r, rfl, by simp, by simp [List.findIdx_cons]⟩
    · have hf : (c :: r).findIdx (· = BSL) = r.findIdx (· = BSL) + 1 := by simp [List.findIdx_cons, hc]
      rw [hf] at hk ⊢
      obtain ⟨a, t, rfl, ha, hl⟩ := ih (by simpa using hk)
      refine ⟨c :: a, t, rfl, ?_, by simp [hl]⟩
      intro b hb
      rcases List.mem_cons.mp hb with rfl | hb
      · exact hc
      · exact ha b hb

theorem escapesInAt_eq (n : Nat) (p r : Bytes) :
    escapesInAt (p ++ r) n p.length r.length = .ok (escapesInLoop n r) ∨
    (escapesInAt (p ++ r) n p.length r.length = .error .unset ∧ ¬ WellEscaped r) := by
  induction n generalizing p r with
  | zero => exact .inl rfl
  | succ n ih =>
    unfold escapesInAt escapesInLoop
    by_cases h0 : r.length = 0
    · left
      rw [if_pos h0, if_pos h0]
    rw [if_neg h0, if_neg h0, if_neg (by simp)]
    have hh : List.take r.length (List.drop p.length (p ++ r)) = r := by simp
    rw [hh]
    dsimp only
    by_cases hk : r.findIdx (· = BSL) = r.length
    · left
      rw [if_pos hk, if_pos hk]
    rw [if_neg hk, if_neg hk]
    obtain ⟨a, t, hr, ha, hlen⟩ := split_backslash r hk
    rw [← hlen]
    subst hr
    rw [List.take_left, List.drop_left]
    have hsz : (a ++ BSL :: t).length - a.length = t.length + 1 := by simp
    rw [hsz]
    cases t with
    | nil => exact .inl (by simp)
    | cons c t =>
    rw [if_neg (by simp), if_neg (by simp)]
    have hsz2 : (c :: t).length + 1 - 2 = t.length := by simp
    rw [hsz2]
    have hpos : p ++ (a ++ BSL :: c :: t) = (p ++ a) ++ BSL :: c :: t := by simp
    have hpl : p.length + a.length = (p ++ a).length := by simp
    have hread : readAt (p ++ (a ++ BSL :: c :: t)) (p.length + a.length + 1) = .ok c := by
      rw [hpos, hpl, readAt_append _ _ _ (by simp)]
      rfl
    have hw : WellEscaped (a ++ BSL :: c :: t) → WellEscaped (BSL :: c :: t) := WellEscaped.plains ha
    -- the rest of the text, `u` bytes behind the escape
    have hrest : ∀ u, u ≤ t.length → 
        escapesInAt (p ++ (a ++ BSL :: c :: t)) n (p.length + a.length + 2 + u) (t.length - u) = .ok (escapesInLoop n (t.drop u)) ∨
        (escapesInAt (p ++ (a ++ BSL :: c :: t)) n (p.length + a.length + 2 + u) (t.length - u) = .error .unset ∧ ¬ WellEscaped (t.drop u)) := by
      intro u hu
      have := ih (p ++ a ++ [BSL, c] ++ t.take u) (t.drop u)
      have e1 : p ++ a ++ [BSL, c] ++ t.take u ++ t.drop u = p ++ (a ++ BSL :: c :: t) := by simp
      have e2 : (p ++ a ++ [BSL, c] ++ t.take u).length = p.length + a.length + 2 + u := by simp [hu]; omega
      rw [e1, e2, List.length_drop] at this
      exact this
    have hrest0 := hrest 0 (by omega)
    rw [Nat.add_zero, Nat.sub_zero, List.drop_zero] at hrest0
    simp only [hread, bind, Except.bind, List.getD_cons_succ, List.getD_cons_zero, List.drop_succ_cons, List.drop_zero]
    by_cases hc : c = 117
    swap
    · simp only [if_neg hc]
      rcases hrest0 with h | ⟨h, g⟩
      · exact .inl (by simp only [h])
      · exact .inr ⟨by simp only [h], fun hx => g ((hw hx).escape hc)⟩
    subst hc
    simp only [if_true]
    by_cases h4 : 4 ≤ t.length
    swap
    · have hn : hex4 t = none := hex4_short (by omega)
      simp only [if_neg h4, hn, Bool.false_eq_true, if_false]
      rcases hrest0 with h | ⟨h, g⟩
      · exact .inl (by simp only [h])
      · refine .inr ⟨by simp only [h], fun hx => ?_⟩
        obtain ⟨v, hv, _⟩ := (hw hx).behind
        rw [hn] at hv
        cases hv
    simp only [if_pos h4]
    have hx := hexLoop_append (p ++ a) (BSL :: 117 :: t) 2 (by simp; omega)
    rw [← hpl, ← hpos] at hx
    simp only [List.drop_succ_cons, List.drop_zero] at hx
    rcases hx with ⟨v, g1, ds, g2, g3⟩ | ⟨g1, ds, g2, g3⟩
    swap
    · simp only [g2, g1, Bool.false_eq_true, if_false]
      rcases hrest0 with h | ⟨h, g⟩
      · exact .inl (by simp only [h])
      · refine .inr ⟨by simp only [h], fun hx => ?_⟩
        obtain ⟨v, hv, _⟩ := (hw hx).behind
        rw [g1] at hv
        cases hv
    simp only [g2, g1, g3, if_true]
    have hs := surrogateAt_append (p ++ a) t BSL 117 v
    rw [← hpl, ← hpos] at hs
    rcases hs with hs | ⟨hs, k4, k5, k10, k6⟩
    · simp only [hs]
      rcases hrest _ (surrogate_within v t h4) with h | ⟨h, g⟩
      · exact .inl (by simp only [h])
      · exact .inr ⟨by simp only [h], fun hx => g ((hw hx).rest v)⟩
    · simp only [hs]
      exact .inr ⟨trivial, fun hx => (hw hx).pair k4 k5 k10 k6⟩

end JsonStruct
