import Verif.Model.ErrorContext
import Verif.Spec.Report

/- Lemmas on `updateErrorContext`. -/

namespace JsonStruct

/-- No line break in the range. -/
def NoLF (d : Bytes) (a b : Nat) : Prop := ∀ j, a ≤ j → j < b → d[j]? ≠ some LF

/-- Ranges follow each other with a line break between them. -/
def Adj (d : Bytes) : List (Nat × Nat) → Prop
  | a :: b :: r => b.1 = a.2 + 1 ∧ d[a.2]? = some LF ∧ Adj d (b :: r)
  | _ => True

theorem adj_get {d : Bytes} : ∀ {l : List (Nat × Nat)}, Adj d l → ∀ i a b, l[i]? = some a → l[i + 1]? = some b →
    b.1 = a.2 + 1 ∧ d[a.2]? = some LF
  | [], _, i, a, b, ha, _ => by simp at ha
  | [_], _, i, a, b, _, hb => by simp at hb
  | x :: y :: r, h, 0, a, b, ha, hb => by
    simp at ha hb; subst ha; subst hb; exact ⟨h.1, h.2.1⟩
  | x :: y :: r, h, i + 1, a, b, ha, hb => adj_get h.2.2 i a b (by simpa using ha) (by simpa using hb)

theorem adj_head {d : Bytes} {a e x : Nat} {r : List (Nat × Nat)} (h : Adj d ((a, e) :: r)) : Adj d ((x, e) :: r) := by
  cases r with
  | nil => trivial
  | cons y r => exact h

theorem adj_append {d : Bytes} : ∀ {l m : List (Nat × Nat)} {x : Nat × Nat}, Adj d (l ++ [x]) → Adj d (x :: m) →
    Adj d (l ++ x :: m)
  | [], m, x, _, h => h
  | [a], m, x, h1, h => ⟨h1.1, h1.2.1, h⟩
  | a :: b :: l, m, x, h1, h => ⟨h1.1, h1.2.1, adj_append (l := b :: l) h1.2.2 h⟩

/-- The end of the last range of a list does not matter. -/
theorem adj_last {d : Bytes} : ∀ {l : List (Nat × Nat)} {a e e' : Nat}, Adj d (l ++ [(a, e)]) → Adj d (l ++ [(a, e')])
  | [], _, _, _, _ => trivial
  | [x], _, _, _, h => ⟨h.1, h.2.1, trivial⟩
  | x :: y :: l, _, _, _, h => ⟨h.1, h.2.1, adj_last (l := y :: l) h.2.2⟩

theorem backEnd_append : ∀ (l : List (Nat × Nat)) (a e x : Nat), backEnd (l ++ [(a, e)]) x = l ++ [(a, x)]
  | [], _, _, _ => rfl
  | y :: l, a, e, x => by
    have := backEnd_append l a e x
    cases l with
    | nil => rfl
    | cons z l => rw [List.cons_append, List.cons_append, backEnd, ← List.cons_append, this]; rfl; simp

theorem closeLast_append (l : List (Nat × Nat)) (a e cf : Nat) :
    closeLast (l ++ [(a, e)]) cf = l ++ [(a, if e = 0 then toSize ((cf : Int) - 1) else e)] := by
  unfold closeLast
  rw [List.getLast?_append]
  cases e with
  | zero => simp [backEnd_append]
  | succ e => simp

theorem toSize_nat {x : Nat} (h : x < 2 ^ 64) : toSize (x : Int) = x := by
  unfold toSize
  omega

theorem toI64_small {x : Nat} (h : x < 2 ^ 63) : toI64 x = x := by
  unfold toI64
  rw [Nat.mod_eq_of_lt (by omega), if_pos h]

/-! ### Behind the error -/

/-- The lines behind the one with the error: they start at `s`. -/
def PostOk (d : Bytes) (stop : Nat) : Nat → List (Nat × Nat) → Prop
  | _, [] => True
  | s, (a, b) :: r => a = s ∧ a ≤ b ∧ b ≤ stop ∧ NoLF d a b ∧ (r ≠ [] → d[b]? = some LF) ∧ PostOk d stop (b + 1) r

theorem post_adj {d : Bytes} {stop : Nat} : ∀ {l : List (Nat × Nat)} {s : Nat} {x : Nat × Nat}, PostOk d stop s l →
    s = x.2 + 1 → (l ≠ [] → d[x.2]? = some LF) → Adj d (x :: l)
  | [], _, _, _, _, _ => trivial
  | (a, b) :: r, s, x, h, hs, hx => by
    refine ⟨by rw [h.1, hs], hx (by simp), post_adj h.2.2.2.2.2 rfl h.2.2.2.2.1⟩

theorem post_all {d : Bytes} {stop : Nat} : ∀ {l : List (Nat × Nat)} {s : Nat}, PostOk d stop s l → ∀ r ∈ l,
    s ≤ r.1 ∧ r.1 ≤ r.2 ∧ r.2 ≤ stop ∧ NoLF d r.1 r.2
  | [], _, _, r, h => by cases h
  | (a, b) :: l, s, h, r, hr => by
    rcases List.mem_cons.1 hr with rfl | hr
    · exact ⟨by rw [h.1]; omega, h.2.1, h.2.2.1, h.2.2.2.1⟩
    · have h1 := post_all h.2.2.2.2.2 r hr
      have h2 := h.1
      have h3 := h.2.1
      exact ⟨by omega, h1.2⟩

/-- The number of lines found, given the number of line breaks found before. -/
def FewLines (lc fwd n : Nat) : Prop := 0 < lc → fwd < lc → n + fwd ≤ lc

/-- The two states of the loop behind the first line break. -/
theorem fwd_modes (d : Bytes) (lc stop : Nat) (hs : stop ≤ d.length) (h64 : stop < 2 ^ 64) : ∀ k, k ≤ stop →
    (∀ fwd init x, 1 ≤ stop - k →
      ∃ ls' q post, fwdLoop d lc stop k true fwd (init ++ [(x, stop - k - 1)]) = some (ls', q) ∧
        closeLast ls' q = init ++ [(x, stop - k - 1)] ++ post ∧ PostOk d stop (stop - k) post ∧ FewLines lc fwd post.length) ∧
    (∀ fwd init x, 1 ≤ x → x < stop - k → NoLF d x (stop - k) →
      ∃ ls' q b post, fwdLoop d lc stop k false fwd (init ++ [(x, 0)]) = some (ls', q) ∧
        closeLast ls' q = init ++ (x, b) :: post ∧ PostOk d stop x ((x, b) :: post) ∧ FewLines lc fwd (post.length + 1))
  | 0, _ => by
    constructor
    · intro fwd init x h1
      refine ⟨_, _, [], rfl, ?_, trivial, fun _ h => by simp; omega⟩
      rw [closeLast_append]
      simp only [Nat.sub_zero, List.append_nil]
      split
      · next h0 => rw [show ((stop : Int) - 1) = ((stop - 1 : Nat) : Int) by omega, toSize_nat (by omega)]
      · rfl
    · intro fwd init x h1 h2 h3
      refine ⟨_, _, stop - 1, [], rfl, ?_, ⟨rfl, by omega, by omega, ?_, by simp, trivial⟩, fun _ h => by simp; omega⟩
      · rw [closeLast_append, if_pos rfl, show ((stop : Int) - 1) = ((stop - 1 : Nat) : Int) by omega,
          toSize_nat (by omega)]
      · intro j hj1 hj2
        exact h3 j hj1 (by omega)
  | k + 1, hk => by
    obtain ⟨hB, hC⟩ := fwd_modes d lc stop hs h64 k (by omega)
    have hlt : stop - (k + 1) < d.length := by omega
    have hget : d[stop - (k + 1)]? = some d[stop - (k + 1)] := List.getElem?_eq_getElem hlt
    have hsucc : stop - k = stop - (k + 1) + 1 := by omega
    constructor
    · intro fwd init x h1
      unfold fwdLoop
      simp only [if_true, hget]
      by_cases hb : d[stop - (k + 1)] = LF
      · simp only [hb, if_true, List.append_assoc]
        rw [← List.append_assoc, backEnd_append]
        by_cases hl : fwd + 1 = lc
        · simp only [hl, if_true]
          refine ⟨_, _, [(stop - (k + 1), stop - (k + 1))], rfl, ?_,
            ⟨rfl, Nat.le_refl _, by omega, fun j a b => by omega, by simp, trivial⟩, fun _ h => by simp; omega⟩
          rw [closeLast_append, if_neg (by omega), List.append_assoc]
        · simp only [hl, if_false]
          obtain ⟨ls', q, post, e1, e2, e3, e4⟩ := hB (fwd + 1) (init ++ [(x, stop - (k + 1) - 1)]) (stop - (k + 1)) (by omega)
          rw [hsucc, Nat.add_sub_cancel] at e1 e2
          refine ⟨ls', q, (stop - (k + 1), stop - (k + 1)) :: post, e1, ?_,
            ⟨rfl, Nat.le_refl _, by omega, fun j a b => by omega, fun _ => by rw [hget, hb], by rw [← hsucc]; exact e3⟩,
            fun h0 h => ?_⟩
          · rw [e2]; simp
          · have := e4 h0 (by omega); simp; omega
      · simp only [hb, if_false]
        obtain ⟨ls', q, b, post, e1, e2, e3, e4⟩ := hC fwd (init ++ [(x, stop - (k + 1) - 1)]) (stop - (k + 1)) (by omega) (by omega)
          (fun j a b => by have : j = stop - (k + 1) := by omega
                           subst this; rw [hget]; simpa using hb)
        refine ⟨ls', q, (stop - (k + 1), b) :: post, e1, ?_, e3, e4⟩
        rw [e2]
    · intro fwd init x h1 h2 h3
      unfold fwdLoop
      simp only [Bool.false_eq_true, if_false, hget]
      by_cases hb : d[stop - (k + 1)] = LF
      · simp only [hb, if_true]
        rw [backEnd_append]
        by_cases hl : fwd + 1 = lc
        · simp only [hl, if_true]
          refine ⟨_, _, stop - (k + 1), [], rfl, ?_, ⟨rfl, by omega, by omega, h3, by simp, trivial⟩,
            fun _ h => by simp; omega⟩
          rw [closeLast_append, if_neg (by omega)]
        · simp only [hl, if_false]
          obtain ⟨ls', q, post, e1, e2, e3, e4⟩ := hB (fwd + 1) init x (by omega)
          rw [hsucc, Nat.add_sub_cancel] at e1 e2
          refine ⟨ls', q, stop - (k + 1), post, e1, ?_,
            ⟨rfl, by omega, by omega, h3, fun _ => by rw [hget, hb], by rw [← hsucc]; exact e3⟩,
            fun h0 h => ?_⟩
          · rw [e2]; simp
          · have := e4 h0 (by omega); omega
      · simp only [hb, if_false]
        obtain ⟨ls', q, b, post, e1, e2, e3, e4⟩ := hC fwd init x h1 (by omega)
          (fun j a b => by
            rcases Nat.lt_or_ge j (stop - (k + 1)) with hj | hj
            · exact h3 j a hj
            · have : j = stop - (k + 1) := by omega
              subst this; rw [hget]; simpa using hb)
        exact ⟨ls', q, b, post, e1, e2, e3, e4⟩

/-- The loop from the error on: the line with the error is the last one. -/
theorem fwd_ok (d : Bytes) (lc stop : Nat) (hs : stop ≤ d.length) (h64 : stop < 2 ^ 64) (init : List (Nat × Nat)) (a c : Nat) :
    ∀ k, c ≤ stop - k → k ≤ stop → NoLF d c (stop - k) →
      ∃ ls' q, fwdLoop d lc stop k false 0 (init ++ [(a, c)]) = some (ls', q) ∧
        ((c = 0 ∧ ∃ e, closeLast ls' q = init ++ [(a, e)]) ∨
          ∃ b post, closeLast ls' q = init ++ (a, b) :: post ∧ c ≤ b ∧ b ≤ stop ∧ NoLF d c b ∧
            (post ≠ [] → d[b]? = some LF) ∧ PostOk d stop (b + 1) post ∧ FewLines lc 0 (post.length + 1))
  | 0, hc, _, h => by
    refine ⟨_, _, rfl, ?_⟩
    rw [closeLast_append]
    by_cases h0 : c = 0
    · exact .inl ⟨h0, _, rfl⟩
    · rw [if_neg h0]
      exact .inr ⟨c, [], rfl, Nat.le_refl _, by omega, fun j a b => by omega, by simp, trivial, fun _ h => by simp; omega⟩
  | k + 1, hc, hk, h => by
    have hlt : stop - (k + 1) < d.length := by omega
    have hget : d[stop - (k + 1)]? = some d[stop - (k + 1)] := List.getElem?_eq_getElem hlt
    have hsucc : stop - k = stop - (k + 1) + 1 := by omega
    unfold fwdLoop
    simp only [Bool.false_eq_true, if_false, hget]
    by_cases hb : d[stop - (k + 1)] = LF
    · simp only [hb, if_true]
      rw [backEnd_append]
      by_cases hl : 0 + 1 = lc
      · simp only [hl, if_true]
        refine ⟨_, _, rfl, ?_⟩
        rw [closeLast_append]
        by_cases h0 : stop - (k + 1) = 0
        · exact .inl ⟨by omega, _, rfl⟩
        · rw [if_neg h0]
          exact .inr ⟨_, [], rfl, hc, by omega, h, by simp, trivial, fun _ h => by simp; omega⟩
      · simp only [hl, if_false]
        obtain ⟨ls', q, post, e1, e2, e3, e4⟩ := (fwd_modes d lc stop hs h64 k (by omega)).1 (0 + 1) init a (by omega)
        rw [hsucc, Nat.add_sub_cancel] at e1 e2
        refine ⟨ls', q, e1, .inr ⟨stop - (k + 1), post, ?_, hc, by omega, h, fun _ => by rw [hget, hb], by rw [← hsucc]; exact e3,
          fun h0 h => ?_⟩⟩
        · rw [e2]; simp
        · have := e4 h0 (by omega); omega
    · simp only [hb, if_false]
      exact fwd_ok d lc stop hs h64 init a c k (by omega) (by omega) (fun j a b => by
        rcases Nat.lt_or_ge j (stop - (k + 1)) with hj | hj
        · exact h j a hj
        · have : j = stop - (k + 1) := by omega
          subst this; rw [hget]; simpa using hb)

/-! ### In front of the error -/

/-- A whole line in front of the error. -/
def LineOk (d : Bytes) (stop c : Nat) (r : Nat × Nat) : Prop := stop ≤ r.1 ∧ r.1 ≤ r.2 ∧ r.2 ≤ c ∧ NoLF d r.1 r.2

/-- JSH 2860-2861 -/
def startFix (s : BackSt) : List (Nat × Nat) :=
  match s.lines with
  | (0, _) :: _ => if 0 < s.cur then frontStart s.lines s.cur else s.lines
  | _ => s.lines

theorem back_ok (d : Bytes) (c lc stop : Nat) (hc : c ≤ d.length) : ∀ k s e r, s.lines = (0, e) :: r → s.back = r.length →
    stop + k < e → e ≤ c → NoLF d (stop + k + 1) e → Adj d ((0, e) :: r) → (∀ x ∈ r, LineOk d stop c x) →
    (∃ y, ((0, e) :: r).getLast? = some (y, c)) → (0 < lc → r.length < lc) →
    ∃ s' a e' r', backLoop d c lc stop k s = some s' ∧ startFix s' = (a, e') :: r' ∧ s'.back = r'.length ∧
      stop ≤ a ∧ a ≤ e' ∧ e' ≤ c ∧ NoLF d (a + 1) e' ∧ Adj d ((a, e') :: r') ∧ (∀ x ∈ r', LineOk d stop c x) ∧
      (∃ y, ((a, e') :: r').getLast? = some (y, c)) ∧ (0 < lc → r'.length < lc)
  | 0, s, e, r, h1, h2, h3, h4, h5, h6, h7, h8, h9 => by
    refine ⟨_, stop, e, r, rfl, ?_, h2, Nat.le_refl _, by omega, h4, h5, adj_head h6, h7, ?_, h9⟩
    · unfold startFix
      simp only [h1]
      split
      · rfl
      · next h => rw [show stop = 0 by omega]
    · cases r with
      | nil => obtain ⟨y, hy⟩ := h8; simp at hy; exact ⟨stop, by simp [hy.2]⟩
      | cons z r => obtain ⟨y, hy⟩ := h8; exact ⟨y, by simpa using hy⟩
  | k + 1, s, e, r, h1, h2, h3, h4, h5, h6, h7, h8, h9 => by
    have hlt : stop + (k + 1) < d.length := by omega
    have hget : d[stop + (k + 1)]? = some d[stop + (k + 1)] := List.getElem?_eq_getElem hlt
    unfold backLoop
    simp only [hget]
    by_cases hb : d[stop + (k + 1)] = LF
    · simp only [hb, if_true, h1, frontStart]
      have hlast : ∃ y, ((stop + (k + 1) + 1, e) :: r).getLast? = some (y, c) := by
        cases r with
        | nil => obtain ⟨y, hy⟩ := h8; simp at hy; exact ⟨stop + (k + 1) + 1, by simp [hy.2]⟩
        | cons z r => obtain ⟨y, hy⟩ := h8; exact ⟨y, by simpa using hy⟩
      generalize hs2 : (if s.back + 1 = 1 then _ else _ : BackSt) = s2
      have hs2' : s2.lines = (stop + (k + 1) + 1, e) :: r ∧ s2.back = s.back + 1 := by
        rw [← hs2]; split <;> exact ⟨rfl, rfl⟩
      by_cases hl : s2.back = lc
      · simp only [hl, if_true]
        refine ⟨_, stop + (k + 1) + 1, e, r, rfl, ?_, by dsimp only; omega, by omega, by omega, h4,
          fun j a b => h5 j (by omega) b, adj_head h6, h7, hlast, h9⟩
        unfold startFix
        simp only [hs2'.1]
      · simp only [hl, if_false]
        refine back_ok d c lc stop hc k _ (stop + (k + 1)) ((stop + (k + 1) + 1, e) :: r) ?_ ?_ (by omega) (by omega)
          (fun j a b => by omega) ⟨rfl, by rw [hget, hb], adj_head h6⟩ ?_ ?_ (fun h => ?_)
        · dsimp only; rw [hs2'.1]
        · dsimp only; rw [hs2'.2, h2]; rfl
        · intro x hx
          rcases List.mem_cons.1 hx with rfl | hx
          · exact ⟨by dsimp only; omega, by dsimp only; omega, h4, h5⟩
          · exact h7 x hx
        · obtain ⟨y, hy⟩ := hlast; exact ⟨y, by simpa using hy⟩
        · have := h9 h
          have := hs2'.2
          simp only [List.length_cons]; omega
    · simp only [hb, if_false]
      refine back_ok d c lc stop hc k s e r h1 h2 (by omega) h4 (fun j a b => ?_) h6 h7 h8 h9
      rcases Nat.lt_or_ge (stop + (k + 1)) j with hj | hj
      · exact h5 j (by omega) b
      · have : j = stop + (k + 1) := by omega
        subst this; rw [hget]; simpa using hb

theorem copyLines_ok (d : Bytes) (h64 : d.length < 2 ^ 64) : ∀ l : List (Nat × Nat), (∀ r ∈ l, r.1 ≤ r.2 ∧ r.2 ≤ d.length) →
    ∃ shown, copyLines d l = some shown ∧ Copied d l shown
  | [], _ => ⟨[], rfl, rfl⟩
  | (a, b) :: l, h => by
    obtain ⟨x, hx, hc⟩ := copyLines_ok d h64 l (fun r hr => h r (by simp [hr]))
    have hab := h (a, b) (by simp)
    dsimp only at hab
    refine ⟨(d.drop a).take (b - a) :: x, ?_, by rw [Copied] at hc ⊢; rw [hc]; rfl⟩
    simp only [copyLines, sliceAt]
    rw [show ((b : Int) - a) = ((b - a : Nat) : Int) by omega, toSize_nat (by omega), if_pos (by omega), hx]
    rfl

/-- The lines up to the error, for every position. -/
theorem back_all (d : Bytes) (c lc : Nat) (hc : c ≤ d.length) (ch : Nat) :
    ∃ s' a e' r', backLoop d c lc (c - min c lineRange) (c - 1 - (c - min c lineRange))
        { lines := [(0, c)], back := 0, char := ch, cur := c - 1 } = some s' ∧ startFix s' = (a, e') :: r' ∧
      s'.back = r'.length ∧ c - min c lineRange ≤ a ∧ a ≤ e' ∧ e' ≤ c ∧ NoLF d (a + 1) e' ∧ Adj d ((a, e') :: r') ∧
      (∀ x ∈ r', LineOk d (c - min c lineRange) c x) ∧ (∃ y, ((a, e') :: r').getLast? = some (y, c)) ∧
      (0 < lc → r'.length < lc) := by
  by_cases h0 : c = 0
  · subst h0
    exact ⟨_, 0, 0, [], rfl, rfl, rfl, Nat.le_refl _, Nat.le_refl _, Nat.le_refl _, fun j a b => by omega, trivial,
      fun x hx => (by cases hx), ⟨0, rfl⟩, fun h => h⟩
  · have : lineRange = 256 := rfl
    exact back_ok d c lc _ hc _ _ c [] rfl rfl (by omega) (Nat.le_refl _) (fun j a b => by omega) trivial
      (fun x hx => (by cases hx)) ⟨0, rfl⟩ (fun h => h)

theorem reportAt_eq (cfg : ErrCfg) (d : Bytes) (c : Nat) (x : ErrCtx) : reportAt cfg d c x =
    (if d.length < c then none
    else do
      let s ← backLoop d c cfg.lineContext (c - min c lineRange) (c - 1 - (c - min c lineRange))
        { lines := [(0, c)], back := 0, char := x.character, cur := c - 1 }
      let (ls, cf) ← fwdLoop d cfg.lineContext (min (c + lineRange) d.length) (min (c + lineRange) d.length - c) false 0
        (startFix s)
      if 1 < (closeLast ls cf).length then
        let copied ← copyLines d (closeLast ls cf)
        some { x with character := s.char, lines := x.lines ++ copied, line := s.back }
      else
        let range := toI64 cfg.rangeContext
        let left : Int := if range < c then (c : Int) - range else 0
        if 2 ^ 63 ≤ (c : Int) + range then none
        else
          let right : Int := if (d.length : Int) < c + range then d.length else c + range
          let copied ← sliceAt d (toSize left) (toSize (right - left))
          some { x with line := 0, character := toSize (c - left), lines := x.lines ++ [copied] }) := rfl

/-- Which of the two kinds of report was written. -/
def ErrCfg.reach (cfg : ErrCfg) : Nat := max lineRange cfg.rangeContext

theorem reportAt_ok (cfg : ErrCfg) (d : Bytes) (c : Nat) (x : ErrCtx) (hc : c ≤ d.length)
    (hr : d.length + cfg.rangeContext < 2 ^ 63) :
    ∃ x' ranges shown, reportAt cfg d c x = some x' ∧ x'.lines = x.lines ++ shown ∧ Copied d ranges shown ∧
      Excerpt d c cfg.reach (if cfg.lineContext = 0 then ranges.length else 2 * cfg.lineContext - 1) ranges x'.line ∧
      x'.error = x.error ∧ x'.custom = x.custom ∧
      (ranges.length = 1 → ∀ r ∈ ranges, r = (c - cfg.rangeContext, min (c + cfg.rangeContext) d.length) ∧
        r.1 + x'.character = c) := by
  obtain ⟨s, a, e, r, b1, b2, b3, b4, b5, b6, b7, b8, b9, ⟨y, b10⟩, b11⟩ := back_all d c cfg.lineContext hc x.character
  have hlr : lineRange = 256 := rfl
  have hreach : lineRange ≤ cfg.reach ∧ cfg.rangeContext ≤ cfg.reach := by unfold ErrCfg.reach; omega
  obtain ⟨init, hinit⟩ : ∃ init, (a, e) :: r = init ++ [(y, c)] := by
    exact List.getLast?_eq_some_iff.1 b10
  obtain ⟨ls, q, f1, f2⟩ := fwd_ok d cfg.lineContext (min (c + lineRange) d.length) (by omega) (by omega) init y c
    (min (c + lineRange) d.length - c) (by omega) (by omega) (fun j a b => by omega)
  rw [← hinit, ← b2] at f1
  have hlen : init.length = r.length := by
    have := congrArg List.length hinit
    simp at this; omega
  rw [reportAt_eq, if_neg (by omega), b1]
  simp only [Option.bind_eq_bind, Option.bind_some, f1]
  by_cases hm : 1 < (closeLast ls q).length
  · simp only [hm, if_true]
    rcases f2 with ⟨f0, e', f2⟩ | ⟨b, post, f2, f3, f4, f5, f6, f7, f8⟩
    · exfalso
      subst f0
      cases r with
      | nil => simp at hlen; subst hlen; rw [f2] at hm; simp at hm
      | cons z r =>
        have h1 := b8.1
        have h2 := (b9 z (by simp)).2.1
        have h3 := (b9 z (by simp)).2.2.1
        dsimp only at h1
        omega
    · have hall : ∀ r ∈ init ++ (y, b) :: post, c - min c lineRange ≤ r.1 ∧ r.1 ≤ r.2 ∧ r.2 ≤ min (c + lineRange) d.length := by
        have hy : c - min c lineRange ≤ y ∧ y ≤ c := by
          cases init with
          | nil => simp at hinit; omega
          | cons z init =>
            simp only [List.cons_append, List.cons.injEq] at hinit
            have := b9 (y, c) (by rw [hinit.2]; simp)
            exact ⟨this.1, this.2.1⟩
        intro w hw
        rcases List.mem_append.1 hw with hw | hw
        · cases init with
          | nil => cases hw
          | cons z init =>
            simp only [List.cons_append, List.cons.injEq] at hinit
            rcases List.mem_cons.1 hw with rfl | hw
            · rw [← hinit.1]; dsimp only; omega
            · have := b9 w (by rw [hinit.2]; simp [hw])
              have h1 := this.1
              have h2 := this.2.1
              have h3 := this.2.2.1
              omega
        · rcases List.mem_cons.1 hw with rfl | hw
          · dsimp only; omega
          · have := post_all f7 w hw
            omega
      obtain ⟨shown, hs1, hs2⟩ := copyLines_ok d (by omega) (init ++ (y, b) :: post) (fun r hr => by
        have := hall r hr; omega)
      rw [f2, hs1]
      refine ⟨_, init ++ (y, b) :: post, shown, rfl, rfl, hs2, ⟨?_, ?_, ?_, ?_, ?_, ?_⟩, rfl, rfl, ?_⟩
      · intro r hr; have := hall r hr; omega
      · refine ⟨(y, b), ?_, ?_, f3⟩
        · dsimp only
          rw [b3, ← hlen, List.getElem?_append_right (Nat.le_refl _)]; simp
        · have := hall (y, b) (by simp)
          cases init with
          | nil => simp at hinit; dsimp only; omega
          | cons z init =>
            simp only [List.cons_append, List.cons.injEq] at hinit
            exact (b9 (y, c) (by rw [hinit.2]; simp)).2.1
      · refine adj_get (adj_append (adj_last (e' := b) (hinit ▸ b8)) (post_adj f7 rfl f6))
      · intro _ i w j hi hj1 hj2 hlf
        cases init with
        | nil =>
          cases i with
          | zero =>
            simp at hi; subst hi
            simp at hinit
            refine ⟨rfl, ?_⟩
            dsimp only at hj1 hj2 ⊢
            rcases Nat.lt_or_ge y j with h | h
            · exfalso
              rcases Nat.lt_or_ge j c with h' | h'
              · exact b7 j (by omega) (by omega) hlf
              · exact f5 j h' hj2 hlf
            · omega
          | succ i =>
            simp at hi
            exact absurd hlf ((post_all f7 w (List.mem_of_getElem? hi)).2.2.2 j hj1 hj2)
        | cons z init =>
          simp only [List.cons_append, List.cons.injEq] at hinit
          cases i with
          | zero =>
            simp at hi; subst hi
            refine ⟨rfl, ?_⟩
            rw [← hinit.1] at hj1 hj2 ⊢
            dsimp only at hj1 hj2 ⊢
            rcases Nat.lt_or_ge a j with h | h
            · exact absurd hlf (b7 j h hj2)
            · omega
          | succ i =>
            exfalso
            simp at hi
            have hw := List.mem_of_getElem? hi
            rcases List.mem_append.1 hw with hw | hw
            · exact (b9 w (by rw [hinit.2]; simp [hw])).2.2.2 j hj1 hj2 hlf
            · rcases List.mem_cons.1 hw with rfl | hw
              · dsimp only at hj1 hj2
                rcases Nat.lt_or_ge j c with h' | h'
                · exact (b9 (y, c) (by rw [hinit.2]; simp)).2.2.2 j hj1 h' hlf
                · exact f5 j h' hj2 hlf
              · exact (post_all f7 w hw).2.2.2 j hj1 hj2 hlf
      · intro r hr; have := hall r hr; omega
      · split
        · exact Nat.le_refl _
        · next h0 =>
          have h1 := b11 (by omega)
          have h2 := f8 (by omega) (by omega)
          simp only [List.length_append, List.length_cons]
          omega
      · intro h1
        rw [f2] at hm
        omega
  · simp only [hm, if_false]
    rw [toI64_small (by omega), if_neg (by omega)]
    have hl : (if (cfg.rangeContext : Int) < c then (c : Int) - cfg.rangeContext else 0) = ((c - cfg.rangeContext : Nat) : Int) := by
      split <;> omega
    have hrt : (if (d.length : Int) < c + cfg.rangeContext then (d.length : Int) else c + cfg.rangeContext)
        = ((min (c + cfg.rangeContext) d.length : Nat) : Int) := by
      split <;> omega
    rw [hl, hrt, toSize_nat (by omega)]
    rw [show ((min (c + cfg.rangeContext) d.length : Nat) : Int) - ((c - cfg.rangeContext : Nat) : Int)
        = ((min (c + cfg.rangeContext) d.length - (c - cfg.rangeContext) : Nat) : Int) by omega, toSize_nat (by omega)]
    rw [show (c : Int) - ((c - cfg.rangeContext : Nat) : Int) = ((c - (c - cfg.rangeContext) : Nat) : Int) by omega,
      toSize_nat (by omega)]
    rw [sliceAt, if_pos (by omega)]
    refine ⟨_, [(c - cfg.rangeContext, min (c + cfg.rangeContext) d.length)], _, rfl, rfl, rfl,
      ⟨?_, ⟨_, rfl, by dsimp only; omega, by dsimp only; omega⟩, ?_, ?_, ?_, ?_⟩, rfl, rfl, ?_⟩
    · intro r hr; simp at hr; subst hr; dsimp only; omega
    · intro i a b _ h; simp at h
    · intro h; simp at h
    · intro r hr; simp at hr; subst hr; dsimp only; omega
    · simp only [List.length_singleton]; split <;> omega
    · intro _ r hr; simp at hr; subst hr; dsimp only; exact ⟨rfl, by omega⟩

end JsonStruct
