import Verif.Model.Float32
import Verif.Lemmas.FloatRead

/-
The big integers of `correctly_round_float` compute what they should.
-/

namespace JsonStruct

/-- The value of a big integer. -/
def Big.val : Big → Nat
  | [] => 0
  | x :: w => x + 2 ^ 32 * Big.val w

/-- Every word has 32 bits. -/
def Big.Ok (w : Big) : Prop := ∀ x ∈ w, x < 2 ^ 32

theorem Big.Ok.cons {x : Nat} {w : Big} (h : Big.Ok (x :: w)) : x < 2 ^ 32 ∧ Big.Ok w :=
  ⟨h x (by simp), fun y hy => h y (by simp [hy])⟩

theorem Big.ok_cons {x : Nat} {w : Big} (hx : x < 2 ^ 32) (h : Big.Ok w) : Big.Ok (x :: w) := by
  intro y hy
  rcases List.mem_cons.1 hy with rfl | hy
  · exact hx
  · exact h y hy

theorem Big.ok_nil : Big.Ok [] := by intro x hx; simp at hx

theorem Big.ok_carry {c : Nat} (hc : c < 2 ^ 32) : Big.Ok (if c ≠ 0 then [c] else []) ∧ Big.val (if c ≠ 0 then [c] else []) = c := by
  split
  · exact ⟨Big.ok_cons hc Big.ok_nil, by simp [Big.val]⟩
  · rename_i h
    exact ⟨Big.ok_nil, by simp only [Decidable.not_not] at h; simp [Big.val, h]⟩

theorem Big.mulLoop_val {m : Nat} (hm : m < 2 ^ 32) (w : Big) (c : Nat) (hw : w.Ok) (hc : c < 2 ^ 32) :
    (Big.mulLoop m w c).Ok ∧ (Big.mulLoop m w c).val = w.val * m + c ∧ w.length ≤ (Big.mulLoop m w c).length := by
  induction w generalizing c with
  | nil =>
    rw [Big.mulLoop, Nat.mod_eq_of_lt hc]
    obtain ⟨h1, h2⟩ := Big.ok_carry hc
    exact ⟨h1, by rw [h2]; simp [Big.val], by simp⟩
  | cons x w ih =>
    obtain ⟨hx, hw⟩ := hw.cons
    have hp : x * m + c < 2 ^ 64 := by
      have : x * m ≤ (2 ^ 32 - 1) * (2 ^ 32 - 1) := Nat.mul_le_mul (by omega) (by omega)
      norm_num at this hc ⊢
      omega
    rw [Big.mulLoop]
    rw [Nat.mod_eq_of_lt hp]
    obtain ⟨h1, h2, h3⟩ := ih ((x * m + c) / 2 ^ 32) hw (by rw [Nat.div_lt_iff_lt_mul (by positivity)]; norm_num at hp ⊢; omega)
    refine ⟨Big.ok_cons (Nat.mod_lt _ (by positivity)) h1, ?_, by simpa using h3⟩
    rw [Big.val, h2, Big.val]
    have := Nat.mod_add_div (x * m + c) (2 ^ 32)
    rw [Nat.mul_add, ← Nat.add_assoc, Nat.add_right_comm, this, Nat.add_mul]
    ring

theorem Big.mulSmall_val {m : Nat} (hm : m < 2 ^ 32) {w : Big} (hw : w.Ok) :
    (w.mulSmall m).Ok ∧ (w.mulSmall m).val = w.val * m ∧ w.length ≤ (w.mulSmall m).length :=
  Big.mulLoop_val hm w 0 hw (by positivity)

theorem Big.addSmall_val (w : Big) (c : Nat) (hw : w.Ok) (hc : c < 2 ^ 32) :
    (w.addSmall c).Ok ∧ (w.addSmall c).val = w.val + c ∧ w.length ≤ (w.addSmall c).length := by
  induction w generalizing c with
  | nil =>
    rw [Big.addSmall, Nat.mod_eq_of_lt hc]
    obtain ⟨h1, h2⟩ := Big.ok_carry hc
    exact ⟨h1, by rw [h2]; simp [Big.val], by simp⟩
  | cons x w ih =>
    obtain ⟨hx, hw'⟩ := hw.cons
    rw [Big.addSmall]
    split
    · rename_i h; subst h; exact ⟨hw, rfl, le_refl _⟩
    · simp only
      rw [Nat.mod_eq_of_lt (show x + c < 2 ^ 64 by norm_num at hx hc ⊢; omega)]
      obtain ⟨h1, h2, h3⟩ := ih ((x + c) / 2 ^ 32) hw' (by norm_num at hx hc ⊢; omega)
      refine ⟨Big.ok_cons (Nat.mod_lt _ (by positivity)) h1, ?_, by simpa using h3⟩
      rw [Big.val, h2, Big.val]
      have := Nat.mod_add_div (x + c) (2 ^ 32)
      rw [Nat.mul_add, ← Nat.add_assoc, Nat.add_right_comm, this]
      ring

theorem Big.mulPow5_val (n : Nat) (w : Big) (hw : w.Ok) :
    (w.mulPow5 n).Ok ∧ (w.mulPow5 n).val = w.val * 5 ^ n ∧ w.length ≤ (w.mulPow5 n).length := by
  induction n generalizing w with
  | zero => exact ⟨hw, by simp [Big.mulPow5], le_refl _⟩
  | succ n ih =>
    obtain ⟨h1, h2, h3⟩ := Big.mulSmall_val (m := 5) (by norm_num) hw
    obtain ⟨g1, g2, g3⟩ := ih _ h1
    refine ⟨g1, ?_, Nat.le_trans h3 g3⟩
    rw [Big.mulPow5, g2, h2, Nat.mul_assoc, ← Nat.pow_succ']

theorem Big.shiftLoop_val {b : Nat} (hb : b < 32) (w : Big) (c : Nat) (hw : w.Ok) (hc : c < 2 ^ b) :
    (Big.shiftLoop b w c).Ok ∧ (Big.shiftLoop b w c).val = w.val * 2 ^ b + c ∧ w.length ≤ (Big.shiftLoop b w c).length := by
  have h32 : 2 ^ b ≤ 2 ^ 31 := Nat.pow_le_pow_right (by norm_num) (by omega)
  induction w generalizing c with
  | nil =>
    rw [Big.shiftLoop]
    obtain ⟨h1, h2⟩ := Big.ok_carry (c := c) (by omega)
    exact ⟨h1, by rw [h2]; simp [Big.val], by simp⟩
  | cons x w ih =>
    obtain ⟨hx, hw⟩ := hw.cons
    have hp : x * 2 ^ b + c < 2 ^ 32 * 2 ^ b := by
      have : (x + 1) * 2 ^ b ≤ 2 ^ 32 * 2 ^ b := Nat.mul_le_mul_right _ hx
      rw [Nat.add_mul] at this
      omega
    have hx64 : x * 2 ^ b < 2 ^ 64 := by
      have : 2 ^ 32 * 2 ^ b ≤ 2 ^ 32 * 2 ^ 31 := Nat.mul_le_mul_left _ h32
      norm_num at this hp ⊢
      omega
    have hor : (x * 2 ^ b % 2 ^ 64) ||| c = x * 2 ^ b + c := by
      rw [Nat.mod_eq_of_lt hx64, Nat.or_comm, or_mul_pow hc, Nat.add_comm]
    have hq : (x * 2 ^ b + c) / 2 ^ 32 < 2 ^ b := by
      rw [Nat.div_lt_iff_lt_mul (by positivity)]
      linarith
    rw [Big.shiftLoop]
    rw [hor, Nat.mod_eq_of_lt (show (x * 2 ^ b + c) / 2 ^ 32 < 2 ^ 32 by omega)]
    obtain ⟨h1, h2, h3⟩ := ih _ hw hq
    refine ⟨Big.ok_cons (Nat.mod_lt _ (by positivity)) h1, ?_, by simpa using h3⟩
    rw [Big.val, h2, Big.val]
    have := Nat.mod_add_div (x * 2 ^ b + c) (2 ^ 32)
    rw [Nat.mul_add, ← Nat.add_assoc, Nat.add_right_comm, this]
    ring

theorem Big.zeros_val (n : Nat) (w : Big) (hw : w.Ok) :
    Big.Ok (List.replicate n 0 ++ w) ∧ Big.val (List.replicate n 0 ++ w) = Big.val w * 2 ^ (32 * n) := by
  induction n with
  | zero => exact ⟨hw, by simp⟩
  | succ n ih =>
    rw [List.replicate_succ, List.cons_append]
    refine ⟨Big.ok_cons (by positivity) ih.1, ?_⟩
    rw [Big.val, ih.2, Nat.zero_add, show 32 * (n + 1) = 32 * n + 32 by ring, pow_add]
    ring

theorem Big.shiftLeft_val (bits : Nat) {w : Big} (hw : w.Ok) :
    (w.shiftLeft bits).Ok ∧ (w.shiftLeft bits).val = w.val * 2 ^ bits ∧ w.length ≤ (w.shiftLeft bits).length := by
  have key : ∃ w' : Big, (if bits % 32 ≠ 0 then Big.shiftLoop (bits % 32) w 0 else w) = w' ∧ w'.Ok ∧ w'.val = w.val * 2 ^ (bits % 32) ∧
      w.length ≤ w'.length := by
    refine ⟨_, rfl, ?_⟩
    split
    · exact Big.shiftLoop_val (Nat.mod_lt _ (by norm_num)) w 0 hw (by positivity)
    · rename_i h
      rw [Decidable.not_not] at h
      rw [h]
      exact ⟨hw, by simp, le_refl _⟩
  obtain ⟨w', h1, h2, h3, h4⟩ := key
  unfold Big.shiftLeft
  simp only
  rw [h1]
  obtain ⟨g1, g2⟩ := Big.zeros_val (bits / 32) w' h2
  refine ⟨g1, ?_, by simp; omega⟩
  rw [g2, h3, Nat.mul_assoc, ← pow_add, Nat.mod_add_div]

theorem Big.val_lt {w : Big} (hw : w.Ok) : w.val < 2 ^ (32 * w.length) := by
  induction w with
  | nil => simp [Big.val]
  | cons x w ih =>
    obtain ⟨hx, hw⟩ := hw.cons
    have := ih hw
    rw [Big.val, List.length_cons, Nat.mul_add, Nat.mul_one, pow_add]
    have h2 : (Big.val w + 1) * 2 ^ 32 ≤ 2 ^ (32 * w.length) * 2 ^ 32 := Nat.mul_le_mul_right _ this
    rw [Nat.add_mul] at h2
    linarith

theorem Big.normalize_val (w : Big) (hw : w.Ok) (hne : w ≠ []) :
    w.normalize.Ok ∧ w.normalize.val = w.val ∧ w.normalize ≠ [] ∧ (w.normalize.length = 1 ∨ 2 ^ (32 * (w.normalize.length - 1)) ≤ w.normalize.val) := by
  induction w with
  | nil => exact absurd rfl hne
  | cons x w ih =>
    obtain ⟨hx, hw'⟩ := hw.cons
    cases w with
    | nil => exact ⟨hw, rfl, by simp [Big.normalize], .inl rfl⟩
    | cons y w =>
      obtain ⟨h1, h2, h3, h4⟩ := ih hw' (by simp)
      rw [Big.normalize]
      generalize Big.normalize (y :: w) = r at *
      split
      · rename_i hr
        subst hr
        refine ⟨Big.ok_cons hx Big.ok_nil, ?_, by simp, .inl rfl⟩
        rw [Big.val, Big.val.eq_def (x :: y :: w)]
        simp only [← h2]
        simp [Big.val]
      · rename_i hr
        refine ⟨Big.ok_cons hx h1, by rw [Big.val, h2]; rfl, by simp, .inr ?_⟩
        rw [Big.val, List.length_cons, Nat.add_sub_cancel]
        rcases h4 with h4 | h4
        · obtain ⟨a, ha⟩ := List.length_eq_one_iff.1 h4
          subst ha
          have : a ≠ 0 := by rintro rfl; exact hr rfl
          simp only [Big.val, List.length_singleton]
          omega
        · have hl : 1 ≤ r.length := List.length_pos_iff.2 h3
          have := Nat.mul_le_mul_left (2 ^ 32) h4
          rw [← pow_add, show 32 + 32 * (r.length - 1) = 32 * r.length by omega] at this
          omega

theorem compareWords_snoc (p q : List Nat) (x y : Nat) (h : p.length = q.length) :
    compareWords (p ++ [x]) (q ++ [y]) = (compareWords p q).then (compare x y) := by
  induction p generalizing q with
  | nil =>
    cases q with
    | nil =>
      simp only [List.nil_append, compareWords]
      split
      · split
        · rename_i h; simp [Nat.compare_eq_lt.2 h]
        · rename_i h1 h2; simp [Nat.compare_eq_gt.2 (by omega : y < x)]
      · rename_i h; simp only [Decidable.not_not] at h; simp [h]
    | cons b q => simp at h
  | cons a p ih =>
    cases q with
    | nil => simp at h
    | cons b q =>
      simp only [List.cons_append, compareWords]
      split
      · split <;> rfl
      · exact ih q (by simpa using h)

theorem compareWords_val (a b : Big) (ha : a.Ok) (hb : b.Ok) (h : a.length = b.length) :
    compareWords a.reverse b.reverse = compare a.val b.val := by
  induction a generalizing b with
  | nil =>
    cases b with
    | nil => simp [compareWords, Big.val]
    | cons y b => simp at h
  | cons x a ih =>
    cases b with
    | nil => simp at h
    | cons y b =>
      obtain ⟨hx, ha⟩ := ha.cons
      obtain ⟨hy, hb⟩ := hb.cons
      rw [List.reverse_cons, List.reverse_cons, compareWords_snoc _ _ _ _ (by simpa using h), ih b ha hb (by simpa using h)]
      rw [Big.val, Big.val]
      generalize Big.val a = A at *
      generalize Big.val b = B at *
      norm_num at hx hy ⊢
      rcases Nat.lt_trichotomy A B with h1 | h1 | h1
      · rw [Nat.compare_eq_lt.2 h1, Ordering.lt_then]; exact (Nat.compare_eq_lt.2 (by omega)).symm
      · rw [h1, Nat.compare_eq_eq.2 rfl]
        simp only [Ordering.eq_then]
        rcases Nat.lt_trichotomy x y with h2 | h2 | h2
        · rw [Nat.compare_eq_lt.2 h2, Nat.compare_eq_lt.2 (by omega)]
        · rw [h2, Nat.compare_eq_eq.2 rfl, Nat.compare_eq_eq.2 rfl]
        · rw [Nat.compare_eq_gt.2 h2, Nat.compare_eq_gt.2 (by omega)]
      · rw [Nat.compare_eq_gt.2 h1, Ordering.gt_then]; exact (Nat.compare_eq_gt.2 (by omega)).symm

theorem compareBig_val {a b : Big} (ha : a.Ok) (hb : b.Ok) (ha0 : a ≠ []) (hb0 : b ≠ []) : compareBig a b = compare a.val b.val := by
  obtain ⟨a1, a2, a3, a4⟩ := Big.normalize_val a ha ha0
  obtain ⟨b1, b2, b3, b4⟩ := Big.normalize_val b hb hb0
  unfold compareBig
  simp only
  rw [← a2, ← b2]
  generalize a.normalize = x at *
  generalize b.normalize = y at *
  have lx : 1 ≤ x.length := List.length_pos_iff.2 a3
  have ly : 1 ≤ y.length := List.length_pos_iff.2 b3
  have key : ∀ x y : Big, x.Ok → 1 ≤ x.length → x.length < y.length → (y.length = 1 ∨ 2 ^ (32 * (y.length - 1)) ≤ y.val) → x.val < y.val := by
    intro x y hx h1 h2 h3
    have := Big.val_lt hx
    have h4 : 2 ^ (32 * x.length) ≤ 2 ^ (32 * (y.length - 1)) := Nat.pow_le_pow_right (by norm_num) (by omega)
    omega
  split
  · split
    · rename_i h; rw [Nat.compare_eq_lt.2 (key x y a1 lx h b4)]
    · rw [Nat.compare_eq_gt.2 (key y x b1 ly (by omega) a4)]
  · rename_i h
    exact compareWords_val x y a1 b1 (Decidable.not_not.1 h)

theorem Big.addLoop_val (n : Nat) (a b : Big) (c : Nat) (ha : a.Ok) (hb : b.Ok) (hc : c ≤ 1) (h1 : a.length ≤ n) (h2 : b.length ≤ n) :
    (Big.addLoop n a b c).Ok ∧ (Big.addLoop n a b c).val = a.val + b.val + c ∧ n ≤ (Big.addLoop n a b c).length := by
  induction n generalizing a b c with
  | zero =>
    have e1 : a = [] := List.length_eq_zero_iff.1 (by omega)
    have e2 : b = [] := List.length_eq_zero_iff.1 (by omega)
    subst e1 e2
    rw [Big.addLoop, Nat.mod_eq_of_lt (by omega)]
    obtain ⟨h1, h2⟩ := Big.ok_carry (c := c) (by omega)
    exact ⟨h1, by rw [h2]; simp [Big.val], by simp⟩
  | succ n ih =>
    have hd : ∀ w : Big, w.Ok → w.length ≤ n + 1 → w.headD 0 < 2 ^ 32 ∧ Big.Ok w.tail ∧ w.tail.length ≤ n ∧ w.val = w.headD 0 + 2 ^ 32 * Big.val w.tail := by
      intro w hw hl
      cases w with
      | nil => exact ⟨by norm_num, hw, by simp, by simp [Big.val]⟩
      | cons x w => exact ⟨hw.cons.1, hw.cons.2, by simpa using hl, rfl⟩
    obtain ⟨a1, a2, a3, a4⟩ := hd a ha h1
    obtain ⟨b1, b2, b3, b4⟩ := hd b hb h2
    rw [Big.addLoop]
    rw [Nat.mod_eq_of_lt (show a.headD 0 + b.headD 0 + c < 2 ^ 64 by norm_num at a1 b1 ⊢; omega)]
    obtain ⟨g1, g2, g3⟩ := ih a.tail b.tail ((a.headD 0 + b.headD 0 + c) / 2 ^ 32) a2 b2 (by norm_num at a1 b1 ⊢; omega) a3 b3
    refine ⟨Big.ok_cons (Nat.mod_lt _ (by positivity)) g1, ?_, by simpa using g3⟩
    rw [Big.val, g2, a4, b4]
    have := Nat.mod_add_div (a.headD 0 + b.headD 0 + c) (2 ^ 32)
    rw [Nat.mul_add, ← Nat.add_assoc, Nat.add_right_comm, this]
    ring

end JsonStruct
