import Verif.Lemmas.FloatShort
import Verif.Lemmas.FloatMul

/-
The scale `decode` chooses for each binary exponent: `2^exp / 10^q`, or `5^(-exp-q) / 2^q`. That the tables, the shifts and
the constants for the logarithms fit together is computed for every exponent.
-/

namespace JsonStruct

/-- `q` of `decode`. -/
def qOf (exp : Int) : Nat := if 0 ≤ exp then truncMul exp.toNat log10of2 - 1 else truncMul (-exp).toNat log10of5 - 1

/-- `shift_right` of `decode`. -/
def shiftOf (T : FloatTy) (exp : Int) : Int :=
  if 0 ≤ exp then -exp + qOf exp + (T.b0 + truncMul (qOf exp) log2of5 : Nat)
  else qOf exp - ((ceilMul ((-exp).toNat - qOf exp) log2of5 : Int) - T.b1)

/-- Numerator and denominator of the scale. -/
def scaleNum (exp : Int) : Nat := if 0 ≤ exp then 2 ^ exp.toNat else 5 ^ ((-exp).toNat - qOf exp)

@[inherit_doc scaleNum]
def scaleDen (exp : Int) : Nat := if 0 ≤ exp then 10 ^ qOf exp else 2 ^ qOf exp

theorem scaling_q (T : FloatTy) (exp : Int) (u m w : Nat) : (scaling T exp u m w).1 = qOf exp := by
  unfold scaling qOf; split <;> rfl

theorem scaling_shift (T : FloatTy) (exp : Int) (u m w : Nat) : (scaling T exp u m w).2.1 = shiftOf T exp := by
  unfold scaling shiftOf qOf; split <;> simp_all

/-- What is checked of the scale for a binary exponent: the entry of the table is the scale, shifted and cut off. -/
structure ScaleOk (T : FloatTy) (exp : Int) (b : Nat × Nat) (sh : Nat) : Prop where
  entry : cacheValue T exp (qOf exp) = some b
  shift : shiftOf T exp = sh
  lt : sh < 128
  ne : sh % 64 ≠ 0
  w0 : b.1 < 2 ^ 64
  w1 : b.2 < 2 ^ 64
  below : (b.1 + 2 ^ 64 * b.2) * scaleDen exp ≤ scaleNum exp * 2 ^ sh
  above : scaleNum exp * 2 ^ sh < (b.1 + 2 ^ 64 * b.2 + 1) * scaleDen exp
  fine : 2 ^ (T.mant + 4) * 1000 ≤ 2 ^ sh
  one : scaleDen exp ≤ scaleNum exp
  ten : qOf exp = 0 ∨ 10 * scaleDen exp ≤ scaleNum exp
  hundred : scaleNum exp ≤ 100 * scaleDen exp
  gap : exp = -2 ∨ ∀ j < 3, 2000 * scaleNum exp + scaleDen exp ≤ 5000 * 10 ^ j * scaleDen exp ∨
    (125 * 10 ^ j + 1) * scaleDen exp ≤ 50 * scaleNum exp
  qle : qOf exp ≤ (-exp).toNat ∨ 0 ≤ exp
  qlt : qOf exp ≤ exp.toNat ∨ exp < 0
  small : qOf exp ≤ 1 → -4 ≤ exp
  zero : qOf exp = 0 → exp < 0 → exp = -1 ∨ exp = -2
  exact : qOf exp = 0 → (b.1 + 2 ^ 64 * b.2) * scaleDen exp = scaleNum exp * 2 ^ sh

/-- The check. -/
def scaleOk (T : FloatTy) (exp : Int) : Bool :=
  match cacheValue T exp (qOf exp), shiftOf T exp with
  | some b, .ofNat sh =>
    let q := qOf exp
    let n := scaleNum exp
    let d := scaleDen exp
    let t := b.1 + 2 ^ 64 * b.2
    let ns := n * 2 ^ sh
    decide (sh < 128) && decide (sh % 64 ≠ 0) && decide (b.1 < 2 ^ 64) && decide (b.2 < 2 ^ 64) && decide (t * d ≤ ns) &&
      decide (ns < (t + 1) * d) && decide (2 ^ (T.mant + 4) * 1000 ≤ 2 ^ sh) && decide (d ≤ n) &&
      decide (q = 0 ∨ 10 * d ≤ n) && decide (n ≤ 100 * d) &&
      decide (exp = -2 ∨ ∀ j < 3, 2000 * n + d ≤ 5000 * 10 ^ j * d ∨ (125 * 10 ^ j + 1) * d ≤ 50 * n) &&
      decide (q ≤ (-exp).toNat ∨ 0 ≤ exp) && decide (q ≤ exp.toNat ∨ exp < 0) && decide (q ≤ 1 → -4 ≤ exp) &&
      decide (q = 0 → exp < 0 → exp = -1 ∨ exp = -2) && decide (q = 0 → t * d = ns)
  | _, _ => false

theorem scaleOk_sound {T : FloatTy} {exp : Int} (h : scaleOk T exp = true) : ∃ b sh, ScaleOk T exp b sh := by
  unfold scaleOk at h
  cases h1 : cacheValue T exp (qOf exp) with
  | none => rw [h1] at h; cases h
  | some b =>
    cases h2 : shiftOf T exp with
    | negSucc n => rw [h1, h2] at h; cases h
    | ofNat sh =>
      rw [h1, h2] at h
      simp only [Bool.and_eq_true, decide_eq_true_eq] at h
      obtain ⟨⟨⟨⟨⟨⟨⟨⟨⟨⟨⟨⟨⟨⟨⟨a1, a2⟩, a3⟩, a4⟩, a5⟩, a6⟩, a7⟩, a8⟩, a9⟩, a10⟩, a11⟩, a12⟩, a13⟩, a14⟩, a15⟩, a16⟩ := h
      exact ⟨b, sh, h1, h2, a1, a2, a3, a4, a5, a6, a7, a8, a9, a10, a11, a12, a13, a14, a15, a16⟩

theorem scaleOk_double : (List.range 2046).all (fun k => scaleOk f64 ((k : Int) - 1076)) = true := by decide +kernel

theorem scaleOk_float : (List.range 254).all (fun k => scaleOk f32 ((k : Int) - 151)) = true := by decide +kernel

theorem scale_double {exp : Int} (h1 : -1076 ≤ exp) (h2 : exp ≤ 969) : ∃ b sh, ScaleOk f64 exp b sh := by
  have h := List.all_eq_true.mp scaleOk_double (exp + 1076).toNat (List.mem_range.mpr (by omega))
  have e : (((exp + 1076).toNat : Int) - 1076) = exp := by omega
  rw [e] at h
  exact scaleOk_sound h

theorem scale_float {exp : Int} (h1 : -151 ≤ exp) (h2 : exp ≤ 102) : ∃ b sh, ScaleOk f32 exp b sh := by
  have h := List.all_eq_true.mp scaleOk_float (exp + 151).toNat (List.mem_range.mpr (by omega))
  have e : (((exp + 151).toNat : Int) - 151) = exp := by omega
  rw [e] at h
  exact scaleOk_sound h

end JsonStruct
