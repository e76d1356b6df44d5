import Verif.Props.Float32
import Verif.Props.Integer

/-
The text of an integer is read by the floating-point types.
-/

namespace JsonStruct

/-- An integer as a number in decimal notation. -/
theorem intNum {I : IntTy} (hI : I.Supported) (hb : I.bits ≤ 32 ∨ I.signed = true ∧ I.bits ≤ 64) {v : Int} (hv : I.InRange v) {ds : Bytes}
    (h2 : JsonInt ds) (h3 : decVal ds = v.natAbs) :
    let n : NumText := { neg := decide (v < 0), int := ds }
    n.Loose ∧ n.text = (if v < 0 then b!"-" else []) ++ ds ∧ n.absValue = (v.natAbs : ℚ) ∧ ds.length ≤ 19 ∧ v.natAbs < 10 ^ 19 ∧ n.expo = 0 ∧ ¬ n.Undefined := by
  intro n
  have hd : AllDigits ds := by
    rcases h2 with rfl | h2
    · intro c hc; simp only [List.mem_singleton] at hc; subst hc; decide
    · exact h2.1.2
  have habs : n.absValue = (v.natAbs : ℚ) := by
    have h1 : n.mantissa = v.natAbs := by simp [n, NumText.mantissa, h3]
    have h2 : n.scale = 0 := by simp [n, NumText.scale]
    rw [NumText.absValue, h1, h2, zpow_zero, mul_one]
  have hlt : v.natAbs < 10 ^ 19 := by
    have h64 : I.bits = 8 ∨ I.bits = 16 ∨ I.bits = 32 ∨ I.signed = true ∧ I.bits = 64 := by
      simp only [IntTy.Supported, List.mem_cons, List.not_mem_nil, or_false] at hI
      rcases hI with h | h | h | h | h <;> simp [h] at hb ⊢
      exact hb
    simp only [IntTy.InRange, IntTy.min, IntTy.max] at hv
    rcases h64 with h | h | h | ⟨h, h'⟩
    · rw [h] at hv; split at hv <;> norm_num at hv ⊢ <;> omega
    · rw [h] at hv; split at hv <;> norm_num at hv ⊢ <;> omega
    · rw [h] at hv; split at hv <;> norm_num at hv ⊢ <;> omega
    · rw [h, h'] at hv; norm_num at hv ⊢; omega
  refine ⟨⟨hd, by simp [n], by simp [n]⟩, ?_, habs, ?_, hlt, rfl, ?_⟩
  · by_cases h : v < 0 <;> simp [n, NumText.text, fracText, expText, h]
  · by_contra hc
    rcases h2 with rfl | ⟨⟨g1, g2⟩, g3⟩
    · simp at hc
    · have := decVal_ge (k := 1) hd (by
        cases ds with
        | nil => exact absurd rfl g1
        | cons c s => exact ⟨c, by simp, by simpa using g3⟩)
      have : 10 ^ 19 ≤ 10 ^ (ds.length - 1) := Nat.pow_le_pow_right (by omega) (by omega)
      omega
  · rintro ⟨h1, h | h⟩
    · simp [n] at h
    · have : n.cut = n := rfl
      rw [this, habs] at h
      have hz : v = 0 := by
        have : ds = b!"0" := h1
        subst this
        have : decVal b!"0" = 0 := by decide
        omega
      subst hz
      simp at h

/-- Read as a double. -/
theorem int_double {I : IntTy} (hI : I.Supported) (hb : I.bits ≤ 32 ∨ I.signed = true ∧ I.bits ≤ 64) {v : Int} (hv : I.InRange v) {ds : Bytes}
    (h2 : JsonInt ds) (h3 : decVal ds = v.natAbs) :
    ∃ b, doubleTo ((if v < 0 then b!"-" else []) ++ ds) = some (.noError, if v < 0 then 2 ^ 63 + b else b) ∧ b ≤ 0x7FF0000000000000 ∧
      ∀ y ≤ 0x7FF0000000000000, |absValue 52 11 b - (v.natAbs : ℚ)| ≤ |absValue 52 11 y - (v.natAbs : ℚ)| + (v.natAbs : ℚ) / 2 ^ 109 := by
  obtain ⟨g1, g2, g3, g4, -, g5, g6⟩ := intNum hI hb hv h2 h3
  obtain ⟨b, k1, k2, -, k3⟩ := C60_nearest_partial _ g1 h2 (by simpa using g4) (.inr ⟨by rw [g5]; norm_num, g6⟩)
  rw [g2] at k1
  rw [g3] at k3
  exact ⟨b, by simpa using k1, k2, k3⟩

/-- Read as a float. -/
theorem int_float {I : IntTy} (hI : I.Supported) (hb : I.bits ≤ 32 ∨ I.signed = true ∧ I.bits ≤ 64) {v : Int} (hv : I.InRange v) {ds : Bytes}
    (h2 : JsonInt ds) (h3 : decVal ds = v.natAbs) :
    ∃ b, floatTo ((if v < 0 then b!"-" else []) ++ ds) = some (.noError, if v < 0 then 2 ^ 31 + b else b) ∧ RoundsTo 23 8 b (v.natAbs : ℚ) := by
  obtain ⟨g1, g2, g3, g4, g7, g5, g6⟩ := intNum hI hb hv h2 h3
  obtain ⟨b, k1, k2⟩ := C61_nearest_partial _ g1 h2 g4 (.inr ⟨by rw [g5]; norm_num, g6, .inl (by simp)⟩) (by simp) (by
      rw [g3]
      rcases Nat.eq_zero_or_pos v.natAbs with h | h
      · rw [h]; norm_num [abs_of_pos]
      · have : (1 : ℚ) ≤ (v.natAbs : ℚ) := by exact_mod_cast h
        have h2 : (2 : ℚ) ^ (-150 : Int) < 1 / 4 := by norm_num
        have h3 : (2 : ℚ) ^ (-200 : Int) < 1 / 4 := by norm_num
        generalize (2 : ℚ) ^ (-150 : Int) = p at h2 ⊢
        generalize (2 : ℚ) ^ (-200 : Int) = q at h3 ⊢
        rw [abs_of_pos (by linarith)]
        linarith) (by
      rw [g3]
      have : (v.natAbs : ℚ) < 10 ^ 19 := by exact_mod_cast g7
      rw [abs_of_neg (by norm_num at this ⊢; linarith)]
      norm_num at this ⊢
      linarith)
  rw [g2] at k1
  rw [g3] at k2
  exact ⟨b, by simpa using k1, k2⟩

end JsonStruct
