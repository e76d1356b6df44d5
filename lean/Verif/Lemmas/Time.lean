import Verif.Props.Integer
import Verif.Spec.Encode

/-
Time points.
-/

namespace JsonStruct

theorem timeTrim_stop {n t : Nat} (h : ¬ (t % 1000 = 0 ∧ 10 ^ 10 < t)) : timeTrim n t = t := by
  cases n with
  | zero => rfl
  | succ n => rw [timeTrim, if_neg h]

theorem timeTrim_go {n t : Nat} (h : t % 1000 = 0 ∧ 10 ^ 10 < t) : timeTrim (n + 1) t = timeTrim n (t / 1000) := by
  rw [timeTrim, if_pos h]

/-- What the loop makes of a number that takes at most three rounds. -/
theorem timeTrim_cases (t : Nat) (h : t < 2 ^ 63) :
    timeTrim 20 t = t ∨ t % 1000 = 0 ∧ 10 ^ 10 < t ∧ (timeTrim 20 t = t / 1000 ∨ t % 10 ^ 6 = 0 ∧ 10 ^ 13 < t ∧ (timeTrim 20 t = t / 10 ^ 6 ∨
      t % 10 ^ 9 = 0 ∧ 10 ^ 16 < t ∧ timeTrim 20 t = t / 10 ^ 9)) := by
  by_cases h1 : t % 1000 = 0 ∧ 10 ^ 10 < t
  · right
    refine ⟨h1.1, h1.2, ?_⟩
    rw [timeTrim_go h1]
    by_cases h2 : t / 1000 % 1000 = 0 ∧ 10 ^ 10 < t / 1000
    · right
      rw [timeTrim_go h2]
      refine ⟨by omega, by omega, ?_⟩
      by_cases h3 : t / 1000 / 1000 % 1000 = 0 ∧ 10 ^ 10 < t / 1000 / 1000
      · right
        rw [timeTrim_go h3, timeTrim_stop (by omega)]
        refine ⟨by omega, by omega, by omega⟩
      · left
        rw [timeTrim_stop h3]
        omega
    · left
      rw [timeTrim_stop h2]
  · left
    exact timeTrim_stop h1

theorem timeTrim_lt {n t b : Nat} (h : t < b) : timeTrim n t < b := by
  induction n generalizing t with
  | zero => exact h
  | succ n ih =>
    rw [timeTrim]
    split
    · exact ih (by omega)
    · exact h

theorem timeFrom_lt (C : Clock) (v : Int) : timeFrom C v < 2 ^ 64 := by
  refine timeTrim_lt ?_
  generalize (if C.hires = true then v else v.tdiv C.perMicro) = x
  have := Int.emod_lt_of_pos x (b := 2 ^ 64) (by norm_num)
  have := Int.emod_nonneg x (b := 2 ^ 64) (by norm_num)
  omega

theorem u64_supported : (⟨64, false⟩ : IntTy).Supported := by decide

theorem timeFrom_inRange (C : Clock) (v : Int) : (⟨64, false⟩ : IntTy).InRange (timeFrom C v : Nat) := by
  have := timeFrom_lt C v
  unfold IntTy.InRange
  rw [show (⟨64, false⟩ : IntTy).min = 0 by decide, show (⟨64, false⟩ : IntTy).max = 2 ^ 64 - 1 by decide]
  omega

/-- What the reader makes of a number. -/
def timeOf (C : Clock) (old : Int) (t : Nat) : Err × Int :=
  if t ≤ 10 ^ 11 then C.ticks old 1000000 t
  else if t ≤ 10 ^ 14 then C.ticks old 1000 t
  else if t ≤ 10 ^ 17 + 8 then C.ticks old 1 t
  else if C.hires then (.noError, if t < 2 ^ 63 then (t : Int) else (t : Int) - 2 ^ 64)
  else (.illegalDataValue, old)

theorem timeTo_of {C : Clock} {old : Int} {text : Bytes} {t : Nat} (h : intTo ⟨64, false⟩ text = (.noError, (t : Int))) :
    timeTo C old text = timeOf C old t := by
  unfold timeTo
  simp only [h, ne_eq, not_true_eq_false, if_false, Int.toNat_natCast]
  rfl

theorem ticks_ok {C : Clock} {old : Int} {micros t : Nat} {v : Int} (h : ((t * micros * C.perMicro : Nat) : Int) = v) (hv : v < 2 ^ 63) :
    C.ticks old micros t = (.noError, v) := by
  unfold Clock.ticks
  rw [if_pos (by omega)]
  rw [← h]
  push_cast
  rfl

theorem timeOf_hires {C : Clock} (hp : C.perMicro = 1000) (hh : C.hires = true) {t : Nat} (h1 : 10 ^ 17 + 8 < t) (h2 : t < 2 ^ 63) (old : Int) :
    timeOf C old (timeTrim 20 t) = (.noError, (t : Int)) := by
  unfold timeOf
  have hr := timeTrim_cases t h2
  rcases hr with h | ⟨g1, g2, h | ⟨g3, g4, h | ⟨g5, g6, h⟩⟩⟩ <;> rw [h]
  · rw [if_neg (by omega), if_neg (by omega), if_neg (by omega), if_pos hh, if_pos h2]
  · rw [if_neg (by omega), if_neg (by omega), if_pos (by omega)]
    exact ticks_ok (by rw [hp]; omega) (by omega)
  · rw [if_neg (by omega), if_pos (by omega)]
    exact ticks_ok (by rw [hp]; omega) (by omega)
  · rw [if_pos (by omega)]
    exact ticks_ok (by rw [hp]; omega) (by omega)

theorem timeOf_micro {C : Clock} {m : Nat} (h1 : 10 ^ 14 < m) (h2 : m ≤ 10 ^ 16) (hv : m * C.perMicro < 2 ^ 63) (old : Int) :
    timeOf C old (timeTrim 20 m) = (.noError, ((m * C.perMicro : Nat) : Int)) := by
  unfold timeOf
  have hr := timeTrim_cases m (by omega)
  rcases hr with h | ⟨g1, g2, h | ⟨g3, g4, h | ⟨g5, g6, h⟩⟩⟩
  · rw [h, if_neg (by omega), if_neg (by omega), if_pos (by omega)]
    exact ticks_ok (by rw [Nat.mul_one]) (by omega)
  · rw [h, if_neg (by omega), if_pos (by omega)]
    exact ticks_ok (by rw [show m / 1000 * 1000 = m by omega]) (by omega)
  · rw [h, if_pos (by omega)]
    exact ticks_ok (by rw [show m / 10 ^ 6 * 1000000 = m by omega]) (by omega)
  · omega

theorem time_trip {C : Clock} {v : Int} (h : TimeExact C v) (old : Int) :
    ∃ text, intFrom ⟨64, false⟩ (timeFrom C v) = some text ∧ timeTo C old text = (.noError, v) := by
  obtain ⟨text, h1, h2⟩ := C14_integer_round_trip ⟨64, false⟩ u64_supported _ (timeFrom_inRange C v)
  refine ⟨text, h1, ?_⟩
  rw [timeTo_of h2]
  obtain ⟨hp, hv, rfl | ⟨hh, hp, hlo⟩ | ⟨hh, m, rfl, hlo, hhi⟩⟩ := h
  · have : timeFrom C 0 = 0 := by
      unfold timeFrom
      simp [timeTrim]
    rw [this]
    unfold timeOf
    rw [if_pos (by norm_num)]
    exact ticks_ok (by simp) (by norm_num)
  · have : timeFrom C v = timeTrim 20 v.toNat := by
      unfold timeFrom
      rw [if_pos hh, Int.emod_eq_of_lt (by omega) (by omega)]
    rw [this, timeOf_hires hp hh (by omega) (by omega)]
    congr 1
    omega
  · have : timeFrom C (m * C.perMicro) = timeTrim 20 m.toNat := by
      unfold timeFrom
      rw [if_neg (by simp [hh]), Int.mul_tdiv_cancel _ (by omega), Int.emod_eq_of_lt (by omega) (by omega)]
    have hm : ((m.toNat : Nat) : Int) = m := by omega
    rw [this, timeOf_micro (by omega) (by omega) (by
      have : ((m.toNat * C.perMicro : Nat) : Int) < 2 ^ 63 := by push_cast; rw [hm]; exact hv
      exact_mod_cast this)]
    congr 1
    push_cast
    rw [hm]

end JsonStruct
