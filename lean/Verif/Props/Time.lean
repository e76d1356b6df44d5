import Verif.Lemmas.Time

/-
C62: time points. `timeFrom` is the number written for a time point, `timeTo` reads the text of a number.
-/

namespace JsonStruct

/-- C62 for `std::chrono::high_resolution_clock::time_point`, in nanoseconds: time points after 1973-03-03 09:46:40.000000008 are
read as they were written. Missing are earlier ones: it does not hold for them, see below, except for the epoch and most times
before it (`C62_before_epoch_partial`). -/
theorem C62_high_resolution_partial (v : Int) (h1 : 10 ^ 17 + 8 < v) (h2 : v < 2 ^ 63) (old : Int) :
    ∃ text, intFrom ⟨64, false⟩ (timeFrom hiresClock v) = some text ∧ timeTo hiresClock old text = (.noError, v) :=
  time_trip ⟨by decide, h2, .inr (.inl ⟨rfl, rfl, h1⟩)⟩ old

/-- C62 for time points before the epoch: those are read as they were written whose number of nanoseconds, as a `uint64_t`, is not
divisible by 1000. -/
theorem C62_before_epoch_partial (v : Int) (h1 : -2 ^ 63 ≤ v) (h2 : v < 0) (h3 : (2 ^ 64 + v) % 1000 ≠ 0) (old : Int) :
    ∃ text, intFrom ⟨64, false⟩ (timeFrom hiresClock v) = some text ∧ timeTo hiresClock old text = (.noError, v) := by
  obtain ⟨text, g1, g2⟩ := C14_integer_round_trip ⟨64, false⟩ u64_supported _ (timeFrom_inRange hiresClock v)
  refine ⟨text, g1, ?_⟩
  rw [timeTo_of g2]
  have hm : v % 2 ^ 64 = 2 ^ 64 + v := by omega
  have : timeFrom hiresClock v = (2 ^ 64 + v).toNat := by
    unfold timeFrom
    rw [if_pos (show hiresClock.hires = true from rfl), hm, timeTrim_stop (by omega)]
  rw [this]
  unfold timeOf
  rw [if_neg (by omega), if_neg (by omega), if_neg (by omega), if_pos (show hiresClock.hires = true from rfl), if_neg (by omega)]
  congr 1
  omega

/-- C62 for other clocks whose ticks are microseconds or fractions of them: time points in whole microseconds from
1973-03-03 09:46:40.000001 to 2286-11-20 17:46:40 are read as they were written. Missing are others, for which it does not
hold. -/
theorem C62_other_clocks_partial (perMicro : Nat) (hp : 0 < perMicro) (m : Int) (h1 : 10 ^ 14 < m) (h2 : m ≤ 10 ^ 16) (h3 : m * perMicro < 2 ^ 63)
    (old : Int) :
    ∃ text, intFrom ⟨64, false⟩ (timeFrom ⟨perMicro, false⟩ (m * perMicro)) = some text ∧
      timeTo ⟨perMicro, false⟩ old text = (.noError, m * perMicro) :=
  time_trip ⟨hp, h3, .inr (.inr ⟨rfl, m, rfl, h1, h2⟩)⟩ old

example : (10 : Int) ^ 17 + 8 < 1700000000000000001 ∧ (1700000000000000001 : Int) < 2 ^ 63 := by decide
example : -2 ^ 63 ≤ (-1 : Int) ∧ (-1 : Int) < 0 ∧ (2 ^ 64 + (-1 : Int)) % 1000 ≠ 0 := by decide
example : (10 : Int) ^ 14 < 1700000000000001 ∧ (1700000000000001 : Int) ≤ 10 ^ 16 ∧ (1700000000000001 : Int) * (1000 : Nat) < 2 ^ 63 := by decide

/-- C62 does not hold close to the epoch: five nanoseconds are written as `5`, and `5` is read as five seconds. -/
theorem C62_false_close_to_epoch :
    intFrom ⟨64, false⟩ (timeFrom hiresClock 5) = some b!"5" ∧ timeTo hiresClock 0 b!"5" = (.noError, 5000000000) := by
  decide +kernel

/-- C62 does not hold for times before the epoch: 616 nanoseconds before it are written as `18446744073709551`, and reading that
overflows an `int64_t`. A clock in microseconds writes `18446744073709551615` one microsecond before it, and rejects that. -/
theorem C62_false_before_epoch :
    intFrom ⟨64, false⟩ (timeFrom hiresClock (-616)) = some b!"18446744073709551" ∧
    timeTo hiresClock 0 b!"18446744073709551" = (.ub, 0) ∧
    intFrom ⟨64, false⟩ (timeFrom microClock (-1)) = some b!"18446744073709551615" ∧
    timeTo microClock 0 b!"18446744073709551615" = (.illegalDataValue, 0) := by
  decide +kernel

/-- C62 does not hold from 2286 on for clocks in microseconds: a time that is a multiple of 1000 seconds is written in thousands
of seconds, and read as seconds. -/
theorem C62_false_2286 :
    intFrom ⟨64, false⟩ (timeFrom microClock 10000001000000000) = some b!"10000001" ∧
    timeTo microClock 0 b!"10000001" = (.noError, 10000001000000) := by
  decide +kernel

/-- Reading a time point is undefined for numbers of seconds above 2^63 nanoseconds, although they are taken for seconds. -/
theorem C62_false_overflow : timeTo hiresClock 0 b!"10000000000" = (.ub, 0) := by decide +kernel

end JsonStruct
