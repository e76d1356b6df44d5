import Verif.Model.Handler

/-
`TypeHandler` of `std::chrono::time_point` (JSH 8949-9004).
-/

namespace JsonStruct

/-- JSH 8964-8967: A type of time points: a tick is a microsecond divided by `perMicro`; `hires` tells whether it is
`std::chrono::high_resolution_clock::time_point`. That type counts nanoseconds in all three common standard libraries. A time
point is its number of ticks since the epoch, an `int64_t`. Types with ticks longer than a microsecond do not compile, since
`to` converts from microseconds. -/
structure Clock where
  perMicro : Nat
  hires : Bool
  deriving DecidableEq, Repr

/-- JSH 8982, 8995: `std::chrono::high_resolution_clock::time_point`. -/
def hiresClock : Clock := ⟨1000, true⟩

/-- JSH 8997-8998: `std::chrono::time_point<std::chrono::system_clock, std::chrono::microseconds>`. -/
def microClock : Clock := ⟨1, false⟩

/-- JSH 8976-8983:
`T{std::chrono::seconds{t}}` and so on, for `t` units of `micros` microseconds: the product overflows if it does not fit
an `int64_t`. -/
def Clock.ticks (C : Clock) (old : Int) (micros t : Nat) : Err × Int :=
  if t * micros * C.perMicro < 2 ^ 63 then (.noError, t * micros * C.perMicro) else (.ub, old)

/-- JSH 8968-8990 `to`. The number is converted to `double` before it is compared; up to 2^53 that is exact, and 1e17 is the
double nearest to the numbers up to 1e17 + 8. Every `uint64_t` is less than 1e20. -/
def timeTo (C : Clock) (old : Int) (text : Bytes) : Err × Int :=
  let r := intTo ⟨64, false⟩ text
  if r.1 ≠ .noError then (r.1, old)
  else
    let t := r.2.toNat
    if t ≤ 10 ^ 11 then C.ticks old 1000000 t
    else if t ≤ 10 ^ 14 then C.ticks old 1000 t
    else if t ≤ 10 ^ 17 + 8 then C.ticks old 1 t
    else if C.hires then (.noError, if t < 2 ^ 63 then (t : Int) else (t : Int) - 2 ^ 64)
    else (.illegalDataValue, old)

/-- JSH 8999-9000: the loop; `n` bounds its rounds, of which there are at most four. -/
def timeTrim : Nat → Nat → Nat
  | 0, t => t
  | n + 1, t => if t % 1000 = 0 ∧ 10 ^ 10 < t then timeTrim n (t / 1000) else t

/-- JSH 8992-9000 `from`: the number written. `duration_cast` rounds towards 0. -/
def timeFrom (C : Clock) (v : Int) : Nat :=
  timeTrim 20 ((if C.hires then v else v.tdiv C.perMicro) % 2 ^ 64).toNat

/-- JSH 8964-9004. -/
def timeH (C : Clock) : Handler Int where
  init := 0
  to := fun _ old c => let r := timeTo C old c.token.value.bytes; some (r.1, r.2, c)
  from_ := fun v => (intH ⟨64, false⟩).from_ (timeFrom C v)

end JsonStruct
