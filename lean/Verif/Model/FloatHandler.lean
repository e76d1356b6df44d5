import Verif.Model.Handler
import Verif.Model.Float32

/-
The handlers of `double` and `float` (JSH 8558-8643).
-/

namespace JsonStruct

/-- JSH 8562-8570, 8607-8615: Where the behaviour is undefined, the error is `ub`. -/
def floatOut (old : Nat) : Option (Err × Nat) → Err × Nat
  | some r => r
  | none => (.ub, old)

/-- JSH 8572-8600, 8617-8642: the token for a number; that of NaN and infinity is `null`. -/
def floatPut (T : FloatTy) (f : Nat) (k : Tok) (s : Ser) : Option (Tok × Ser) :=
  match floatFrom T f with
  | none => none
  | some txt => putTok { k with value := txt, valueType := if isNan T f || isInf T f then .null else .number } s

/-- JSH 8559-8601 `TypeHandler<double>`. A double is the number with the same bits. -/
def doubleH : Handler Nat where
  init := 0
  to := fun _ old c => let r := floatOut old (doubleTo c.token.value.bytes); some (r.1, r.2, c)
  from_ := floatPut f64

/-- JSH 8604-8643 `TypeHandler<float>`. -/
def floatH : Handler Nat where
  init := 0
  to := fun _ old c => let r := floatOut old (floatTo c.token.value.bytes); some (r.1, r.2, c)
  from_ := floatPut f32

end JsonStruct
