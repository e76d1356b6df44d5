import Verif.Model.Basic

/- `TypeHandler<bool>` (JSH 8915-8947). -/

namespace JsonStruct

/-- JSH 8918-8930 `TypeHandler<bool>::to`: the value of the current token, whatever its type; `old` is what
`to_type` held before. -/
def boolTo (old : Bool) (value : Bytes) : Err × Bool :=
  if value.length = 4 ∧ value.take 4 = b!"true" then (.noError, true)
  else if value.length = 5 ∧ value.take 5 = b!"false" then (.noError, false)
  else (.failedToParseBoolean, old)

/-- JSH 8932-8946 `TypeHandler<bool>::from`: the text written, of type `Bool`. -/
def boolText (b : Bool) : Bytes := if b then b!"true" else b!"false"

end JsonStruct
