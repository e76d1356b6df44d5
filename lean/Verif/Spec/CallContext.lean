import Verif.Model.Call
import Verif.Spec.Call

/-
What a function called from JSON may do with the `CallFunctionContext` it is given (C31).
-/

namespace JsonStruct

/-- One use of the context: `setError`, or a token written to the serializer of the results. -/
inductive CtxUse
  | error (e : Err × Bytes)
  | write (k : Tok)

def CtxUse.run (c : CallCtx) : CtxUse → CallCtx
  | .error e => c.setError e
  | .write k => { c with ser := (c.ser.write k).2 }

/-- The function uses the context it is given in these ways only, as often and in whatever order it likes, depending on anything;
it does not report `MissingFunction`. -/
def UsesContext (f : W → A → CallCtx → W × R × CallCtx) : Prop :=
  ∀ w a c, ∃ uses : List CtxUse, (f w a c).2.2 = uses.foldl CtxUse.run c ∧ ∀ t, CtxUse.error (.missingFunction, t) ∉ uses

/-- The functions of a table do not set `NoError`. -/
def CTable.Earnest (T : CTable W) : Prop := ∀ f ∈ T.order, match f with
  | .plain .. => True
  | .err _ _ _ f => ∀ w a, ∀ s ∈ (f w a).2.2, s.1 ≠ .noError

end JsonStruct
