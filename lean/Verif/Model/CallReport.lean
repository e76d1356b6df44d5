import Verif.Model.Call
import Verif.Model.Handler
import Verif.Model.Struct

/-
The report of calls written as JSON (JSH 4686-4744): `execution_list` is a vector of structs, and users serialize it like
any other.
-/

namespace JsonStruct

/-- JSH 4714-4726, what `TypeHandler<Error>::from` writes. -/
def errorName (e : Err) : Bytes := if e = .userDefinedErrors then b!"UserDefinedError" else errorString e

/-- JSH 4686-4726 `TypeHandler<Error>`: nothing is read. -/
def errorH : Handler Err where
  init := .noError
  to := fun _ old c => some (.noError, old, c)
  from_ := fun e k s => putTok { k with value := errorName e, valueType := .string } s

/-- JSH 4735-4743, the members of `CallFunctionExecutionState` with their types: an entry of `execution_list` together with
its `error_string`. `child_states` is never filled; what its elements are does not matter. -/
def execMembers (m : Simd) : List (Member (Exec × Bytes)) :=
  [.of [b!"name"] false (stringH m) (fun r => r.1.name) (fun v r => ({ r.1 with name := v }, r.2)),
   .of [b!"context"] true (silentStringH m) (fun r => r.1.context) (fun v r => ({ r.1 with context := v }, r.2)),
   .of [b!"error"] false errorH (fun r => r.1.error) (fun v r => ({ r.1 with error := v }, r.2)),
   .of [b!"error_string"] true (silentStringH m) (fun r => r.2) (fun v r => (r.1, v)),
   .of [b!"missing_members"] true (silentVecH (stringH m)) (fun r => r.1.missing) (fun v r => ({ r.1 with missing := v }, r.2)),
   .of [b!"unassigned_required_members"] true (silentVecH (stringH m)) (fun r => r.1.unassigned)
     (fun v r => ({ r.1 with unassigned := v }, r.2)),
   .of [b!"child_states"] true (silentVecH (stringH m)) (fun _ => []) (fun _ r => r)]

/-- JSH 4728-4744, the handler of `CallFunctionExecutionState` (5704-5786). -/
def execH (m : Simd) : Handler (Exec × Bytes) := structH ({ name := [] }, []) (.mk (execMembers m) [])

/-- JSH 4795 `execution_list`: the entries with their messages, if these are all defined. -/
def CallCtx.executions (c : CallCtx) : Option (List (Exec × Bytes)) :=
  (c.messages.mapM id).map fun ms => c.list.zip ms

end JsonStruct
