import Verif.Model.ErrorContext

/-
The message of a `ParseContext`: JSH 3907-3955.
-/

namespace JsonStruct

/-- JSH 3920-3922 and 3938-3940: the first name, and ", " and a name for each of the others. -/
def joinNames : List Bytes → Bytes
  | [] => []
  | n :: ns => n ++ ns.flatMap fun m => b!", " ++ m

/-- JSH 3907-3955 `ParseContext::makeErrorString`: `e` is `error`, `missing` and `unassigned` are the two lists of the
context, `x` is the error context of the tokenizer. -/
def parseMessage (e : Err) (missing unassigned : List Bytes) (x : ErrCtx) : Bytes :=
  if e = .missingPropertyMember then
    match missing with
    | [] => []
    | [n] => b!"JSON Object contained member not found in C++ struct/class. JSON Object member is: " ++ n
    | ns => b!"JSON Object contained members not found in C++ struct/class. JSON Object members are: " ++ joinNames ns
  else if e = .unassignedRequiredMember then
    match unassigned with
    | [] => []
    | [n] => b!"C++ struct/class has a required member that is not present in input JSON. The unassigned C++ member is: " ++ n
    | ns => b!"C++ struct/class has required members that are not present in the input JSON. The unassigned C++ members are: " ++ joinNames ns
  else if x.error = .noError ∧ e ≠ .noError then b!"Error:" ++ errorString e
  else x.message

end JsonStruct
