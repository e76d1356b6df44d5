import Verif.Props.Beginning
import Verif.Props.Independent

/-!
Objects that give a string a container. The string takes the opening bracket for its value, and the struct goes on with what is
inside of the brackets as if it stood in the object itself. C18, C19 and C76 are false for such objects; here are witnesses. The
theorems leave them out by asking for a result of the decoder of Spec/Decode.
-/

namespace JsonStruct

/-- A struct of a string `s` and a number `n`. -/
def stringAndNumber : CStruct (Bytes × Int) :=
  .mk (.cons [b!"s"] (.string .scalar) (·.1) (fun x t => (x, t.2)) (.cons [b!"n"] (.int i32) (·.2) (fun x t => (t.1, x)) .nil)) .nil

/-- **C76** is false for a string that is given an object: `{"s":{"n":1}}` has no member `n`, and yet `n` is set. -/
theorem C76_false_string :
    Parses (CType.struct ([], 0) stringAndNumber).handler {} {} (b!"x", 7) b!"{\"s\":{\"n\":1}}" ⟨.noError, (b!"{", 1), [], []⟩ :=
  parses_of_run _ 30 (by decide +kernel)

/-- **C19** is false for a string that is given an object: `z` is reported as a member of `{"s":{"z":1},"n":1}` that the struct
lacks, and `n` as a member that the object lacks. -/
theorem C19_false_string :
    Parses (CType.struct ([], 0) stringAndNumber).handler {} {} (b!"x", 7) b!"{\"s\":{\"z\":1},\"n\":1}" ⟨.noError, (b!"{", 7), [b!"z"], [b!"n"]⟩ :=
  parses_of_run _ 30 (by decide +kernel)

/-- **C18** is false for a string that is given an object: `{"s":{},"n":1}` leaves `n` as it was, `{"n":1,"s":{}}` does not. -/
theorem C18_false_string :
    Parses (CType.struct ([], 0) stringAndNumber).handler {} {} (b!"x", 7) b!"{\"s\":{},\"n\":1}" ⟨.noError, (b!"{", 7), [], [b!"n"]⟩ ∧
    Parses (CType.struct ([], 0) stringAndNumber).handler {} {} (b!"x", 7) b!"{\"n\":1,\"s\":{}}" ⟨.noError, (b!"{", 1), [], []⟩ :=
  ⟨parses_of_run _ 30 (by decide +kernel),
   parses_of_run _ 30 (by decide +kernel)⟩

end JsonStruct
