import Verif.Spec.Parsing

/-
What the modules of this directory have in common. They repeat the project's own tests in the model, to test the model;
they prove nothing about all inputs.
-/

namespace JsonStruct.Conformance

/-- Error, value, `missing_members` and `unassigned_required_members` after `parseTo`. -/
def reads (h : Handler T) (text : Bytes) (old : T := h.init) (o : Opts := { simd := .sse2 }) (p : POpts := {}) :
    Option (Err × T × List Bytes × List Bytes) :=
  (parseTo h 10000 old (Ctx.onText o p text)).map fun r => (r.1, r.2.1, r.2.2.missing, r.2.2.unassigned)

/-- `serializeStruct`, with the options of the constructor of `SerializerOptions`. -/
def writes (h : Handler T) (v : T) (pretty := true) : Option Bytes := serializeStruct h v (SerOpts.new pretty)

end JsonStruct.Conformance
