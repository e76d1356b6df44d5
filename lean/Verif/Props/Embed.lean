import Verif.Lemmas.Embed
import Verif.Spec.Parsing

/-
C88, C90: what stands around handlers of users and raw captures is read and written as the library does it.
-/

namespace JsonStruct

/-- **C88**: a type of the library, put together from the templates that also take types with handlers of users, has the handler of the library, for reading and writing. -/
theorem C88_around (t : CType T) : t.asOwn.handler = t.handler := t.asOwn_handler

/-- **C90**: a type of the library, put together from the templates that also take raw captures, has the handler of the library, for reading and writing. -/
theorem C90_around (t : CType T) : t.asRaw.handler = t.handler := t.asRaw_handler

/-- A struct with a super class, optional members and a map. -/
def exAround : CType (Int × Option Int × List (Bytes × Int)) :=
  .struct (0, none, []) (.mk
    (.cons [b!"a", b!"A"] (.stdOptional (.int ⟨32, true⟩)) (·.2.1) (fun x t => (t.1, x, t.2.2))
    (.cons [b!"m"] (.map (fun m e => m ++ [e]) (.int ⟨32, true⟩)) (·.2.2) (fun x t => (t.1, t.2.1, x)) .nil))
    (.cons b!"S" (·.1) (fun x t => (x, t.2.1, t.2.2)) (.mk (.cons [b!"s"] (.int ⟨32, true⟩) id (fun x _ => x) .nil) .nil) .nil))

set_option synthInstance.maxSize 1000 in
/-- Such a type, spelled out, reads a document. -/
example :
    (parseTo exAround.asRaw.handler 60 (0, none, []) (Ctx.onText {} {} b!"{\"s\":1,\"A\":2,\"m\":{\"x\":3}}")).map (fun r => (r.1, r.2.1)) =
      some (.noError, 1, some 2, [(b!"x", 3)]) ∧
    (parseTo exAround.asOwn.handler 60 (0, none, []) (Ctx.onText {} {} b!"{\"s\":1,\"A\":2,\"m\":{\"x\":3}}")).map (fun r => (r.1, r.2.1)) =
      some (.noError, 1, some 2, [(b!"x", 3)]) := by
  decide +kernel

end JsonStruct
