import Verif.Model.MapMemory
import Verif.Spec.Map

/-
The strings a `JS::Map` refers to.
-/

namespace JsonStruct

/-- Every token has an owner entry, and every string that a token refers to is alive. -/
def OwnedMap.Alive (o : OwnedMap) : Prop :=
  o.owners.length = o.map.tokens.length ∧ ∀ id, some id ∈ o.owners → id ∈ o.data.map Prod.snd

/-- What a user does to a map: set a member; set the whole map to a value, written as the object `ms`; parse a text into it. -/
inductive MapOp
  | set (a : SetOp)
  | assign {T : Type} (t : CType T) (x : T) (ms : List (Bytes × JVal))
  | parse (opts : Opts) (p : POpts) (text : Bytes) (ms : List (Bytes × JVal))

/-- One step, with loops bounded by `n`. -/
def OwnedMap.step (n : Nat) : MapOp → OwnedMap → Option OwnedMap
  | .set a, o => o.setValue a.t.handler n a.name a.x
  | .assign t x _, o => o.assign t.handler n x
  | .parse opts p text _, o => (o.parse n (Ctx.onText opts p text)).map fun r => r.2.1

/-- A history. -/
def OwnedMap.run (n : Nat) : List MapOp → OwnedMap → Option OwnedMap
  | [], o => some o
  | a :: as, o => (o.step n a).bind (OwnedMap.run n as)

/-- What the step should make of the members. -/
def MapOp.members : MapOp → List (Bytes × JVal) → List (Bytes × JVal)
  | .set a, ms => setMember a.name a.j ms
  | .assign _ _ ms, _ => ms
  | .parse _ _ _ ms, _ => ms

/-- The step does what it should: a member that is set is not affected by the defect of `C27_false_scalar_replaced`, the value is
represented exactly by the object, and the text is a document of the object. -/
def MapOp.Ok : MapOp → List (Bytes × JVal) → Prop
  | .set a, ms => a.Ok ∧ Replaceable a.name ms
  | .assign t x ms, _ => t.Lawful ∧ t.Valid x ∧ t.enc x = some (.obj ms) ∧ (JVal.obj ms).depth ≤ 255
  | .parse opts _ text ms, _ => opts.newLines = false ∧ Doc (lenient opts) (.obj ms) text

/-- The history does. -/
def Orderly : List MapOp → List (Bytes × JVal) → Prop
  | [], _ => True
  | a :: as, ms => a.Ok ms ∧ Orderly as (a.members ms)

/-- The members after the history. -/
def membersAfter : List MapOp → List (Bytes × JVal) → List (Bytes × JVal)
  | [], ms => ms
  | a :: as, ms => membersAfter as (a.members ms)

end JsonStruct
