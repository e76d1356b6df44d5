import Verif.Model.RawType
import Verif.Spec.Raw
import Verif.Spec.Success

/-
Specification for C90: what a raw capture is, said without recordings.
-/

namespace JsonStruct

/-- Read tokens until all the brackets in `st` are closed. The result: the first error, and the context behind the last token read. -/
def closeAll : Nat → List Ty → Ctx → Option (Err × Ctx)
  | 0, _, _ => none
  | n + 1, st, c =>
    if st = [] then some (.noError, c)
    else if c.next.error ≠ .noError then some (c.next.error, c.next)
    else match bracketStep st c.next.token.valueType with
      | some st => closeAll n st c.next
      | none => some (.ub, c.next)

/-- A capture of one value: nothing is recorded; the tokens of the value are read, and then the bytes of the input from the opening bracket up to the last byte read
are looked up and appended to the variable. A value that does not begin with a bracket of the right kind is refused. -/
def cutTo (k : RawKind) (n : Nat) (old : Bytes) (c : Ctx) : Option (Err × Bytes × Ctx) :=
  if (c.token.valueType = .arrayStart ∧ k ≠ .object) ∨ (c.token.valueType = .objectStart ∧ k ≠ .array) then
    (closeAll n [c.token.valueType] c).map fun r => (r.1, old ++ between c.tz.whole (c.tz.position - 1) r.2.tz.position, r.2)
  else some (if k = .array then .expectedArrayStart else .expectedObjectStart, old, c)

/-- The handler of the specification. -/
def cutH (k : RawKind) : Handler Bytes where
  init := []
  to := cutTo k
  from_ := rawFrom k

/-- The type with captures as the specification has them. -/
def RType.described (t : RType T) : Handler T := t.build fun k _ => cutH k

mutual
/-- No `std::map` and no `std::unordered_map` in it. -/
def RType.NoMap : {T : Type} → RType T → Prop
  | _, .lib t => t.NoMap
  | _, .raw _ _ | _, .rawRef _ => True
  | _, .map _ _ => False
  | _, .nullable t | _, .nullableChecked t | _, .optional t | _, .optionalChecked t | _, .stdOptional t | _, .sharedPtr t
  | _, .uniquePtr t | _, .silentVector t | _, .silentUniquePtr t | _, .vector t | _, .oneOrMany t | _, .array _ t
  | _, .arrayVariable _ t | _, .set _ _ t => t.NoMap
  | _, .tuple ts => ts.NoMap
  | _, .struct _ s => s.NoMap
def RTypes.NoMap : {Ts : Type} → RTypes Ts → Prop
  | _, .nil => True
  | _, .cons t ts => t.NoMap ∧ ts.NoMap
def RStruct.NoMap : {T : Type} → RStruct T → Prop
  | _, .mk ms ss => ms.NoMap ∧ ss.NoMap
def RMembers.NoMap : {T : Type} → RMembers T → Prop
  | _, .nil => True
  | _, .cons _ t _ _ ms => t.NoMap ∧ ms.NoMap
def RSupers.NoMap : {T : Type} → RSupers T → Prop
  | _, .nil => True
  | _, .cons _ _ _ s ss => s.NoMap ∧ ss.NoMap
end

/-- The contexts are the same up to what is being recorded. -/
def Ctx.SameButCopies (c c' : Ctx) : Prop := { c with tz := { c.tz with copies := [] } } = { c' with tz := { c'.tz with copies := [] } }

end JsonStruct
