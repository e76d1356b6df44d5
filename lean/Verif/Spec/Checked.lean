import Verif.Model.Checked

/-
The same programs with `std::optional<T>` in place of the wrapper: what a variable holds is a value or nothing.
-/

namespace JsonStruct

/-- Reading: what is there is read into, or a new value. `nulls`: `null` empties the variable. -/
def readOptional (nulls : Bool) (h : Handler T) (n : Nat) (x : Option T) (c : Ctx) : Option (Option T) :=
  if nulls = true ∧ c.token.valueType = .null then some none else (h.to n (x.getD h.init) c).map fun r => some r.2.1

/-- One statement. A value that was moved from is still there. -/
def WOp.meant (nulls : Bool) (h : Handler T) (moved : T → T) (r : Nat → Option T) : WOp T → Option (Nat → Option T)
  | .declare i => some fun k => if k = i then none else r k
  | .declareWith i t | .assign i t => some fun k => if k = i then some t else r k
  | .copyFrom i j | .assignCopy i j => some fun k => if k = i then r j else r k
  | .moveFrom i j | .assignMove i j => some fun k => if k = j then (r j).map moved else if k = i then r j else r k
  | .edit i f => some fun k => if k = i then (r i).map f else r k
  | .parse i n c => (readOptional nulls h n (r i) c).map fun x k => if k = i then x else r k

def meantOps (nulls : Bool) (h : Handler T) (moved : T → T) (r : Nat → Option T) : List (WOp T) → Option (Nat → Option T)
  | [] => some r
  | op :: ops => (op.meant nulls h moved r).bind fun r => meantOps nulls h moved r ops

/-- Only the data of a variable that holds a value is changed by way of `x()`. (It is not defined for an empty `std::optional`.) -/
def WOp.Legal (r : Nat → Option T) : WOp T → Prop
  | .edit i _ => (r i).isSome
  | _ => True

/-- What is read into an empty variable does not depend on the value it had before. -/
def WOp.Anew (h : Handler T) (r : Nat → Option T) : WOp T → Prop
  | .parse i n c => r i = none → c.token.valueType ≠ .null → ∀ a b, (h.to n a c).map (·.2.1) = (h.to n b c).map (·.2.1)
  | _ => True

/-- `P` holds of every statement in the state in which it is executed. -/
def Along (P : (Nat → Option T) → WOp T → Prop) (nulls : Bool) (h : Handler T) (moved : T → T) (r : Nat → Option T) : List (WOp T) → Prop
  | [] => True
  | op :: ops => P r op ∧ ∀ r', op.meant nulls h moved r = some r' → Along P nulls h moved r' ops

/-- What a program sees of a `NullableChecked`: the value, unless it is `null`. -/
def holds (x : T × Bool) : Option T := if x.2 then none else some x.1

end JsonStruct
