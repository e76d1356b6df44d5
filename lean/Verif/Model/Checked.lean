import Verif.Model.Handler

/-
The member functions of `Nullable`, `NullableChecked`, `Optional` and `OptionalChecked` (JSH 3433-3687). A plain wrapper is its
`data`; a checked one is the pair of `data` and the flag, `null` or `assigned`, as in Model/Handler.lean.
-/

namespace JsonStruct

/-- JSH 3433-3687: What a program can do with an object of a wrapper class `W` around `T`. `move` and `assignMove` give the object and what
becomes of the other one. -/
structure Wrapper (T W : Type) where
  /-- `W x;` -/
  new : W
  /-- `W x(t);`, by copy or move -/
  ofValue : T → W
  /-- `W x(other);` -/
  copy : W → W
  /-- `W x(std::move(other));` -/
  move : W → W × W
  /-- `x = t;`, by copy or move -/
  assignValue : T → W → W
  /-- `x = other;` -/
  assignCopy : W → W → W
  /-- `x = std::move(other);` -/
  assignMove : W → W → W × W
  /-- `x()`, the data to be changed in any way -/
  access : (T → T) → W → W

/-- JSH 3433-3489 `Nullable`. `moved t` is what a value `t` of type `T` is after it has been moved from. -/
def nullableW (init : T) (moved : T → T) : Wrapper T T where
  new := init
  ofValue := fun t => t
  copy := fun o => o
  move := fun o => (o, moved o)
  assignValue := fun t _ => t
  assignCopy := fun o _ => o
  assignMove := fun o _ => (o, moved o)
  access := fun f x => f x

/-- JSH 3491-3555 `NullableChecked`, the flag is `null`. -/
def nullableCheckedW (init : T) (moved : T → T) : Wrapper T (T × Bool) where
  new := (init, true)
  ofValue := fun t => (t, false)
  copy := fun o => (o.1, o.2)
  move := fun o => ((o.1, o.2), (moved o.1, o.2))
  assignValue := fun t _ => (t, false)
  assignCopy := fun o _ => (o.1, o.2)
  assignMove := fun o _ => ((o.1, o.2), (moved o.1, o.2))
  access := fun f x => (f x.1, x.2)

/-- JSH 3557-3615 `Optional`. -/
def optionalW (init : T) (moved : T → T) : Wrapper T T where
  new := init
  ofValue := fun t => t
  copy := fun o => o
  move := fun o => (o, moved o)
  assignValue := fun t _ => t
  assignCopy := fun o _ => o
  assignMove := fun o _ => (o, moved o)
  access := fun f x => f x

/-- JSH 3617-3687 `OptionalChecked`, the flag is `assigned`. -/
def optionalCheckedW (init : T) (moved : T → T) : Wrapper T (T × Bool) where
  new := (init, false)
  ofValue := fun t => (t, true)
  copy := fun o => (o.1, o.2)
  move := fun o => ((o.1, o.2), (moved o.1, o.2))
  assignValue := fun t _ => (t, true)
  assignCopy := fun o _ => (o.1, o.2)
  assignMove := fun o _ => ((o.1, o.2), (moved o.1, o.2))
  access := fun f x => (f x.1, x.2)

/-- JSH 3678-3682 `OptionalChecked::opt`. -/
def optOf (x : T × Bool) : Option T := if x.2 then some x.1 else none

/-- JSH 3433-3687, 8748-8826: A statement of a program with numbered variables of a wrapper class. `parse`: the handler is called with a context in any state. -/
inductive WOp (T : Type)
  | declare (i : Nat)
  | declareWith (i : Nat) (t : T)
  | copyFrom (i j : Nat)
  | moveFrom (i j : Nat)
  | assign (i : Nat) (t : T)
  | assignCopy (i j : Nat)
  | assignMove (i j : Nat)
  | edit (i : Nat) (f : T → T)
  | parse (i : Nat) (n : Nat) (c : Ctx)

/-- JSH 3433-3687: a variable gets a new value. -/
def putVar (w : Nat → W) (i : Nat) (x : W) : Nat → W := fun k => if k = i then x else w k

/-- JSH 3433-3687, 8748-8826: One statement; `h` is the handler of the wrapper class. Of two variables of a move the other one is changed last. -/
def WOp.exec (W : Wrapper T S) (h : Handler S) (w : Nat → S) : WOp T → Option (Nat → S)
  | .declare i => some (putVar w i W.new)
  | .declareWith i t => some (putVar w i (W.ofValue t))
  | .copyFrom i j => some (putVar w i (W.copy (w j)))
  | .moveFrom i j => some (putVar (putVar w i (W.move (w j)).1) j (W.move (w j)).2)
  | .assign i t => some (putVar w i (W.assignValue t (w i)))
  | .assignCopy i j => some (putVar w i (W.assignCopy (w j) (w i)))
  | .assignMove i j => some (putVar (putVar w i (W.assignMove (w j) (w i)).1) j (W.assignMove (w j) (w i)).2)
  | .edit i f => some (putVar w i (W.access f (w i)))
  | .parse i n c => (h.to n (w i) c).map fun r => putVar w i r.2.1

/-- JSH 3433-3687, 8748-8826: All statements in order. -/
def runOps (W : Wrapper T S) (h : Handler S) (w : Nat → S) : List (WOp T) → Option (Nat → S)
  | [] => some w
  | op :: ops => (op.exec W h w).bind fun w => runOps W h w ops

end JsonStruct
