import Verif.Spec.Value
import Verif.Model.Diff

/-
When two documents are equal for the purpose of comparing them. Nothing here refers to the comparison itself.
-/

namespace JsonStruct

mutual
/-- Equal up to the order of the members of objects, and up to `q` in numbers. -/
inductive Alike (q : Bytes → Bytes → Bool) : JVal → JVal → Prop
  | null : Alike q .null .null
  | bool {b} : Alike q (.bool b) (.bool b)
  | num {a b} : q a b = true → Alike q (.num a) (.num b)
  | str {s} : Alike q (.str s) (.str s)
  | arr {vs ws} : AlikeElems q vs ws → Alike q (.arr vs) (.arr ws)
  | obj {ms ms' ks} : ms.Perm ms' → AlikeMembers q ms' ks → Alike q (.obj ms) (.obj ks)
/-- Item by item. -/
inductive AlikeElems (q : Bytes → Bytes → Bool) : List JVal → List JVal → Prop
  | nil : AlikeElems q [] []
  | cons {v w vs ws} : Alike q v w → AlikeElems q vs ws → AlikeElems q (v :: vs) (w :: ws)
/-- Member by member. -/
inductive AlikeMembers (q : Bytes → Bytes → Bool) : List (Bytes × JVal) → List (Bytes × JVal) → Prop
  | nil : AlikeMembers q [] []
  | cons {n v w ms ks} : Alike q v w → AlikeMembers q ms ks → AlikeMembers q ((n, v) :: ms) ((n, w) :: ks)
end

mutual
/-- No object in the value has two members of the same name. -/
def JVal.Distinct : JVal → Prop
  | .arr vs => elemsDistinct vs
  | .obj ms => (ms.map Prod.fst).Nodup ∧ membersDistinct ms
  | _ => True
def elemsDistinct : List JVal → Prop
  | [] => True
  | v :: vs => v.Distinct ∧ elemsDistinct vs
def membersDistinct : List (Bytes × JVal) → Prop
  | [] => True
  | (_, v) :: ms => v.Distinct ∧ membersDistinct ms
end

/-- The numbers in the value have this property. -/
def JVal.Numbers (P : Bytes → Prop) (v : JVal) : Prop := v.WF { rfc with str := fun _ => True, num := P }

/-- The text is compared with the base of the context: whatever bound is put on the loops, as long as it is large enough,
`diff` returns the index `i`, and the context has the report `d` there. -/
def DiffCtx.Reports (c : DiffCtx) (t : Bytes) (d : DiffDoc) : Prop :=
  ∃ N, ∀ n, N ≤ n → c.diff n t = some (some c.diffs.length, { c with error := .noError, diffs := c.diffs ++ [d] })

/-- A report without any difference. -/
structure DiffDoc.Clean (d : DiffDoc) : Prop where
  count : d.res.count = 0
  diffs : ∀ x ∈ d.res.diffs, x = .noDiff
  members : d.res.missingMembers = []
  items : d.res.missingArrayItems = []

/-- How numbers are compared: both texts are read (`std::stod`; `none` where it throws), then the two values are compared. -/
structure NumCmp (D : Type) where
  stod : Bytes → Option D
  eq : D → D → Bool

def NumCmp.same (c : NumCmp D) (a b : Bytes) : Option Bool :=
  match c.stod a, c.stod b with
  | some x, some y => some (c.eq x y)
  | _, _ => none

/-- The texts are numbers that are found equal. -/
def NumCmp.equal (c : NumCmp D) (a b : Bytes) : Bool := c.same a b = some true

/-- Calls on a context. -/
inductive DiffOp
  | diff (t : Bytes)
  | invalidate (same : Bytes → Bytes → Option Bool)
  | changeBase (pos : Nat)

def DiffCtx.run (n : Nat) (c : DiffCtx) : DiffOp → Option DiffCtx
  | .diff t => (c.diff n t).map Prod.snd
  | .invalidate same => c.invalidate n same
  | .changeBase pos => c.changeBase n pos

def DiffCtx.runAll (n : Nat) : DiffCtx → List DiffOp → Option DiffCtx
  | c, [] => some c
  | c, op :: ops => (c.run n op).bind fun c => c.runAll n ops

/-- The text of the base, and the texts compared with it. -/
structure DiffTexts where
  base : Bytes
  others : List Bytes

/-- What a call does to them: a text without any token is refused. -/
def DiffTexts.step (x : DiffTexts) : DiffOp → DiffTexts
  | .diff t => if t = [] ∨ (tokenize {} t).1 = [] then x else { x with others := x.others ++ [t] }
  | .invalidate _ => x
  | .changeBase pos => ⟨x.others.getD pos [], x.others.set pos x.base⟩

/-- What two reports say apart from the missing array items. -/
def DRes.AgreesBut (a b : DRes) : Prop := a.missingMembers = b.missingMembers ∧ a.diffs = b.diffs ∧ a.count = b.count

end JsonStruct
