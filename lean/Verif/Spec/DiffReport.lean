import Verif.Spec.Diff

/-
What a comparison has to report for each token of the second document: the mark, and which tokens of the base are missing
there. Nothing here refers to the comparison itself.
-/

namespace JsonStruct

/-- What is reported for one token. -/
structure DiffCell where
  mark : DiffType := .noDiff
  /-- tokens of the members missing in the object that starts here -/
  members : List Tok := []
  /-- tokens of the items missing in the array that starts here -/
  items : List Tok := []
  deriving DecidableEq, Repr, Inhabited

/-- Two values of the same type: null, boolean, number, string, array or object. -/
def JVal.sameKind : JVal → JVal → Bool
  | .null, .null | .bool _, .bool _ | .num _, .num _ | .str _, .str _ | .arr _, .arr _ | .obj _, .obj _ => true
  | _, _ => false

/-- All the tokens of a value with the same mark. -/
def JVal.cells (w : JVal) (t : DiffType) : List DiffCell := List.replicate w.docToks.length ⟨t, [], []⟩

/-- All the tokens of some items with the same mark. -/
def itemCells (t : DiffType) (ws : List JVal) : List DiffCell := ws.flatMap (·.cells t)

/-- The members whose names are not among those of `ks`. -/
def without (ms ks : List (Bytes × JVal)) : List (Bytes × JVal) := ms.filter fun m => !(ks.map Prod.fst).contains m.1

/-- An opening bracket: marked if something is missing behind it. -/
def openCell (members items : List Tok) : DiffCell :=
  ⟨if members ≠ [] then .missingMembers else if items ≠ [] then .missingArrayItems else .noDiff, members, items⟩

mutual
/-- The report for `w`, compared with a value `v` of the same type. `q` compares numbers; `new` says how items are marked
that are behind the end of the array in the base. -/
def JVal.report (q : Bytes → Bytes → Bool) (new : List JVal → List DiffCell) : JVal → JVal → List DiffCell
  | .bool b, .bool a => [⟨if a = b then .noDiff else .valueDiff, [], []⟩]
  | .num b, .num a => [⟨if q a b then .noDiff else .valueDiff, [], []⟩]
  | .str b, .str a => [⟨if a = b then .noDiff else .valueDiff, [], []⟩]
  | .arr ws, .arr vs => openCell [] (elemToks (vs.drop ws.length)) :: itemsReport q new ws vs ++ [{}]
  | .obj ks, .obj ms => openCell (memberToks (without ms ks)) [] :: membersReport q new ks ms ++ [{}]
  | w, _ => w.cells .noDiff
/-- Items of `ws` are compared with the items of `vs` in the same place. If the type is another one, the first token is marked. -/
def itemsReport (q : Bytes → Bytes → Bool) (new : List JVal → List DiffCell) : List JVal → List JVal → List DiffCell
  | [], _ => []
  | w :: ws, v :: vs =>
    (if v.sameKind w then w.report q new v else ⟨.typeDiff, [], []⟩ :: (w.cells .noDiff).tail) ++ itemsReport q new ws vs
  | w :: ws, [] => new (w :: ws)
/-- Members of `ks` are compared with the member of `ms` of the same name. If there is none, or the type is another one, all
the tokens are marked. -/
def membersReport (q : Bytes → Bytes → Bool) (new : List JVal → List DiffCell) : List (Bytes × JVal) → List (Bytes × JVal) → List DiffCell
  | [], _ => []
  | (n, w) :: ks, ms =>
    (match ms.lookup n with
     | none => w.cells .newMember
     | some v => if v.sameKind w then w.report q new v else w.cells .typeDiff) ++ membersReport q new ks ms
end

/-- What is reported for a document: if the roots have different types, all the tokens are marked. -/
def JVal.rootReport (q : Bytes → Bytes → Bool) (new : List JVal → List DiffCell) (w v : JVal) : List DiffCell :=
  if v.sameKind w then w.report q new v else w.cells .rootItemDiff

/-- New items: all their tokens are marked. -/
def allNew (ws : List JVal) : List DiffCell := itemCells .newArrayItem ws

/-- New items, as the code marks them: if the first one is an array, only its tokens without the last one. -/
def firstNew : List JVal → List DiffCell
  | .arr us :: ws => ((JVal.arr us).cells .newArrayItem).dropLast ++ {} :: itemCells .noDiff ws
  | ws => allNew ws

mutual
/-- Nowhere in `w` an array follows the last item of the array at the same place in `v`. -/
def JVal.noNewArrays : JVal → JVal → Prop
  | .arr ws, .arr vs => itemsNoNewArrays ws vs
  | .obj ks, .obj ms => membersNoNewArrays ks ms
  | _, _ => True
@[inherit_doc JVal.noNewArrays]
def itemsNoNewArrays : List JVal → List JVal → Prop
  | [], _ => True
  | w :: ws, v :: vs => w.noNewArrays v ∧ itemsNoNewArrays ws vs
  | w :: _, [] => ∀ us, w ≠ .arr us
@[inherit_doc JVal.noNewArrays]
def membersNoNewArrays : List (Bytes × JVal) → List (Bytes × JVal) → Prop
  | [], _ => True
  | (n, w) :: ks, ms => (∀ v, ms.lookup n = some v → w.noNewArrays v) ∧ membersNoNewArrays ks ms
end

/-- The tokens listed as missing for the token at position `i`. -/
def missingAt (l : List (Nat × List Tok)) (i : Nat) : List Tok := (l.lookup i).getD []

/-- What has been reported for the token at position `i`. -/
def DRes.cell (s : DRes) (i : Nat) : DiffCell := ⟨s.diffs.getD i .noDiff, missingAt s.missingMembers i, missingAt s.missingArrayItems i⟩

/-- How much a token adds to the number of differences: one if it is marked itself, and one for each token that is missing. -/
def DiffCell.weight (c : DiffCell) : Nat :=
  (if c.mark = .noDiff ∨ c.mark = .missingMembers ∨ c.mark = .missingArrayItems then 0 else 1) + c.members.length + c.items.length

/-- The report of a comparison is given by `cells`, and there is nothing else in it. -/
structure DRes.Is (s : DRes) (cells : List DiffCell) : Prop where
  length : s.diffs.length = cells.length
  cell : ∀ i, s.cell i = cells.getD i {}
  /-- There is one entry for each position, and it is not empty. -/
  members : (s.missingMembers.map Prod.fst).Nodup ∧ ∀ e ∈ s.missingMembers, e.2 ≠ []
  items : (s.missingArrayItems.map Prod.fst).Nodup ∧ ∀ e ∈ s.missingArrayItems, e.2 ≠ []
  count : s.count = (cells.map DiffCell.weight).sum

end JsonStruct
