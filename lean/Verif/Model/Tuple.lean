/-
`JS::Tuple` (JSH 2944-3088), which holds the members of a struct, its super classes and its functions.
-/

namespace JsonStruct

/-- JSH 2954-2960 `Merge`. -/
def mergeSeq (a b : List Nat) : List Nat := a ++ b.map (a.length + ·)

/-- JSH 2962-2979 `GenSequence`. -/
def genSequence : Nat → List Nat
  | 0 => []
  | 1 => [0]
  | n + 2 => mergeSeq (genSequence ((n + 2) / 2)) (genSequence ((n + 2) - (n + 2) / 2))
  decreasing_by all_goals omega

/-- JSH 2981-3011 `TupleImpl`: a base class `Element<index, T>` for every argument. Simplified: the types of the elements are one
type, which may be a sum. Fewer or more indices than arguments do not compile. -/
def tupleImpl (xs : List α) : Option (List (Nat × α)) :=
  if (genSequence xs.length).length = xs.length then some ((genSequence xs.length).zip xs) else none

/-- JSH 3014-3049 `Tuple::get<i>`: the base class with this index. If there is none, or more than one, the call of `deduce` does not
compile. -/
def tupleGet (xs : List α) (i : Nat) : Option α :=
  (tupleImpl xs).bind fun es =>
    match es.filter (fun e => e.1 == i) with
    | [e] => some e.2
    | _ => none

end JsonStruct
