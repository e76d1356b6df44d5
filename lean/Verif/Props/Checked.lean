import Verif.Lemmas.Checked
import Verif.Props.Container

/-
C94: `OptionalChecked<T>` and `NullableChecked<T>` are as good as `std::optional<T>`, in every program.
-/

namespace JsonStruct

/-- **C94**, `OptionalChecked`: a program that constructs, copies, moves, assigns, changes and parses any number of variables, in any
order. If it changes, by way of `x()`, only data of variables that were assigned, `opt()` of each variable is at the end what a
`std::optional` would hold; it is written exactly as that. (Of a default value that was moved from, a default value is left.) -/
theorem C94_optional_checked_partial (h : Handler T) (moved : T → T) (hm : moved h.init = h.init) (ops : List (WOp T))
    (hl : Along (fun r op => op.Legal r) false h moved (fun _ => none) ops) {w : Nat → T × Bool}
    (hw : runOps (optionalCheckedW h.init moved) (optionalCheckedH h) (fun _ => (optionalCheckedW h.init moved).new) ops = some w) :
    ∃ r, meantOps false h moved (fun _ => none) ops = some r ∧
      ∀ i, optOf (w i) = r i ∧ (optionalCheckedH h).from_ (w i) = (stdOptionalH h).from_ (r i) := by
  have key := optional_checked_runs h moved hm ops (fun _ => (optionalCheckedW h.init moved).new) (fun _ => none)
    (fun _ => ⟨rfl, fun _ => rfl⟩) hl
  have hs := key.1
  rw [hw] at hs
  obtain ⟨r, hr⟩ := Option.isSome_iff_exists.mp hs.symm
  exact ⟨r, hr, key.2 w r hw hr⟩

/-- **C94**, `NullableChecked`: likewise, and an empty one is written as `null`; a parsed `null` empties a variable. Here what is read into
an empty variable must not depend on the value it had before. -/
theorem C94_nullable_checked_partial (h : Handler T) (moved : T → T) (ops : List (WOp T))
    (hl : Along (fun r op => op.Legal r ∧ op.Anew h r) true h moved (fun _ => none) ops) {w : Nat → T × Bool}
    (hw : runOps (nullableCheckedW h.init moved) (nullableCheckedH h) (fun _ => (nullableCheckedW h.init moved).new) ops = some w) :
    ∃ r, meantOps true h moved (fun _ => none) ops = some r ∧
      ∀ i, holds (w i) = r i ∧ (nullableCheckedH h).from_ (w i) = (ptrH h).from_ (r i) := by
  have key := nullable_checked_runs h moved ops (fun _ => (nullableCheckedW h.init moved).new) (fun _ => none) (fun _ => rfl) hl
  have hs := key.1
  rw [hw] at hs
  obtain ⟨r, hr⟩ := Option.isSome_iff_exists.mp hs.symm
  exact ⟨r, hr, key.2 w r hw hr⟩

/-! ### Examples -/

/-- The context at the first element of an array. -/
def atElement (text : Bytes) : Ctx := (Ctx.onText {} {} text).next.next

def exProgram : List (WOp (Int × Int)) :=
  [.parse 0 100 (atElement b!"[{\"x\":1,\"y\":2}]"), .copyFrom 1 0, .edit 1 (fun p => (p.1 + 1, p.2)), .moveFrom 2 0, .declare 3,
    .assignCopy 0 3, .parse 2 100 (atElement b!"[{\"x\":9,\"y\":2}]"), .assign 4 (7, 8), .assignMove 3 4, .declareWith 4 (5, 6)]

def first5 (f : T → Option U) (w : Nat → T) : Option U × Option U × Option U × Option U × Option U := (f (w 0), f (w 1), f (w 2), f (w 3), f (w 4))

theorem readOptional_some {h : Handler T} {n : Nat} {x : Option T} {c : Ctx} {y : Option T} (hy : readOptional false h n x c = some y) :
    y.isSome := by
  simp only [readOptional, Bool.false_eq_true, false_and, if_false, Option.map_eq_some_iff] at hy
  obtain ⟨_, _, rfl⟩ := hy; rfl

set_option synthInstance.maxSize 1000 in
/-- The program ends, it changes only what is there, and at the end two of the variables have been emptied and filled again. -/
example : Along (fun r op => op.Legal r) false exPoint.handler id (fun _ => none) exProgram ∧
    (runOps (optionalCheckedW (0, 0) id) (optionalCheckedH exPoint.handler) (fun _ => ((0, 0), false)) exProgram).map (first5 optOf) =
      some (none, some (2, 2), some (9, 2), some (7, 8), some (5, 6)) := by
  refine ⟨?_, by decide +kernel⟩
  refine ⟨trivial, fun r1 h1 => ⟨trivial, fun r2 h2 => ⟨?_, fun _ _ => ⟨trivial, fun _ _ => ⟨trivial, fun _ _ => ⟨trivial, fun _ _ =>
    ⟨trivial, fun _ _ => ⟨trivial, fun _ _ => ⟨trivial, fun _ _ => ⟨trivial, fun _ _ => trivial⟩⟩⟩⟩⟩⟩⟩⟩⟩⟩
  simp only [WOp.meant, Option.map_eq_some_iff] at h1
  obtain ⟨y, hy, rfl⟩ := h1
  obtain rfl := Option.some.inj h2
  exact readOptional_some hy

/-- A value is read, emptied by `null`, and another one is read. -/
def exNulls : List (WOp Int) :=
  [.parse 0 100 (atElement b!"[41]"), .copyFrom 1 0, .parse 0 100 (atElement b!"[null]"), .moveFrom 2 0, .parse 2 100 (atElement b!"[6]"),
    .edit 2 (· * 7), .assignCopy 3 0]

set_option synthInstance.maxSize 1000 in
example : Along (fun r op => op.Legal r ∧ op.Anew (intH i32) r) true (intH i32) id (fun _ => none) exNulls ∧
    (runOps (nullableCheckedW 0 id) (nullableCheckedH (intH i32)) (fun _ => (0, true)) exNulls).map (first5 holds) =
      some (none, some 41, some 42, none, none) := by
  refine ⟨?_, by decide +kernel⟩
  refine ⟨⟨trivial, fun _ _ _ _ => rfl⟩, fun r1 _ => ⟨⟨trivial, trivial⟩, fun r2 _ => ⟨⟨trivial, fun _ _ _ _ => rfl⟩, fun _ _ =>
    ⟨⟨trivial, trivial⟩, fun r4 _ => ⟨⟨trivial, fun _ _ _ _ => rfl⟩, fun r5 h5 => ⟨⟨?_, trivial⟩, fun _ _ => ⟨⟨trivial, trivial⟩,
    fun _ _ => trivial⟩⟩⟩⟩⟩⟩⟩
  have hn : ¬ ((atElement b!"[6]").token.valueType = .null) := by decide +kernel
  simp only [WOp.meant, readOptional, hn, and_false, if_false, Option.map_map, Option.map_eq_some_iff] at h5
  obtain ⟨y, _, rfl⟩ := h5
  rfl

/-! ### What is not so -/

/-- What a program puts into an `OptionalChecked` by way of `x()` is not there for `opt()` and is not written, and a `NullableChecked`
stays `null`; neither is noticed. -/
theorem C94_false_access :
    ((runOps (optionalCheckedW 0 id) (optionalCheckedH (intH i32)) (fun _ => (0, false)) [.edit 0 fun _ => 5]).map fun w =>
      ((w 0).1, optOf (w 0))) = some (5, none) ∧
    ((runOps (nullableCheckedW 0 id) (nullableCheckedH (intH i32)) (fun _ => (0, true)) [.edit 0 fun _ => 5]).map fun w =>
      ((w 0).1, holds (w 0))) = some (5, none) := by
  constructor <;> decide +kernel

def exHidden : List (WOp (Int × Int)) :=
  [.parse 0 100 (atElement b!"[{\"x\":1,\"y\":2}]"), .parse 0 100 (atElement b!"[null]"), .parse 0 100 (atElement b!"[{\"x\":5}]")]

/-- A value that `null` has hidden comes back with the next object that leaves a member out; after a `std::optional` has been emptied
the member has its default value. -/
theorem C94_false_hidden :
    ((runOps (nullableCheckedW (0, 0) id) (nullableCheckedH exPoint.handler) (fun _ => ((0, 0), true)) exHidden).map fun w => holds (w 0)) =
      some (some (5, 2)) ∧
    ((meantOps true exPoint.handler id (fun _ => none) exHidden).map fun r => r 0) = some (some (5, 0)) := by
  constructor <;> decide +kernel

/-- An `OptionalChecked` counts as assigned after a value for it was refused. -/
theorem C94_false_refused :
    ((runOps (optionalCheckedW 0 id) (optionalCheckedH (intH i32)) (fun _ => (0, false)) [.parse 0 100 (atElement b!"[\"no\"]")]).map
      fun w => optOf (w 0)) = some (some 0) ∧
    ((optionalCheckedH (intH i32)).to 100 (0, false) (atElement b!"[\"no\"]")).map (·.1) = some .failedToParseInt := by
  constructor <;> decide +kernel

end JsonStruct
