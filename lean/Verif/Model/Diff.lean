import Verif.Model.Map
import Verif.Model.Bool

/-
json_struct_diff.h (JSD): comparing two documents.

The comparison of numbers (JSD 438-442, 452-471) is a parameter, `same`, which says whether two number texts are found equal
and is `none` where `std::stod` throws; Model/DiffNumber has it (`diffNumbers`). `MissingTokens::operator==` (JSD 90-93)
compares addresses; the addresses of the tokens of one text differ, so the model compares positions. Assertions are not
modelled. `none` results: a read or write outside of a vector, an exception, or the bound `n` on loops and recursion is
reached.
-/

namespace JsonStruct

/-- JSD 44-55 `enum DiffType`. -/
inductive DiffType
  | noDiff | valueDiff | typeDiff | newMember | newArrayItem | missingMembers | missingArrayItems | rootItemDiff | erroneousRootItem
  deriving DecidableEq, Repr, Inhabited

/-- JSD 57-62 `enum DiffError`. -/
inductive DiffError
  | noError | noTokens | emptyString
  deriving DecidableEq, Repr

/-- JSD 405, 409: the tokens of a document and their metadata. -/
structure DToks where
  tokens : List Tok := []
  metas : List JMeta := []
  deriving DecidableEq, Repr

/-- JSD 406-408, 411: the result of a comparison. -/
structure DRes where
  missingMembers : List (Nat × List Tok) := []
  missingArrayItems : List (Nat × List Tok) := []
  diffs : List DiffType := []
  count : Nat := 0
  deriving DecidableEq, Repr

/-- JSD 80-83 `isComplexValue`. -/
def isComplexValue (k : Tok) : Bool := k.valueType = .objectStart || k.valueType = .arrayStart

/-- JSD 161-179 `skip`. -/
def DToks.skip (d : DToks) (pos : Nat) : Option Nat :=
  match d.tokens[pos]? with
  | none => none
  | some k =>
    if isComplexValue k then
      match d.metas.find? (fun m => m.position = pos) with
      | some m => some (pos + m.size)
      | none => some pos
    else some (pos + 1)

/-- JSD 181-190, 232-245 `childCount`, `getMetaPos`. -/
def DToks.childCount (d : DToks) (pos : Nat) : Nat :=
  match d.metas.find? (fun m => m.position = pos) with
  | some m => m.children
  | none => 0

/-- JSD 193-199 `set`. -/
def DRes.set (s : DRes) (pos : Nat) (t : DiffType) : Option DRes :=
  if pos < s.diffs.length then some { s with diffs := s.diffs.set pos t, count := if t ≠ .noDiff then s.count + 1 else s.count }
  else none

mutual
/-- JSD 201-230 and 522-551 `setStateForEntireToken` (twice in the source). -/
def setEntire : Nat → DToks → Nat → DiffType → DRes → Option DRes
  | 0, _, _, _, _ => none
  | n + 1, d, pos, t, s =>
    match s.set pos t, d.tokens[pos]? with
    | some s, some k => if isComplexValue k then setEntireLoop n d (pos + 1) t s else some s
    | _, _ => none
/-- JSD 210-228, the loop. -/
def setEntireLoop : Nat → DToks → Nat → DiffType → DRes → Option DRes
  | 0, _, _, _, _ => none
  | n + 1, d, pos, t, s =>
    match d.tokens[pos]? with
    | none => none
    | some k =>
      if isComplexValue k then do
        let s ← setEntire n d pos t s
        let pos ← d.skip pos
        setEntireLoop n d pos t s
      else if k.valueType = .objectEnd ∨ k.valueType = .arrayEnd then s.set pos t
      else do
        let s ← s.set pos t
        let pos ← d.skip pos
        setEntireLoop n d pos t s
end

/-- JSD 285-306, 349-370: a token is added to the entry for the container at `pos`. -/
def addEntry (pos : Nat) (k : Tok) : List (Nat × List Tok) → List (Nat × List Tok)
  | [] => [(pos, [k])]
  | e :: es => if e.1 = pos then (e.1, e.2 ++ [k]) :: es else e :: addEntry pos k es

/-- JSD 279-309 `addMissingToken` (`array = false`), 343-373 `addMissingArrayToken` (`array = true`). -/
def DRes.addMissing (s : DRes) (array : Bool) (pos : Nat) (k : Tok) : Option DRes :=
  if array then { s with missingArrayItems := addEntry pos k s.missingArrayItems }.set pos .missingArrayItems
  else { s with missingMembers := addEntry pos k s.missingMembers }.set pos .missingMembers

mutual
/-- JSD 247-277 `addMissingMembers`, 311-341 `addMissingArrayItems`; the tokens of the value of the base at `basePos`. -/
def addMissingAll : Nat → Bool → Nat → DToks → Nat → DRes → Option DRes
  | 0, _, _, _, _, _ => none
  | n + 1, array, pos, base, basePos, s =>
    match base.tokens[basePos]? with
    | none => none
    | some k => do
      let s ← s.addMissing array pos k
      if isComplexValue k then addMissingLoop n array pos base (basePos + 1) s else some s
/-- JSD 257-275, 321-339, the loop. -/
def addMissingLoop : Nat → Bool → Nat → DToks → Nat → DRes → Option DRes
  | 0, _, _, _, _, _ => none
  | n + 1, array, pos, base, bPos, s =>
    match base.tokens[bPos]? with
    | none => none
    | some k =>
      if isComplexValue k then do
        let s ← addMissingAll n array pos base bPos s
        let bPos ← base.skip bPos
        addMissingLoop n array pos base bPos s
      else if k.valueType = .objectEnd ∨ k.valueType = .arrayEnd then s.addMissing array pos k
      else do
        let s ← s.addMissing array pos k
        let bPos ← base.skip bPos
        addMissingLoop n array pos base bPos s
end

/-- JSD 425, 435:
`strncmp(a, b, n) == 0` for two arrays with at least `n` bytes: the comparison ends at a NUL byte in both. -/
def strncmpEq : Bytes → Bytes → Bool
  | a :: as, b :: bs => if a = b then (if a = 0 then true else strncmpEq as bs) else false
  | _, _ => true

/-- JSD 433-436 `stringValuesEqual`. -/
def stringsEqual (a b : Bytes) : Bool := a.length = b.length && strncmpEq a b

/-- JSD 421-426 `isSameMember`. -/
def isSameMember (a b : Tok) : Bool := a.nameType = b.nameType && stringsEqual a.name b.name

/-- JSD 444-450, 473-499 and 452-471: two tokens of the same type are compared; the state to be set. -/
def diffScalar (same : Bytes → Bytes → Option Bool) (a b : Tok) : Option DiffType :=
  match a.valueType with
  | .string => some (if stringsEqual a.value b.value then .noDiff else .valueDiff)
  | .number => (same a.value b.value).map fun e => if e then .noDiff else .valueDiff
  | .bool => some (if (boolTo false a.value).2 ^^ (boolTo false b.value).2 then .valueDiff else .noDiff)
  | _ => some .noDiff

/-- JSD 501-700, the value types:
The token has a type `diffObjectMember` and `diffArrays` compare directly: String, Number, Bool, Null. -/
def Tok.isPlain (k : Tok) : Bool := k.valueType = .string || k.valueType = .number || k.valueType = .bool || k.valueType = .null

/-- JSD 576-599, 612-630: the inner loop that looks for a member of the diff with the name of `k`: its position, or `none` at the
closing bracket. -/
def findMember : Nat → DToks → Nat → Tok → Option (Option Nat)
  | 0, _, _, _ => none
  | n + 1, d, pos, k =>
    match d.tokens[pos]? with
    | none => none
    | some t =>
      if t.valueType = .objectEnd then some none
      else if isSameMember k t then some (some pos)
      else do
        let pos ← d.skip pos
        findMember n d pos k

mutual
/-- JSD 501-520 `diffObjectMember` and 654-680, the cases of `diffArrays`: two tokens of the same type. -/
def diffTokens (same : Bytes → Bytes → Option Bool) : Nat → DToks → Nat → DToks → Nat → DRes → Option DRes
  | 0, _, _, _, _, _ => none
  | n + 1, base, bPos, diff, dPos, s =>
    match base.tokens[bPos]?, diff.tokens[dPos]? with
    | some b, some k =>
      if b.valueType = .objectStart then diffObjects same n base bPos diff dPos s
      else if b.valueType = .arrayStart then diffArrays same n base bPos diff dPos s
      else if b.isPlain then (diffScalar same b k).bind (s.set dPos)
      else some s
    | _, _ => none
/-- JSD 553-632 `diffObjects`. -/
def diffObjects (same : Bytes → Bytes → Option Bool) : Nat → DToks → Nat → DToks → Nat → DRes → Option DRes
  | 0, _, _, _, _, _ => none
  | n + 1, base, basePos, diff, diffPos, s =>
    if base.childCount basePos = 0 ∧ diff.childCount diffPos = 0 then some s
    else do
      let s ← diffMembers same n base (basePos + 1) diff diffPos s
      newMembers n base basePos diff (diffPos + 1) s
/-- JSD 569-600, the first loop: every member of the base. -/
def diffMembers (same : Bytes → Bytes → Option Bool) : Nat → DToks → Nat → DToks → Nat → DRes → Option DRes
  | 0, _, _, _, _, _ => none
  | n + 1, base, bPos, diff, diffPos, s =>
    match base.tokens[bPos]? with
    | none => none
    | some b =>
      if b.valueType = .objectEnd then some s
      else do
        let s ←
          match ← findMember n diff (diffPos + 1) b with
          | none => addMissingAll n false diffPos base bPos s
          | some dPos =>
            match diff.tokens[dPos]? with
            | none => none
            | some k =>
              if b.valueType = k.valueType then diffTokens same n base bPos diff dPos s
              else setEntire n diff dPos .typeDiff s
        let bPos ← base.skip bPos
        diffMembers same n base bPos diff diffPos s
/-- JSD 605-631, the second loop: members of the diff that are not in the base. -/
def newMembers : Nat → DToks → Nat → DToks → Nat → DRes → Option DRes
  | 0, _, _, _, _, _ => none
  | n + 1, base, basePos, diff, dPos, s =>
    match diff.tokens[dPos]? with
    | none => none
    | some k =>
      if k.valueType = .objectEnd then some s
      else do
        let s ←
          match ← findMember n base (basePos + 1) k with
          | none => setEntire n diff dPos .newMember s
          | some _ => some s
        let dPos ← diff.skip dPos
        newMembers n base basePos diff dPos s
/-- JSD 634-723 `diffArrays`. -/
def diffArrays (same : Bytes → Bytes → Option Bool) : Nat → DToks → Nat → DToks → Nat → DRes → Option DRes
  | 0, _, _, _, _, _ => none
  | n + 1, base, basePos, diff, diffPos, s =>
    if base.childCount basePos = 0 ∧ diff.childCount diffPos = 0 then some s
    else diffItems same n base (basePos + 1) diff diffPos (diffPos + 1) s
/-- JSD 648-722, the loop. -/
def diffItems (same : Bytes → Bytes → Option Bool) : Nat → DToks → Nat → DToks → Nat → Nat → DRes → Option DRes
  | 0, _, _, _, _, _, _ => none
  | n + 1, base, bPos, diff, diffPos, dPos, s =>
    match base.tokens[bPos]?, diff.tokens[dPos]? with
    | some b, some k =>
      if b.valueType = k.valueType then
        if b.valueType = .arrayEnd then some s
        else do
          let s ← diffTokens same n base bPos diff dPos s
          let bPos ← base.skip bPos
          let dPos ← diff.skip dPos
          diffItems same n base bPos diff diffPos dPos s
      else if b.valueType = .arrayEnd then newItems n diff dPos 0 s
      else if k.valueType = .arrayEnd then missingItems n base bPos diffPos s
      else do
        let s ← s.set dPos .typeDiff
        let bPos ← base.skip bPos
        let dPos ← diff.skip dPos
        diffItems same n base bPos diff diffPos dPos s
    | _, _ => none
/-- JSD 690-699: new items; `open_` is `arrayEndCount`, the loop ends when it would become negative. -/
def newItems : Nat → DToks → Nat → Nat → DRes → Option DRes
  | 0, _, _, _, _ => none
  | n + 1, diff, dPos, open_, s => do
    let s ← s.set dPos .newArrayItem
    match diff.tokens[dPos + 1]? with
    | none => none
    | some k =>
      if k.valueType = .arrayStart then newItems n diff (dPos + 1) (open_ + 1) s
      else if k.valueType = .arrayEnd then
        match open_ with
        | 0 => some s
        | m + 1 => newItems n diff (dPos + 1) m s
      else newItems n diff (dPos + 1) open_ s
/-- JSD 705-712: missing items. -/
def missingItems : Nat → DToks → Nat → Nat → DRes → Option DRes
  | 0, _, _, _, _ => none
  | n + 1, base, bPos, diffPos, s =>
    match base.tokens[bPos]? with
    | none => none
    | some b =>
      if b.valueType = .arrayEnd then some s
      else do
        let s ← addMissingAll n true diffPos base bPos s
        let bPos ← base.skip bPos
        missingItems n base bPos diffPos s
end

/-- JSD 726-769 `Internal::Diff::diff`. -/
def diffDocs (same : Bytes → Bytes → Option Bool) (n : Nat) (base diff : DToks) (s : DRes) : Option DRes :=
  match base.tokens, diff.tokens with
  | [], [] => some s
  | [], k :: _ =>
    setEntire n diff 0 (if k.valueType = .objectStart then .newMember else if k.valueType = .arrayStart then .newArrayItem else .erroneousRootItem) s
  | b :: _, [] =>
    if b.valueType = .objectStart then addMissingAll n false 0 base 0 s
    else if b.valueType = .arrayStart then addMissingAll n true 0 base 0 s
    else setEntire n diff 0 .erroneousRootItem s
  | b :: _, k :: _ =>
    let s := { s with count := 0 }
    if b.valueType = k.valueType then
      if b.valueType = .objectStart then diffObjects same n base 0 diff 0 s
      else if b.valueType = .arrayStart then diffArrays same n base 0 diff 0 s
      else setEntire n diff 0 .erroneousRootItem s
    else setEntire n diff 0 .rootItemDiff s

/-- JSD 98-116, 405-412 `DiffTokens`. -/
structure DiffDoc where
  doc : DToks := {}
  res : DRes := {}
  error : DiffError := .noError
  deriving DecidableEq, Repr

/-- JSD 109-116, 127-159 `reset`, `clear` and `generateTokens` of a new `DiffTokens`: the error of the tokenizer is not
reported. `none` if `metaForTokens` has undefined behaviour. -/
def DiffDoc.ofText (t : Bytes) : Option DiffDoc := do
  let ks := if t = [] then [] else (tokenize {} t).1
  let metas ← metaForTokens ks
  some { doc := ⟨ks, metas⟩, res := { diffs := List.replicate ks.length .noDiff },
         error := if t = [] then .emptyString else if ks = [] then .noTokens else .noError }

/-- JSD 118-125 `DiffTokens::invalidate`: the missing array items stay. -/
def DiffDoc.invalidate (d : DiffDoc) : DiffDoc :=
  { d with res := { d.res with missingMembers := [], diffs := List.replicate d.doc.tokens.length .noDiff, count := 0 }, error := .noError }

/-- JSD 773-880 `DiffContext`; the options are `same`. -/
structure DiffCtx where
  base : DiffDoc := {}
  diffs : List DiffDoc := []
  error : DiffError := .noError
  same : Bytes → Bytes → Option Bool

/-- JSD 780-785, the constructor with a text. -/
def DiffCtx.new (same : Bytes → Bytes → Option Bool) (t : Bytes) : Option DiffCtx := do
  let base ← DiffDoc.ofText t
  some { base, error := base.error, same }

/-- JSD 871-874 `diff(DiffTokens&)`. -/
def DiffCtx.diffDoc (c : DiffCtx) (n : Nat) (d : DiffDoc) : Option DiffDoc := do
  let res ← diffDocs c.same n c.base.doc d.doc d.res
  some { d with res }

/-- JSD 849-858 `diff(const char*, size_t)`; the index, or `none` for `size_t(-1)`. -/
def DiffCtx.diff (c : DiffCtx) (n : Nat) (t : Bytes) : Option (Option Nat × DiffCtx) := do
  let d ← DiffDoc.ofText t
  if d.error ≠ .noError then some (none, { c with error := d.error })
  else do
    let d ← c.diffDoc n d
    some (some c.diffs.length, { c with error := .noError, diffs := c.diffs ++ [d] })

/-- JSD 860-863 `diff(const std::string&)`. -/
def DiffCtx.diffString (c : DiffCtx) (n : Nat) (t : Bytes) : Option (Option Nat × DiffCtx) := c.diff n t

/-- JSD 865-869 `diff(const char (&json)[SIZE])`: for a literal `SIZE` counts the NUL byte at its end. -/
def DiffCtx.diffLiteral (c : DiffCtx) (n : Nat) (t : Bytes) : Option (Option Nat × DiffCtx) := c.diff n (t ++ [0])

/-- JSD 837-841, the loop of `invalidate`. -/
def DiffCtx.rediff (c : DiffCtx) (n : Nat) : List DiffDoc → Option (List DiffDoc)
  | [] => some []
  | d :: ds => do
    let d ← c.diffDoc n d.invalidate
    let ds ← c.rediff n ds
    some (d :: ds)

/-- JSD 833-842 `invalidate(options)`. -/
def DiffCtx.invalidate (c : DiffCtx) (n : Nat) (same : Bytes → Bytes → Option Bool) : Option DiffCtx := do
  let c := { c with base := c.base.invalidate, same }
  let diffs ← c.rediff n c.diffs
  some { c with diffs }

/-- JSD 824-831 `changeBase`. -/
def DiffCtx.changeBase (c : DiffCtx) (n : Nat) (pos : Nat) : Option DiffCtx :=
  match c.diffs[pos]? with
  | none => none
  | some tmp => { c with diffs := c.diffs.set pos c.base, base := tmp }.invalidate n c.same

/-- JSD 375-379 `DiffTokens::size`, with its assertion: `none` if it fails. -/
def DiffDoc.size (d : DiffDoc) : Option Nat := if d.doc.tokens.length = d.res.diffs.length then some d.doc.tokens.length else none

/-- JSD 85-94, 381-393 `getMissingTokens`: the first entry for a token, `none` for `nullptr`. Simplified: a token is known by
its position; the code compares the addresses of its name and of its value, and no two tokens of a text have the same. -/
def getMissingTokens (pos : Nat) (missing : List (Nat × List Tok)) : Option (List Tok) :=
  (missing.find? fun m => m.1 = pos).map (·.2)

/-- JSD 395-398 `getMissingMembers`. -/
def DiffDoc.getMissingMembers (d : DiffDoc) (pos : Nat) : Option (List Tok) := getMissingTokens pos d.res.missingMembers

/-- JSD 400-403 `getMissingArrayItems`. -/
def DiffDoc.getMissingArrayItems (d : DiffDoc) (pos : Nat) : Option (List Tok) := getMissingTokens pos d.res.missingArrayItems

end JsonStruct
