import Verif.Model.Map

/-
`Internal::findFirstChildWithData` (JSH 3813-3831), and `Map::castToType` of a map as a whole (JSH 9880-9886).
-/

namespace JsonStruct

/-- JSH 3821-3829 `Internal::findFirstChildWithData`, the loop: `count` children left, the next of them the `i`-th of all, `skip`
entries passed. `none` if an index is out of range, `some none` is `size_t(-1)`. -/
def findDataLoop (metas : List JMeta) (start : Nat) : Nat → Nat → Nat → Option (Option Nat)
  | 0, _, _ => some none
  | count + 1, i, skip => do
    let child ← metas[start + skip + 1]?
    if child.hasData then some (some i) else findDataLoop metas start count (i + 1) (skip + child.skip)

/-- JSH 3815-3830 `Internal::findFirstChildWithData`. -/
def findFirstChildWithData (metas : List JMeta) (start : Nat) : Option (Option Nat) := do
  let x ← metas[start]?
  if x.hasData then findDataLoop metas start x.complexChildren 0 0 else some none

/-- JSH 9880-9886 `castToType(parseContext, to)`: the error and the value. -/
def JMap.castAll (m : JMap) (h : Handler T) (fuel : Nat) (c : Ctx) (old : T) : Option (Err × T × Ctx) :=
  h.to fuel old ({ c with tz := c.tz.resetTokens (m.tokens.map fun (k : Tok) => ⟨⟨.lit, k.name⟩, ⟨.lit, k.value⟩, k.nameType, k.valueType⟩) 0 }).next

end JsonStruct
