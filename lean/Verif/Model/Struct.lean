import Verif.Model.Handler

/-
Structs with declared members (JSH 4171-4565, 5704-5786).
-/

namespace JsonStruct

/-- JSH 4174-4185 `MI`, called `MemberInfo`, together with the handler of the member's type: the JSON names (the first is the
primary one), `IsOptionalType` of the type (JSH 3833-3862), and reading and writing the member of an object. -/
structure Member (T : Type) where
  names : List Bytes
  optional : Bool
  to : Nat → T → Ctx → Option (Err × T × Ctx)
  from_ : T → Tok → Ser → Option (Tok × Ser)

/-- JSH 4203-4208 `makeMemberInfo`: A member of type `M` with handler `h`, reached by `get` and `set`. -/
def Member.of (names : List Bytes) (optional : Bool) (h : Handler M) (get : T → M) (set : M → T → T) : Member T where
  names := names
  optional := optional
  to := fun n old c => (h.to n (get old) c).map fun r => (r.1, set r.2.1 old, r.2.2)
  from_ := fun v => h.from_ (get v)

/-- JSH 4118-4152, 4188-4199:
`js_static_meta_data_info` and `js_static_meta_super_info` of a struct: its members in the order of
declaration, and its super classes with their names. The super classes are listed in the order in which they are
visited, from the last one declared to the first. -/
inductive Meta (T : Type)
  | mk (members : List (Member T)) (supers : List (Bytes × Meta T))

/-- JSH 4472-4486, 4530-4538: A member of a super class, seen as a member of the derived class (`static_cast<Super &>`). -/
def Member.up (get : T → S) (set : S → T → T) (m : Member S) : Member T where
  names := m.names
  optional := m.optional
  to := fun n old c => (m.to n (get old) c).map fun r => (r.1, set r.2.1 old, r.2.2)
  from_ := fun v => m.from_ (get v)

mutual
/-- JSH 4472-4486, 4530-4538: The meta data of a super class, seen from the derived class. -/
def Meta.up (get : T → S) (set : S → T → T) : Meta S → Meta T
  | .mk ms ss => .mk (ms.map (Member.up get set)) (supersUp get set ss)
/-- JSH 4472-4486, 4530-4538: the super classes of a super class, seen from the derived class. -/
def supersUp (get : T → S) (set : S → T → T) : List (Bytes × Meta S) → List (Bytes × Meta T)
  | [] => []
  | (n, m) :: ss => (n, m.up get set) :: supersUp get set ss
end

mutual
/-- JSH 4358-4364 `memberCount`. -/
def Meta.count : Meta T → Nat
  | .mk ms ss => ms.length + supersCount ss
/-- JSH 4507-4514, 4551-4556 `membersInSuperClasses`. -/
def supersCount : List (Bytes × Meta T) → Nat
  | [] => 0
  | (_, m) :: ss => m.count + supersCount ss
end

/-- JSH 4226-4229 and 4232-4255: the comparison with the primary name, or with the others. -/
def Member.named (m : Member T) (primary : Bool) (name : Bytes) : Bool :=
  if primary then m.names.head? == some name else m.names.tail.contains name

/-- JSH 4264-4267 `matchedMemberResult`. -/
def matchedMemberResult (e : Err) : Err := if e = .missingPropertyMember then .unknownPropertyMember else e

/-- JSH 4269-4290 `unpackMember`. -/
def unpackMember (m : Member T) (index : Nat) (primary : Bool) (fuel : Nat) (old : T) (c : Ctx) (assigned : List Bool) :
    Option (Err × T × Ctx × List Bool) :=
  if m.named primary c.token.name.bytes then
    (m.to fuel old c).map fun r => (matchedMemberResult r.1, r.2.1, r.2.2, assigned.set index true)
  else some (.missingPropertyMember, old, c, assigned)

/-- JSH 4403-4413, 4437-4447 `MemberChecker::unpackMembers`: the members from the last to the first; the list is
reversed, so the position of its head is the number of those behind it. -/
def unpackRev (page : Nat) (primary : Bool) (fuel : Nat) (old : T) (c : Ctx) (assigned : List Bool) :
    List (Member T) → Option (Err × T × Ctx × List Bool)
  | [] => some (.missingPropertyMember, old, c, assigned)
  | m :: ms => do
    let r ← unpackMember m (page + ms.length) primary fuel old c assigned
    if r.1 ≠ .missingPropertyMember then some r else unpackRev page primary fuel r.2.1 r.2.2.1 r.2.2.2 ms

mutual
/-- JSH 4403-4413, 4437-4447 `MemberChecker::unpackMembers`, members and super classes. -/
def Meta.unpack (page : Nat) (primary : Bool) (fuel : Nat) (old : T) (c : Ctx) (assigned : List Bool) :
    Meta T → Option (Err × T × Ctx × List Bool)
  | .mk ms ss => do
    let r ← unpackRev page primary fuel old c assigned ms.reverse
    if r.1 ≠ .missingPropertyMember then some r
    else unpackSupers (page + ms.length) primary fuel r.2.1 r.2.2.1 r.2.2.2 ss
/-- JSH 4472-4486, 4530-4538 `SuperClassHandler::handleSuperClasses` and 4369-4376. -/
def unpackSupers (page : Nat) (primary : Bool) (fuel : Nat) (old : T) (c : Ctx) (assigned : List Bool) :
    List (Bytes × Meta T) → Option (Err × T × Ctx × List Bool)
  | [] => some (.missingPropertyMember, old, c, assigned)
  | (_, m) :: ss => do
    let r ← m.unpack page primary fuel old c assigned
    if r.1 ≠ .missingPropertyMember then some r
    else unpackSupers (page + m.count) primary fuel r.2.1 r.2.2.1 r.2.2.2 ss
end

/-- JSH 4292-4308 `verifyMember`: the error and what is pushed. -/
def verifyMember (m : Member T) (index : Nat) (assigned : List Bool) (track : Bool) (superName : Bytes) : Err × List Bytes :=
  if assigned.getD index false then (.noError, [])
  else if m.optional then (.noError, [])
  else (.unassignedRequiredMember,
    if track then [(if superName = [] then [] else superName ++ b!"::") ++ m.names.headD []] else [])

/-- JSH 4415-4425, 4488-4505: The first error, and all that is pushed. -/
def verifyBoth (a b : Err × List Bytes) : Err × List Bytes := (if a.1 ≠ .noError then a.1 else b.1, a.2 ++ b.2)

/-- JSH 4415-4425 `MemberChecker::verifyMembers`, the members from the last to the first. -/
def verifyRev (page : Nat) (assigned : List Bool) (track : Bool) (superName : Bytes) : List (Member T) → Err × List Bytes
  | [] => (.noError, [])
  | m :: ms => verifyBoth (verifyMember m (page + ms.length) assigned track superName) (verifyRev page assigned track superName ms)

mutual
/-- JSH 4415-4425, 4449-4461 `MemberChecker::verifyMembers`. -/
def Meta.verify (page : Nat) (assigned : List Bool) (track : Bool) (superName : Bytes) : Meta T → Err × List Bytes
  | .mk ms ss => verifyBoth (verifyRev page assigned track superName ms.reverse) (verifySupers (page + ms.length) assigned track ss)
/-- JSH 4488-4505, 4539-4550 `SuperClassHandler::verifyMembers`. -/
def verifySupers (page : Nat) (assigned : List Bool) (track : Bool) : List (Bytes × Meta T) → Err × List Bytes
  | [] => (.noError, [])
  | (n, m) :: ss => verifyBoth (m.verify page assigned track n) (verifySupers (page + m.count) assigned track ss)
end

/-- JSH 4310-4320 `serializeMember`, and 4426-4431 `MemberChecker::serializeMembers`: first to last. -/
def serializeMembers (v : T) : List (Member T) → Tok → Ser → Option (Tok × Ser)
  | [], k, s => some (k, s)
  | m :: ms, k, s => do
    let (k, s) ← m.from_ v { k with name := m.names.headD [], nameType := .ascii } s
    serializeMembers v ms k s

mutual
/-- JSH 4426-4431, 4463-4469 `MemberChecker::serializeMembers`, members and super classes. -/
def Meta.serialize (v : T) : Meta T → Tok → Ser → Option (Tok × Ser)
  | .mk ms ss, k, s => do
    let (k, s) ← serializeMembers v ms k s
    serializeSupers v ss k s
/-- JSH 4516-4525, 4557-4564 `SuperClassHandler::serializeMembers`. -/
def serializeSupers (v : T) : List (Bytes × Meta T) → Tok → Ser → Option (Tok × Ser)
  | [], k, s => some (k, s)
  | (_, m) :: ss, k, s => do
    let (k, s) ← m.serialize v k s
    serializeSupers v ss k s
end

/-- JSH 5720-5724: the member is looked for by primary name, then by alias. -/
def Meta.find (M : Meta T) (fuel : Nat) (old : T) (c : Ctx) (assigned : List Bool) : Option (Err × T × Ctx × List Bool) := do
  let r ← M.unpack 0 true fuel old c assigned
  if r.1 = .missingPropertyMember then M.unpack 0 false fuel r.2.1 r.2.2.1 r.2.2.2 else some r

/-- JSH 5725-5748: an unknown member is recorded and skipped, or rejected. `some e`: the error returned. -/
def Ctx.unknown (c : Ctx) (fuel : Nat) (name : Bytes) : Option (Option Err × Ctx) :=
  let c := if c.track then { c with missing := c.missing ++ [name] } else c
  if c.allowMissing then do
    let c ← skipArrayOrObject fuel c
    some (if c.error ≠ .noError then some c.error else none, c)
  else some (some .missingPropertyMember, c)

/-- JSH 5716-5752, the loop of the struct handler. The first component is the error returned from inside it. -/
def structLoop (M : Meta T) (fuel : Nat) : Nat → T → Ctx → List Bool → Option (Option Err × T × Ctx × List Bool)
  | 0, _, _, _ => none
  | n + 1, old, c, assigned =>
    if c.token.valueType = .objectEnd then some (none, old, c, assigned)
    else do
      let name := c.token.name.bytes
      let (e, v, c, assigned) ← M.find fuel old c assigned
      let (stop, c) ←
        if e = .missingPropertyMember then c.unknown fuel name
        else some (if e ≠ .noError then some e else none, c)
      match stop with
      | some e => some (some e, v, c, assigned)
      | none =>
        let c := c.next
        if c.error ≠ .noError then some (some c.error, v, c, assigned) else structLoop M fuel n v c assigned

/-- JSH 5704-5766 `TypeHandler<T>::to` for a struct. -/
def structTo (M : Meta T) (fuel : Nat) (old : T) (c : Ctx) : Option (Err × T × Ctx) :=
  if c.token.valueType ≠ .objectStart then some (.expectedObjectStart, old, c)
  else
    -- JSH 5709: the tokenizer is called directly, `context.error` is left as it is
    let r := c.tz.nextToken c.token
    let c := { c with tz := r.2.1, token := r.2.2 }
    if r.1 ≠ .noError then some (r.1, old, c)
    else do
      let (stop, v, c, assigned) ← structLoop M fuel fuel old c (List.replicate M.count false)
      match stop with
      | some e => some (e, v, c)
      | none =>
        let ver := M.verify 0 assigned c.track []
        if ver.1 = .unassignedRequiredMember then
          let c := if c.track then { c with unassigned := c.unassigned ++ ver.2 } else c
          some (if c.allowUnassigned then .noError else ver.1, v, c)
        else some (ver.1, v, c)

/-- JSH 5768-5786 `TypeHandler<T>::from` for a struct. -/
def structFrom (M : Meta T) (v : T) (k : Tok) (s : Ser) : Option (Tok × Ser) := do
  let (k, s) ← putTok { k with value := b!"{", valueType := .objectStart } s
  let (k, s) ← M.serialize v k s
  putTok { k with name := [], nameType := .string, value := b!"}", valueType := .objectEnd } s

/-- `TypeHandler<T>` of a struct (JSH 4216-4221 declaration, 5704-5786). -/
def structH (init : T) (M : Meta T) : Handler T where
  init := init
  to := structTo M
  from_ := structFrom M

end JsonStruct
