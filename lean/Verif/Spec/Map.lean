import Verif.Spec.Meta
import Verif.Spec.Types
import Verif.Spec.Encode
import Verif.Spec.Parsing
import Verif.Props.Serializer

/-
What a user can see of a `JS::Map`, and what setting members should do to an object.
-/

namespace JsonStruct

/-- The token an iterator shows at a member: name and value, or name and opening bracket. -/
def headTok (n : Bytes) (v : JVal) : Tok := (v.toks n .string).headD {}

/-- The token of the bracket closing an object. -/
def closeObject : Tok := ⟨[], .ascii, b!"}", .objectEnd⟩

/-- `castToType(name, context, to)` ends, whatever bound is put on its loops as long as it is large enough; it returns
`r.err`, leaves `r.val` in the variable, and adds `r.missing` and `r.unassigned` to the reports of the context. -/
def JMap.Casts (m : JMap) (h : Handler T) (name : Bytes) (c : Ctx) (old : T) (r : Res T) : Prop :=
  ∃ N c', (∀ n, N ≤ n → m.castTo h n name c old = some (r.err, r.val, c')) ∧ c'.missing = c.missing ++ r.missing ∧
    c'.unassigned = c.unassigned ++ r.unassigned

/-- What the map shows is the object with the members `ms`, except that iteration also visits the closing bracket and
that nothing is said about looking for the empty name. -/
structure JMap.Shows (m : JMap) (ms : List (Bytes × JVal)) : Prop where
  /-- `for (auto it = m.begin(); it != m.end(); ++it)` sees the direct members in order. -/
  visit : ∀ n, ms.length + 2 ≤ n → ∃ bracket, m.visit n m.begin = some (ms.map (fun e => headTok e.1 e.2) ++ [bracket]) ∧
    bracket.name = [] ∧ bracket.valueType = .objectEnd
  /-- `find` gives the first direct member of that name: the tokens from there on begin with those of its value. -/
  find_first : ∀ pre name v post, ms = pre ++ (name, v) :: post → name ∉ pre.map Prod.fst →
    ∃ it, m.find name = some it ∧ it.index ≠ m.endIndex ∧ it.index = 1 + (memberToks pre).length ∧
      (m.tokens.drop it.index).take v.docToks.length = v.toks name .string
  /-- `find` gives `end()` if there is none. -/
  find_none : ∀ name, name ∉ ms.map Prod.fst → name ≠ [] → ∃ it, m.find name = some it ∧ it.index = m.endIndex
  /-- `castToType` reads the value of that member into a variable of any type. -/
  cast : ∀ (T : Type) (t : CType T) pre name v post, ms = pre ++ (name, v) :: post → name ∉ pre.map Prod.fst →
    ∀ (c : Ctx) (old : T) (r : Res T), c.tz.scopes = [] → t.dec ⟨c.allowMissing, c.allowUnassigned, c.track⟩ old (.val (name, .string) v) = some r →
      m.Casts t.handler name c old r
  /-- `castToType` reports `KeyNotFound` and leaves the variable alone if there is none. -/
  cast_none : ∀ (T : Type) (t : CType T) name, name ∉ ms.map Prod.fst → name ≠ [] → ∀ (c : Ctx) (old : T),
    m.Casts t.handler name c old ⟨.keyNotFound, old, [], []⟩
  /-- The metadata is what `metaForTokens` computes (see C25), except that `has_data` of the map itself may be out of
  date. -/
  metas : ∃ b, m.metas = ((JVal.obj ms).containers.map metaOf).modifyHead fun e => { e with hasData := b }
  /-- The whole map is written as the object. -/
  written : (JVal.obj ms).WF rfcBytes → (JVal.obj ms).Named → (JVal.obj ms).depth ≤ 255 → ∀ pretty shift,
    ∃ text, serializeStruct jmapH m (userOpts pretty shift 0) = some text ∧ Doc rfcBytes (.obj ms) text

/-- The members without the first one of this name. -/
def removeMember (name : Bytes) : List (Bytes × JVal) → List (Bytes × JVal)
  | [] => []
  | (n, v) :: ms => if n = name then ms else (n, v) :: removeMember name ms

/-- A member is set: the old one is removed, the new one is the last. -/
def setMember (name : Bytes) (v : JVal) (ms : List (Bytes × JVal)) : List (Bytes × JVal) := removeMember name ms ++ [(name, v)]

/-- Setting this member is not affected by the defect shown in `C27_false_scalar_replaced`: it is new, or the old value
is an array or object, or no array or object follows it. -/
def Replaceable (name : Bytes) (ms : List (Bytes × JVal)) : Prop :=
  ∀ pre v post, ms = pre ++ (name, v) :: post → name ∉ pre.map Prod.fst → v.isContainer = true ∨ ∀ e ∈ post, e.2.isContainer = false

/-- A call of `setValue(name, context, x)` with a value of type `t` written as `j`. -/
structure SetOp where
  {T : Type}
  t : CType T
  name : Bytes
  x : T
  j : JVal

/-- The name can be written as it is; the value is represented exactly, and not too deep. -/
def SetOp.Ok (a : SetOp) : Prop :=
  a.t.Lawful ∧ a.t.Valid a.x ∧ a.t.enc a.x = some a.j ∧ a.name ≠ [] ∧ Quotable a.name ∧ a.j.depth < 255

/-- A history of calls, the loops in each of them bounded by `n`. -/
def JMap.setAll (n : Nat) : List SetOp → JMap → Option JMap
  | [], m => some m
  | a :: as, m => (m.setValue a.t.handler n a.name a.x).bind (JMap.setAll n as)

/-- What the history should make of an object. -/
def setMembers : List SetOp → List (Bytes × JVal) → List (Bytes × JVal)
  | [], ms => ms
  | a :: as, ms => setMembers as (setMember a.name a.j ms)

/-- No call of the history is affected by the defect. -/
def Safe : List SetOp → List (Bytes × JVal) → Prop
  | [], _ => True
  | a :: as, ms => a.Ok ∧ Replaceable a.name ms ∧ Safe as (setMember a.name a.j ms)

end JsonStruct
