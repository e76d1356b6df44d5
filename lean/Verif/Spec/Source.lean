import Verif.Spec.Types
import Verif.Model.RawType

/-
Specification for C91: JSON values that remember their text, and what reading one of them into a type with raw captures amounts to.

The decoders are those of Spec/Decode and Spec/Types, over values that remember their text; raw captures (`rawADec`, `rawRefADec`) are the ones that make use of it.
-/

namespace JsonStruct

/-- Where an array or object comes from: its text, from the opening to the closing bracket, and what stands behind it in the document. -/
structure Src where
  text : Bytes
  after : Bytes
  deriving DecidableEq, Repr

/-- A JSON value whose arrays and objects remember their text. -/
inductive AVal
  | null
  | bool (b : Bool)
  | num (txt : Bytes)
  | str (raw : Bytes)
  | arr (s : Src) (vs : List AVal)
  | obj (s : Src) (ms : List (Bytes × AVal))

mutual
/-- The value itself. -/
def AVal.plain : AVal → JVal
  | .null => .null
  | .bool b => .bool b
  | .num t => .num t
  | .str r => .str r
  | .arr _ vs => .arr (plainElems vs)
  | .obj _ ms => .obj (plainMembers ms)
def plainElems : List AVal → List JVal
  | [] => []
  | v :: vs => v.plain :: plainElems vs
def plainMembers : List (Bytes × AVal) → List (Bytes × JVal)
  | [] => []
  | (n, v) :: ms => (n, v.plain) :: plainMembers ms
end

mutual
/-- `Laid d a t r`: as `Text` (Spec/Json), the bytes `t` are a text of `a`; and if `r` follows in the document, then all that the arrays and objects of `a` remember is right. -/
inductive Laid (d : Dialect) : AVal → Bytes → Bytes → Prop
  | null {r} : Laid d .null b!"null" r
  | tru {r} : Laid d (.bool true) b!"true" r
  | fls {r} : Laid d (.bool false) b!"false" r
  | num {n r} : d.num n → Laid d (.num n) n r
  | str {s r} : d.str s → Laid d (.str s) (0x22 :: (s ++ b!"\"")) r
  | arrEmpty {w r} : d.gap w → Laid d (.arr ⟨b!"[" ++ w ++ b!"]", r⟩ []) (b!"[" ++ w ++ b!"]") r
  | arr {vs t r} : LaidElems d vs t (b!"]" ++ r) → Laid d (.arr ⟨b!"[" ++ t ++ b!"]", r⟩ vs) (b!"[" ++ t ++ b!"]") r
  | objEmpty {w r} : d.gap w → Laid d (.obj ⟨b!"{" ++ w ++ b!"}", r⟩ []) (b!"{" ++ w ++ b!"}") r
  | obj {ms t r} : LaidMembers d ms t (b!"}" ++ r) → Laid d (.obj ⟨b!"{" ++ t ++ b!"}", r⟩ ms) (b!"{" ++ t ++ b!"}") r

/-- As `TextElems`. -/
inductive LaidElems (d : Dialect) : List AVal → Bytes → Bytes → Prop
  | one {v t w w' r} : d.gap w → Laid d v t (w' ++ r) → d.after v.plain w' → LaidElems d [v] (w ++ t ++ w') r
  | cons {v t w w' vs ts r} : d.gap w → Laid d v t (w' ++ b!"," ++ ts ++ r) → d.after v.plain w' → LaidElems d vs ts r →
      LaidElems d (v :: vs) (w ++ t ++ w' ++ b!"," ++ ts) r
  | trail {v t w w' w'' r} : d.trailArr v.plain → d.gap w → Laid d v t (w' ++ b!"," ++ w'' ++ r) → d.after v.plain w' → d.gap w'' →
      LaidElems d [v] (w ++ t ++ w' ++ b!"," ++ w'') r

/-- As `TextMembers`. -/
inductive LaidMembers (d : Dialect) : List (Bytes × AVal) → Bytes → Bytes → Prop
  | one {n v t w1 w2 w3 w4 r} : d.gap w1 → d.str n → d.gap w2 → d.gap w3 → Laid d v t (w4 ++ r) → d.after v.plain w4 →
      LaidMembers d [(n, v)] (w1 ++ b!"\"" ++ n ++ b!"\"" ++ w2 ++ b!":" ++ w3 ++ t ++ w4) r
  | cons {n v t w1 w2 w3 w4 ms ts r} : d.gap w1 → d.str n → d.gap w2 → d.gap w3 → Laid d v t (w4 ++ b!"," ++ ts ++ r) → d.after v.plain w4 →
      LaidMembers d ms ts r →
      LaidMembers d ((n, v) :: ms) (w1 ++ b!"\"" ++ n ++ b!"\"" ++ w2 ++ b!":" ++ w3 ++ t ++ w4 ++ b!"," ++ ts) r
  | trail {n v t w1 w2 w3 w4 w5 r} : d.trailObj → d.gap w1 → d.str n → d.gap w2 → d.gap w3 → Laid d v t (w4 ++ b!"," ++ w5 ++ r) →
      d.after v.plain w4 → d.gap w5 →
      LaidMembers d [(n, v)] (w1 ++ b!"\"" ++ n ++ b!"\"" ++ w2 ++ b!":" ++ w3 ++ t ++ w4 ++ b!"," ++ w5) r
end

/-- `LaidDoc d a t`: the text `t`, gaps around it included, is a document with root `a`, which remembers it. -/
def LaidDoc (d : Dialect) (a : AVal) (t : Bytes) : Prop := ∃ w b w', d.gap w ∧ Laid d a b w' ∧ d.after a.plain w' ∧ t = w ++ b ++ w'

/-- Where a value comes from, if it is an array or object. -/
def AVal.src : AVal → Option Src
  | .arr s _ => some s
  | .obj s _ => some s
  | _ => none

/-- `b.In a`: the value `b` is `a`, or stands somewhere within it. -/
inductive AVal.In (b : AVal) : AVal → Prop
  | self : AVal.In b b
  | elem {s vs v} : v ∈ vs → AVal.In b v → AVal.In b (.arr s vs)
  | member {s ms n v} : (n, v) ∈ ms → AVal.In b v → AVal.In b (.obj s ms)

/-! ### Decoders -/

/-- As `Item`. -/
inductive AItem
  | val (l : Lbl) (v : AVal)
  | close

def AItem.plain : AItem → Item
  | .val l v => .val l v.plain
  | .close => .close

abbrev ADec (T : Type) := POpts → T → AItem → Option (Res T)

/-- Types without raw captures: the text does not matter. -/
def plainADec (d : Dec T) : ADec T := fun o old i => d o old i.plain

/-- `JsonArray` takes arrays, `JsonObject` objects, `JsonObjectOrArray` both: the text of the value is appended to the variable. -/
def rawADec (k : RawKind) : ADec Bytes := fun _ old i =>
  match i with
  | .val _ (.arr s _) => some (if k = .object then ⟨.expectedObjectStart, old, [], []⟩ else ⟨.noError, old ++ s.text, [], []⟩)
  | .val _ (.obj s _) => some (if k = .array then ⟨.expectedArrayStart, old, [], []⟩ else ⟨.noError, old ++ s.text, [], []⟩)
  | _ => some ⟨if k = .array then .expectedArrayStart else .expectedObjectStart, old, [], []⟩

/-- The `Ref` forms: the text of the value replaces what was there. -/
def rawRefADec (k : RawKind) : ADec Bytes := fun _ old i =>
  match i with
  | .val _ (.arr s _) => some (if k = .object then ⟨.expectedObjectStart, old, [], []⟩ else ⟨.noError, s.text, [], []⟩)
  | .val _ (.obj s _) => some (if k = .array then ⟨.expectedArrayStart, old, [], []⟩ else ⟨.noError, s.text, [], []⟩)
  | _ => some ⟨if k = .array then .expectedArrayStart else .expectedObjectStart, old, [], []⟩

def nullableADec (d : ADec T) : ADec T := fun o old i =>
  match i with
  | .val _ .null => some ⟨.noError, old, [], []⟩
  | i => d o old i

def nullableCheckedADec (d : ADec T) : ADec (T × Bool) := fun o old i =>
  match i with
  | .val _ .null => some ⟨.noError, (old.1, true), [], []⟩
  | i => (d o old.1 i).map (Res.map (·, false))

def optionalCheckedADec (d : ADec T) : ADec (T × Bool) := fun o old i => (d o old.1 i).map (Res.map (·, true))

def stdOptionalADec (init : T) (d : ADec T) : ADec (Option T) := fun o _ i => (d o init i).map (Res.map some)

def ptrADec (init : T) (d : ADec T) : ADec (Option T) := fun o old i =>
  match i with
  | .val _ .null => some ⟨.noError, none, [], []⟩
  | i => (d o (old.getD init) i).map (Res.map some)

/-- The label of an array element. -/
def aelem (v : AVal) : AItem := .val ([], .ascii) v

def elemsADec (init : T) (d : ADec T) (o : POpts) : List T → List AVal → Option (Res (List T))
  | acc, [] => some ⟨.noError, acc, [], []⟩
  | acc, v :: vs => do
    let r ← d o init (aelem v)
    r.andThen (fun x => acc ++ [x]) fun x => elemsADec init d o (acc ++ [x]) vs

def arrayADec (f : POpts → T → List AVal → Option (Res T)) : ADec T := fun o old i =>
  match i with
  | .val _ (.arr _ vs) => f o old vs
  | _ => some ⟨.expectedArrayStart, old, [], []⟩

def vecADec (init : T) (d : ADec T) : ADec (List T) := arrayADec fun o _ vs => elemsADec init d o [] vs

def oneOrManyADec (init : T) (d : ADec T) : ADec (List T) := fun o old i =>
  match i with
  | .val _ (.arr _ vs) => elemsADec init d o [] vs
  | i => (d o init i).map (Res.map fun x => old ++ [x])

def fixedADec (d : ADec T) (o : POpts) : List T → List AVal → Option (Res (List T))
  | [], [] => some ⟨.noError, [], [], []⟩
  | [], _ :: _ => some ⟨.expectedArrayEnd, [], [], []⟩
  | x :: xs, [] => ((d o x .close).bind Res.failed).map (Res.map (· :: xs))
  | x :: xs, v :: vs => do
    let r ← d o x (aelem v)
    r.andThen (· :: xs) fun x => (fixedADec d o xs vs).map (Res.map (x :: ·))

def arrADec (d : ADec T) : ADec (List T) := arrayADec fun o old vs => fixedADec d o old vs

def avcFixedADec (d : ADec T) (o : POpts) (size : Nat) : Nat → List T → List AVal → Option (Res (List T × Nat))
  | _, [], [] => some ⟨.noError, ([], size), [], []⟩
  | _, [], _ :: _ => some ⟨.expectedArrayEnd, ([], size), [], []⟩
  | i, x :: xs, [] => some ⟨.noError, (x :: xs, i), [], []⟩
  | i, x :: xs, v :: vs => do
    let r ← d o x (aelem v)
    r.andThen (fun x => (x :: xs, size)) fun x => (avcFixedADec d o size (i + 1) xs vs).map (Res.map fun p => (x :: p.1, p.2))

def avcADec (d : ADec T) : ADec (List T × Nat) := arrayADec fun o old vs => avcFixedADec d o old.2 0 old.1 vs

abbrev TupADec (Ts : Type) := POpts → Ts → List AVal → Option (Res Ts)

def tupNilADec : TupADec Unit := fun _ _ vs =>
  some ⟨if vs.isEmpty then .noError else .expectedArrayEnd, (), [], []⟩

def tupConsADec (d : ADec T) (t : TupADec Ts) : TupADec (T × Ts) := fun o old vs =>
  match vs with
  | [] => ((d o old.1 .close).bind Res.failed).map (Res.map (·, old.2))
  | v :: vs => do
    let r ← d o old.1 (aelem v)
    r.andThen (·, old.2) fun x => (t o old.2 vs).map (Res.map (x, ·))

def tupleADec (t : TupADec Ts) : ADec Ts := arrayADec t

def setElemsADec [DecidableEq T] (ins : List T → T → List T) (init : T) (d : ADec T) (o : POpts) : List T → List AVal → Option (Res (List T))
  | acc, [] => some ⟨.noError, acc, [], []⟩
  | acc, v :: vs => do
    let r ← d o init (aelem v)
    r.andThen (fun _ => acc) fun x =>
      if x ∈ acc then some ⟨.duplicateInSet, acc, [], []⟩ else setElemsADec ins init d o (ins acc x) vs

def setADec [DecidableEq T] (ins : List T → T → List T) (init : T) (d : ADec T) : ADec (List T) :=
  arrayADec fun o _ vs => setElemsADec ins init d o [] vs

def entriesADec (put : List (Bytes × V) → Bytes → V → List (Bytes × V)) (init : V) (d : ADec V) (o : POpts) :
    List (Bytes × V) → List (Bytes × AVal) → Option (Res (List (Bytes × V)))
  | acc, [] => some ⟨.noError, acc, [], []⟩
  | acc, (n, v) :: ms => do
    let r ← d o init (.val (n, .string) v)
    r.andThen (fun x => put acc (escapesIn n) x) fun x => entriesADec put init d o (put acc (escapesIn n) x) ms

def objectADec (f : POpts → T → List (Bytes × AVal) → Option (Res T)) : ADec T := fun o old i =>
  match i with
  | .val _ (.obj _ ms) => f o old ms
  | _ => some ⟨.expectedObjectStart, old, [], []⟩

def mapADec (put : List (Bytes × V) → Bytes → V → List (Bytes × V)) (init : V) (d : ADec V) : ADec (List (Bytes × V)) :=
  objectADec fun o old ms => entriesADec put init d o old ms

/-- As `MemberSpec`. -/
structure AMemberSpec (T : Type) where
  qname : Bytes
  names : List Bytes
  optional : Bool
  dec : ADec T

/-- The names alone, for `resolve` and `unassignedNames`. -/
def AMemberSpec.named (s : AMemberSpec T) : MemberSpec T := { qname := s.qname, names := s.names, optional := s.optional, dec := fun _ _ _ => none }

/-- The member meant by a name, as for structs without raw captures. -/
def aresolve (specs : List (AMemberSpec T)) (n : Bytes) : Option Nat := resolve (specs.map AMemberSpec.named) n

def membersADec (specs : List (AMemberSpec T)) (o : POpts) : T → List (Bytes × AVal) → Option (Res T)
  | old, [] => some ⟨.noError, old, [], []⟩
  | old, (n, v) :: ms =>
    match (aresolve specs n).bind (specs[·]?) with
    | some s => do
      let r ← s.dec o old (.val (n, .string) v)
      r.nested.andThen id fun x => membersADec specs o x ms
    | none =>
      Res.andThen ⟨if o.allowMissing then .noError else .missingPropertyMember, old, if o.track then [n] else [], []⟩
        id fun x => membersADec specs o x ms

def structADec (specs : List (AMemberSpec T)) : ADec T := objectADec fun o old ms => do
  let r ← membersADec specs o old ms
  r.andThen id fun x =>
    let un := unassignedNames (specs.map AMemberSpec.named) (plainMembers ms)
    some ⟨if un = [] ∨ o.allowUnassigned = true then .noError else .unassignedRequiredMember, x, [], if o.track then un else []⟩

def partADec (get : T → M) (set : M → T → T) (d : ADec M) : ADec T := fun o old i => (d o (get old) i).map (Res.map (set · old))

def AMemberSpec.up (get : T → S) (set : S → T → T) (m : AMemberSpec S) : AMemberSpec T :=
  { qname := m.qname, names := m.names, optional := m.optional, dec := partADec get set m.dec }

/-- A value-initialised variable of the type. -/
def RType.init (t : RType T) : T := t.handler.init

mutual
def RType.adec : {T : Type} → RType T → ADec T
  | _, .lib t => plainADec t.dec
  | _, .raw k _ => rawADec k
  | _, .rawRef k => rawRefADec k
  | _, .nullable t => nullableADec t.adec
  | _, .nullableChecked t => nullableCheckedADec t.adec
  | _, .optional t => t.adec
  | _, .optionalChecked t => optionalCheckedADec t.adec
  | _, .stdOptional t => stdOptionalADec t.init t.adec
  | _, .sharedPtr t => ptrADec t.init t.adec
  | _, .uniquePtr t => ptrADec t.init t.adec
  | _, .silentVector t => vecADec t.init t.adec
  | _, .silentUniquePtr t => ptrADec t.init t.adec
  | _, .vector t => vecADec t.init t.adec
  | _, .oneOrMany t => oneOrManyADec t.init t.adec
  | _, .array _ t => arrADec t.adec
  | _, .arrayVariable _ t => avcADec t.adec
  | _, .tuple ts => tupleADec ts.adec
  | _, .set _ ins t => setADec ins t.init t.adec
  | _, .map ins t => mapADec (mapSet ins) t.init t.adec
  | _, .struct _ s => structADec (s.aspecs [])
def RTypes.adec : {Ts : Type} → RTypes Ts → TupADec Ts
  | _, .nil => tupNilADec
  | _, .cons t ts => tupConsADec t.adec ts.adec
/-- The members of a struct in the order in which they are looked for. -/
def RStruct.aspecs (superName : Bytes) : {T : Type} → RStruct T → List (AMemberSpec T)
  | _, .mk ms ss => (ms.aspecs superName).reverse ++ ss.aspecs
def RMembers.aspecs (superName : Bytes) : {T : Type} → RMembers T → List (AMemberSpec T)
  | _, .nil => []
  | _, .cons names t get set ms =>
    { qname := qualifiedName superName (names.headD []), names := names, optional := t.isOptional, dec := partADec get set t.adec }
      :: ms.aspecs superName
def RSupers.aspecs : {T : Type} → RSupers T → List (AMemberSpec T)
  | _, .nil => []
  | _, .cons name get set s ss => (s.aspecs name).map (AMemberSpec.up get set) ++ ss.aspecs
end

end JsonStruct
