import Verif.Spec.Json
import Verif.Model.Number
import Verif.Model.FloatHandler
import Verif.Model.Time
import Verif.Model.Escape
import Verif.Model.Bool

/-
What reading a JSON value into a C++ value amounts to, as a function of the JSON value alone: no tokenizer, no
loops over tokens, no fuel. Texts of scalars are interpreted by `boolTo`, `intTo`, `doubleTo`, `floatTo`, `timeTo` and
`escapesIn`, which have specifications of their own (C13, C15, C17, C60, C61, C62).

A decoder is partial: `none` where the outcome is not a function of the value alone, because the library reads on
beyond the value (a string handler does so when it is given an array or an object, or a closing bracket).
-/

namespace JsonStruct

/-- The three options of a `ParseContext`. -/
structure POpts where
  allowMissing : Bool := true
  allowUnassigned : Bool := true
  track : Bool := true
  deriving DecidableEq, Repr

/-- The outcome: error, value, and what is added to `missing_members` and `unassigned_required_members`. -/
structure Res (T : Type) where
  err : Err
  val : T
  missing : List Bytes := []
  unassigned : List Bytes := []
  deriving Repr

/-- The name under which a value stands, and its type. -/
abbrev Lbl := Bytes × Ty

/-- What a handler can find: a value under a name, or the bracket closing an array. -/
inductive Item
  | val (l : Lbl) (v : JVal)
  | close

/-- The token of the bracket closing an array. -/
def closeTok : Tok := ⟨[], .ascii, b!"]", .arrayEnd⟩

def Item.toks : Item → List Tok
  | .val l v => v.toks l.1 l.2
  | .close => [closeTok]

/-- The first token of an item. -/
def Item.first (i : Item) : Tok := i.toks.headD {}

/-- The last token of an item. -/
def Item.last (i : Item) : Tok := i.toks.getLastD {}

/-- Neither a container nor a closing bracket. -/
def Item.isScalar : Item → Bool
  | .val _ v => !v.isContainer
  | .close => false

abbrev Dec (T : Type) := POpts → T → Item → Option (Res T)

/-- Stop on an error; otherwise go on with `f`, adding up the reports. -/
def Res.andThen (r : Res A) (stop : A → B) (f : A → Option (Res B)) : Option (Res B) :=
  if r.err ≠ .noError then some ⟨r.err, stop r.val, r.missing, r.unassigned⟩
  else (f r.val).map fun q => { q with missing := r.missing ++ q.missing, unassigned := r.unassigned ++ q.unassigned }

def Res.map (g : A → B) (r : Res A) : Res B := ⟨r.err, g r.val, r.missing, r.unassigned⟩

/-- A handler that looks at one token only. -/
def scalarDec (f : T → Tok → Err × T) : Dec T := fun _ old i =>
  let r := f old i.first
  if i.isScalar = true ∨ r.1 ≠ .noError then some ⟨r.1, r.2, [], []⟩ else none

def boolDec : Dec Bool := scalarDec fun old k => boolTo old k.value

def intDec (I : IntTy) : Dec Int := scalarDec fun _ k => intTo I k.value

/-- Where reading is undefined, the error is `ub`. -/
def doubleDec : Dec Nat := scalarDec fun old k => (doubleTo k.value).getD (.ub, old)

def floatDec : Dec Nat := scalarDec fun old k => (floatTo k.value).getD (.ub, old)

def timeDec (C : Clock) : Dec Int := scalarDec fun old k => timeTo C old k.value

def stringDec : Dec Bytes := scalarDec fun _ k => (.noError, escapesIn k.value)

/-- An enumerator by name, or any number. -/
def enumDec (names : List Bytes) (U : IntTy) : Dec Int := scalarDec fun old k =>
  if k.valueType = .string then
    match names.findIdx? (· = k.value) with
    | some i => (.noError, i)
    | none => (.illegalDataValue, old)
  else if k.valueType = .number then
    if (intTo U k.value).1 = .noError then intTo U k.value else ((intTo U k.value).1, old)
  else (.illegalDataValue, old)

def enumValueDec (U : IntTy) : Dec Int := scalarDec fun old k =>
  if (intTo U k.value).1 = .noError then intTo U k.value else ((intTo U k.value).1, old)

/-! ### Wrappers -/

def nullableDec (d : Dec T) : Dec T := fun o old i =>
  match i with
  | .val _ .null => some ⟨.noError, old, [], []⟩
  | i => d o old i

def nullableCheckedDec (d : Dec T) : Dec (T × Bool) := fun o old i =>
  match i with
  | .val _ .null => some ⟨.noError, (old.1, true), [], []⟩
  | i => (d o old.1 i).map (Res.map (·, false))

def optionalCheckedDec (d : Dec T) : Dec (T × Bool) := fun o old i => (d o old.1 i).map (Res.map (·, true))

def stdOptionalDec (init : T) (d : Dec T) : Dec (Option T) := fun o _ i => (d o init i).map (Res.map some)

def ptrDec (init : T) (d : Dec T) : Dec (Option T) := fun o old i =>
  match i with
  | .val _ .null => some ⟨.noError, none, [], []⟩
  | i => (d o (old.getD init) i).map (Res.map some)

/-! ### Arrays -/

/-- The label of an array element. -/
def elem (v : JVal) : Item := .val ([], .ascii) v

/-- All elements, appended to `acc`. -/
def elemsDec (init : T) (d : Dec T) (o : POpts) : List T → List JVal → Option (Res (List T))
  | acc, [] => some ⟨.noError, acc, [], []⟩
  | acc, v :: vs => do
    let r ← d o init (elem v)
    r.andThen (fun x => acc ++ [x]) fun x => elemsDec init d o (acc ++ [x]) vs

/-- Read an array with `f`; anything else is rejected. -/
def arrayDec (f : POpts → T → List JVal → Option (Res T)) : Dec T := fun o old i =>
  match i with
  | .val _ (.arr vs) => f o old vs
  | _ => some ⟨.expectedArrayStart, old, [], []⟩

def vecDec (init : T) (d : Dec T) : Dec (List T) := arrayDec fun o _ vs => elemsDec init d o [] vs

def oneOrManyDec (init : T) (d : Dec T) : Dec (List T) := fun o old i =>
  match i with
  | .val _ (.arr vs) => elemsDec init d o [] vs
  | i => (d o init i).map (Res.map fun x => old ++ [x])

/-- An outcome that is an error. -/
def Res.failed (r : Res T) : Option (Res T) := if r.err ≠ .noError then some r else none

/-- Exactly as many elements as there are old ones. A missing one is looked for at the closing bracket. -/
def fixedDec (d : Dec T) (o : POpts) : List T → List JVal → Option (Res (List T))
  | [], [] => some ⟨.noError, [], [], []⟩
  | [], _ :: _ => some ⟨.expectedArrayEnd, [], [], []⟩
  | x :: xs, [] => ((d o x .close).bind Res.failed).map (Res.map (· :: xs))
  | x :: xs, v :: vs => do
    let r ← d o x (elem v)
    r.andThen (· :: xs) fun x => (fixedDec d o xs vs).map (Res.map (x :: ·))

def arrDec (d : Dec T) : Dec (List T) := arrayDec fun o old vs => fixedDec d o old vs

/-- At most as many elements as there are old ones; `i` have been read. If there are exactly as many, the size is
not stored. -/
def avcFixedDec (d : Dec T) (o : POpts) (size : Nat) : Nat → List T → List JVal → Option (Res (List T × Nat))
  | _, [], [] => some ⟨.noError, ([], size), [], []⟩
  | _, [], _ :: _ => some ⟨.expectedArrayEnd, ([], size), [], []⟩
  | i, x :: xs, [] => some ⟨.noError, (x :: xs, i), [], []⟩
  | i, x :: xs, v :: vs => do
    let r ← d o x (elem v)
    r.andThen (fun x => (x :: xs, size)) fun x => (avcFixedDec d o size (i + 1) xs vs).map (Res.map fun p => (x :: p.1, p.2))

def avcDec (d : Dec T) : Dec (List T × Nat) := arrayDec fun o old vs => avcFixedDec d o old.2 0 old.1 vs

/-- The elements of a tuple. -/
abbrev TupDec (Ts : Type) := POpts → Ts → List JVal → Option (Res Ts)

def tupNilDec : TupDec Unit := fun _ _ vs =>
  some ⟨if vs.isEmpty then .noError else .expectedArrayEnd, (), [], []⟩

def tupConsDec (d : Dec T) (t : TupDec Ts) : TupDec (T × Ts) := fun o old vs =>
  match vs with
  | [] => ((d o old.1 .close).bind Res.failed).map (Res.map (·, old.2))
  | v :: vs => do
    let r ← d o old.1 (elem v)
    r.andThen (·, old.2) fun x => (t o old.2 vs).map (Res.map (x, ·))

def tupleDec (t : TupDec Ts) : Dec Ts := arrayDec t

/-! ### Sets and maps -/

/-- All elements, inserted into `acc`. -/
def setElemsDec [DecidableEq T] (ins : List T → T → List T) (init : T) (d : Dec T) (o : POpts) : List T → List JVal → Option (Res (List T))
  | acc, [] => some ⟨.noError, acc, [], []⟩
  | acc, v :: vs => do
    let r ← d o init (elem v)
    r.andThen (fun _ => acc) fun x =>
      if x ∈ acc then some ⟨.duplicateInSet, acc, [], []⟩ else setElemsDec ins init d o (ins acc x) vs

def setDec [DecidableEq T] (ins : List T → T → List T) (init : T) (d : Dec T) : Dec (List T) :=
  arrayDec fun o _ vs => setElemsDec ins init d o [] vs

/-- All members, put into `acc` by `put`. -/
def entriesDec (put : List (Bytes × V) → Bytes → V → List (Bytes × V)) (init : V) (d : Dec V) (o : POpts) :
    List (Bytes × V) → List (Bytes × JVal) → Option (Res (List (Bytes × V)))
  | acc, [] => some ⟨.noError, acc, [], []⟩
  | acc, (n, v) :: ms => do
    let r ← d o init (.val (n, .string) v)
    r.andThen (fun x => put acc (escapesIn n) x) fun x => entriesDec put init d o (put acc (escapesIn n) x) ms

/-- Read an object with `f`; anything else is rejected. -/
def objectDec (f : POpts → T → List (Bytes × JVal) → Option (Res T)) : Dec T := fun o old i =>
  match i with
  | .val _ (.obj ms) => f o old ms
  | _ => some ⟨.expectedObjectStart, old, [], []⟩

def mapDec (put : List (Bytes × V) → Bytes → V → List (Bytes × V)) (init : V) (d : Dec V) : Dec (List (Bytes × V)) :=
  objectDec fun o old ms => entriesDec put init d o old ms

/-! ### Raw tokens -/

def tokensDec : Dec (List Tok) := fun _ old i =>
  match i with
  | .val l v => some ⟨.noError, if v.isContainer then i.toks else old ++ v.toks l.1 l.2, [], []⟩
  | .close => none

/-! ### Structs -/

/-- A struct member: the name under which it is reported (with the super class in front), its names in JSON (the
first one is the primary one), whether it is optional, and the effect of reading it on the whole struct. -/
structure MemberSpec (T : Type) where
  qname : Bytes
  names : List Bytes
  optional : Bool
  dec : Dec T

/-- The member meant by a name: the first whose primary name it is; if there is none, the first that has it as an
alias. -/
def resolve (specs : List (MemberSpec T)) (n : Bytes) : Option Nat :=
  match specs.findIdx? (fun s => s.names.head? == some n) with
  | some i => some i
  | none => specs.findIdx? (fun s => s.names.tail.contains n)

/-- A member's own error `MissingPropertyMember` is reported as `UnknownPropertyMember`. -/
def Res.nested (r : Res T) : Res T :=
  { r with err := if r.err = .missingPropertyMember then .unknownPropertyMember else r.err }

/-- The members of an object one after the other. -/
def membersDec (specs : List (MemberSpec T)) (o : POpts) : T → List (Bytes × JVal) → Option (Res T)
  | old, [] => some ⟨.noError, old, [], []⟩
  | old, (n, v) :: ms =>
    match (resolve specs n).bind (specs[·]?) with
    | some s => do
      let r ← s.dec o old (.val (n, .string) v)
      r.nested.andThen id fun x => membersDec specs o x ms
    | none =>
      Res.andThen ⟨if o.allowMissing then .noError else .missingPropertyMember, old, if o.track then [n] else [], []⟩
        id fun x => membersDec specs o x ms

/-- The required members that no member of the object means. -/
def unassignedNames (specs : List (MemberSpec T)) (ms : List (Bytes × JVal)) : List Bytes :=
  (specs.zipIdx.filter fun p => !p.1.optional && !(ms.any fun m => resolve specs m.1 == some p.2)).map (·.1.qname)

def structDec (specs : List (MemberSpec T)) : Dec T := objectDec fun o old ms => do
  let r ← membersDec specs o old ms
  r.andThen id fun x =>
    let un := unassignedNames specs ms
    some ⟨if un = [] ∨ o.allowUnassigned = true then .noError else .unassignedRequiredMember, x, [], if o.track then un else []⟩

end JsonStruct
