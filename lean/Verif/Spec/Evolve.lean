import Verif.Spec.Encode

/-
Which changes to the declarations a program may make without losing its data: `Newer a b R` says that what the old type `a` writes is to
be read by the new type `b`, and `R old v x` what that gives: `x` is left in a variable that held `old` when `v` had been written.
-/

namespace JsonStruct

/-- The member `e` of the old struct is read as the member `f` of the new one: the name under which it is written is the name of `f` or
one of its aliases. -/
def Entry.Goes (e : Entry A) (f : Entry B) : Prop := e.names.headD [] ∈ f.names

/-- A member of the old struct, the member of the new one as which it is read, and what becomes of its value. -/
structure Carried (A B : Type) where
  before : Entry A
  after : Entry B
  rel : after.M → before.M → after.M → Prop

/-- A member of a struct that becomes an entry of a map, and what becomes of its value. -/
structure AsEntry (A B : Type) where
  member : Entry A
  rel : B → member.M → B → Prop

/-- A member of a struct that takes the value of an entry of a map, and what becomes of the value. -/
structure AsMember (A B : Type) where
  member : Entry B
  rel : member.M → A → member.M → Prop

/-- Something other than `null` is written for every value. -/
def CType.NeverNull (a : CType A) : Prop := ∀ v, a.Valid v → a.Solid v

inductive Newer : {A B : Type} → CType A → CType B → (B → A → B → Prop) → Prop
  /-- A type that was not changed. -/
  | same {t : CType A} (ht : t.Lawful) : Newer t t fun _ v x => x = v
  /-- Another integer type: what does not fit becomes the next limit. A signed type may not become unsigned, and 128 bits not less. -/
  | int {I J : IntTy} (hI : I.Supported) (hJ : J.Supported) (hs : I.signed = true → J.signed = true) (hb : I.bits ≤ 64 ∨ 64 < J.bits) :
      Newer (.int I) (.int J) fun _ v x => x = J.clamp v
  /-- A program compiled for another processor (the instructions that look for characters to be escaped). -/
  | string {m m' : Simd} : Newer (.string m) (.string m') fun _ v x => x = v
  /-- Enumerators are added or put into another order: those of the same name correspond. -/
  | enum {names names' : List Bytes} {U U' : IntTy} (hn : ∀ n ∈ names, n ∈ names') :
      Newer (.enum names U) (.enum names' U') fun _ v x => 0 ≤ x ∧ ∃ n, names[v.toNat]? = some n ∧ names'[x.toNat]? = some n
  /-- An enum becomes a string: the name of the enumerator. -/
  | enumName {names : List Bytes} {U : IntTy} {m : Simd} (hn : ∀ n ∈ names, escapesIn n = n) :
      Newer (.enum names U) (.string m) fun _ v x => names[v.toNat]? = some x
  /-- An integer or a Boolean becomes a string: the text of the number, without leading zeros, or `true` or `false`. -/
  | intText {I : IntTy} {m : Simd} :
      Newer (.int I) (.string m) fun _ v x => ∃ ds, x = (if v < 0 then b!"-" else []) ++ ds ∧ JsonInt ds ∧ decVal ds = v.natAbs
  | boolText {m : Simd} : Newer .bool (.string m) fun _ v x => x = if v then b!"true" else b!"false"
  /-- An integer of 64 bits with sign, or less, becomes a double, the nearest one up to a 2^-109th part of it, and below 2^53 the same
  number, -/
  | intDouble {I : IntTy} (hI : I.Supported) (hb : I.bits ≤ 32 ∨ I.signed = true ∧ I.bits ≤ 64) :
      Newer (.int I) .double fun _ v x => ∃ b ≤ 0x7FF0000000000000, x = (if v < 0 then 2 ^ 63 + b else b) ∧
        (v.natAbs < 2 ^ 53 → absValue 52 11 b = v.natAbs) ∧
        ∀ y ≤ 0x7FF0000000000000, |absValue 52 11 b - (v.natAbs : ℚ)| ≤ |absValue 52 11 y - (v.natAbs : ℚ)| + (v.natAbs : ℚ) / 2 ^ 109
  /-- or a float, the nearest one. -/
  | intFloat {I : IntTy} (hI : I.Supported) (hb : I.bits ≤ 32 ∨ I.signed = true ∧ I.bits ≤ 64) :
      Newer (.int I) .float fun _ v x => ∃ b, x = (if v < 0 then 2 ^ 31 + b else b) ∧ RoundsTo 23 8 b (v.natAbs : ℚ)
  /-- A member may be left out from now on, -/
  | toOptional {a : CType A} {b : CType B} (h : Newer a b R) : Newer a (.optional b) R
  | toStdOptional {a : CType A} {b : CType B} (h : Newer a b R) (ha : ∀ v, a.Valid v → (a.enc v).isSome) (hb : b.Lawful) :
      Newer a (.stdOptional b) fun _ v x => ∃ y, x = some y ∧ R b.init v y
  | toOptionalChecked {a : CType A} {b : CType B} (h : Newer a b R) (ha : ∀ v, a.Valid v → (a.enc v).isSome) (hb : b.Lawful) :
      Newer a (.optionalChecked b) fun _ v x => x.2 = true ∧ R b.init v x.1
  /-- or may be left out no more. -/
  | fromOptional {a : CType A} {b : CType B} (h : Newer a b R) : Newer (.optional a) b R
  | fromStdOptional {a : CType A} {b : CType B} (h : Newer a b R) :
      Newer (.stdOptional a) b fun old v x => match v with | none => x = old | some y => R old y x
  | stdOptional {a : CType A} {b : CType B} (h : Newer a b R) (hb : b.Lawful) :
      Newer (.stdOptional a) (.stdOptional b) fun _ v x => match v with | none => x = none | some v => ∃ y, x = some y ∧ R b.init v y
  | checkedToStd {a : CType A} {b : CType B} (h : Newer a b R) (hb : b.Lawful) :
      Newer (.optionalChecked a) (.stdOptional b) fun _ v x => if v.2 then ∃ y, x = some y ∧ R b.init v.1 y else x = none
  /-- It may be `null` from now on, or no more. -/
  | toNullable {a : CType A} {b : CType B} (h : Newer a b R) (ha : ∀ v, a.Valid v → a.enc v ≠ some .null) : Newer a (.nullable b) R
  | fromNullable {a : CType A} {b : CType B} (h : Newer a b R) : Newer (.nullable a) b R
  | toNullableChecked {a : CType A} {b : CType B} (h : Newer a b R) (ha : a.NeverNull) (hb : b.Lawful) :
      Newer a (.nullableChecked b) fun _ v x => x.2 = false ∧ R b.init v x.1
  | toSharedPtr {a : CType A} {b : CType B} (h : Newer a b R) (ha : a.NeverNull) (hb : b.Lawful) :
      Newer a (.sharedPtr b) fun old v x => ∃ y, x = some y ∧ R (old.getD b.init) v y
  | toUniquePtr {a : CType A} {b : CType B} (h : Newer a b R) (ha : a.NeverNull) (hb : b.Lawful) :
      Newer a (.uniquePtr b) fun old v x => ∃ y, x = some y ∧ R (old.getD b.init) v y
  /-- One value becomes several, -/
  | toMany {a : CType A} {b : CType B} (h : Newer a b R) (ha : ∀ v, a.Valid v → ∃ j, a.enc v = some j ∧ ∀ vs, j ≠ .arr vs) (hb : b.Lawful) :
      Newer a (.oneOrMany b) fun _ v x => ∃ y, x = [y] ∧ R b.init v y
  | vectorToMany {a : CType A} {b : CType B} (h : Newer a b R) (hb : b.Lawful) :
      Newer (.vector a) (.oneOrMany b) fun _ v x => List.Forall₂ (R b.init) v x
  | arrayToMany {n : Nat} {a : CType A} {b : CType B} (h : Newer a b R) (hb : b.Lawful) :
      Newer (.array n a) (.oneOrMany b) fun _ v x => List.Forall₂ (R b.init) v x
  | setToMany {A B : Type} {R : B → A → B → Prop} {d : DecidableEq A} {ins : List A → A → List A} {a : CType A} {b : CType B}
      (h : Newer a b R) (hb : b.Lawful) :
      Newer (.set d ins a) (.oneOrMany b) fun _ v x => List.Forall₂ (R b.init) v x
  /-- an array becomes a vector. -/
  | arrayToVector {n : Nat} {a : CType A} {b : CType B} (h : Newer a b R) (hb : b.Lawful) :
      Newer (.array n a) (.vector b) fun _ v x => List.Forall₂ (R b.init) v x
  /-- Other containers for the elements. -/
  | setToVector {A B : Type} {R : B → A → B → Prop} {d : DecidableEq A} {ins : List A → A → List A} {a : CType A} {b : CType B}
      (h : Newer a b R) (hb : b.Lawful) :
      Newer (.set d ins a) (.vector b) fun _ v x => List.Forall₂ (R b.init) v x
  | toSilentVector {a : CType A} {b : CType B} (h : Newer a b R) (hb : b.Lawful) :
      Newer (.vector a) (.silentVector b) fun _ v x => List.Forall₂ (R b.init) v x
  | fromSilentVector {a : CType A} {b : CType B} (h : Newer a b R) (hb : b.Lawful) :
      Newer (.silentVector a) (.vector b) fun old v x => if v = [] then x = old else List.Forall₂ (R b.init) v x
  /-- The type of the elements is changed. -/
  | vector {a : CType A} {b : CType B} (h : Newer a b R) (hb : b.Lawful) :
      Newer (.vector a) (.vector b) fun _ v x => List.Forall₂ (R b.init) v x
  /-- Different elements of a set are to stay different. -/
  | set {A B : Type} {R : B → A → B → Prop} {d : DecidableEq A} {d' : DecidableEq B} {ins : List A → A → List A} {ins' : List B → B → List B}
      {a : CType A} {b : CType B} (h : Newer a b R) (hb : b.Lawful) (hins : ∀ l x, (ins' l x).Perm (x :: l))
      (hinj : ∀ v w x, a.Valid v → a.Valid w → R b.init v x → R b.init w x → v = w) :
      Newer (.set d ins a) (.set d' ins' b) fun _ v x => ∃ l, List.Forall₂ (R b.init) v l ∧ x = l.foldl ins' []
  | oneOrMany {a : CType A} {b : CType B} (h : Newer a b R) (hb : b.Lawful) :
      Newer (.oneOrMany a) (.oneOrMany b) fun _ v x => List.Forall₂ (R b.init) v x
  | array {n : Nat} {a : CType A} {b : CType B} (h : Newer a b R) :
      Newer (.array n a) (.array n b) fun old v x => x.length = n ∧
        ∀ (i : Nat) o w, old[i]? = some o → v[i]? = some w → ∃ y, x[i]? = some y ∧ R o w y
  | tupleNil : Newer (.tuple .nil) (.tuple .nil) fun _ _ _ => True
  | tupleCons {A B As Bs : Type} {R : B → A → B → Prop} {Rs : Bs → As → Bs → Prop} {a : CType A} {b : CType B} {as : CTypes As} {bs : CTypes Bs}
      (h : Newer a b R) (hs : Newer (.tuple as) (.tuple bs) Rs) :
      Newer (.tuple (.cons a as)) (.tuple (.cons b bs)) fun old v x => R old.1 v.1 x.1 ∧ Rs old.2 v.2 x.2
  | nullableChecked {a : CType A} {b : CType B} (h : Newer a b R) (hb : b.Lawful) :
      Newer (.nullableChecked a) (.nullableChecked b) fun _ v x =>
        if v.2 then x = (b.init, true) else x.2 = false ∧ R b.init v.1 x.1
  | optionalChecked {a : CType A} {b : CType B} (h : Newer a b R) (hb : b.Lawful) :
      Newer (.optionalChecked a) (.optionalChecked b) fun _ v x =>
        if v.2 then x.2 = true ∧ R b.init v.1 x.1 else x = (b.init, false)
  | sharedPtr {a : CType A} {b : CType B} (h : Newer a b R) (hb : b.Lawful) :
      Newer (.sharedPtr a) (.sharedPtr b) fun old v x =>
        match v with | none => x = none | some v => ∃ y, x = some y ∧ R (old.getD b.init) v y
  | uniquePtr {a : CType A} {b : CType B} (h : Newer a b R) (hb : b.Lawful) :
      Newer (.uniquePtr a) (.uniquePtr b) fun old v x =>
        match v with | none => x = none | some v => ∃ y, x = some y ∧ R (old.getD b.init) v y
  | uniqueToShared {a : CType A} {b : CType B} (h : Newer a b R) (hb : b.Lawful) :
      Newer (.uniquePtr a) (.sharedPtr b) fun old v x =>
        match v with | none => x = none | some v => ∃ y, x = some y ∧ R (old.getD b.init) v y
  | map {ins : List (Bytes × A) → Bytes × A → List (Bytes × A)} {ins' : List (Bytes × B) → Bytes × B → List (Bytes × B)}
      (hins : ∀ l x, (ins' l x).Perm (x :: l)) {a : CType A} {b : CType B} (h : Newer a b R) (hb : b.Lawful) :
      Newer (.map ins a) (.map ins' b) fun _ v x =>
        ∃ l, List.Forall₂ (fun e f => f.1 = e.1 ∧ R b.init e.2 f.2) v l ∧ x = l.foldl ins' []
  /-- A struct becomes a map: from the names of the members that are written to their values. -/
  | structToMap {A B : Type} {init : A} {s : CStruct A} {ins : List (Bytes × B) → Bytes × B → List (Bytes × B)} {b : CType B}
      (cs : List (AsEntry A B)) (hcs : cs.map AsEntry.member = s.entries) (hins : ∀ l x, (ins l x).Perm (x :: l))
      (h : ∀ c ∈ cs, Newer c.member.type b c.rel) (hb : b.Lawful) (hnames : (s.entries.map fun e => e.names.headD []).Nodup)
      (hplain : ∀ e ∈ s.entries, escapesIn (e.names.headD []) = e.names.headD []) :
      Newer (.struct init s) (.map ins b) fun _ v x =>
        ∃ l, List.Forall₂ (fun c f => f.1 = c.member.names.headD [] ∧ c.rel b.init (c.member.get v) f.2)
          (cs.filter fun c => (c.member.type.enc (c.member.get v)).isSome) l ∧ x = l.foldl ins []
  /-- A map becomes a struct, of which every member has one name: entries of these names go to the members, others are skipped. -/
  | mapToStruct {A B : Type} {ins : List (Bytes × A) → Bytes × A → List (Bytes × A)} {a : CType A} {init : B} {s : CStruct B}
      (cs : List (AsMember A B)) (hcs : cs.map AsMember.member = s.entries) (h : ∀ c ∈ cs, Newer a c.member.type c.rel)
      (hone : ∀ f ∈ s.entries, ∃ n, f.names = [n]) (hnames : (s.entries.flatMap Entry.names).Nodup)
      (hapart : (s.entries.map Entry.access).Pairwise Access.Apart) (hstored : ∀ f ∈ s.entries, ∀ y t, f.get (f.set y t) = y) :
      Newer (.map ins a) (.struct init s) fun old v x =>
        (∀ c ∈ cs, ∀ n w, (n, w) ∈ v → c.member.names = [n] → c.rel (c.member.get old) w (c.member.get x)) ∧
        ∀ f ∈ s.entries, (∀ e ∈ v, f.names ≠ [e.1]) → f.get x = f.get old
  /-- Members are added, removed, renamed with the old name as an alias, moved to and from super classes, put into another order, or
  their types are changed. All members that are written go to different members, which have no names in common. -/
  | struct {init : A} {s : CStruct A} {init' : B} {s' : CStruct B} (cs : List (Carried A B))
      (hgo : ∀ c ∈ cs, c.before ∈ s.entries ∧ c.after ∈ s'.entries ∧ c.before.Goes c.after)
      (hall : ∀ e ∈ s.entries, ∀ f ∈ s'.entries, e.Goes f → ∃ c ∈ cs, c.before = e ∧ c.after = f)
      (h : ∀ c ∈ cs, Newer c.before.type c.after.type c.rel)
      (hone : s.entries.Pairwise fun e e' => ∀ f ∈ s'.entries, e.Goes f → ¬ e'.Goes f)
      (hnames : (s'.entries.flatMap Entry.names).Nodup) (hapart : (s'.entries.map Entry.access).Pairwise Access.Apart)
      (hstored : ∀ f ∈ s'.entries, ∀ y t, f.get (f.set y t) = y) :
      Newer (.struct init s) (.struct init' s') fun old v x =>
        (∀ c ∈ cs, c.rel (c.after.get old) (c.before.get v) (c.after.get x)) ∧
        ∀ f ∈ s'.entries, (∀ e ∈ s.entries, ¬ e.Goes f) → f.get x = f.get old

end JsonStruct
