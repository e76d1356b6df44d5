import Verif.Spec.Types

/- What it means that containers hold what was read. -/

namespace JsonStruct

/-- Element `i` of the input is read from old element `i` and stored at `i`. -/
def EachStored (d : Dec T) (p : POpts) (old : List T) (vs : List JVal) (xs : List T) : Prop :=
  ∀ (i : Nat) (o : T) (v : JVal), old[i]? = some o → vs[i]? = some v →
    ∃ q, d p o (elem v) = some q ∧ q.err = .noError ∧ xs[i]? = some q.val

/-- How many elements a tuple has. -/
def CTypes.size : {Ts : Type} → CTypes Ts → Nat
  | _, .nil => 0
  | _, .cons _ ts => ts.size + 1

/-- Element `i` of the input is read from component `i` of `old`, and what is read is component `i` of `xs`. -/
def CTypes.Stored (p : POpts) : {Ts : Type} → CTypes Ts → Ts → List JVal → Ts → Prop
  | _, .nil, _, vs, _ => vs = []
  | _, .cons t ts, old, vs, xs => ∃ v vs', vs = v :: vs' ∧
      (∃ q, t.dec p old.1 (elem v) = some q ∧ q.err = .noError ∧ xs.1 = q.val) ∧ ts.Stored p old.2 vs' xs.2

/-- The value stored last for a key. -/
def lastOf (k : Bytes) (es : List (Bytes × V)) : Option V := (es.reverse.find? (·.1 == k)).map (·.2)

/-- A map with different keys. -/
def Keyed (m : List (Bytes × V)) : Prop := (m.map Prod.fst).Nodup

end JsonStruct
