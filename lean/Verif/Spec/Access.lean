import Verif.Spec.Types

/-
How the members of a struct are reached: what it means that they are different parts of it.
-/

namespace JsonStruct

/-- A part of `T`: what is read from it and how it is replaced. -/
structure Access (T : Type) where
  {M : Type}
  get : T → M
  set : M → T → T

/-- Two parts do not overlap: replacing one leaves the other, and they can be replaced in any order. -/
def Access.Apart (a b : Access T) : Prop :=
  (∀ y t, a.get (b.set y t) = a.get t) ∧ (∀ x t, b.get (a.set x t) = b.get t) ∧
  ∀ x y t, a.set x (b.set y t) = b.set y (a.set x t)

/-- A part of a super class as a part of the derived class. -/
def Access.up (get : T → S) (set : S → T → T) (a : Access S) : Access T :=
  { get := fun t => a.get (get t), set := fun x t => set (a.set x (get t)) t }

mutual
/-- The parts a struct description declares, in the order of `CStruct.specs`. -/
def CStruct.accesses : {T : Type} → CStruct T → List (Access T)
  | _, .mk ms ss => ms.accesses.reverse ++ ss.accesses
def CMembers.accesses : {T : Type} → CMembers T → List (Access T)
  | _, .nil => []
  | _, .cons _ _ get set ms => { get := get, set := set } :: ms.accesses
def CSupers.accesses : {T : Type} → CSupers T → List (Access T)
  | _, .nil => []
  | _, .cons _ get set s ss => s.accesses.map (Access.up get set) ++ ss.accesses
end

/-- The declared members are different parts of the struct. -/
def CStruct.Disjoint (s : CStruct T) : Prop := s.accesses.Pairwise Access.Apart

end JsonStruct
