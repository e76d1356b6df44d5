import Verif.Spec.Access
import Verif.Lemmas.Members

namespace JsonStruct

/-- An access with a decoder for what is accessed. -/
structure PartDec (T : Type) where
  acc : Access T
  dec : Dec acc.M

def PartDec.whole (p : PartDec T) : Dec T := partDec p.acc.get p.acc.set p.dec

def PartDec.up (get : T → S) (set : S → T → T) (p : PartDec S) : PartDec T := ⟨p.acc.up get set, p.dec⟩

theorem PartDec.up_whole (get : T → S) (set : S → T → T) (p : PartDec S) : (p.up get set).whole = partDec get set p.whole := by
  funext o old i
  simp only [PartDec.whole, partDec, PartDec.up, Access.up, Option.map_map]
  rfl

mutual
theorem CStruct.parts (n : Bytes) : {T : Type} → (s : CStruct T) →
    ∃ l : List (PartDec T), s.accesses = l.map (·.acc) ∧ (s.specs n).map (·.dec) = l.map (·.whole)
  | _, .mk ms ss => by
    obtain ⟨l1, a1, b1⟩ := ms.parts n
    obtain ⟨l2, a2, b2⟩ := ss.parts
    exact ⟨l1.reverse ++ l2, by simp [CStruct.accesses, a1, a2], by simp [CStruct.specs, b1, b2]⟩
theorem CMembers.parts (n : Bytes) : {T : Type} → (ms : CMembers T) →
    ∃ l : List (PartDec T), ms.accesses = l.map (·.acc) ∧ (ms.specs n).map (·.dec) = l.map (·.whole)
  | _, .nil => ⟨[], rfl, rfl⟩
  | _, .cons names t get set ms => by
    obtain ⟨l1, a1, b1⟩ := ms.parts n
    exact ⟨⟨{ get := get, set := set }, t.dec⟩ :: l1, by simp [CMembers.accesses, a1], by simp [CMembers.specs, b1, PartDec.whole]⟩
theorem CSupers.parts : {T : Type} → (ss : CSupers T) →
    ∃ l : List (PartDec T), ss.accesses = l.map (·.acc) ∧ ss.specs.map (·.dec) = l.map (·.whole)
  | _, .nil => ⟨[], rfl, rfl⟩
  | _, .cons name get set s ss => by
    obtain ⟨l1, a1, b1⟩ := s.parts name
    obtain ⟨l2, a2, b2⟩ := ss.parts
    refine ⟨l1.map (PartDec.up get set) ++ l2, by simp [CSupers.accesses, a1, a2, Function.comp_def, PartDec.up], ?_⟩
    have h : ((s.specs name).map (MemberSpec.up get set)).map (·.dec) = ((s.specs name).map (·.dec)).map (partDec get set) := by
      simp [Function.comp_def, MemberSpec.up]
    simp only [CSupers.specs, List.map_append, h, b1, b2]
    simp [Function.comp_def, PartDec.up_whole]
end

theorem Access.Apart.symm {a b : Access T} (h : a.Apart b) : b.Apart a :=
  ⟨h.2.1, h.1, fun x y t => (h.2.2 y x t).symm⟩

theorem apart_of_access {a b : MemberSpec T} {p q : PartDec T} (ha : a.dec = p.whole) (hb : b.dec = q.whole)
    (h : p.acc.Apart q.acc) : Apart a b := by
  intro o i j x ra rb h1 h2
  rw [ha] at h1 ⊢
  rw [hb] at h2 ⊢
  simp only [PartDec.whole, partDec] at h1 h2 ⊢
  obtain ⟨ra', k1, rfl⟩ := Option.map_eq_some_iff.mp h1
  simp only [Res.map] at h2
  rw [h.2.1] at h2
  obtain ⟨rb', k2, rfl⟩ := Option.map_eq_some_iff.mp h2
  refine ⟨q.acc.set rb'.val x, by simp [k2, Res.map], ?_⟩
  rw [h.1, k1]
  simp [Res.map, h.2.2]

theorem CStruct.apart {s : CStruct T} (h : s.Disjoint) (n : Bytes) :
    ∀ i j : Nat, ∀ a b, i ≠ j → (s.specs n)[i]? = some a → (s.specs n)[j]? = some b → Apart a b := by
  obtain ⟨l, h1, h2⟩ := s.parts n
  intro i j a b hne ha hb
  have hl : (s.specs n).length = l.length := by rw [← List.length_map (f := (·.dec)), h2, List.length_map]
  obtain ⟨hi, rfl⟩ := List.getElem?_eq_some_iff.mp ha
  obtain ⟨hj, rfl⟩ := List.getElem?_eq_some_iff.mp hb
  have di : ((s.specs n)[i]).dec = (l[i]'(hl ▸ hi)).whole := by
    have := List.getElem_of_eq h2 (i := i) (by simpa using hi); simpa using this
  have dj : ((s.specs n)[j]).dec = (l[j]'(hl ▸ hj)).whole := by
    have := List.getElem_of_eq h2 (i := j) (by simpa using hj); simpa using this
  unfold CStruct.Disjoint at h
  rw [h1, List.pairwise_iff_getElem] at h
  refine apart_of_access di dj ?_
  rcases Nat.lt_or_gt_of_ne hne with hlt | hgt
  · have := h i j (by simpa using hl ▸ hi) (by simpa using hl ▸ hj) hlt; simpa using this
  · have := h j i (by simpa using hl ▸ hj) (by simpa using hl ▸ hi) hgt; exact Access.Apart.symm (by simpa using this)

end JsonStruct
