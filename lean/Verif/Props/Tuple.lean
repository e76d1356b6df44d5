import Verif.Model.Tuple

/-
C83: the elements of a `JS::Tuple`.
-/

namespace JsonStruct

theorem genSequence_eq (n : Nat) : genSequence n = List.range n := by
  induction n using Nat.strongRecOn with
  | ind n ih =>
    match n with
    | 0 => rw [genSequence]; rfl
    | 1 => rw [genSequence]; rfl
    | n + 2 =>
      rw [genSequence, ih _ (by omega), ih _ (by omega), mergeSeq, List.length_range, ← List.range_add]
      congr 1
      omega

/-- **C83**: the element `i` of a tuple is the argument `i` it was made from; there are as many elements as arguments. -/
theorem C83_element (xs : List α) (i : Nat) : tupleGet xs i = xs[i]? := by
  have key : ∀ (xs : List α) (k : Nat), i < k ∨ (((List.range' k xs.length).zip xs).filter (fun e => e.1 == i)).map Prod.snd = (xs[i - k]?).toList := by
    intro xs
    induction xs with
    | nil => intro k; right; simp
    | cons x xs ih =>
      intro k
      by_cases h : i < k
      · exact .inl h
      right
      rw [List.length_cons, List.range'_succ, List.zip_cons_cons]
      by_cases hk : k = i
      · subst hk
        have hrest : ((List.range' (k + 1) xs.length).zip xs).filter (fun e => e.1 == k) = [] := by
          rw [List.filter_eq_nil_iff]
          intro e he
          have := (List.of_mem_zip he).1
          simp at this
          simp
          omega
        simp [hrest]
      · rw [List.filter_cons_of_neg (by simpa using hk)]
        rcases ih (k + 1) with h' | h'
        · omega
        · rw [h']
          obtain ⟨d, rfl⟩ : ∃ d, i = k + 1 + d := ⟨i - (k + 1), by omega⟩
          rw [show k + 1 + d - (k + 1) = d by omega, show k + 1 + d - k = d + 1 by omega]
          simp
  have h := (key xs 0).resolve_left (by omega)
  simp only [tupleGet, tupleImpl, genSequence_eq, List.length_range, if_true, Option.bind_some]
  rw [List.range_eq_range']
  rw [Nat.sub_zero] at h
  cases hx : xs[i]? with
  | none =>
    rw [hx] at h
    have : ((List.range' 0 xs.length).zip xs).filter (fun e => e.1 == i) = [] := by simpa using h
    rw [this]
  | some y =>
    rw [hx] at h
    match hf : ((List.range' 0 xs.length).zip xs).filter (fun e => e.1 == i) with
    | [] => rw [hf] at h; simp at h
    | [e] =>
      rw [hf] at h ⊢
      simpa using h
    | e :: f :: r => rw [hf] at h; simp at h

example : tupleGet ["a", "b", "c", "d", "e"] 3 = some "d" ∧ tupleGet ["a", "b", "c", "d", "e"] 5 = none := by
  simp [C83_element]

end JsonStruct
