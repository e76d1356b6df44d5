import Verif.Lemmas.MapMemory

/-
C81: a map keeps the text of its members alive.
-/

namespace JsonStruct

/-! ### C81 -/

/-- Keeping track of the strings changes nothing else. -/
theorem setValue_owned (o : OwnedMap) (h : Handler T) (n : Nat) (name : Bytes) (v : T) :
    (o.setValue h n name v).map (·.map) = o.map.setValue h n name v := by
  simp only [OwnedMap.setValue, JMap.setValue, Option.bind_eq_bind]
  cases he : o.map.ensure with
  | none => rfl
  | some m =>
    simp only [Option.bind_some]
    cases hf : m.find name with
    | none => rfl
    | some it =>
      simp only [Option.bind_some]
      have hr : (m.removeAt it).isSome = true → (m.erased it).isSome = true := by
        unfold JMap.removeAt JMap.erased
        split
        · simp only [List.getElem?_modify]
          cases m.metas[it.nextMeta]? <;> simp
        · simp
      by_cases hi : it.index = m.endIndex
      · simp only [hi, ne_eq, not_true_eq_false, if_false]
        cases memberTokens h name v n with
        | none => rfl
        | some new =>
          simp only [Option.bind_some]
          cases m.append new <;> rfl
      · simp only [ne_eq, hi, not_false_eq_true, if_true]
        cases h1 : m.erased it with
        | none =>
          cases h2 : m.removeAt it with
          | none => rfl
          | some q => simp [h1, h2] at hr
        | some d =>
          cases h2 : m.removeAt it with
          | none => rfl
          | some q =>
            simp only [Option.bind_some]
            cases memberTokens h name v n with
            | none => rfl
            | some new =>
              simp only [Option.bind_some]
              cases q.append new <;> rfl

theorem OwnedMap.Keeps.step {o : OwnedMap} {ms : List (Bytes × JVal)} (h : (o.map = {} ∧ o.owners = [] ∧ ms = []) ∨ o.Keeps ms) (a : MapOp)
    (ha : a.Ok ms) : ∃ N o', (∀ n, N ≤ n → o.step n a = some o') ∧ o'.Keeps (a.members ms) := by
  cases a with
  | set a =>
    rcases h with ⟨h1, h2, rfl⟩ | h
    · let m0 : JMap := { tokens := [{ value := b!"{", valueType := .objectStart }, { value := b!"}", valueType := .objectEnd }],
                         metas := [{ position := 0, size := 2, isArray := false }] }
      have hm : m0.Mirrors [] := ⟨⟨[], .string, .string, .inl rfl, .inl rfl, rfl⟩, ⟨_, rfl⟩⟩
      have hk : OwnedMap.Keeps ⟨m0, [none, none], o.data, o.made⟩ [] := ⟨hm, none, none, [], rfl, by simp, rfl⟩
      obtain ⟨N, o', g1, g2⟩ := hk.set a ha.1 ha.2
      refine ⟨N, o', fun n hn => ?_, g2⟩
      rw [← g1 n hn]
      have e1 : ({} : JMap).ensure = some m0 := by decide +kernel
      have e2 : m0.ensure = some m0 := by decide +kernel
      have e3 : m0.tokens ≠ [] := by simp [m0]
      simp only [OwnedMap.step, OwnedMap.setValue, h1, e1, e2, if_neg e3, if_true]
    · exact h.set a ha.1 ha.2
  | assign t x ms => exact OwnedMap.Keeps.assign o t x ms ha.1 ha.2.1 ha.2.2.1 ha.2.2.2
  | parse opts p text ms => exact OwnedMap.Keeps.parse o opts p text ms ha.1 ha.2

theorem OwnedMap.Keeps.run {as : List MapOp} {o : OwnedMap} {ms : List (Bytes × JVal)}
    (h : (o.map = {} ∧ o.owners = [] ∧ ms = []) ∨ o.Keeps ms) (ha : Orderly as ms) :
    ∃ N o', (∀ n, N ≤ n → OwnedMap.run n as o = some o') ∧
      ((as = [] ∧ o' = o) ∨ o'.Keeps (membersAfter as ms)) := by
  induction as generalizing o ms with
  | nil => exact ⟨0, o, fun _ _ => rfl, .inl ⟨rfl, rfl⟩⟩
  | cons a as ih =>
    obtain ⟨N, o1, h1, h2⟩ := OwnedMap.Keeps.step h a ha.1
    obtain ⟨M, o2, g1, g2⟩ := ih (.inr h2) ha.2
    refine ⟨max N M, o2, fun n hn => ?_, .inr ?_⟩
    swap
    · rcases g2 with ⟨rfl, rfl⟩ | g2
      · exact h2
      · exact g2
    simp only [OwnedMap.run, h1 n (by omega), Option.bind_some]
    exact g1 n (by omega)

/-- **C81**, except after a scalar in front of an array or object was replaced: whatever a user does to a map (sets members, sets the
whole, parses texts), the strings its tokens refer to are alive, and it shows the members it should. -/
theorem C81_alive_partial (as : List MapOp) (ha : Orderly as []) :
    ∃ N o, (∀ n, N ≤ n → OwnedMap.run n as {} = some o) ∧ o.Alive ∧ (as ≠ [] → o.map.Shows (membersAfter as [])) := by
  obtain ⟨N, o, h1, h2⟩ := OwnedMap.Keeps.run (as := as) (o := {}) (.inl ⟨rfl, rfl, rfl⟩) ha
  rcases h2 with ⟨rfl, rfl⟩ | h2
  · exact ⟨N, _, h1, ⟨rfl, by simp⟩, fun h => absurd rfl h⟩
  · exact ⟨N, o, h1, h2.alive, fun _ => h2.mirrors.shows⟩

/-- A history that meets the hypotheses: a text is parsed, an array is replaced and a member added; then the map is set to a value, and
a member of it is replaced. -/
example : ∃ as, Orderly as [] ∧ as.length = 5 ∧ (membersAfter as []).map Prod.fst = [b!"y", b!"x"] := by
  have hi : i32.Supported := by decide
  have ok1 : ∀ c : Byte, Quotable [c] → ∀ x : Int, i32.InRange x → ∀ j, intFrom i32 x = some j → SetOp.Ok ⟨.int i32, [c], x, .num j⟩ :=
    fun c hc x hx j hj => ⟨trivial, ⟨hi, hx⟩, by simp [CType.enc, hj], by simp, hc, by simp [JVal.depth]⟩
  have ht : Text rfc (.obj [(b!"f", .arr [])]) _ := .obj (.one (w1 := []) (w2 := []) (w3 := []) (w4 := []) (by simp [rfc, Ws])
    (.plain (c := 102) (by decide) (by decide) (by decide) .nil) (by simp [rfc, Ws]) (by simp [rfc, Ws])
    (.arrEmpty (w := []) (by simp [rfc, Ws])) (by simp [rfc, Ws]))
  have hx : ∀ x : Int, -5 ≤ x → x ≤ 5 → i32.Supported ∧ i32.InRange x := fun x h1 h2 =>
    ⟨by simp [IntTy.Supported, i32], by simp [IntTy.InRange, IntTy.min, IntTy.max, i32]; omega⟩
  refine ⟨[.parse {} {} _ [(b!"f", .arr [])], .set ⟨.int i32, b!"f", 1, .num b!"1"⟩, .set ⟨.int i32, b!"g", 2, .num b!"2"⟩,
    .assign exPoint (3, 4) [(b!"x", .num b!"3"), (b!"y", .num b!"4")], .set ⟨.int i32, b!"x", 5, .num b!"5"⟩],
    ⟨⟨rfl, doc_mono (rfc_le {}) ⟨[], _, [], by simp [rfc, Ws], ht, by simp [rfc, Ws], rfl⟩⟩,
     ⟨ok1 _ (by quotable) 1 (by decide) _ (by decide +kernel), replaceable_of rfl⟩,
     ⟨ok1 _ (by quotable) 2 (by decide) _ (by decide +kernel), replaceable_of rfl⟩,
     ⟨exPoint_lawful, ?_, by rfl, by decide +kernel⟩,
     ⟨ok1 _ (by quotable) 5 (by decide) _ (by decide +kernel), replaceable_of rfl⟩, trivial⟩, rfl, by decide +kernel⟩
  simp only [exPoint, CType.Valid, CStruct.Valid, CMembers.Valid, CSupers.Valid, and_true]
  refine ⟨hx 3 (by decide) (by decide), hx 4 (by decide) (by decide), ?_⟩
  intro h
  simp [CType.enc] at h

/-- The history that shows the defect: a number and an array are set, and then both are replaced. -/
def brokenOps : List MapOp :=
  [.set ⟨.int i32, b!"a", 1, .num b!"1"⟩, .set ⟨.vector (.int i32), b!"b", [2], .arr [.num b!"2"]⟩,
   .set ⟨.int i32, b!"a", 5, .num b!"5"⟩, .set ⟨.int i32, b!"b", 7, .num b!"7"⟩]

/-- **C81** is false where a scalar in front of an array is replaced: the array is then taken for a scalar when it is replaced, of
its tokens one is erased, and the others refer to a string that was freed. -/
theorem C81_false_replaced :
    (OwnedMap.run 50 brokenOps {}).map (fun o => (o.owners, o.data)) =
      some ([none, some 1, some 1, some 2, some 3, none], [(3, 2), (4, 3)]) := by decide +kernel

/-- The map refers to the string 1, which is not alive. -/
theorem C81_false_freed : ∃ o, OwnedMap.run 50 brokenOps {} = some o ∧ ¬ o.Alive := by
  obtain ⟨o, h1, h2⟩ := Option.map_eq_some_iff.mp C81_false_replaced
  simp only [Prod.mk.injEq] at h2
  refine ⟨o, h1, fun h => ?_⟩
  have := h.2 1 (by rw [h2.1]; decide)
  rw [h2.2] at this
  exact absurd this (by decide)

end JsonStruct
