import Verif.Model.MapWhole
import Verif.Lemmas.Map
import Verif.Props.Map

/-
The brackets of a map stay what they were when members are set, so the tokens of the whole map are those of the object.
-/

namespace JsonStruct

theorem cut_ends {l x : List A} {i k : Nat} (hi : 1 ≤ i) (hl : i ≤ l.length) (hk : k < l.length) :
    (l.take i ++ x ++ l.drop k).head? = l.head? ∧ (l.take i ++ x ++ l.drop k).getLast? = l.getLast? := by
  constructor
  · cases l with
    | nil => simp at hl; omega
    | cons a l =>
      obtain ⟨j, rfl⟩ : ∃ j, i = j + 1 := ⟨i - 1, by omega⟩
      simp
  · rw [List.getLast?_append_of_ne_nil _ (by simp; omega)]
    rw [List.getLast?_drop, if_neg (by omega)]

theorem JMap.removeAt_ends {m m1 : JMap} {pre post : List (Bytes × JVal)} {name : Bytes} {v : JVal} (h : m.Mirrors (pre ++ (name, v) :: post))
    (h1 : m1.Mirrors (pre ++ post)) (hr : m.removeAt (m.itAt pre) = some m1) :
    m1.tokens.head? = m.tokens.head? ∧ m1.tokens.getLast? = m.tokens.getLast? := by
  have l0 := h.length
  have l1 := h1.length
  have hp : 0 < v.docToks.length := docToks_pos v
  simp only [memberToks_append, memberToks, List.length_append, JVal.toks_length] at l0 l1
  have key : ∃ k, m1.tokens = m.tokens.take (1 + (memberToks pre).length) ++ m.tokens.drop k ∧ 1 + (memberToks pre).length ≤ k := by
    simp only [JMap.removeAt] at hr
    split at hr
    · obtain ⟨x, -, hr⟩ := Option.bind_eq_some_iff.mp hr
      cases hr
      exact ⟨_, rfl, Nat.le_add_right _ _⟩
    · cases hr
      exact ⟨_, List.eraseIdx_eq_take_drop_succ _ _, Nat.le_succ _⟩
  obtain ⟨k, hk, hik⟩ := key
  have hlen := congrArg List.length hk
  simp only [List.length_append, List.length_take, List.length_drop] at hlen
  rw [hk]
  have := cut_ends (l := m.tokens) (x := []) (i := 1 + (memberToks pre).length) (k := k) (by omega) (by omega) (by omega)
  simpa using this

theorem JMap.append_ends {m m1 : JMap} {new : List Tok} (hl : 2 ≤ m.tokens.length) (hr : m.append new = some m1) :
    m1.tokens.head? = m.tokens.head? ∧ m1.tokens.getLast? = m.tokens.getLast? := by
  have key : m1.tokens = m.tokens.take (m.tokens.length - 1) ++ (new.drop 1).dropLast ++ m.tokens.drop (m.tokens.length - 1) := by
    simp only [JMap.append] at hr
    obtain ⟨x, -, hr⟩ := Option.bind_eq_some_iff.mp hr
    obtain ⟨y, -, hr⟩ := Option.bind_eq_some_iff.mp hr
    split at hr
    · cases hr
    · split at hr
      · obtain ⟨z, -, hr⟩ := Option.bind_eq_some_iff.mp hr
        cases hr
        rfl
      · cases hr
        rfl
  rw [key]
  exact cut_ends (by omega) (by omega) (by omega)

/-- The map is the object, with the tokens it has in a text of its own. -/
def JMap.Whole (m : JMap) (ms : List (Bytes × JVal)) : Prop := m.Mirrors ms ∧ m.tokens = (JVal.obj ms).docToks

theorem whole_of_ends {m m1 : JMap} {ms ms1 : List (Bytes × JVal)} (h : m.Whole ms) (h1 : m1.Mirrors ms1)
    (he : m1.tokens.head? = m.tokens.head? ∧ m1.tokens.getLast? = m.tokens.getLast?) : m1.Whole ms1 := by
  refine ⟨h1, ?_⟩
  obtain ⟨n, nt, ct, -, -, ht⟩ := h1.tokens
  obtain ⟨h2, h3⟩ := he
  rw [h.2, ht] at h2 h3
  simp only [objectToks, JVal.docToks, JVal.toks, List.head?_cons, Option.some.injEq, Tok.mk.injEq] at h2
  simp only [objectToks, JVal.docToks, JVal.toks, ← List.cons_append, List.getLast?_concat, Option.some.injEq, Tok.mk.injEq] at h3
  rw [ht]
  simp [objectToks, JVal.docToks, JVal.toks, h2, h3]

theorem JMap.Whole.setValue {m : JMap} {ms : List (Bytes × JVal)} (h : m.Whole ms) (a : SetOp) (ha : a.Ok) (hr : Replaceable a.name ms) :
    ∃ N m', (∀ n, N ≤ n → m.setValue a.t.handler n a.name a.x = some m') ∧ m'.Whole (setMember a.name a.j ms) := by
  obtain ⟨N, hN⟩ := memberTokens_eq a ha
  have hens : m.ensure = some m := by
    obtain ⟨k, ks, hk, _⟩ := h.1.isObject
    simp [JMap.ensure, hk]
  have key : ∃ m1, (do
        let it ← m.find a.name
        if it.index ≠ m.endIndex then m.removeAt it else some m) = some m1 ∧ m1.Whole (removeMember a.name ms) := by
    by_cases hm : a.name ∈ ms.map Prod.fst
    · obtain ⟨pre, v, post, he, hp, hrem⟩ := removeMember_split hm
      subst he
      obtain ⟨m', g1, g2⟩ := h.1.removeAt (hr pre v post rfl hp)
      exact ⟨m', by simp [h.1.find_some hp, h.1.index_ne, g1], by rw [hrem]; exact whole_of_ends h g2 (JMap.removeAt_ends h.1 g2 g1)⟩
    · obtain ⟨it, g1, g2⟩ := h.1.find_missing hm ha.2.2.2.1
      exact ⟨m, by simp [g1, g2], by rw [removeMember_none hm]; exact h⟩
  obtain ⟨m1, k1, k2⟩ := key
  obtain ⟨m2, e1, e2⟩ := k2.1.append a.name a.j
  refine ⟨N, m2, fun n hn => ?_, whole_of_ends k2 e2 (JMap.append_ends (by rw [k2.1.length]; omega) e1)⟩
  simp only [JMap.setValue, hens, Option.bind_eq_bind, Option.bind_some] at k1 ⊢
  obtain ⟨it, f1, f2⟩ := Option.bind_eq_some_iff.mp k1
  simp only [f1, Option.bind_some, hN n hn]
  split at f2
  · next hi => rw [if_pos hi, f2, Option.bind_some, e1]
  · next hi =>
    cases f2
    rw [if_neg hi, e1]

theorem JMap.Whole.setAll {as : List SetOp} {m : JMap} {ms : List (Bytes × JVal)} (h : m.Whole ms) (hs : Safe as ms) :
    ∃ N m', (∀ n, N ≤ n → m.setAll n as = some m') ∧ m'.Whole (setMembers as ms) := by
  induction as generalizing m ms with
  | nil => exact ⟨0, m, fun _ _ => rfl, h⟩
  | cons a as ih =>
    obtain ⟨N, m1, h1, h2⟩ := h.setValue a hs.1 hs.2.1
    obtain ⟨M, m2, g1, g2⟩ := ih h2 hs.2.2
    refine ⟨max N M, m2, fun n hn => ?_, g2⟩
    simp only [JMap.setAll, h1 n (by omega), Option.bind_some]
    exact g1 n (by omega)

end JsonStruct
