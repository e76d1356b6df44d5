import Verif.Lemmas.MapWhole
import Verif.Spec.Edit

/-
The tokens of a map are right even after a call that is affected by the defect of `setValue`: only the metadata is wrong.
-/

namespace JsonStruct

theorem JMap.Whole.removeAt_tokens {m : JMap} {pre post : List (Bytes × JVal)} {name : Bytes} {v : JVal} (h : m.Whole (pre ++ (name, v) :: post)) :
    ∃ m', m.removeAt (m.itAt pre) = some m' ∧ m'.tokens = (JVal.obj (pre ++ post)).docToks ∧ m'.metas ≠ [] := by
  cases hv : v.isContainer with
  | true =>
    obtain ⟨m', h1, h2⟩ := h.1.removeAt (.inl hv)
    have h3 := whole_of_ends h h2 (JMap.removeAt_ends h.1 h2 h1)
    obtain ⟨b, hb⟩ := h2.metas
    exact ⟨m', h1, h3.2, by simp [hb]⟩
  | false =>
    obtain ⟨x, hx⟩ := h.1.metas
    have hc := h.1.complexAt_none (post := (name, v) :: post) (by simp [hv])
    have hne : ¬(1 + (memberToks pre).length = m.complexAt (1 + (memberContainersAt 1 pre).length)) := by omega
    refine ⟨_, by simp only [JMap.removeAt, JMap.itAt, hne, if_false]; rfl, ?_, by simp [hx]⟩
    simp only [h.2, JVal.docToks, JVal.toks, memberToks_append, memberToks]
    rw [List.eraseIdx_eq_take_drop_succ, Nat.add_comm 1]
    have hl : (v.toks name .string).length = 1 := by rw [JVal.toks_length, docToks_scalar hv]
    obtain ⟨k, hk⟩ := List.length_eq_one_iff.mp hl
    simp [hk, List.drop_append]

theorem append_tokens {m : JMap} {ms : List (Bytes × JVal)} (ht : m.tokens = (JVal.obj ms).docToks) (hm : m.metas ≠ []) (name : Bytes) (j : JVal) :
    ∃ m', m.append (JVal.obj [(name, j)]).docToks = some m' ∧ m'.tokens = (JVal.obj (ms ++ [(name, j)])).docToks := by
  have hmf := metaForTokens_value [] .ascii (JVal.obj [(name, j)])
  rw [show (JVal.obj [(name, j)]).toks [] .ascii = (JVal.obj [(name, j)]).docToks from rfl] at hmf
  have hl : m.tokens.length = (memberToks ms).length + 2 := by rw [ht]; simp [JVal.docToks, JVal.toks]
  have hcond : ¬(m.tokens.length = 0 ∨ m.metas = [] ∨ (JVal.obj [(name, j)]).docToks.length < 2) := by
    simp [hl, hm, JVal.docToks, JVal.toks]
  have htok : m.tokens.take (m.tokens.length - 1) ++ ((JVal.obj [(name, j)]).docToks.drop 1).dropLast ++ m.tokens.drop (m.tokens.length - 1) =
      (JVal.obj (ms ++ [(name, j)])).docToks := by
    rw [hl, ht]
    simp only [JVal.docToks, JVal.toks, List.drop_succ_cons, List.drop_zero, List.dropLast_concat,
      show (memberToks ms).length + 2 - 1 = (memberToks ms).length + 1 by omega, List.take_succ_cons]
    rw [List.take_left, List.drop_left]
    simp [memberToks_append]
  rw [JMap.append, hmf]
  simp only [JVal.containers, JVal.containersAt, List.map_cons, Option.bind_eq_bind, Option.bind_some, List.getElem?_cons_zero, hcond,
    if_false, htok]
  cases hj : j.isContainer with
  | true =>
    obtain ⟨es, he⟩ := containersAt_container hj (0 + 1)
    have hcc : (metaOf (0, JVal.obj [(name, j)])).complexChildren ≠ 0 := by simp [metaOf, JVal.kids, hj]
    simp only [memberContainersAt, he, List.append_nil, List.map_cons, List.getElem?_cons_succ, List.getElem?_cons_zero, if_pos hcc,
      Option.bind_some]
    exact ⟨_, rfl, rfl⟩
  | false =>
    have hcc : ¬ (metaOf (0, JVal.obj [(name, j)])).complexChildren ≠ 0 := by simp [metaOf, JVal.kids, hj]
    simp only [if_neg hcc]
    exact ⟨_, rfl, rfl⟩

theorem JMap.Whole.setValue_tokens {m : JMap} {ms : List (Bytes × JVal)} (h : m.Whole ms) (a : SetOp) (ha : a.Ok) :
    ∃ N m', (∀ n, N ≤ n → m.setValue a.t.handler n a.name a.x = some m') ∧ m'.tokens = (JVal.obj (setMember a.name a.j ms)).docToks := by
  obtain ⟨N, hN⟩ := memberTokens_eq a ha
  have hens : m.ensure = some m := by
    obtain ⟨k, ks, hk, _⟩ := h.1.isObject
    simp [JMap.ensure, hk]
  have key : ∃ m1, (do
        let it ← m.find a.name
        if it.index ≠ m.endIndex then m.removeAt it else some m) = some m1 ∧
      m1.tokens = (JVal.obj (removeMember a.name ms)).docToks ∧ m1.metas ≠ [] := by
    by_cases hm : a.name ∈ ms.map Prod.fst
    · obtain ⟨pre, v, post, he, hp, hrem⟩ := removeMember_split hm
      subst he
      obtain ⟨m', g1, g2, g3⟩ := h.removeAt_tokens
      exact ⟨m', by simp [h.1.find_some hp, h.1.index_ne, g1], by rw [hrem]; exact g2, g3⟩
    · obtain ⟨it, g1, g2⟩ := h.1.find_missing hm ha.2.2.2.1
      obtain ⟨b, hb⟩ := h.1.metas
      exact ⟨m, by simp [g1, g2], by rw [removeMember_none hm]; exact h.2, by simp [hb]⟩
  obtain ⟨m1, k1, k2, k3⟩ := key
  obtain ⟨m2, e1, e2⟩ := append_tokens k2 k3 a.name a.j
  refine ⟨N, m2, fun n hn => ?_, e2⟩
  simp only [JMap.setValue, hens, Option.bind_eq_bind, Option.bind_some] at k1 ⊢
  obtain ⟨it, f1, f2⟩ := Option.bind_eq_some_iff.mp k1
  simp only [f1, Option.bind_some, hN n hn]
  split at f2
  · next hi => rw [if_pos hi, f2, Option.bind_some, e1]
  · next hi =>
    cases f2
    rw [if_neg hi, e1]

theorem JMap.Whole.setAll_tokens : ∀ {as : List SetOp} {m : JMap} {ms : List (Bytes × JVal)}, m.Whole ms → SafeButLast as ms →
    ∃ N m', (∀ n, N ≤ n → m.setAll n as = some m') ∧ m'.tokens = (JVal.obj (setMembers as ms)).docToks
  | [], m, ms, h, _ => ⟨0, m, fun _ _ => rfl, h.2⟩
  | [a], m, ms, h, hs => by
    obtain ⟨N, m', h1, h2⟩ := h.setValue_tokens a hs
    exact ⟨N, m', fun n hn => by simp only [JMap.setAll, h1 n hn, Option.bind_some], h2⟩
  | a :: b :: as, m, ms, h, hs => by
    obtain ⟨N, m1, h1, h2⟩ := h.setValue a hs.1 hs.2.1
    obtain ⟨M, m2, g1, g2⟩ := JMap.Whole.setAll_tokens h2 hs.2.2
    refine ⟨max N M, m2, fun n hn => ?_, g2⟩
    rw [JMap.setAll, h1 n (by omega), Option.bind_some]
    exact g1 n (by omega)

theorem safeButLast_ok : ∀ {as : List SetOp} {ms : List (Bytes × JVal)}, SafeButLast as ms → ∀ a ∈ as, a.Ok
  | [], _, _, a, h => by cases h
  | [b], _, hs, a, h => by
    obtain rfl := List.mem_singleton.mp h
    exact hs
  | b :: c :: as, ms, hs, a, h => by
    rcases List.mem_cons.mp h with rfl | h
    · exact hs.1
    · exact safeButLast_ok hs.2.2 a h

/-- What is written for a map depends on its tokens only. -/
theorem tokens_written {m : JMap} {ms : List (Bytes × JVal)} (ht : m.tokens = (JVal.obj ms).docToks) (hg : (JVal.obj ms).Good)
    (hd : (JVal.obj ms).depth ≤ 255) (pretty : Bool) (shift : Nat) :
    ∃ text, serializeStruct jmapH m (userOpts pretty shift 0) = some text ∧ Doc rfcBytes (.obj ms) text := by
  have := (mirrors_new [] (.inr rfl) ms).written hg hd pretty shift
  simpa only [serializeStruct, serializeWith, jmapH, ht, JVal.docToks] using this

end JsonStruct
