import Verif.Lemmas.Meta
import Verif.Spec.Map
import Verif.Lemmas.Writes
import Verif.Lemmas.RoundTrip
import Verif.Lemmas.Parse

/- The invariant of `JS::Map` and what lookup and `setValue` make of it. -/

namespace JsonStruct

/-- The tokens of an object. (Those of `JVal.toks`, but for the type of the empty name of the closing bracket.) -/
def objectToks (n : Bytes) (nt ct : Ty) (ms : List (Bytes × JVal)) : List Tok :=
  ⟨n, nt, b!"{", .objectStart⟩ :: (memberToks ms ++ [⟨[], ct, b!"}", .objectEnd⟩])

/-- The tokens are those of the object, the metadata is exact but for `has_data` of the object itself. -/
structure JMap.Mirrors (m : JMap) (ms : List (Bytes × JVal)) : Prop where
  tokens : ∃ n nt ct, NameTy nt ∧ NameTy ct ∧ m.tokens = objectToks n nt ct ms
  metas : ∃ b, m.metas = { metaOf (0, .obj ms) with hasData := b } :: (memberContainersAt 1 ms).map metaOf

theorem memberContainersAt_append (i : Nat) (a b : List (Bytes × JVal)) :
    memberContainersAt i (a ++ b) = memberContainersAt i a ++ memberContainersAt (i + (memberToks a).length) b := by
  induction a generalizing i with
  | nil => simp [memberToks, memberContainersAt]
  | cons e a ih =>
    obtain ⟨n, v⟩ := e
    simp only [List.cons_append, memberContainersAt, memberToks, ih, List.append_assoc, List.length_append, JVal.toks_length, Nat.add_assoc]

theorem docToks_pos (v : JVal) : 0 < v.docToks.length := by
  cases v with
  | bool b => cases b <;> simp [JVal.docToks, JVal.toks]
  | _ => simp [JVal.docToks, JVal.toks]

/-- Containers lie behind the place the tokens start at. -/
theorem memberContainersAt_ge {i : Nat} {ms : List (Bytes × JVal)} : ∀ e ∈ memberContainersAt i ms, i ≤ e.1 := by
  intro e he
  have := memberContainersAt_add 0 i ms
  rw [Nat.zero_add] at this
  rw [this] at he
  obtain ⟨e', _, rfl⟩ := List.mem_map.mp he
  simp

theorem containersAt_scalar {v : JVal} (h : v.isContainer = false) (i : Nat) : v.containersAt i = [] := by
  cases v <;> simp_all [JVal.isContainer, JVal.containersAt]

theorem containersAt_container {v : JVal} (h : v.isContainer = true) (i : Nat) : ∃ es, v.containersAt i = (i, v) :: es := by
  cases v <;> simp_all [JVal.isContainer, JVal.containersAt]

theorem docToks_scalar {v : JVal} (h : v.isContainer = false) : v.docToks.length = 1 := by
  cases v with
  | bool b => cases b <;> rfl
  | _ => first | rfl | simp_all [JVal.isContainer]

theorem headTok_spec (n : Bytes) (v : JVal) : ∃ ks, v.toks n .string = headTok n v :: ks ∧ (headTok n v).name = n ∧ ks.length + 1 = v.docToks.length := by
  cases v with
  | bool b => cases b <;> simp [JVal.toks, headTok, JVal.docToks]
  | _ => simp [JVal.toks, headTok, JVal.docToks]

/-- The iterator at the member behind `pre`. -/
def JMap.itAt (m : JMap) (pre : List (Bytes × JVal)) : It :=
  ⟨1 + (memberToks pre).length, 1 + (memberContainersAt 1 pre).length, m.complexAt (1 + (memberContainersAt 1 pre).length)⟩

theorem JMap.begin_itAt (m : JMap) : m.begin = m.itAt [] := by simp [JMap.begin, JMap.itAt, memberToks, memberContainersAt]

theorem JMap.Mirrors.length {m : JMap} {ms : List (Bytes × JVal)} (h : m.Mirrors ms) : m.tokens.length = (memberToks ms).length + 2 := by
  obtain ⟨n, nt, ct, _, _, ht⟩ := h.tokens
  simp [ht, objectToks]

/-- The metadata at the member behind `pre`. -/
theorem JMap.Mirrors.metaAt {m : JMap} {pre post : List (Bytes × JVal)} (h : m.Mirrors (pre ++ post)) (k : Nat) :
    m.metas[1 + (memberContainersAt 1 pre).length + k]? = ((memberContainersAt (1 + (memberToks pre).length) post).map metaOf)[k]? := by
  obtain ⟨x, hx⟩ := h.metas
  rw [hx, memberContainersAt_append, List.map_append, show 1 + (memberContainersAt 1 pre).length + k = (memberContainersAt 1 pre).length + k + 1 by omega,
    List.getElem?_cons_succ, List.getElem?_append_right (by simp)]
  simp

theorem JMap.Mirrors.complexAt_container {m : JMap} {pre post : List (Bytes × JVal)} {n : Bytes} {v : JVal} (h : m.Mirrors (pre ++ (n, v) :: post))
    (hv : v.isContainer = true) : m.complexAt (1 + (memberContainersAt 1 pre).length) = 1 + (memberToks pre).length := by
  have := h.metaAt 0
  obtain ⟨es, he⟩ := containersAt_container hv (1 + (memberToks pre).length)
  simp only [Nat.add_zero, memberContainersAt, he, List.cons_append, List.map_cons, List.getElem?_cons_zero] at this
  simp [JMap.complexAt, this, metaOf]

theorem JMap.Mirrors.complexAt_none {m : JMap} {pre post : List (Bytes × JVal)} (h : m.Mirrors (pre ++ post))
    (hp : ∀ e ∈ post.head?, e.2.isContainer = false) : 1 + (memberToks pre).length < m.complexAt (1 + (memberContainersAt 1 pre).length) := by
  have hm := h.metaAt 0
  have hl := h.length
  have : ∀ e ∈ memberContainersAt (1 + (memberToks pre).length) post, 1 + (memberToks pre).length < e.1 := by
    cases post with
    | nil => simp [memberContainersAt]
    | cons e post =>
      obtain ⟨n, v⟩ := e
      have hv : v.isContainer = false := hp (n, v) (by simp)
      intro e he
      rw [memberContainersAt, containersAt_scalar hv, List.nil_append, docToks_scalar hv] at he
      have := memberContainersAt_ge e he
      omega
  simp only [Nat.add_zero] at hm
  simp only [JMap.complexAt, hm]
  cases hc : memberContainersAt (1 + (memberToks pre).length) post with
  | nil => simp [memberToks_append] at hl ⊢; omega
  | cons e es =>
    simp only [List.map_cons, List.getElem?_cons_zero, metaOf]
    exact this e (by simp [hc])

/-- The iterator steps from member to member. -/
theorem JMap.Mirrors.advance {m : JMap} {pre post : List (Bytes × JVal)} {n : Bytes} {v : JVal} (h : m.Mirrors (pre ++ (n, v) :: post)) :
    m.advance (m.itAt pre) = some (m.itAt (pre ++ [(n, v)])) := by
  have h1 : (memberToks (pre ++ [(n, v)])).length = (memberToks pre).length + v.docToks.length := by
    simp [memberToks_append, memberToks, JVal.toks_length]
  have h2 : (memberContainersAt 1 (pre ++ [(n, v)])).length = (memberContainersAt 1 pre).length + v.containers.length := by
    simp [memberContainersAt_append, memberContainersAt, containersAt_length]
  cases hv : v.isContainer with
  | true =>
    have hm := h.metaAt 0
    obtain ⟨es, he⟩ := containersAt_container hv (1 + (memberToks pre).length)
    simp only [Nat.add_zero, memberContainersAt, he, List.cons_append, List.map_cons, List.getElem?_cons_zero] at hm
    simp only [JMap.advance, JMap.itAt, h.complexAt_container hv, if_true, hm, h1, h2, metaOf, Nat.add_assoc]
  | false =>
    have hc := h.complexAt_none (post := (n, v) :: post) (by simp [hv])
    have hne : ¬(1 + (memberToks pre).length = m.complexAt (1 + (memberContainersAt 1 pre).length)) := by omega
    have h3 : v.containers.length = 0 := by rw [JVal.containers, containersAt_scalar hv]; rfl
    simp only [JMap.advance, JMap.itAt, hne, if_false, h1, h2, h3, docToks_scalar hv, Nat.add_zero, Nat.add_assoc]

theorem JMap.Mirrors.advance_last {m : JMap} {ms : List (Bytes × JVal)} (h : m.Mirrors ms) :
    ∃ it, m.advance (m.itAt ms) = some it ∧ it.index = m.endIndex := by
  have hc := JMap.Mirrors.complexAt_none (pre := ms) (post := []) (by simpa using h) (by simp)
  have hne : ¬(1 + (memberToks ms).length = m.complexAt (1 + (memberContainersAt 1 ms).length)) := by omega
  refine ⟨_, by simp only [JMap.advance, JMap.itAt, hne, if_false]; rfl, ?_⟩
  simp only [JMap.endIndex, h.length]
  omega

theorem JMap.Mirrors.tokenAt {m : JMap} {pre post : List (Bytes × JVal)} {n : Bytes} {v : JVal} (h : m.Mirrors (pre ++ (n, v) :: post)) :
    m.tokens[1 + (memberToks pre).length]? = some (headTok n v) := by
  obtain ⟨_, _, _, _, _, ht⟩ := h.tokens
  obtain ⟨ks, hk, _⟩ := headTok_spec n v
  rw [ht, Nat.add_comm]
  simp only [objectToks, memberToks_append, memberToks, hk, List.getElem?_cons_succ, List.append_assoc]
  rw [List.getElem?_append_right (Nat.le_refl _)]
  simp

theorem JMap.Mirrors.tokenLast {m : JMap} {ms : List (Bytes × JVal)} (h : m.Mirrors ms) :
    ∃ ct, NameTy ct ∧ m.tokens[1 + (memberToks ms).length]? = some ⟨[], ct, b!"}", .objectEnd⟩ := by
  obtain ⟨_, _, ct, _, hct, ht⟩ := h.tokens
  refine ⟨ct, hct, ?_⟩
  rw [ht, Nat.add_comm]
  simp only [objectToks, List.getElem?_cons_succ]
  rw [List.getElem?_append_right (Nat.le_refl _)]
  simp

theorem JMap.Mirrors.index_ne {m : JMap} {pre post : List (Bytes × JVal)} (h : m.Mirrors (pre ++ post)) : (m.itAt pre).index ≠ m.endIndex := by
  have := h.length
  simp only [memberToks_append, List.length_append] at this
  simp only [JMap.itAt, JMap.endIndex, this]
  omega

theorem JMap.Mirrors.visit {m : JMap} {pre post : List (Bytes × JVal)} (h : m.Mirrors (pre ++ post)) {n : Nat} (hn : post.length + 2 ≤ n) :
    ∃ ct, NameTy ct ∧ m.visit n (m.itAt pre) = some (post.map (fun e => headTok e.1 e.2) ++ [⟨[], ct, b!"}", .objectEnd⟩]) := by
  induction post generalizing pre n with
  | nil =>
    rw [List.append_nil] at h
    obtain ⟨it, h1, h2⟩ := h.advance_last
    match n, hn with
    | n + 2, _ =>
      have hne : (m.itAt pre).index ≠ m.endIndex := JMap.Mirrors.index_ne (post := []) (by simpa using h)
      obtain ⟨ct, hct, ht⟩ := h.tokenLast
      have ht : m.tokens[(m.itAt pre).index]? = _ := ht
      exact ⟨ct, hct, by simp [JMap.visit, hne, ht, h1, h2]⟩
  | cons e post ih =>
    obtain ⟨nm, v⟩ := e
    match n, hn with
    | n + 1, hn =>
      have ht : m.tokens[(m.itAt pre).index]? = _ := h.tokenAt
      obtain ⟨ct, hct, this⟩ := ih (pre := pre ++ [(nm, v)]) (by simpa using h) (n := n) (by simp at hn; omega)
      exact ⟨ct, hct, by simp [JMap.visit, h.index_ne, ht, h.advance, this]⟩

theorem JMap.Mirrors.find_from {m : JMap} {pre post : List (Bytes × JVal)} {name : Bytes} {v : JVal} {rest : List (Bytes × JVal)}
    (h : m.Mirrors (pre ++ (post ++ (name, v) :: rest))) (hp : name ∉ post.map Prod.fst) {n : Nat} (hn : post.length + 2 ≤ n) :
    m.findFrom name n (m.itAt pre) = some (m.itAt (pre ++ post)) := by
  induction post generalizing pre n with
  | nil =>
    match n, hn with
    | n + 1, _ =>
      have ht : m.tokens[(m.itAt pre).index]? = _ := JMap.Mirrors.tokenAt (post := rest) (by simpa using h)
      obtain ⟨_, _, hname, _⟩ := headTok_spec name v
      simp [JMap.findFrom, h.index_ne, ht, hname]
  | cons e post ih =>
    obtain ⟨nm, w⟩ := e
    match n, hn with
    | n + 1, hn =>
      have h' : m.Mirrors (pre ++ (nm, w) :: (post ++ (name, v) :: rest)) := by simpa using h
      have ht : m.tokens[(m.itAt pre).index]? = _ := h'.tokenAt
      obtain ⟨_, _, hname, _⟩ := headTok_spec nm w
      have hne : nm ≠ name := by simp only [List.map_cons, List.mem_cons, not_or] at hp; exact fun hc => hp.1 hc.symm
      have := ih (pre := pre ++ [(nm, w)]) (by simpa using h) (by simp only [List.map_cons, List.mem_cons, not_or] at hp; exact hp.2) (n := n)
        (by simp at hn; omega)
      simp [JMap.findFrom, h.index_ne, ht, hname, hne, h'.advance, this]

theorem JMap.Mirrors.find_none {m : JMap} {pre post : List (Bytes × JVal)} {name : Bytes} (h : m.Mirrors (pre ++ post))
    (hp : name ∉ post.map Prod.fst) (hne : name ≠ []) {n : Nat} (hn : post.length + 2 ≤ n) :
    ∃ it, m.findFrom name n (m.itAt pre) = some it ∧ it.index = m.endIndex := by
  induction post generalizing pre n with
  | nil =>
    rw [List.append_nil] at h
    obtain ⟨it, h1, h2⟩ := h.advance_last
    match n, hn with
    | n + 2, _ =>
      have hi : (m.itAt pre).index ≠ m.endIndex := JMap.Mirrors.index_ne (post := []) (by simpa using h)
      obtain ⟨ct, hct, ht⟩ := h.tokenLast
      have ht : m.tokens[(m.itAt pre).index]? = _ := ht
      exact ⟨it, by simp [JMap.findFrom, hi, ht, h1, h2, Ne.symm hne], h2⟩
  | cons e post ih =>
    obtain ⟨nm, w⟩ := e
    match n, hn with
    | n + 1, hn =>
      have ht : m.tokens[(m.itAt pre).index]? = _ := h.tokenAt
      obtain ⟨_, _, hname, _⟩ := headTok_spec nm w
      have hn' : nm ≠ name := by simp only [List.map_cons, List.mem_cons, not_or] at hp; exact fun hc => hp.1 hc.symm
      obtain ⟨it, g1, g2⟩ := ih (pre := pre ++ [(nm, w)]) (by simpa using h)
        (by simp only [List.map_cons, List.mem_cons, not_or] at hp; exact hp.2) (n := n) (by simp at hn; omega)
      exact ⟨it, by simp [JMap.findFrom, h.index_ne, ht, hname, hn', h.advance, g1], g2⟩

theorem members_le_toks (ms : List (Bytes × JVal)) : ms.length ≤ (memberToks ms).length := by
  induction ms with
  | nil => simp
  | cons e ms ih =>
    obtain ⟨n, v⟩ := e
    have := docToks_pos v
    simp only [memberToks, List.length_cons, List.length_append, JVal.toks_length]
    omega

theorem JMap.Mirrors.find_some {m : JMap} {pre post : List (Bytes × JVal)} {name : Bytes} {v : JVal} (h : m.Mirrors (pre ++ (name, v) :: post))
    (hp : name ∉ pre.map Prod.fst) : m.find name = some (m.itAt pre) := by
  have h1 := h.length
  have h2 := members_le_toks (pre ++ (name, v) :: post)
  simp only [List.length_append] at h2
  rw [JMap.find, m.begin_itAt]
  exact JMap.Mirrors.find_from (pre := []) (rest := post) (v := v) (by simpa using h) hp (by omega)

theorem JMap.Mirrors.find_missing {m : JMap} {ms : List (Bytes × JVal)} {name : Bytes} (h : m.Mirrors ms) (hp : name ∉ ms.map Prod.fst)
    (hne : name ≠ []) : ∃ it, m.find name = some it ∧ it.index = m.endIndex := by
  have h1 := h.length
  have h2 := members_le_toks ms
  rw [JMap.find, m.begin_itAt]
  exact JMap.Mirrors.find_none (pre := []) (by simpa using h) hp hne (by omega)

/-! ### setValue -/

/-- What a member adds to the counts of its object. -/
theorem object_counts (pre post : List (Bytes × JVal)) (name : Bytes) (v : JVal) :
    (JVal.obj (pre ++ (name, v) :: post)).docToks.length = (JVal.obj (pre ++ post)).docToks.length + v.docToks.length ∧
    (JVal.obj (pre ++ (name, v) :: post)).containers.length = (JVal.obj (pre ++ post)).containers.length + v.containers.length ∧
    (JVal.obj (pre ++ (name, v) :: post)).kids.length = (JVal.obj (pre ++ post)).kids.length + 1 ∧
    ((JVal.obj (pre ++ (name, v) :: post)).kids.filter JVal.isContainer).length =
      ((JVal.obj (pre ++ post)).kids.filter JVal.isContainer).length + if v.isContainer then 1 else 0 := by
  refine ⟨?_, ?_, ?_, ?_⟩
  · simp only [JVal.docToks, JVal.toks, memberToks_append, memberToks, List.length_cons, List.length_append, JVal.toks_length]
    omega
  · simp only [JVal.containers, JVal.containersAt, memberContainersAt_append, memberContainersAt, List.length_cons, List.length_append]
    rw [containersAt_length, memberContainersAt_length (_ + _ + _), memberContainersAt_length (_ + (memberToks pre).length)]
    simp only [JVal.containers]
    omega
  · simp [JVal.kids]
    omega
  · simp only [JVal.kids, List.map_append, List.map_cons, List.filter_append, List.filter_cons, List.length_append]
    split <;> simp <;> omega

theorem JMap.Mirrors.removeAt {m : JMap} {pre post : List (Bytes × JVal)} {name : Bytes} {v : JVal} (h : m.Mirrors (pre ++ (name, v) :: post))
    (hr : v.isContainer = true ∨ ∀ e ∈ post, e.2.isContainer = false) : ∃ m', m.removeAt (m.itAt pre) = some m' ∧ m'.Mirrors (pre ++ post) := by
  obtain ⟨n0, nt, ct, hnt, hct, ht⟩ := h.tokens
  obtain ⟨x, hx⟩ := h.metas
  have htok : ∀ k, (memberToks pre).length + 1 + v.docToks.length = k →
      m.tokens.take ((memberToks pre).length + 1) ++ m.tokens.drop k = objectToks n0 nt ct (pre ++ post) := by
    rintro k rfl
    rw [ht]
    simp only [objectToks, memberToks_append, memberToks, List.append_assoc]
    rw [List.take_succ_cons, List.take_append, show (memberToks pre).length + 1 + v.docToks.length = ((memberToks pre).length + v.docToks.length) + 1 by omega,
      List.drop_succ_cons, List.drop_append, List.drop_append]
    simp only [Nat.sub_self, List.take_zero, List.append_nil, List.take_length, JVal.toks_length]
    rw [List.drop_eq_nil_of_le (by omega), List.drop_eq_nil_of_le (by simp [JVal.toks_length])]
    simp
  cases hv : v.isContainer with
  | true =>
    have hm := h.metaAt 0
    obtain ⟨es, he⟩ := containersAt_container hv (1 + (memberToks pre).length)
    simp only [Nat.add_zero, memberContainersAt, he, List.cons_append, List.map_cons, List.getElem?_cons_zero] at hm
    have hm' : ∀ f, (m.metas.modify 0 f)[1 + (memberContainersAt 1 pre).length]? = some (metaOf (1 + (memberToks pre).length, v)) := by
      intro f; rw [List.getElem?_modify, hm]; simp; omega
    refine ⟨_, by
      simp only [JMap.removeAt, JMap.itAt, h.complexAt_container hv, if_true]
      rw [hm']
      rfl, ⟨n0, nt, ct, hnt, hct, ?_⟩, ?_⟩
    · simp only [metaOf]
      rw [Nat.add_comm 1]
      exact htok _ rfl
    · simp only [metaOf, hx, List.modify_zero_cons, Nat.add_comm 1 (memberContainersAt 1 pre).length, List.take_succ_cons, List.cons_append,
        Nat.add_right_comm _ 1, List.drop_succ_cons]
      refine ⟨x, ?_⟩
      refine congr (congrArg List.cons ?_) ?_
      · obtain ⟨c1, c2, c3, c4⟩ := object_counts pre post name v
        rw [hv, if_pos rfl] at c4
        simp only [JMeta.mk.injEq, and_true, true_and]
        omega
      have htk : ((memberContainersAt 1 (pre ++ (name, v) :: post)).map metaOf).take (memberContainersAt 1 pre).length =
          (memberContainersAt 1 pre).map metaOf := by
        rw [memberContainersAt_append, List.map_append, List.take_left' (by simp)]
      have hd : ((memberContainersAt 1 (pre ++ (name, v) :: post)).map metaOf).drop ((memberContainersAt 1 pre).length + v.containers.length) =
          (memberContainersAt (1 + (memberToks pre).length + v.docToks.length) post).map metaOf := by
        rw [memberContainersAt_append, memberContainersAt, ← List.append_assoc, List.map_append, List.drop_left' (by simp [containersAt_length])]
      rw [htk, hd, memberContainersAt_append, List.map_append, memberContainersAt_add, List.map_map, List.map_map]
      congr 1
      apply List.map_congr_left
      intro e _
      simp [metaOf]
  | false =>
    have hpost : ∀ i, memberContainersAt i post = [] := by
      have := hr.resolve_left (by simp [hv])
      clear hr h ht hx htok
      induction post with
      | nil => simp [memberContainersAt]
      | cons e post ih =>
        obtain ⟨a, b⟩ := e
        intro i
        rw [memberContainersAt, containersAt_scalar (this (a, b) (by simp)), ih (fun e he => this e (by simp [he]))]
        rfl
    have hc := h.complexAt_none (post := (name, v) :: post) (by simp [hv])
    have hne : ¬(1 + (memberToks pre).length = m.complexAt (1 + (memberContainersAt 1 pre).length)) := by omega
    refine ⟨_, by simp only [JMap.removeAt, JMap.itAt, hne, if_false]; rfl, ⟨n0, nt, ct, hnt, hct, ?_⟩, ?_⟩
    · rw [List.eraseIdx_eq_take_drop_succ, Nat.add_comm 1]
      exact htok _ (by rw [docToks_scalar hv])
    · simp only [hx, List.modify_zero_cons]
      refine ⟨x, congr (congrArg List.cons ?_) (congrArg _ ?_)⟩
      · obtain ⟨c1, c2, c3, c4⟩ := object_counts pre post name v
        rw [hv, if_neg (by simp)] at c4
        rw [docToks_scalar hv] at c1
        rw [show v.containers = [] from containersAt_scalar hv 0] at c2
        simp only [metaOf, JMeta.mk.injEq, and_true, true_and]
        simp only [List.length_nil] at c2
        omega
      simp [memberContainersAt_append, memberContainersAt, hpost, containersAt_scalar hv]

theorem JMap.Mirrors.append {m : JMap} {ms : List (Bytes × JVal)} (h : m.Mirrors ms) (name : Bytes) (j : JVal) :
    ∃ m', m.append (JVal.obj [(name, j)]).docToks = some m' ∧ m'.Mirrors (ms ++ [(name, j)]) := by
  obtain ⟨n0, nt, ct, hnt, hct, ht⟩ := h.tokens
  obtain ⟨x, hx⟩ := h.metas
  have hmf := metaForTokens_value [] .ascii (JVal.obj [(name, j)])
  have hl := h.length
  have hcond : ¬(m.tokens.length = 0 ∨ m.metas = [] ∨ (JVal.obj [(name, j)]).docToks.length < 2) := by
    simp [hx, JVal.docToks, JVal.toks]
    simp only [List.ne_nil_iff_length_pos, hl]
    omega
  have htok : m.tokens.take (m.tokens.length - 1) ++ ((JVal.obj [(name, j)]).docToks.drop 1).dropLast ++ m.tokens.drop (m.tokens.length - 1) =
      objectToks n0 nt ct (ms ++ [(name, j)]) := by
    rw [hl, ht]
    simp only [JVal.docToks, JVal.toks, objectToks, List.drop_succ_cons, List.drop_zero, List.dropLast_concat, Nat.add_sub_cancel,
      show (memberToks ms).length + 2 - 1 = (memberToks ms).length + 1 by omega, List.take_succ_cons]
    rw [List.take_left, List.drop_left]
    simp [memberToks_append]
  rw [show (JVal.obj [(name, j)]).toks [] .ascii = (JVal.obj [(name, j)]).docToks from rfl] at hmf
  rw [JMap.append, hmf]
  rw [hx] at hcond
  simp only [JVal.containers, JVal.containersAt, List.map_cons, Option.bind_eq_bind, Option.bind_some, List.getElem?_cons_zero, hcond,
    if_false, htok, hx, List.modify_zero_cons]
  cases hj : j.isContainer with
  | true =>
    obtain ⟨es, he⟩ := containersAt_container hj (0 + 1)
    have hcc : (metaOf (0, JVal.obj [(name, j)])).complexChildren ≠ 0 := by simp [metaOf, JVal.kids, hj]
    simp only [memberContainersAt, he, List.append_nil, List.map_cons, List.getElem?_cons_succ, List.getElem?_cons_zero, if_pos hcc,
      Option.bind_some, List.modify_zero_cons]
    refine ⟨_, rfl, ⟨n0, nt, ct, hnt, hct, rfl⟩, ?_⟩
    simp only [List.cons_append]
    refine ⟨x, congr (congrArg List.cons ?_) ?_⟩
    · obtain ⟨c1, c2, c3, c4⟩ := object_counts ms [] name j
      rw [hj, if_pos rfl] at c4
      rw [List.append_nil] at c1 c2 c3 c4
      simp only [metaOf, JMeta.mk.injEq, and_true, true_and]
      omega
    rw [memberContainersAt_append, List.map_append]
    congr 1
    have h2 : memberContainersAt (1 + (memberToks ms).length) [(name, j)] = ((0 + 1, j) :: es).map fun e => (e.1 + (memberToks ms).length, e.2) := by
      rw [← he, ← JVal.containersAt_add]
      simp [memberContainersAt]
    rw [h2, hl, List.drop_succ_cons, List.drop_zero, ← List.map_cons, List.map_map, List.map_map]
    apply List.map_congr_left
    intro e _
    simp [metaOf]
  | false =>
    have hcc : ¬ (metaOf (0, JVal.obj [(name, j)])).complexChildren ≠ 0 := by simp [metaOf, JVal.kids, hj]
    simp only [if_neg hcc, List.modify_zero_cons]
    refine ⟨_, rfl, ⟨n0, nt, ct, hnt, hct, rfl⟩, ?_⟩
    dsimp only
    refine ⟨x, congr (congrArg List.cons ?_) ?_⟩
    · obtain ⟨c1, c2, c3, c4⟩ := object_counts ms [] name j
      rw [hj, if_neg (by simp)] at c4
      rw [List.append_nil] at c1 c2 c3 c4
      rw [docToks_scalar hj] at c1
      rw [show j.containers = [] from containersAt_scalar hj 0] at c2
      simp only [metaOf, JMeta.mk.injEq, and_true, true_and]
      simp only [List.length_nil] at c2
      omega
    simp [memberContainersAt_append, memberContainersAt, containersAt_scalar hj]

theorem mirrors_new (n : Bytes) {nt : Ty} (hnt : nt = .string ∨ nt = .ascii) (ms : List (Bytes × JVal)) :
    JMap.Mirrors ⟨(JVal.obj ms).toks n nt, (JVal.obj ms).containers.map metaOf⟩ ms :=
  ⟨⟨n, nt, .ascii, hnt, .inr rfl, rfl⟩, ⟨(metaOf (0, .obj ms)).hasData, by simp [JVal.containers, JVal.containersAt]⟩⟩


/-! ### Reading from a token vector -/

def Tok.token (k : Tok) : Token := ⟨⟨.lit, k.name⟩, ⟨.lit, k.value⟩, k.nameType, k.valueType⟩

theorem delivers_parsed {ts : List Token} : ∀ (j : Nat) (t : Tz), t.scopes = [] → t.parsed = some ts → t.cursor + j = ts.length →
    Delivers t ((ts.drop t.cursor).map Token.tok)
  | 0, t, _, _, h => by
    rw [List.drop_eq_nil_of_le (by omega)]
    trivial
  | j + 1, t, hs, hp, h => by
    have hlt : t.cursor < ts.length := by omega
    have hget : ts[t.cursor]? = some ts[t.cursor] := List.getElem?_eq_getElem hlt
    rw [List.drop_eq_getElem_cons hlt, List.map_cons]
    by_cases he : t.cursor + 1 = ts.length
    · refine ⟨{ t with cursor := 0, parsed := none, scopes := [] }, ts[t.cursor], fun next => ?_, rfl, ?_⟩
      · simp [Tz.nextToken, Tz.nextParsed, hs, hp, hget, he, handleScope]
      · rw [List.drop_eq_nil_of_le (by omega)]
        trivial
    · refine ⟨{ t with cursor := t.cursor + 1, scopes := [] }, ts[t.cursor], fun next => ?_, rfl, ?_⟩
      · simp [Tz.nextToken, Tz.nextParsed, hs, hp, hget, he, handleScope]
      · exact delivers_parsed j { t with cursor := t.cursor + 1, scopes := [] } rfl hp (by simp; omega)

theorem delivers_resetTokens (t : Tz) (hs : t.scopes = []) (ks : List Tok) (i : Nat) (hi : i ≤ ks.length) :
    Delivers (t.resetTokens (ks.map Tok.token) i) (ks.drop i) := by
  have := delivers_parsed (ts := ks.map Tok.token) (ks.length - i) (t.resetTokens (ks.map Tok.token) i) hs rfl (by
    simp [Tz.resetTokens, Tz.resetForNewToken, Tz.resetForNewValue]; omega)
  have hc : (t.resetTokens (ks.map Tok.token) i).cursor = i := rfl
  rw [hc, ← List.map_drop, List.map_map] at this
  simpa [show Token.tok ∘ Tok.token = id from rfl] using this

/-- The context after `nextToken`, if tokens are delivered. -/
theorem next_stream {c : Ctx} {ks : List Tok} {k : Tok} (h : Delivers c.tz (k :: ks)) :
    c.next.Stream (k :: ks) ∧ c.next.popts = c.popts ∧ c.next.missing = c.missing ∧ c.next.unassigned = c.unassigned := by
  obtain ⟨t', tok, h1, h2, h3⟩ := h
  have : c.next = { c with tz := t', token := tok, error := .noError } := by simp only [Ctx.next, h1]
  rw [this]
  exact ⟨⟨rfl, k, ks, rfl, h2, h3⟩, rfl, rfl, rfl⟩

theorem JMap.Mirrors.drop_toks {m : JMap} {pre post : List (Bytes × JVal)} {name : Bytes} {v : JVal} (h : m.Mirrors (pre ++ (name, v) :: post)) :
    ∃ ct, m.tokens.drop (1 + (memberToks pre).length) = v.toks name .string ++ (memberToks post ++ [⟨[], ct, b!"}", .objectEnd⟩]) := by
  obtain ⟨_, _, ct, _, _, ht⟩ := h.tokens
  refine ⟨ct, ?_⟩
  rw [ht, Nat.add_comm]
  simp only [objectToks, memberToks_append, memberToks, List.drop_succ_cons, List.append_assoc]
  rw [List.drop_left]

theorem JMap.Mirrors.isObject {m : JMap} {ms : List (Bytes × JVal)} (h : m.Mirrors ms) : ∃ k ks, m.tokens = k :: ks ∧ k.valueType = .objectStart := by
  obtain ⟨_, _, _, _, _, ht⟩ := h.tokens
  exact ⟨_, _, ht, rfl⟩

theorem JMap.Mirrors.cast {m : JMap} {pre post : List (Bytes × JVal)} {name : Bytes} {v : JVal} (h : m.Mirrors (pre ++ (name, v) :: post))
    (hp : name ∉ pre.map Prod.fst) {hd : Handler T} {d : Dec T} (hs : hd.Sem d) (c : Ctx) (old : T) (r : Res T) (hsc : c.tz.scopes = [])
    (hr : d c.popts old (.val (name, .string) v) = some r) : m.Casts hd name c old r := by
  obtain ⟨k, ks, hk, hkt⟩ := h.isObject
  have hlen := h.length
  have hdel := delivers_resetTokens c.tz hsc m.tokens (1 + (memberToks pre).length) (by
    rw [hlen, memberToks_append]; simp; omega)
  obtain ⟨ct, hdt⟩ := h.drop_toks
  rw [hdt] at hdel
  obtain ⟨ks', hks, _⟩ := headTok_spec name v
  rw [hks] at hdel
  obtain ⟨g1, g2, g3, g4⟩ := next_stream (c := { c with tz := c.tz.resetTokens (m.tokens.map Tok.token) (1 + (memberToks pre).length) }) hdel
  obtain ⟨N, c', e1, e2, _⟩ := hs _ old (.val (name, .string) v) (memberToks post ++ [⟨[], ct, b!"}", .objectEnd⟩]) r (by
    simp only [Item.toks, hks]; exact g1) (by rw [g2]; exact hr)
  refine ⟨N, c', fun n hn => ?_, ?_, ?_⟩
  · have := h.find_some hp
    have hne : (m.itAt pre).index ≠ m.endIndex := h.index_ne
    rw [JMap.castTo, hk]
    simp only [hkt, this, ne_eq, not_true, if_false, Option.bind_eq_bind, Option.bind_some]
    rw [if_pos hne]
    exact e1 n hn
  · rw [e2.missing, g3]
  · rw [e2.unassigned, g4]

theorem JMap.Mirrors.written {m : JMap} {ms : List (Bytes × JVal)} (h : m.Mirrors ms) (hg : (JVal.obj ms).Good) (hd : (JVal.obj ms).depth ≤ 255)
    (pretty : Bool) (shift : Nat) : ∃ text, serializeStruct jmapH m (userOpts pretty shift 0) = some text ∧ Doc rfcBytes (.obj ms) text := by
  obtain ⟨n0, nt, ct, hnt, hct, ht⟩ := h.tokens
  have hw := written_text (.obj ms) hg pretty shift 0 (by omega) []
  refine ⟨_, ?_, hw⟩
  simp only [objectToks] at ht
  simp only [serializeStruct, serializeWith, jmapH, ht, putTok, Option.bind_eq_bind, Option.bind_some]
  obtain ⟨k', hk'⟩ := putToks_writes (memberToks ms ++ [⟨[], ct, b!"}", .objectEnd⟩]) ⟨[], nt, b!"{", .objectStart⟩
    ((Ser.onString (userOpts pretty shift 0) (startString []).length).write ⟨[], nt, b!"{", .objectStart⟩).2
  simp only [hk', Option.bind_some, Option.map_some, Option.some.injEq]
  simp only [JVal.docToks, JVal.toks, Ser.writeAll, writeAll_snd_append]
  rw [write_names rfl hnt (.inr rfl), write_names (writeAll_conv (write_conv rfl)) hct (.inr rfl)]

theorem JMap.Mirrors.shows {m : JMap} {ms : List (Bytes × JVal)} (h : m.Mirrors ms) : m.Shows ms where
  visit n hn := by
    rw [m.begin_itAt]
    obtain ⟨ct, _, hv⟩ := JMap.Mirrors.visit (pre := []) (by simpa using h) hn
    exact ⟨_, hv, rfl, rfl⟩
  find_first pre name v post he hp := by
    subst he
    obtain ⟨ct, hdt⟩ := h.drop_toks
    exact ⟨m.itAt pre, h.find_some hp, h.index_ne, rfl, by
      rw [show (m.itAt pre).index = 1 + (memberToks pre).length from rfl, hdt, List.take_left' (JVal.toks_length ..)]⟩
  find_none name hp hne := h.find_missing hp hne
  cast T t pre name v post he hp c old r hsc hr := by
    subst he
    exact h.cast hp t.sem c old r hsc hr
  cast_none T t name hp hne c old := by
    obtain ⟨k, ks, hk, hkt⟩ := h.isObject
    obtain ⟨it, h1, h2⟩ := h.find_missing hp hne
    refine ⟨0, { c with error := .keyNotFound }, fun n _ => ?_, by simp, by simp⟩
    rw [JMap.castTo, hk]
    simp only [hkt, h1, ne_eq, not_true, if_false, Option.bind_eq_bind, Option.bind_some]
    rw [if_neg (not_not_intro h2)]
  metas := by
    obtain ⟨b, hb⟩ := h.metas
    exact ⟨b, by rw [hb]; simp [JVal.containers, JVal.containersAt]⟩
  written hw hn hd pretty shift := h.written ⟨hw, hn⟩ hd pretty shift

/-! ### setValue, whole -/

theorem memberTokens_eq (a : SetOp) (ha : a.Ok) : ∃ N, ∀ n, N ≤ n →
    memberTokens a.t.handler a.name a.x n = some (JVal.obj [(a.name, a.j)]).docToks := by
  obtain ⟨hl, hv, hj, hne, hq, hd⟩ := ha
  have hg : (JVal.obj [(a.name, a.j)]).Good := good_obj (by
    intro e he
    simp only [List.mem_singleton] at he
    subst he
    exact ⟨hq, hne, a.t.good hl a.x hv a.j hj⟩)
  have hw := written_text (.obj [(a.name, a.j)]) hg false 0 0 (by simp [JVal.depth, membersDepth]; omega) []
  have hu : userOpts false 0 0 = SerOpts.new false := by decide
  rw [hu] at hw
  obtain ⟨k', h1, h2, _⟩ := a.t.writes a.x hv ⟨a.name, .string, b!"{", .objectStart⟩
    ((Ser.onString (SerOpts.new false) (startString []).length).write ⟨[], .string, b!"{", .objectStart⟩).2 (.inl rfl) (write_conv rfl)
  have := parse_doc tokens_sem (o := {}) rfl {} (v := .obj [(a.name, a.j)]) rfl (doc_mono (rfcBytes_le {}) hw) (old := [])
    (r := ⟨.noError, (JVal.obj [(a.name, a.j)]).docToks, [], []⟩) (by simp [tokensDec, JVal.isContainer, Item.toks, JVal.docToks])
  obtain ⟨N, c', g1, _⟩ := this
  refine ⟨N, fun n hn => ?_⟩
  have g := g1 n hn
  have hlast : ∀ s : Ser, s.opt.convertAscii = true → s.write { k' with name := [], valueType := .objectEnd, value := b!"}" } = s.write closeObject :=
    fun s hs => write_names hs h2 (.inr rfl) _ _ _
  simp only [memberTokens, putTok, Option.bind_eq_bind, Option.bind_some]
  erw [h1]
  simp only [Option.bind_some]
  rw [hlast _ (writeAll_conv (write_conv rfl)), hj, write_names rfl (.inl rfl) (.inr rfl)]
  have htext : ((((Ser.onString (SerOpts.new false) (startString []).length).write ⟨[], .ascii, b!"{", .objectStart⟩).2.writeAll
        (encToks a.name (some a.j))).2.write closeObject).2 =
      ((Ser.onString (SerOpts.new false) (startString []).length).writeAll (JVal.obj [(a.name, a.j)]).docToks).2 := by
    simp only [JVal.docToks, JVal.toks, Ser.writeAll, memberToks, List.append_nil, writeAll_snd_append, encToks, closeObject]
  have hc : ({ tz := (Tz.new {}).addData (((Ser.onString (SerOpts.new false) (startString []).length).writeAll
      (JVal.obj [(a.name, a.j)]).docToks).2.flush (startString [])) } : Ctx) = Ctx.onText {} {} (((Ser.onString (SerOpts.new false)
      (startString []).length).writeAll (JVal.obj [(a.name, a.j)]).docToks).2.flush (startString [])) := rfl
  rw [htext, hc, g]
  rfl

theorem removeMember_none {name : Bytes} {ms : List (Bytes × JVal)} (h : name ∉ ms.map Prod.fst) : removeMember name ms = ms := by
  induction ms with
  | nil => rfl
  | cons e ms ih =>
    obtain ⟨n, v⟩ := e
    simp only [List.map_cons, List.mem_cons, not_or] at h
    simp [removeMember, Ne.symm h.1, ih h.2]

theorem removeMember_split {name : Bytes} {ms : List (Bytes × JVal)} (h : name ∈ ms.map Prod.fst) :
    ∃ pre v post, ms = pre ++ (name, v) :: post ∧ name ∉ pre.map Prod.fst ∧ removeMember name ms = pre ++ post := by
  induction ms with
  | nil => simp at h
  | cons e ms ih =>
    obtain ⟨n, v⟩ := e
    by_cases he : n = name
    · subst he
      exact ⟨[], v, ms, rfl, by simp, by simp [removeMember]⟩
    · simp only [List.map_cons, List.mem_cons, Ne.symm he, false_or] at h
      obtain ⟨pre, w, post, h1, h2, h3⟩ := ih h
      exact ⟨(n, v) :: pre, w, post, by simp [h1], by simp only [List.map_cons, List.mem_cons, Ne.symm he, false_or]; exact h2, by simp [removeMember, he, h3]⟩

theorem JMap.Mirrors.setValue {m : JMap} {ms : List (Bytes × JVal)} (h : m.Mirrors ms) (a : SetOp) (ha : a.Ok) (hr : Replaceable a.name ms) :
    ∃ N m', (∀ n, N ≤ n → m.setValue a.t.handler n a.name a.x = some m') ∧ m'.Mirrors (setMember a.name a.j ms) := by
  obtain ⟨N, hN⟩ := memberTokens_eq a ha
  have hens : m.ensure = some m := by
    obtain ⟨k, ks, hk, _⟩ := h.isObject
    simp [JMap.ensure, hk]
  have key : ∃ m1, (do
        let it ← m.find a.name
        if it.index ≠ m.endIndex then m.removeAt it else some m) = some m1 ∧ m1.Mirrors (removeMember a.name ms) := by
    by_cases hm : a.name ∈ ms.map Prod.fst
    · obtain ⟨pre, v, post, he, hp, hrem⟩ := removeMember_split hm
      subst he
      obtain ⟨m', g1, g2⟩ := h.removeAt (hr pre v post rfl hp)
      exact ⟨m', by simp [h.find_some hp, h.index_ne, g1], by rw [hrem]; exact g2⟩
    · obtain ⟨it, g1, g2⟩ := h.find_missing hm ha.2.2.2.1
      exact ⟨m, by simp [g1, g2], by rw [removeMember_none hm]; exact h⟩
  obtain ⟨m1, k1, k2⟩ := key
  obtain ⟨m2, e1, e2⟩ := k2.append a.name a.j
  refine ⟨N, m2, fun n hn => ?_, e2⟩
  simp only [JMap.setValue, hens, Option.bind_eq_bind, Option.bind_some] at k1 ⊢
  obtain ⟨it, f1, f2⟩ := Option.bind_eq_some_iff.mp k1
  simp only [f1, Option.bind_some, hN n hn]
  split at f2
  · next hi => rw [if_pos hi, f2, Option.bind_some, e1]
  · next hi =>
    cases f2
    rw [if_neg hi, e1]

end JsonStruct
