import Verif.Spec.MapMemory
import Verif.Lemmas.Map
import Verif.Props.Map
import Verif.Props.RoundTrip

/- The strings a `JS::Map` refers to stay alive. -/

namespace JsonStruct

/-- `os` are the owners of the tokens of the members, the first of which has the index `i`. A member has one owner, whose entry
in `json_data` has the index 0 or that of the member. -/
def OwnersAt (data : List (Nat × Nat)) : Nat → List (Bytes × JVal) → List (Option Nat) → Prop
  | _, [], os => os = []
  | i, (_, v) :: ms, os => ∃ w rest, os = List.replicate v.docToks.length w ++ rest ∧
      (∀ id, w = some id → (0, id) ∈ data ∨ (i, id) ∈ data) ∧ OwnersAt data (i + v.docToks.length) ms rest

theorem OwnersAt.length {data : List (Nat × Nat)} {i : Nat} {ms : List (Bytes × JVal)} {os : List (Option Nat)} (h : OwnersAt data i ms os) :
    os.length = (memberToks ms).length := by
  induction ms generalizing i os with
  | nil => rw [h]; rfl
  | cons e ms ih =>
    obtain ⟨w, rest, rfl, _, h⟩ := h
    simp [memberToks, ih h, JVal.toks_length]

theorem ownersAt_append {data : List (Nat × Nat)} {i : Nat} {a b : List (Bytes × JVal)} {os : List (Option Nat)} :
    OwnersAt data i (a ++ b) os ↔ ∃ oa ob, os = oa ++ ob ∧ OwnersAt data i a oa ∧ OwnersAt data (i + (memberToks a).length) b ob := by
  induction a generalizing i os with
  | nil => simp [OwnersAt, memberToks]
  | cons e a ih =>
    simp only [List.cons_append, OwnersAt, memberToks, List.length_append, JVal.toks_length]
    constructor
    · rintro ⟨w, rest, rfl, hw, h⟩
      obtain ⟨oa, ob, rfl, h1, h2⟩ := ih.mp h
      exact ⟨_, ob, (List.append_assoc _ _ _).symm, ⟨w, oa, rfl, hw, h1⟩, by rwa [← Nat.add_assoc]⟩
    · rintro ⟨_, ob, rfl, ⟨w, oa, rfl, hw, h1⟩, h2⟩
      exact ⟨w, oa ++ ob, List.append_assoc _ _ _, hw, ih.mpr ⟨oa, ob, rfl, h1, by rwa [Nat.add_assoc]⟩⟩

theorem OwnersAt.alive {data : List (Nat × Nat)} {i : Nat} {ms : List (Bytes × JVal)} {os : List (Option Nat)} (h : OwnersAt data i ms os) :
    ∀ id, some id ∈ os → id ∈ data.map Prod.snd := by
  induction ms generalizing i os with
  | nil => rw [h]; simp
  | cons e ms ih =>
    obtain ⟨w, rest, rfl, hw, h⟩ := h
    intro id hid
    rcases List.mem_append.mp hid with hid | hid
    · have := (List.mem_replicate.mp hid).2
      rcases hw id this.symm with h | h <;> exact List.mem_map.mpr ⟨_, h, rfl⟩
    · exact ih h id hid

/-- The entries change, and the members move by `d` to the front. -/
theorem OwnersAt.change {data data' : List (Nat × Nat)} {i d : Nat} {ms : List (Bytes × JVal)} {os : List (Option Nat)} (h : OwnersAt data (i + d) ms os)
    (h0 : ∀ id, (0, id) ∈ data → (0, id) ∈ data')
    (hk : ∀ k id, k < (memberToks ms).length → (i + d + k, id) ∈ data → (i + k, id) ∈ data') : OwnersAt data' i ms os := by
  induction ms generalizing i os with
  | nil => exact h
  | cons e ms ih =>
    obtain ⟨w, rest, rfl, hw, h⟩ := h
    refine ⟨w, rest, rfl, fun id hid => ?_, ?_⟩
    · rcases hw id hid with g | g
      · exact .inl (h0 id g)
      · refine .inr (hk 0 id ?_ g)
        have := docToks_pos e.2
        simp only [memberToks, List.length_append, JVal.toks_length]
        omega
    · refine ih (by rwa [show i + d + e.2.docToks.length = i + e.2.docToks.length + d by omega] at h) fun k id hk' hm => ?_
      have := hk (e.2.docToks.length + k) id (by simp only [memberToks, List.length_append, JVal.toks_length]; omega)
        (by rwa [show i + d + (e.2.docToks.length + k) = i + e.2.docToks.length + d + k by omega])
      rwa [show i + (e.2.docToks.length + k) = i + e.2.docToks.length + k by omega] at this

theorem mem_release {index removed : Nat} {data : List (Nat × Nat)} {j id : Nat} (h : (j, id) ∈ data) (hj : j ≠ index) :
    (if index < j then j - removed else j, id) ∈ releaseData index removed data := by
  unfold releaseData
  refine List.mem_map.mpr ⟨(j, id), ?_, ?_⟩
  · rw [List.mem_reverse, List.mem_eraseP_of_neg (by simpa using hj), List.mem_reverse]
    exact h
  · simp only
    split <;> rfl

/-- The map shows the members, its tokens have one owner each as they should. -/
structure OwnedMap.Keeps (o : OwnedMap) (ms : List (Bytes × JVal)) : Prop where
  mirrors : o.map.Mirrors ms
  owners : ∃ w w' os, o.owners = w :: os ++ [w'] ∧ (∀ id, w = some id ∨ w' = some id → (0, id) ∈ o.data) ∧ OwnersAt o.data 1 ms os

theorem OwnedMap.Keeps.alive {o : OwnedMap} {ms : List (Bytes × JVal)} (h : o.Keeps ms) : o.Alive := by
  obtain ⟨w, w', os, h1, h2, h3⟩ := h.owners
  refine ⟨?_, fun id hid => ?_⟩
  · rw [h1, h.mirrors.length]
    simp [h3.length]
  · rw [h1] at hid
    simp only [List.cons_append, List.mem_cons, List.mem_append, List.not_mem_nil, or_false] at hid
    rcases hid with h | h | h
    · exact List.mem_map.mpr ⟨_, h2 id (.inl h.symm), rfl⟩
    · exact h3.alive id h
    · exact List.mem_map.mpr ⟨_, h2 id (.inr h.symm), rfl⟩

/-- How many tokens are erased. -/
theorem JMap.Mirrors.erased {m : JMap} {pre post : List (Bytes × JVal)} {name : Bytes} {v : JVal} (h : m.Mirrors (pre ++ (name, v) :: post)) :
    m.erased (m.itAt pre) = some v.docToks.length := by
  cases hv : v.isContainer with
  | true =>
    have hm := h.metaAt 0
    obtain ⟨es, he⟩ := containersAt_container hv (1 + (memberToks pre).length)
    simp only [Nat.add_zero, memberContainersAt, he, List.cons_append, List.map_cons, List.getElem?_cons_zero] at hm
    simp only [JMap.erased, JMap.itAt, h.complexAt_container hv, if_true, hm, Option.map_some]
    rfl
  | false =>
    have := h.complexAt_none (by simpa using hv)
    rw [docToks_scalar hv]
    unfold JMap.erased
    rw [if_neg]
    unfold JMap.itAt
    simp only
    omega

theorem OwnedMap.Keeps.set {o : OwnedMap} {ms : List (Bytes × JVal)} (h : o.Keeps ms) (a : SetOp) (ha : a.Ok) (hr : Replaceable a.name ms) :
    ∃ N o', (∀ n, N ≤ n → o.setValue a.t.handler n a.name a.x = some o') ∧ o'.Keeps (setMember a.name a.j ms) := by
  obtain ⟨N, hN⟩ := memberTokens_eq a ha
  obtain ⟨w, w', os, h1, h2, h3⟩ := h.owners
  obtain ⟨k, ks, hk, _⟩ := h.mirrors.isObject
  have hens : o.map.ensure = some o.map := by simp [JMap.ensure, hk]
  have hne : o.map.tokens ≠ [] := by simp [hk]
  have key : ∃ m1 ow1 d1, (do
        let it ← o.map.find a.name
        if it.index ≠ o.map.endIndex then do
          let removed ← o.map.erased it
          let m' ← o.map.removeAt it
          some (m', o.owners.take it.index ++ o.owners.drop (it.index + removed), releaseData it.index removed o.data)
        else some (o.map, o.owners, o.data)) = some (m1, ow1, d1) ∧ OwnedMap.Keeps ⟨m1, ow1, d1, o.made⟩ (removeMember a.name ms) := by
    by_cases hm : a.name ∈ ms.map Prod.fst
    · obtain ⟨pre, v, post, he, hp, hrem⟩ := removeMember_split hm
      subst he
      obtain ⟨m', g1, g2⟩ := h.mirrors.removeAt (hr pre v post rfl hp)
      refine ⟨m', _, _, by simp only [h.mirrors.find_some hp, h.mirrors.index_ne, g1, h.mirrors.erased, Option.bind_eq_bind, Option.bind_some, ne_eq, not_false_eq_true, if_true]; rfl, ?_⟩
      rw [hrem]
      refine ⟨g2, ?_⟩
      obtain ⟨oa, ob, rfl, e1, e2⟩ := ownersAt_append.mp h3
      obtain ⟨u, oc, rfl, -, e3⟩ := e2
      have hidx : (o.map.itAt pre).index = 1 + (memberToks pre).length := rfl
      have hoa := e1.length
      refine ⟨w, w', oa ++ oc, ?_, ?_, ?_⟩
      · simp only [h1, hidx, ← hoa]
        rw [Nat.add_comm 1, Nat.add_right_comm]
        simp only [List.cons_append, List.take_succ_cons, List.drop_succ_cons, List.append_assoc]
        rw [List.take_left, List.drop_append, List.drop_eq_nil_of_le (by omega), List.drop_append, List.drop_eq_nil_of_le (by simp)]
        simp
      · intro id hid
        have := mem_release (index := (o.map.itAt pre).index) (removed := v.docToks.length) (h2 id hid) (by rw [hidx]; omega)
        rwa [if_neg (by omega)] at this
      · rw [ownersAt_append]
        have h0 : ∀ id, (0, id) ∈ o.data → (0, id) ∈ releaseData (o.map.itAt pre).index v.docToks.length o.data := fun id hid => by
          have := mem_release (index := (o.map.itAt pre).index) (removed := v.docToks.length) hid (by rw [hidx]; omega)
          rwa [if_neg (by omega)] at this
        refine ⟨oa, oc, rfl, ?_, ?_⟩
        · refine OwnersAt.change (d := 0) e1 h0 fun k id hk hid => ?_
          have := mem_release (index := (o.map.itAt pre).index) (removed := v.docToks.length) hid (by rw [hidx]; omega)
          rwa [if_neg (by rw [hidx]; omega)] at this
        · refine OwnersAt.change (d := v.docToks.length) e3 h0 fun k id hk hid => ?_
          have := docToks_pos v
          have := mem_release (index := (o.map.itAt pre).index) (removed := v.docToks.length) hid (by rw [hidx]; omega)
          rw [if_pos (by rw [hidx]; omega)] at this
          rwa [show 1 + (memberToks pre).length + v.docToks.length + k - v.docToks.length = 1 + (memberToks pre).length + k by omega] at this
    · obtain ⟨it, g1, g2⟩ := h.mirrors.find_missing hm ha.2.2.2.1
      exact ⟨o.map, o.owners, o.data, by simp [g1, g2], by rw [removeMember_none hm]; exact h⟩
  obtain ⟨m1, ow1, d1, k1, k2⟩ := key
  obtain ⟨m2, e1, e2⟩ := k2.mirrors.append a.name a.j
  obtain ⟨w1, w1', os1, f1, f2, f3⟩ := k2.owners
  have hlen : m1.tokens.length = (memberToks (removeMember a.name ms)).length + 2 := k2.mirrors.length
  have hos := f3.length
  simp only at f1 f2 f3 hos
  have hnew : (JVal.obj [(a.name, a.j)]).docToks.length - 2 = a.j.docToks.length := by
    simp [JVal.docToks, JVal.toks, memberToks, JVal.toks_length]
  refine ⟨N, ⟨m2, ow1.take (m1.tokens.length - 1) ++ List.replicate ((JVal.obj [(a.name, a.j)]).docToks.length - 2) (some o.made) ++
      ow1.drop (m1.tokens.length - 1), d1 ++ [(m1.tokens.length - 1, o.made)], o.made + 1⟩, fun n hn => ?_, e2, ?_⟩
  · simp only [OwnedMap.setValue, hens, if_neg hne, Option.bind_eq_bind, Option.bind_some] at k1 ⊢
    obtain ⟨it, i1, i2⟩ := Option.bind_eq_some_iff.mp k1
    simp only at e1
    simp only [i1, Option.bind_some, hN n hn]
    split at i2
    · next hi =>
      rw [if_pos hi]
      obtain ⟨r, j1, j2⟩ := Option.bind_eq_some_iff.mp i2
      obtain ⟨m', j3, j4⟩ := Option.bind_eq_some_iff.mp j2
      cases j4
      simp only [j1, j3, Option.bind_some, e1]
    · next hi =>
      cases i2
      simp only [if_neg hi, e1, Option.bind_some]
  · refine ⟨w1, w1', os1 ++ List.replicate a.j.docToks.length (some o.made), ?_, ?_, ?_⟩
    · simp only [f1, hlen, hnew, ← hos]
      rw [show os1.length + 2 - 1 = os1.length + 1 by omega]
      simp only [List.cons_append, List.take_succ_cons, List.drop_succ_cons, List.take_left, List.drop_left, List.append_assoc]
    · intro id hid
      exact List.mem_append_left _ (f2 id hid)
    · unfold setMember
      rw [ownersAt_append]
      refine ⟨os1, _, rfl, OwnersAt.change (d := 0) f3 (fun id hid => List.mem_append_left _ hid) fun k id _ hid => List.mem_append_left _ hid, ?_⟩
      refine ⟨some o.made, [], by simp, ?_, rfl⟩
      rintro id hid
      cases hid
      refine .inr (List.mem_append_right _ ?_)
      rw [hlen]
      simp
      omega

theorem ownersAt_replicate {data : List (Nat × Nat)} {i : Nat} (ms : List (Bytes × JVal)) (w : Option Nat) (h : ∀ id, w = some id → (0, id) ∈ data) :
    OwnersAt data i ms (List.replicate (memberToks ms).length w) := by
  induction ms generalizing i with
  | nil => rfl
  | cons e ms ih =>
    refine ⟨w, _, ?_, fun id hid => .inl (h id hid), ih⟩
    rw [← List.replicate_add]
    simp [memberToks, JVal.toks_length]

theorem keeps_whole (ms : List (Bytes × JVal)) (w : Option Nat) (data : List (Nat × Nat)) (made : Nat) (h : ∀ id, w = some id → (0, id) ∈ data) :
    OwnedMap.Keeps ⟨jmapOf ([], .ascii) (.obj ms), List.replicate (JVal.obj ms).docToks.length w, data, made⟩ ms := by
  refine ⟨mirrors_new [] (.inr rfl) ms, w, w, _, ?_, fun id hid => h id (by tauto), ownersAt_replicate ms w h⟩
  simp only [JVal.docToks, JVal.toks, List.length_cons, List.length_append, List.length_nil]
  rw [List.replicate_succ, List.replicate_add]
  rfl

theorem OwnedMap.Keeps.assign (o : OwnedMap) (t : CType T) (x : T) (ms : List (Bytes × JVal)) (hl : t.Lawful) (hv : t.Valid x)
    (he : t.enc x = some (.obj ms)) (hd : (JVal.obj ms).depth ≤ 255) :
    ∃ N o', (∀ n, N ≤ n → o.assign t.handler n x = some o') ∧ o'.Keeps ms := by
  obtain ⟨text, h1, h2⟩ := serialized t hl x hv he true 2 0 (by omega)
  rw [show userOpts true 2 0 = SerOpts.new true by decide] at h1
  obtain ⟨N, c', g1, _⟩ := parse_doc tokens_sem (o := {}) rfl {} (v := .obj ms) rfl (doc_mono (rfcBytes_le {}) h2) (old := [])
    (r := ⟨.noError, (JVal.obj ms).docToks, [], []⟩) (by simp [tokensDec, JVal.isContainer, Item.toks, JVal.docToks])
  refine ⟨N, _, fun n hn => ?_, keeps_whole ms (some o.made) [(0, o.made)] (o.made + 1) (by simp)⟩
  have g := g1 n hn
  rw [show Ctx.onText {} {} text = { tz := (Tz.new {}).addData text } from rfl] at g
  simp only [OwnedMap.assign, h1, Option.bind_eq_bind, Option.bind_some, g]
  rw [show (JVal.obj ms).docToks = (JVal.obj ms).toks [] .ascii from rfl, metaForTokens_value]
  rfl

theorem OwnedMap.Keeps.parse (o : OwnedMap) (opts : Opts) (p : POpts) (text : Bytes) (ms : List (Bytes × JVal)) (hn : opts.newLines = false)
    (hd : Doc (lenient opts) (.obj ms) text) :
    ∃ N o', (∀ n, N ≤ n → (o.parse n (Ctx.onText opts p text)).map (fun r => r.2.1) = some o') ∧ o'.Keeps ms := by
  obtain ⟨N, c', g1, _⟩ := parse_doc jmap_sem hn p (v := .obj ms) rfl hd (old := o.map) (jmapDec_value _ _ _ rfl)
  obtain ⟨t', tok, h1, h2, h3⟩ := delivers_doc hn (v := .obj ms) rfl hd
  refine ⟨N, _, fun n hn => ?_, keeps_whole ms none o.data o.made (by simp)⟩
  have g := g1 n hn
  have hnext : (Ctx.onText opts p text).next = { Ctx.onText opts p text with tz := t', token := tok, error := .noError } := by
    simp only [Ctx.next, show (Ctx.onText opts p text).tz = (Tz.new opts).addData text from rfl, h1]
  have hty : tok.valueType = .objectStart := by
    have := congrArg Tok.valueType h2
    exact this
  simp only [parseTo, hnext, ne_eq, not_true_eq_false, if_false, Option.map_eq_some_iff] at g
  obtain ⟨q, hq, hq'⟩ := g
  simp only [Prod.mk.injEq] at hq'
  simp only [OwnedMap.parse, OwnedMap.read, hnext, ne_eq, not_true_eq_false, if_false, hq, Option.map_some, hty]
  rw [← hq'.2.1]
  rw [if_neg (by simp), hq'.2.1]
  simp [jmapOf, JVal.docToks]

end JsonStruct
