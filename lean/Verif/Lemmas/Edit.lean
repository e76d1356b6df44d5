import Verif.Spec.Edit
import Verif.Lemmas.Map
import Verif.Props.RoundTrip

/-
The members of the map are those of the edited struct, in some order.
-/

namespace JsonStruct

/-- The members written for the parts `es` of `v`. -/
def partsEnc (es : List (Entry A)) (v : A) : List (Bytes × JVal) :=
  es.filterMap fun e => (e.type.enc (e.get v)).map (e.names.headD [], ·)

theorem partsEnc_names {es : List (Entry A)} {v : A} {n : Bytes} (h : n ∈ (partsEnc es v).map Prod.fst) : ∃ e ∈ es, e.names.headD [] = n := by
  obtain ⟨m, hm, rfl⟩ := List.mem_map.mp h
  obtain ⟨e, he, h1⟩ := List.mem_filterMap.mp hm
  obtain ⟨j, _, rfl⟩ := Option.map_eq_some_iff.mp h1
  exact ⟨e, he, rfl⟩

theorem partsEnc_congr {es : List (Entry A)} {v w : A} (h : ∀ e ∈ es, e.get v = e.get w) : partsEnc es v = partsEnc es w := by
  refine List.filterMap_congr fun e he => ?_
  rw [h e he]

theorem removeMember_absent {name : Bytes} : ∀ {ms : List (Bytes × JVal)}, name ∉ ms.map Prod.fst → removeMember name ms = ms
  | [], _ => rfl
  | (n, v) :: ms, h => by
    simp only [List.map_cons, List.mem_cons, not_or] at h
    rw [removeMember, if_neg (fun he => h.1 he.symm), removeMember_absent h.2]

theorem removeMember_behind {name : Bytes} {post : List (Bytes × JVal)} :
    ∀ {pre : List (Bytes × JVal)}, name ∉ pre.map Prod.fst → removeMember name (pre ++ post) = pre ++ removeMember name post
  | [], _ => rfl
  | (n, v) :: pre, h => by
    simp only [List.map_cons, List.mem_cons, not_or] at h
    rw [List.cons_append, removeMember, if_neg (fun he => h.1 he.symm), removeMember_behind h.2]
    rfl

/-- Setting the member in the list of members is assigning to it in the struct; it is the last member then. -/
theorem setMember_parts {pre post : List (Entry A)} {e : Entry A}
    (hd : ((pre ++ e :: post).map fun e => e.names.headD []).Nodup) (hap : ((pre ++ e :: post).map Entry.access).Pairwise Access.Apart)
    (hst : ∀ y t, e.get (e.set y t) = y) {x : e.M} {j : JVal} (hj : e.type.enc x = some j) (v : A) :
    setMember (e.names.headD []) j (partsEnc (pre ++ e :: post) v) = partsEnc (pre ++ post ++ [e]) (e.set x v) := by
  simp only [List.map_append, List.map_cons, List.nodup_append, List.nodup_cons, List.mem_cons] at hd
  obtain ⟨-, ⟨d2, -⟩, d4⟩ := hd
  have n1 : e.names.headD [] ∉ (partsEnc pre v).map Prod.fst := by
    intro h
    obtain ⟨f, hf, hh⟩ := partsEnc_names h
    exact d4 _ (List.mem_map_of_mem hf) _ (.inl rfl) hh
  have n2 : e.names.headD [] ∉ (partsEnc post v).map Prod.fst := by
    intro h
    obtain ⟨f, hf, hh⟩ := partsEnc_names h
    exact d2 (hh ▸ List.mem_map_of_mem (f := fun e : Entry A => e.names.headD []) hf)
  simp only [List.map_append, List.map_cons, List.pairwise_append, List.pairwise_cons, List.mem_cons, List.mem_map] at hap
  obtain ⟨-, ⟨a2, -⟩, a4⟩ := hap
  have k1 : partsEnc pre (e.set x v) = partsEnc pre v := partsEnc_congr fun f hf => (a4 _ ⟨f, hf, rfl⟩ _ (.inl rfl)).1 x v
  have k2 : partsEnc post (e.set x v) = partsEnc post v := partsEnc_congr fun f hf => (a2 _ ⟨f, hf, rfl⟩).2.1 x v
  have k3 : partsEnc [e] (e.set x v) = [(e.names.headD [], j)] := by simp [partsEnc, hst, hj]
  have split : ∀ (es fs : List (Entry A)) (w : A), partsEnc (es ++ fs) w = partsEnc es w ++ partsEnc fs w := fun es fs w => by
    simp [partsEnc]
  rw [split, split, split, k1, k2, k3, setMember, removeMember_behind n1]
  congr 1
  rw [List.append_cancel_left_eq]
  cases hv : e.type.enc (e.get v) with
  | none =>
    have : partsEnc (e :: post) v = partsEnc post v := by simp [partsEnc, hv]
    rw [this, removeMember_absent n2]
  | some i =>
    have : partsEnc (e :: post) v = (e.names.headD [], i) :: partsEnc post v := by simp [partsEnc, hv]
    rw [this, removeMember, if_pos rfl]

/-- What a history of calls makes of the members. -/
theorem setMembers_parts {es : List (Entry A)} (hd : (es.map fun e => e.names.headD []).Nodup) (hap : (es.map Entry.access).Pairwise Access.Apart)
    (hst : ∀ e ∈ es, ∀ y t, e.get (e.set y t) = y) :
    ∀ (as : List (Edit A)), (∀ a ∈ as, a.member ∈ es ∧ a.member.type.enc a.x = some a.j) → ∀ (fs : List (Entry A)), fs.Perm es → ∀ v,
      ∃ gs, gs.Perm es ∧ setMembers (as.map Edit.op) (partsEnc fs v) = partsEnc gs (edited v as)
  | [], _, fs, hp, v => ⟨fs, hp, rfl⟩
  | a :: as, ha, fs, hp, v => by
    obtain ⟨h1, h2⟩ := ha a (by simp)
    obtain ⟨pre, post, he⟩ := List.append_of_mem (hp.mem_iff.mpr h1)
    have hq : (pre ++ post ++ [a.member]).Perm es := by
      refine .trans ?_ hp
      rw [he, List.append_assoc]
      exact .append_left _ (List.perm_append_comm (l₁ := post) (l₂ := [a.member]))
    obtain ⟨gs, g1, g2⟩ := setMembers_parts hd hap hst as (fun b hb => ha b (by simp [hb])) (pre ++ post ++ [a.member]) hq (a.assign v)
    refine ⟨gs, g1, ?_⟩
    simp only [List.map_cons, setMembers]
    have hsym : ∀ {x y : Access A}, x.Apart y → y.Apart x := fun h => ⟨h.2.1, h.1, fun x y t => (h.2.2 y x t).symm⟩
    have := setMember_parts (pre := pre) (post := post) (e := a.member) (he ▸ (hp.map _).nodup_iff.mpr hd)
      (he ▸ ((hp.map Entry.access).pairwise_iff hsym).mpr hap) (hst _ h1) h2 v
    rw [← he] at this
    exact (congrArg _ this).trans g2

theorem edited_valid {es : List (Entry A)} (hap : (es.map Entry.access).Pairwise Access.Apart)
    (hst : ∀ e ∈ es, ∀ y t, e.get (e.set y t) = y) (P : ∀ e : Entry A, e.M → Prop) :
    ∀ (as : List (Edit A)), (∀ a ∈ as, a.member ∈ es ∧ P a.member a.x) → ∀ v, (∀ e ∈ es, P e (e.get v)) → ∀ e ∈ es, P e (e.get (edited v as))
  | [], _, v, hv => hv
  | a :: as, ha, v, hv => by
    refine edited_valid hap hst P as (fun b hb => ha b (by simp [hb])) (a.assign v) fun e he => ?_
    obtain ⟨h1, h2⟩ := ha a (by simp)
    obtain ⟨pre, post, hh⟩ := List.append_of_mem h1
    rw [hh] at hap he
    simp only [List.map_append, List.map_cons, List.pairwise_append, List.pairwise_cons, List.mem_cons, List.mem_map] at hap
    obtain ⟨-, ⟨a2, -⟩, a4⟩ := hap
    have hk : e ∈ pre ∨ e = a.member ∨ e ∈ post := by simpa using he
    rcases hk with hk | rfl | hk
    · rw [Edit.assign, show e.get (a.member.set a.x v) = e.get v from (a4 _ ⟨e, hk, rfl⟩ _ (.inl rfl)).1 _ _]
      exact hv e (by rw [hh]; simp [hk])
    · rw [Edit.assign, hst _ h1]
      exact h2
    · rw [Edit.assign, show e.get (a.member.set a.x v) = e.get v from (a2 _ ⟨e, hk, rfl⟩).2.1 _ _]
      exact hv e (by rw [hh]; simp [hk])

theorem membersDepth_le {n : Nat} : ∀ {ms : List (Bytes × JVal)}, membersDepth ms ≤ n ↔ ∀ m ∈ ms, m.2.depth ≤ n
  | [] => by simp [membersDepth]
  | (k, v) :: ms => by
    rw [membersDepth, Nat.max_le, membersDepth_le]
    simp


end JsonStruct
