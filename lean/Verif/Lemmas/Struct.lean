import Verif.Lemmas.Skip

/- The struct handler does what `structDec` says. -/

set_option linter.unusedSimpArgs false
set_option linter.unusedVariables false

set_option linter.unusedSectionVars false

namespace JsonStruct

variable [EndCond]

/-- The name under which a member is reported. -/
def qualified (superName : Bytes) (m : Member T) : Bytes :=
  (if superName = [] then [] else superName ++ b!"::") ++ m.names.headD []

/-- A member in the order of visits: its position in the list of assigned members, its qualified name. -/
structure Visit (T : Type) where
  idx : Nat
  qname : Bytes
  mem : Member T

def revVisit (page : Nat) (superName : Bytes) : List (Member T) → List (Visit T)
  | [] => []
  | m :: ms => ⟨page + ms.length, qualified superName m, m⟩ :: revVisit page superName ms

mutual
def Meta.visit (page : Nat) (superName : Bytes) : Meta T → List (Visit T)
  | .mk ms ss => revVisit page superName ms.reverse ++ visitSupers (page + ms.length) ss
def visitSupers (page : Nat) : List (Bytes × Meta T) → List (Visit T)
  | [] => []
  | (n, m) :: ss => m.visit page n ++ visitSupers (page + m.count) ss
end

/-! ### Positions -/

/-- The positions are different and between `lo` and `hi`. -/
def Within (lo hi : Nat) (vs : List (Visit T)) : Prop :=
  (vs.map (·.idx)).Nodup ∧ ∀ v ∈ vs, lo ≤ v.idx ∧ v.idx < hi

theorem within_append {lo mid hi : Nat} {a b : List (Visit T)} (ha : Within lo mid a) (hb : Within mid hi b) (h1 : lo ≤ mid) (h2 : mid ≤ hi) :
    Within lo hi (a ++ b) := by
  refine ⟨?_, ?_⟩
  · rw [List.map_append, List.nodup_append]
    refine ⟨ha.1, hb.1, ?_⟩
    intro x hx y hy
    obtain ⟨v, hv, rfl⟩ := List.mem_map.mp hx
    obtain ⟨w, hw, rfl⟩ := List.mem_map.mp hy
    have := (ha.2 v hv).2; have := (hb.2 w hw).1; omega
  · intro v hv
    rcases List.mem_append.mp hv with hv | hv
    · have := ha.2 v hv; omega
    · have := hb.2 v hv; omega

theorem revVisit_within (page : Nat) (sn : Bytes) (ms : List (Member T)) : Within page (page + ms.length) (revVisit page sn ms) := by
  induction ms with
  | nil => exact ⟨by simp [revVisit], by simp [revVisit]⟩
  | cons m ms ih =>
    refine ⟨?_, ?_⟩
    · simp only [revVisit, List.map_cons, List.nodup_cons]
      refine ⟨?_, ih.1⟩
      intro h
      obtain ⟨v, hv, hi⟩ := List.mem_map.mp h
      have := (ih.2 v hv).2; omega
    · intro v hv
      simp only [revVisit, List.mem_cons] at hv
      rcases hv with rfl | hv
      · simp
      · have := ih.2 v hv; simp only [List.length_cons]; omega

mutual
theorem visit_within (M : Meta T) (page : Nat) (sn : Bytes) : Within page (page + M.count) (M.visit page sn) := by
  match M with
  | .mk ms ss =>
    rw [Meta.visit, Meta.count]
    have h1 := revVisit_within page sn ms.reverse
    have h2 := visitSupers_within ss (page + ms.length)
    rw [List.length_reverse] at h1
    have := within_append h1 h2 (by omega) (by omega)
    rw [Nat.add_assoc] at this; exact this
theorem visitSupers_within (ss : List (Bytes × Meta T)) (page : Nat) : Within page (page + supersCount ss) (visitSupers page ss) := by
  match ss with
  | [] => exact ⟨by simp [visitSupers], by simp [visitSupers]⟩
  | (n, m) :: ss =>
    rw [visitSupers, supersCount]
    have := within_append (visit_within m page n) (visitSupers_within ss (page + m.count)) (by omega) (by omega)
    rw [Nat.add_assoc] at this; exact this
end

/-! ### Looking for the member -/

/-- As `unpackRev`, over the list of visits. -/
def unpackVisit (primary : Bool) (fuel : Nat) (old : T) (c : Ctx) (assigned : List Bool) : List (Visit T) → Option (Err × T × Ctx × List Bool)
  | [] => some (.missingPropertyMember, old, c, assigned)
  | v :: vs => do
    let r ← unpackMember v.mem v.idx primary fuel old c assigned
    if r.1 ≠ .missingPropertyMember then some r else unpackVisit primary fuel r.2.1 r.2.2.1 r.2.2.2 vs

theorem unpackVisit_append (primary : Bool) (fuel : Nat) (a b : List (Visit T)) (old : T) (c : Ctx) (asg : List Bool) :
    unpackVisit primary fuel old c asg (a ++ b) =
      (unpackVisit primary fuel old c asg a).bind fun r =>
        if r.1 ≠ .missingPropertyMember then some r else unpackVisit primary fuel r.2.1 r.2.2.1 r.2.2.2 b := by
  induction a generalizing old c asg with
  | nil => simp [unpackVisit]
  | cons v a ih =>
    simp only [List.cons_append, unpackVisit, Option.bind_eq_bind]
    cases unpackMember v.mem v.idx primary fuel old c asg with
    | none => rfl
    | some r =>
      simp only [Option.bind_some]
      by_cases h : r.1 = .missingPropertyMember
      · simp only [h, ne_eq, not_true_eq_false, if_false]; exact ih _ _ _
      · simp [h]

theorem unpackRev_eq (page : Nat) (sn : Bytes) (primary : Bool) (fuel : Nat) (ms : List (Member T)) (old : T) (c : Ctx) (asg : List Bool) :
    unpackRev page primary fuel old c asg ms = unpackVisit primary fuel old c asg (revVisit page sn ms) := by
  induction ms generalizing old c asg with
  | nil => rfl
  | cons m ms ih =>
    simp only [unpackRev, revVisit, unpackVisit, ih]

mutual
theorem unpack_eq (M : Meta T) (page : Nat) (sn : Bytes) (primary : Bool) (fuel : Nat) (old : T) (c : Ctx) (asg : List Bool) :
    M.unpack page primary fuel old c asg = unpackVisit primary fuel old c asg (M.visit page sn) := by
  match M with
  | .mk ms ss =>
    rw [Meta.unpack, Meta.visit, unpackVisit_append, unpackRev_eq page sn]
    simp only [unpackSupers_eq ss]
    rfl
theorem unpackSupers_eq (ss : List (Bytes × Meta T)) (page : Nat) (primary : Bool) (fuel : Nat) (old : T) (c : Ctx) (asg : List Bool) :
    unpackSupers page primary fuel old c asg ss = unpackVisit primary fuel old c asg (visitSupers page ss) := by
  match ss with
  | [] => rfl
  | (n, m) :: ss =>
    rw [unpackSupers, visitSupers, unpackVisit_append, unpack_eq m page n]
    simp only [unpackSupers_eq ss]
    rfl
end

theorem matched_ne (e : Err) : matchedMemberResult e ≠ .missingPropertyMember := by
  unfold matchedMemberResult; split <;> simp_all

/-- The search finds the first member with the name. -/
theorem unpackVisit_find (primary : Bool) (fuel : Nat) (vs : List (Visit T)) (old : T) (c : Ctx) (asg : List Bool) :
    unpackVisit primary fuel old c asg vs =
      match vs.find? (fun v => v.mem.named primary c.token.name.bytes) with
      | some v => (v.mem.to fuel old c).map fun r => (matchedMemberResult r.1, r.2.1, r.2.2, asg.set v.idx true)
      | none => some (.missingPropertyMember, old, c, asg) := by
  induction vs with
  | nil => rfl
  | cons v vs ih =>
    simp only [unpackVisit, unpackMember, List.find?_cons]
    by_cases h : v.mem.named primary c.token.name.bytes = true
    · simp only [h, if_true]
      cases v.mem.to fuel old c with
      | none => rfl
      | some r => simp [matched_ne]
    · simp only [h, Bool.false_eq_true, if_false, Option.bind_eq_bind, Option.bind_some, ne_eq, not_true_eq_false, ih]

/-! ### Verification -/

theorem verifyMember_eq (m : Member T) (i : Nat) (asg : List Bool) (track : Bool) (sn : Bytes) :
    verifyMember m i asg track sn =
      if !(asg.getD i false) && !m.optional then (.unassignedRequiredMember, if track then [qualified sn m] else []) else (.noError, []) := by
  unfold verifyMember qualified
  cases asg.getD i false <;> cases m.optional <;> rfl

/-- The visits whose member is required and was not assigned. -/
def unassignedVisits (asg : List Bool) (vs : List (Visit T)) : List (Visit T) :=
  vs.filter fun v => !(asg.getD v.idx false) && !v.mem.optional

/-- The verdict on a list of visits. -/
def verdict (asg : List Bool) (track : Bool) (vs : List (Visit T)) : Err × List Bytes :=
  (if unassignedVisits asg vs = [] then .noError else .unassignedRequiredMember,
   if track then (unassignedVisits asg vs).map (·.qname) else [])

theorem verdict_append (asg : List Bool) (track : Bool) (a b : List (Visit T)) :
    verifyBoth (verdict asg track a) (verdict asg track b) = verdict asg track (a ++ b) := by
  have hap : unassignedVisits asg (a ++ b) = unassignedVisits asg a ++ unassignedVisits asg b := List.filter_append ..
  unfold verifyBoth verdict
  rw [hap]
  generalize unassignedVisits asg a = x
  generalize unassignedVisits asg b = y
  cases track <;> cases x <;> cases y <;> simp

theorem verifyRev_eq (page : Nat) (asg : List Bool) (track : Bool) (sn : Bytes) (ms : List (Member T)) :
    verifyRev page asg track sn ms = verdict asg track (revVisit page sn ms) := by
  induction ms with
  | nil => cases track <;> rfl
  | cons m ms ih =>
    rw [verifyRev, revVisit, ih, ← List.singleton_append, ← verdict_append]
    congr 1
    rw [verifyMember_eq]
    simp only [verdict, unassignedVisits, List.filter_cons, List.filter_nil]
    split <;> cases track <;> rfl

mutual
theorem verify_eq (M : Meta T) (page : Nat) (asg : List Bool) (track : Bool) (sn : Bytes) :
    M.verify page asg track sn = verdict asg track (M.visit page sn) := by
  match M with
  | .mk ms ss => rw [Meta.verify, Meta.visit, ← verdict_append, verifyRev_eq, verifySupers_eq ss]
theorem verifySupers_eq (ss : List (Bytes × Meta T)) (page : Nat) (asg : List Bool) (track : Bool) :
    verifySupers page asg track ss = verdict asg track (visitSupers page ss) := by
  match ss with
  | [] => cases track <;> rfl
  | (n, m) :: ss => rw [verifySupers, visitSupers, ← verdict_append, verify_eq m, verifySupers_eq ss]
end

/-! ### The meaning of the members -/

/-- Reading the member does what the decoder says. -/
def Member.Sem (m : Member T) (d : Dec T) : Prop :=
  ∀ (c : Ctx) (old : T) (i : Item) (rest : List Tok) (r : Res T), c.Stream (i.toks ++ rest) → d c.popts old i = some r →
    Does (fun n => m.to n old c) c r (fun c' => c'.Stream (i.last :: rest))

/-- The effect on a struct of reading one of its members. -/
def memberDec (get : T → M) (set : M → T → T) (d : Dec M) : Dec T := fun o old i => (d o (get old) i).map (Res.map (set · old))

theorem member_sem {h : Handler M} {d : Dec M} (hs : h.Sem d) (names : List Bytes) (opt : Bool) (get : T → M) (set : M → T → T) :
    (Member.of names opt h get set).Sem (memberDec get set d) := by
  intro c old i rest r hst hd
  obtain ⟨q, hq, rfl⟩ := Option.map_eq_some_iff.mp hd
  exact (hs c (get old) i rest q hst hq).map fun n => rfl

theorem member_up_sem {m : Member S} {d : Dec S} (hs : m.Sem d) (get : T → S) (set : S → T → T) :
    (m.up get set).Sem (memberDec get set d) := by
  intro c old i rest r hst hd
  obtain ⟨q, hq, rfl⟩ := Option.map_eq_some_iff.mp hd
  exact (hs c (get old) i rest q hst hq).map fun n => rfl

/-- The members visited, one by one, are described by the specifications. -/
inductive Described : List (Visit T) → List (MemberSpec T) → Prop
  | nil : Described [] []
  | cons {v s vs ss} : v.qname = s.qname → v.mem.names = s.names → v.mem.optional = s.optional → v.mem.Sem s.dec →
      Described vs ss → Described (v :: vs) (s :: ss)

theorem Described.append {a b : List (Visit T)} {x y : List (MemberSpec T)} (h : Described a x) (h' : Described b y) : Described (a ++ b) (x ++ y) := by
  induction h with
  | nil => exact h'
  | cons h1 h2 h3 h4 _ ih => exact .cons h1 h2 h3 h4 ih

theorem Described.length {vs : List (Visit T)} {ss : List (MemberSpec T)} (h : Described vs ss) : vs.length = ss.length := by
  induction h with
  | nil => rfl
  | cons _ _ _ _ _ ih => simp [ih]

theorem Described.findIdx {vs : List (Visit T)} {ss : List (MemberSpec T)} (h : Described vs ss) (primary : Bool) (n : Bytes) :
    (vs.findIdx? fun v => v.mem.named primary n) =
      ss.findIdx? (fun s => if primary then s.names.head? == some n else s.names.tail.contains n) := by
  induction h with
  | nil => rfl
  | cons h1 h2 h3 h4 h5 ih =>
    simp only [Member.named] at ih ⊢
    simp only [List.findIdx?_cons, ih, h2]

theorem Described.get {vs : List (Visit T)} {ss : List (MemberSpec T)} (h : Described vs ss) {i : Nat} {v : Visit T} {s : MemberSpec T}
    (hv : vs[i]? = some v) (hs : ss[i]? = some s) : v.mem.Sem s.dec ∧ v.mem.optional = s.optional ∧ v.qname = s.qname := by
  induction h generalizing i with
  | nil => simp at hv
  | cons h1 h2 h3 h4 h5 ih =>
    cases i with
    | zero => simp at hv hs; subst hv; subst hs; exact ⟨h4, h3, h1⟩
    | succ i => simp at hv hs; exact ih hv hs

/-- Where the search ends, in terms of `resolve`. -/
theorem find_resolve {vs : List (Visit T)} {ss : List (MemberSpec T)} (h : Described vs ss) (n : Bytes) :
    (match vs.find? (fun v => v.mem.named true n) with
      | some v => some v
      | none => vs.find? (fun v => v.mem.named false n)) = (resolve ss n).bind (vs[·]?) ∧
    ((resolve ss n).bind (vs[·]?) = none ↔ (resolve ss n).bind (ss[·]?) = none) ∧ ((resolve ss n).bind (ss[·]?) = none → resolve ss n = none) := by
  have hr : resolve ss n = match vs.findIdx? (fun v => v.mem.named true n) with
      | some i => some i
      | none => vs.findIdx? (fun v => v.mem.named false n) := by
    rw [h.findIdx, h.findIdx]; rfl
  have hlt : ∀ i, resolve ss n = some i → i < vs.length := by
    intro i hi
    rw [hr] at hi
    split at hi
    · rename_i j hj
      cases hi
      rw [List.findIdx?_eq_some_iff_findIdx_eq] at hj; exact hj.1
    · rw [List.findIdx?_eq_some_iff_findIdx_eq] at hi; exact hi.1
  refine ⟨?_, ?_, ?_⟩
  · rw [hr]
    have find_eq : ∀ p : Visit T → Bool, vs.find? p = (vs.findIdx? p).bind (vs[·]?) := by
      intro p
      cases hf : vs.findIdx? p with
      | none => simp only [Option.bind_none]; rw [List.find?_eq_none]; rw [List.findIdx?_eq_none_iff] at hf; intro x hx; rw [hf x hx]; simp
      | some i =>
        rw [List.findIdx?_eq_some_iff_getElem] at hf
        obtain ⟨hi, hp, hb⟩ := hf
        simp only [Option.bind_some, List.getElem?_eq_getElem hi]
        rw [List.find?_eq_some_iff_getElem]
        exact ⟨hp, i, hi, rfl, fun j hj => by simpa using hb j hj⟩
    rw [find_eq, find_eq]
    cases hf : vs.findIdx? (fun v => v.mem.named true n) with
    | none => rfl
    | some i =>
      simp only [Option.bind_some]
      rw [List.findIdx?_eq_some_iff_findIdx_eq] at hf
      rw [List.getElem?_eq_getElem hf.1]
  · cases hi : resolve ss n with
    | none => simp
    | some i =>
      have := hlt i hi
      have h' := h.length
      simp [this, ← h']
  · cases hi : resolve ss n with
    | none => simp
    | some i =>
      have := hlt i hi
      have h' := h.length
      intro hx
      simp [← h'] at hx; omega

/-! ### The loop -/

/-- `find`, in terms of `resolve`. -/
theorem meta_find {M : Meta T} {ss : List (MemberSpec T)} (h : Described (M.visit 0 []) ss) (fuel : Nat) (old : T) (c : Ctx) (asg : List Bool) :
    M.find fuel old c asg =
      match (resolve ss c.token.name.bytes).bind ((M.visit 0 [])[·]?) with
      | some v => (v.mem.to fuel old c).map fun r => (matchedMemberResult r.1, r.2.1, r.2.2, asg.set v.idx true)
      | none => some (.missingPropertyMember, old, c, asg) := by
  rw [← (find_resolve h c.token.name.bytes).1, Meta.find, unpack_eq M 0 [], unpackVisit_find]
  cases hf : (M.visit 0 []).find? (fun v => v.mem.named true c.token.name.bytes) with
  | some v =>
    simp only
    cases v.mem.to fuel old c with
    | none => rfl
    | some r => simp [matched_ne]
  | none =>
    simp only [Option.bind_eq_bind, Option.bind_some, if_true, unpack_eq M 0 [], unpackVisit_find]

/-- Which members have been assigned, after the members `ms` of an object. -/
def Marked (vs : List (Visit T)) (ss : List (MemberSpec T)) (asg : List Bool) (ms : List (Bytes × JVal)) (asg' : List Bool) : Prop :=
  asg'.length = asg.length ∧
  ∀ j v, vs[j]? = some v → asg'.getD v.idx false = (asg.getD v.idx false || ms.any fun m => resolve ss m.1 == some j)

theorem marked_nil (vs : List (Visit T)) (ss : List (MemberSpec T)) (asg : List Bool) : Marked vs ss asg [] asg :=
  ⟨rfl, fun j v _ => by simp⟩

theorem nodup_idx {vs : List (Visit T)} (h : (vs.map (·.idx)).Nodup) {i j : Nat} {v w : Visit T} (hi : vs[i]? = some v) (hj : vs[j]? = some w)
    (he : v.idx = w.idx) : i = j := by
  rw [List.getElem?_eq_some_iff] at hi hj
  obtain ⟨hi, rfl⟩ := hi
  obtain ⟨hj, rfl⟩ := hj
  have := List.nodup_iff_pairwise_ne.mp h
  rcases Nat.lt_trichotomy i j with hl | hl | hl
  · have := List.pairwise_iff_getElem.mp this i j (by simpa using hi) (by simpa using hj) hl
    simp [he] at this
  · exact hl
  · have := List.pairwise_iff_getElem.mp this j i (by simpa using hj) (by simpa using hi) hl
    simp [he] at this

theorem marked_hit {vs : List (Visit T)} {ss : List (MemberSpec T)} {asg asg' : List Bool} {n : Bytes} {x : JVal} {ms : List (Bytes × JVal)}
    {i : Nat} {v : Visit T} (hw : Within 0 asg.length vs) (hr : resolve ss n = some i) (hv : vs[i]? = some v)
    (h : Marked vs ss (asg.set v.idx true) ms asg') : Marked vs ss asg ((n, x) :: ms) asg' := by
  refine ⟨by rw [h.1]; simp, fun j w hj => ?_⟩
  rw [h.2 j w hj]
  have hlt := (hw.2 v (List.mem_of_getElem? hv)).2
  simp only [List.any_cons, hr]
  by_cases he : w.idx = v.idx
  · have := nodup_idx hw.1 hj hv he
    subst this
    simp [he, List.getD_eq_getElem?_getD, hlt]
  · have hij : (some i == some j) = false := by
      simp only [Option.some_beq_some, beq_eq_false_iff_ne, ne_eq]
      rintro rfl
      rw [hv] at hj; cases hj; exact he rfl
    simp [hij, List.getD_eq_getElem?_getD, List.getElem?_set_ne (Ne.symm he)]

theorem marked_miss {vs : List (Visit T)} {ss : List (MemberSpec T)} {asg asg' : List Bool} {n : Bytes} {x : JVal} {ms : List (Bytes × JVal)}
    (hr : resolve ss n = none) (h : Marked vs ss asg ms asg') : Marked vs ss asg ((n, x) :: ms) asg' := by
  refine ⟨h.1, fun j w hj => ?_⟩
  rw [h.2 j w hj]
  simp [hr]

theorem structLoop_sim {M : Meta T} {ss : List (MemberSpec T)} (h : Described (M.visit 0 []) ss) (rest : List Tok) (ms : List (Bytes × JVal)) :
    ∀ (c : Ctx) (old : T) (asg : List Bool) (r : Res T), asg.length = M.count → c.Stream (memberToks ms ++ closeObj :: rest) →
      membersDec ss c.popts old ms = some r →
      ∃ N c' asg', (∀ f n, N ≤ f → N ≤ n →
          structLoop M f n old c asg = some (if r.err ≠ .noError then some r.err else none, r.val, c', asg')) ∧
        c.Adds r.missing r.unassigned c' ∧
        (r.err = .noError → c'.Stream (closeObj :: rest) ∧ Marked (M.visit 0 []) ss asg ms asg') := by
  induction ms with
  | nil =>
    intro c old asg r hl hst hd
    simp only [membersDec, Option.some.injEq] at hd
    subst hd
    refine ⟨1, c, asg, fun f n _ hn => ?_, Ctx.Adds.refl c, fun _ => ⟨hst, marked_nil _ _ _⟩⟩
    obtain ⟨n, rfl⟩ : ∃ m, n = m + 1 := ⟨n - 1, by omega⟩
    have : c.token.valueType = .objectEnd := hst.valueType
    simp [structLoop, this]
  | cons m ms ih =>
    obtain ⟨nm, v⟩ := m
    intro c old asg r hl hst hd
    rw [member_first] at hst
    obtain ⟨hna, hnm⟩ := member_not_close hst
    dsimp only at hnm
    have hfr := find_resolve h nm
    have hw : Within 0 asg.length (M.visit 0 []) := by
      have := visit_within M 0 []; rw [hl]; simpa using this
    rw [membersDec] at hd
    cases hb : (resolve ss nm).bind (ss[·]?) with
    | some s =>
      rw [hb] at hd
      dsimp only at hd
      obtain ⟨i, hi, hsi⟩ := Option.bind_eq_some_iff.mp hb
      obtain ⟨w, hwv⟩ : ∃ w, (resolve ss nm).bind ((M.visit 0 [])[·]?) = some w := by
        cases hx : (resolve ss nm).bind ((M.visit 0 [])[·]?) with
        | none => rw [hfr.2.1.mp hx] at hb; cases hb
        | some w => exact ⟨w, rfl⟩
      have hwi : (M.visit 0 [])[i]? = some w := by rw [hi] at hwv; exact hwv
      obtain ⟨q, hq, hd⟩ := Option.bind_eq_some_iff.mp hd
      obtain ⟨N, c1, h1, h2, h3⟩ := (h.get hwi hsi).1 c old _ _ q hst hq
      dsimp only at h1 h3
      have hfind : ∀ f, N ≤ f → M.find f old c asg = some (matchedMemberResult q.err, q.val, c1, asg.set w.idx true) := by
        intro f hf; rw [meta_find h, hnm, hwv]; dsimp only; rw [h1 f hf]; rfl
      have hmm := matched_ne q.err
      have hq0 : matchedMemberResult q.err = .noError ↔ q.err = .noError := by
        unfold matchedMemberResult; split <;> simp_all
      rcases andThen_cases hd with ⟨he, rfl⟩ | ⟨he, p, hp, rfl⟩
      · have he : matchedMemberResult q.err ≠ .noError := he
        refine ⟨N + 1, c1, asg.set w.idx true, fun f n hf hn => ?_, h2, fun h => absurd h he⟩
        obtain ⟨n, rfl⟩ : ∃ m, n = m + 1 := ⟨n - 1, by omega⟩
        have hnr : (q.nested).err = matchedMemberResult q.err := rfl
        simp [structLoop, hna, hfind f (by omega), hmm, he, hnr]
        rfl
      · have he : matchedMemberResult q.err = .noError := he
        have he' := hq0.mp he
        obtain ⟨h4, h5⟩ := (h3 he').next' (by simp)
        obtain ⟨N', c', asg', h6, h7, h8⟩ := ih c1.next q.val (asg.set w.idx true) p (by simp [hl]) h4
          (by rw [(h2.trans h5).opts]; exact hp)
        refine ⟨N + N' + 1, c', asg', fun f n hf hn => ?_, ?_, fun he => ?_⟩
        · obtain ⟨n, rfl⟩ : ∃ m, n = m + 1 := ⟨n - 1, by omega⟩
          have h6 := h6 f n (by omega) (by omega)
          simp only [structLoop, hna, if_false, hfind f (by omega), Option.bind_eq_bind, Option.bind_some, hmm, he, ne_eq, not_true_eq_false,
            h4.err, h6, reduceCtorEq]
        · have : c.Adds (q.missing ++ p.missing) (q.unassigned ++ p.unassigned) c' := by simpa using (h2.trans h5).trans h7
          exact this
        · exact ⟨(h8 he).1, marked_hit hw hi hwi (h8 he).2⟩
    | none =>
      rw [hb] at hd
      dsimp only at hd
      have hx := hfr.2.1.mpr hb
      have hrn := hfr.2.2 hb
      have hfind : ∀ f, M.find f old c asg = some (.missingPropertyMember, old, c, asg) := by
        intro f; rw [meta_find h, hnm, hx]
      let c0 : Ctx := if c.track then { c with missing := c.missing ++ [nm] } else c
      have hc0 : c.Adds (if c.popts.track then [nm] else []) [] c0 := by
        by_cases ht : c.track = true
        · rw [show c0 = { c with missing := c.missing ++ [nm] } from if_pos ht, show (if c.popts.track then [nm] else []) = [nm] from if_pos ht]
          exact ⟨rfl, rfl, by simp⟩
        · rw [show c0 = c from if_neg ht, show (if c.popts.track then [nm] else []) = [] from if_neg ht]; exact Ctx.Adds.refl c
      have hs0 : c0.Stream ((Item.val (nm, .string) v).toks ++ (memberToks ms ++ closeObj :: rest)) := by
        by_cases ht : c.track = true
        · rw [show c0 = { c with missing := c.missing ++ [nm] } from if_pos ht]; exact hst
        · rw [show c0 = c from if_neg ht]; exact hst
      have hop : c0.allowMissing = c.popts.allowMissing := by
        have := hc0.opts; exact congrArg POpts.allowMissing this
      rcases andThen_cases hd with ⟨he, rfl⟩ | ⟨he, p, hp, rfl⟩
      · dsimp only at he
        have ha : c.popts.allowMissing = false := by
          cases hh : c.popts.allowMissing with
          | false => rfl
          | true => rw [hh] at he; simp at he
        refine ⟨1, c0, asg, fun f n hf hn => ?_, by simpa [ha] using hc0, fun h => absurd h he⟩
        obtain ⟨n, rfl⟩ : ∃ m, n = m + 1 := ⟨n - 1, by omega⟩
        have hun : c.unknown f nm = some (some .missingPropertyMember, c0) := by
          have : c.unknown f nm = if c0.allowMissing then (do
              let c ← skipArrayOrObject f c0
              some (if c.error ≠ .noError then some c.error else none, c)) else some (some .missingPropertyMember, c0) := rfl
          rw [this, hop, ha]; rfl
        simp [structLoop, hna, hfind, hnm, hun, ha]
      · dsimp only at he
        have ha : c.popts.allowMissing = true := by
          cases hh : c.popts.allowMissing with
          | true => rfl
          | false => rw [hh] at he; simp at he
        obtain ⟨N, c1, h1, h2, h3⟩ := skip_value c0 (nm, .string) v _ hs0
        obtain ⟨h4, h5⟩ := h3.next' (by simp)
        have h02 := (hc0.trans h2).trans h5
        obtain ⟨N', c', asg', h6, h7, h8⟩ := ih c1.next old asg p hl h4 (by rw [h02.opts]; exact hp)
        have hun : ∀ f, N ≤ f → c.unknown f nm = some (none, c1) := by
          intro f hf
          have : c.unknown f nm = if c0.allowMissing then (do
              let c ← skipArrayOrObject f c0
              some (if c.error ≠ .noError then some c.error else none, c)) else some (some .missingPropertyMember, c0) := rfl
          rw [this, hop, ha, h1 f hf]; simp [h3.err]
        refine ⟨N + N' + 1, c', asg', fun f n hf hn => ?_, ?_, fun he => ?_⟩
        · obtain ⟨n, rfl⟩ : ∃ m, n = m + 1 := ⟨n - 1, by omega⟩
          have h6 := h6 f n (by omega) (by omega)
          simp only [structLoop, hna, if_false, hfind, Option.bind_eq_bind, Option.bind_some, hnm, if_true, hun f (by omega), h4.err, ne_eq,
            not_true_eq_false, h6]
        · simpa using h02.trans h7
        · exact ⟨(h8 he).1, marked_miss hrn (h8 he).2⟩

theorem unassigned_eq {vs : List (Visit T)} {ss : List (MemberSpec T)} (h : Described vs ss) {asg' : List Bool} {ms : List (Bytes × JVal)} (k : Nat)
    (hm : ∀ j v, vs[j]? = some v → asg'.getD v.idx false = ms.any fun m => resolve ss' m.1 == some (j + k)) :
    (unassignedVisits asg' vs).map (·.qname) =
      ((ss.zipIdx k).filter fun p => !p.1.optional && !(ms.any fun m => resolve ss' m.1 == some p.2)).map (·.1.qname) := by
  induction h generalizing k with
  | nil => rfl
  | cons h1 h2 h3 h4 h5 ih =>
    have ih := ih (k + 1) fun j v hj => by
      have := hm (j + 1) v (by simpa using hj)
      rw [this]
      congr 1; funext m; congr 2; omega
    have h0 := hm 0 _ rfl
    simp only [Nat.zero_add] at h0
    simp only [unassignedVisits, List.filter_cons, List.zipIdx_cons] at ih ⊢
    rw [h0, h3, Bool.and_comm]
    split
    · rw [List.map_cons, List.map_cons, ih, h1]
    · exact ih

theorem struct_sem {M : Meta T} {ss : List (MemberSpec T)} (h : Described (M.visit 0 []) ss) (init : T) : (structH init M).Sem (structDec ss) := by
  intro c old i rest r hst hd
  have ht := hst.item.1
  rcases objectDec_cases hd with ⟨hn, rfl⟩ | ⟨l, ms, rfl, hf⟩
  · exact Does.pure (fun n => by simp [structH, structTo, ht, hn]) (by simp)
  · have hce := hst.err
    obtain ⟨h1, h2, h3, h4, h5⟩ := obj_stream hst
    have hc1 : ({ c with tz := (c.tz.nextToken c.token).2.1, token := (c.tz.nextToken c.token).2.2 } : Ctx) = c.next := by
      have : (c.tz.nextToken c.token).1 = .noError := h4
      simp only [Ctx.next, this, ← hce]
    have he1 : (c.tz.nextToken c.token).1 = .noError := h4
    rw [h5]
    obtain ⟨q, hq, hf⟩ := Option.bind_eq_some_iff.mp hf
    obtain ⟨N, c', asg', h6, h7, h8⟩ := structLoop_sim h rest ms c.next old (List.replicate M.count false) q (by simp) h2
      (by rw [h3.opts]; exact hq)
    have h37 := h3.trans h7
    simp only [List.nil_append] at h37
    rcases andThen_cases hf with ⟨he, rfl⟩ | ⟨he, p, hp, rfl⟩
    · refine ⟨N, c', fun n hn => ?_, h37, fun h => absurd h he⟩
      simp [structH, structTo, h1, he1, hc1, h6 n n hn hn, he]
    · obtain ⟨h9, h10⟩ := h8 he
      have hun := unassigned_eq (ss' := ss) h (asg' := asg') (ms := ms) 0 (by
        intro j v hj
        rw [h10.2 j v hj, Nat.add_zero]
        have : (List.replicate M.count false).getD v.idx false = false := by
          simp only [List.getD_eq_getElem?_getD, List.getElem?_replicate]; split <;> rfl
        rw [this, Bool.false_or])
      have hun : (unassignedVisits asg' (M.visit 0 [])).map (·.qname) = unassignedNames ss ms := hun
      have hnil : unassignedVisits asg' (M.visit 0 []) = [] ↔ unassignedNames ss ms = [] := by
        rw [← hun]; simp
      have htr : c'.track = c.popts.track := congrArg POpts.track h37.opts
      have hal : c'.allowUnassigned = c.popts.allowUnassigned := congrArg POpts.allowUnassigned h37.opts
      simp only [Option.some.injEq] at hp
      subst hp
      have hto : ∀ n, N ≤ n → (structH init M).to n old c = (
          let ver := M.verify 0 asg' c'.track []
          if ver.1 = .unassignedRequiredMember then
            let c := if c'.track then { c' with unassigned := c'.unassigned ++ ver.2 } else c'
            some (if c.allowUnassigned then .noError else ver.1, q.val, c)
          else some (ver.1, q.val, c')) := by
        intro n hn
        simp only [structH, structTo, h1, he1, hc1, h6 n n hn hn, he, ne_eq, not_true_eq_false, if_false, Option.bind_eq_bind, Option.bind_some]
      simp only [verify_eq, verdict] at hto
      by_cases hz : unassignedNames ss ms = []
      · rw [if_pos (hnil.mpr hz)] at hto
        refine ⟨N, c', fun n hn => ?_, ?_, fun _ => h9⟩
        · dsimp only; rw [hto n hn]; simp [hz]
        · simpa [hz] using h37
      · rw [if_neg (fun h => hz (hnil.mp h)), hun] at hto
        simp only [if_true, htr] at hto
        by_cases htk : c.popts.track = true
        · simp only [htk, if_true] at hto
          refine ⟨N, { c' with unassigned := c'.unassigned ++ unassignedNames ss ms }, fun n hn => ?_, ?_, fun _ => h9⟩
          · dsimp only; rw [hto n hn, hal]; simp [hz, htr, htk]
          · have : c'.Adds [] (unassignedNames ss ms) { c' with unassigned := c'.unassigned ++ unassignedNames ss ms } := ⟨rfl, by simp, rfl⟩
            simpa [htk] using h37.trans this
        · simp only [htk, if_false, Bool.false_eq_true] at hto
          refine ⟨N, c', fun n hn => ?_, ?_, fun _ => h9⟩
          · dsimp only; rw [hto n hn, hal]; simp [hz]
          · simpa [htk] using h37

end JsonStruct
