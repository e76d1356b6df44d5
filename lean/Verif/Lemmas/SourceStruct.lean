import Verif.Lemmas.SourceRaw

/- Structs read from values that remember their text; all types with raw captures. -/

set_option linter.unusedSimpArgs false
set_option linter.unusedVariables false

namespace JsonStruct

variable {W : Bytes}

/-- For lemmas about names, in which streams do not matter. -/
local instance sourceEnd : EndCond := ⟨fun _ => True⟩

/-- Reading the member does what the decoder says. -/
def Member.ASem (m : Member T) (d : ADec T) : Prop :=
  ∀ (W : Bytes) (c : Ctx) (old : T) (i : AItem) (rest : List ATok) (r : Res T), c.AStream W (i.toks ++ rest) → d c.popts old i = some r →
    Does (fun n => m.to n old c) c r (fun c' => c'.AStream W (i.last :: rest))

theorem member_asem {h : Handler M} {d : ADec M} (hs : h.ASem d) (names : List Bytes) (opt : Bool) (get : T → M) (set : M → T → T) :
    (Member.of names opt h get set).ASem (partADec get set d) := by
  intro W c old i rest r hst hd
  obtain ⟨q, hq, rfl⟩ := Option.map_eq_some_iff.mp hd
  exact (hs W c (get old) i rest q hst hq).map fun n => rfl

theorem member_up_asem {m : Member S} {d : ADec S} (hs : m.ASem d) (get : T → S) (set : S → T → T) :
    (m.up get set).ASem (partADec get set d) := by
  intro W c old i rest r hst hd
  obtain ⟨q, hq, rfl⟩ := Option.map_eq_some_iff.mp hd
  exact (hs W c (get old) i rest q hst hq).map fun n => rfl

/-- As `Described`. -/
inductive ADescribed : List (Visit T) → List (AMemberSpec T) → Prop
  | nil : ADescribed [] []
  | cons {v s vs ss} : v.qname = s.qname → v.mem.names = s.names → v.mem.optional = s.optional → v.mem.ASem s.dec →
      ADescribed vs ss → ADescribed (v :: vs) (s :: ss)

theorem ADescribed.append {a b : List (Visit T)} {x y : List (AMemberSpec T)} (h : ADescribed a x) (h' : ADescribed b y) : ADescribed (a ++ b) (x ++ y) := by
  induction h with
  | nil => exact h'
  | cons h1 h2 h3 h4 _ ih => exact .cons h1 h2 h3 h4 ih

theorem ADescribed.plain {vs : List (Visit T)} {ss : List (AMemberSpec T)} (h : ADescribed vs ss) : Described vs (ss.map AMemberSpec.named) := by
  induction h with
  | nil => exact .nil
  | cons h1 h2 h3 _ _ ih => exact .cons h1 h2 h3 (fun c old i rest r _ hd => by cases hd) ih

theorem ADescribed.get {vs : List (Visit T)} {ss : List (AMemberSpec T)} (h : ADescribed vs ss) {i : Nat} {v : Visit T} {s : AMemberSpec T}
    (hv : vs[i]? = some v) (hs : ss[i]? = some s) : v.mem.ASem s.dec := by
  induction h generalizing i with
  | nil => simp at hv
  | cons h1 h2 h3 h4 h5 ih =>
    cases i with
    | zero => simp at hv hs; subst hv; subst hs; exact h4
    | succ i => simp at hv hs; exact ih hv hs

theorem aresolve_none {ss : List (AMemberSpec T)} {n : Bytes} :
    (resolve (ss.map AMemberSpec.named) n).bind ((ss.map AMemberSpec.named)[·]?) = none ↔ (aresolve ss n).bind (ss[·]?) = none := by
  unfold aresolve
  cases resolve (ss.map AMemberSpec.named) n <;> simp

theorem structLoop_asim {M : Meta T} {ss : List (AMemberSpec T)} (h : ADescribed (M.visit 0 []) ss) (m0 : Option (Nat × Bytes)) (rest : List ATok) (ms : List (Bytes × AVal)) :
    ∀ (c : Ctx) (old : T) (asg : List Bool) (r : Res T), asg.length = M.count → c.AStream W (amemberToks ms ++ acloseObj m0 :: rest) →
      membersADec ss c.popts old ms = some r →
      ∃ N c' asg', (∀ f n, N ≤ f → N ≤ n →
          structLoop M f n old c asg = some (if r.err ≠ .noError then some r.err else none, r.val, c', asg')) ∧
        c.Adds r.missing r.unassigned c' ∧
        (r.err = .noError → c'.AStream W (acloseObj m0 :: rest) ∧ Marked (M.visit 0 []) (ss.map AMemberSpec.named) asg (plainMembers ms) asg') := by
  induction ms with
  | nil =>
    intro c old asg r hl hst hd
    simp only [membersADec, Option.some.injEq] at hd
    subst hd
    refine ⟨1, c, asg, fun f n _ hn => ?_, Ctx.Adds.refl c, fun _ => ⟨hst, marked_nil _ _ _⟩⟩
    obtain ⟨n, rfl⟩ : ∃ m, n = m + 1 := ⟨n - 1, by omega⟩
    have : c.token.valueType = .objectEnd := hst.valueType
    simp [structLoop, this]
  | cons m ms ih =>
    obtain ⟨nm, v⟩ := m
    intro c old asg r hl hst hd
    rw [amember_first] at hst
    obtain ⟨hna, hnm⟩ := amember_not_close hst
    dsimp only at hnm
    have hfr := find_resolve h.plain nm
    have hw : Within 0 asg.length (M.visit 0 []) := by
      have := visit_within M 0 []; rw [hl]; simpa using this
    rw [membersADec] at hd
    cases hb : (aresolve ss nm).bind (ss[·]?) with
    | some s =>
      rw [hb] at hd
      dsimp only at hd
      obtain ⟨i, hi, hsi⟩ := Option.bind_eq_some_iff.mp hb
      obtain ⟨w, hwv⟩ : ∃ w, (aresolve ss nm).bind ((M.visit 0 [])[·]?) = some w := by
        cases hx : (aresolve ss nm).bind ((M.visit 0 [])[·]?) with
        | none => rw [aresolve_none.mp (hfr.2.1.mp hx)] at hb; cases hb
        | some w => exact ⟨w, rfl⟩
      have hwi : (M.visit 0 [])[i]? = some w := by rw [hi] at hwv; exact hwv
      obtain ⟨q, hq, hd⟩ := Option.bind_eq_some_iff.mp hd
      obtain ⟨N, c1, h1, h2, h3⟩ := h.get hwi hsi W c old _ _ q hst hq
      dsimp only at h1 h3
      have hfind : ∀ f, N ≤ f → M.find f old c asg = some (matchedMemberResult q.err, q.val, c1, asg.set w.idx true) := by
        intro f hf; rw [meta_find h.plain, hnm, show (resolve (ss.map AMemberSpec.named) nm).bind ((M.visit 0 [])[·]?) = some w from hwv]; dsimp only; rw [h1 f hf]; rfl
      have hmm := matched_ne q.err
      have hq0 : matchedMemberResult q.err = .noError ↔ q.err = .noError := by
        unfold matchedMemberResult; split <;> simp_all
      rcases andThen_cases hd with ⟨he, rfl⟩ | ⟨he, p, hp, rfl⟩
      · have he : matchedMemberResult q.err ≠ .noError := he
        refine ⟨N + 1, c1, asg.set w.idx true, fun f n hf hn => ?_, h2, fun h => absurd h he⟩
        obtain ⟨n, rfl⟩ : ∃ m, n = m + 1 := ⟨n - 1, by omega⟩
        have hnr : (q.nested).err = matchedMemberResult q.err := rfl
        simp [structLoop, hna, hfind f (by omega), hmm, he, hnr]
        rfl
      · have he : matchedMemberResult q.err = .noError := he
        have he' := hq0.mp he
        obtain ⟨h4, h5⟩ := (h3 he').next' (by simp)
        obtain ⟨N', c', asg', h6, h7, h8⟩ := ih c1.next q.val (asg.set w.idx true) p (by simp [hl]) h4
          (by rw [(h2.trans h5).opts]; exact hp)
        refine ⟨N + N' + 1, c', asg', fun f n hf hn => ?_, ?_, fun he => ?_⟩
        · obtain ⟨n, rfl⟩ : ∃ m, n = m + 1 := ⟨n - 1, by omega⟩
          have h6 := h6 f n (by omega) (by omega)
          simp only [structLoop, hna, if_false, hfind f (by omega), Option.bind_eq_bind, Option.bind_some, hmm, he, ne_eq, not_true_eq_false,
            h4.err, h6, reduceCtorEq]
        · have : c.Adds (q.missing ++ p.missing) (q.unassigned ++ p.unassigned) c' := by simpa using (h2.trans h5).trans h7
          exact this
        · exact ⟨(h8 he).1, marked_hit hw hi hwi (h8 he).2⟩
    | none =>
      rw [hb] at hd
      dsimp only at hd
      have hx := hfr.2.1.mpr (aresolve_none.mpr hb)
      have hrn := hfr.2.2 (aresolve_none.mpr hb)
      have hfind : ∀ f, M.find f old c asg = some (.missingPropertyMember, old, c, asg) := by
        intro f; rw [meta_find h.plain, hnm, hx]
      let c0 : Ctx := if c.track then { c with missing := c.missing ++ [nm] } else c
      have hc0 : c.Adds (if c.popts.track then [nm] else []) [] c0 := by
        by_cases ht : c.track = true
        · rw [show c0 = { c with missing := c.missing ++ [nm] } from if_pos ht, show (if c.popts.track then [nm] else []) = [nm] from if_pos ht]
          exact ⟨rfl, rfl, by simp⟩
        · rw [show c0 = c from if_neg ht, show (if c.popts.track then [nm] else []) = [] from if_neg ht]; exact Ctx.Adds.refl c
      have hs0 : c0.AStream W ((AItem.val (nm, .string) v).toks ++ (amemberToks ms ++ acloseObj m0 :: rest)) := by
        by_cases ht : c.track = true
        · rw [show c0 = { c with missing := c.missing ++ [nm] } from if_pos ht]; exact hst
        · rw [show c0 = c from if_neg ht]; exact hst
      have hop : c0.allowMissing = c.popts.allowMissing := by
        have := hc0.opts; exact congrArg POpts.allowMissing this
      rcases andThen_cases hd with ⟨he, rfl⟩ | ⟨he, p, hp, rfl⟩
      · dsimp only at he
        have ha : c.popts.allowMissing = false := by
          cases hh : c.popts.allowMissing with
          | false => rfl
          | true => rw [hh] at he; simp at he
        refine ⟨1, c0, asg, fun f n hf hn => ?_, by simpa [ha] using hc0, fun h => absurd h he⟩
        obtain ⟨n, rfl⟩ : ∃ m, n = m + 1 := ⟨n - 1, by omega⟩
        have hun : c.unknown f nm = some (some .missingPropertyMember, c0) := by
          have : c.unknown f nm = if c0.allowMissing then (do
              let c ← skipArrayOrObject f c0
              some (if c.error ≠ .noError then some c.error else none, c)) else some (some .missingPropertyMember, c0) := rfl
          rw [this, hop, ha]; rfl
        simp [structLoop, hna, hfind, hnm, hun, ha]
      · dsimp only at he
        have ha : c.popts.allowMissing = true := by
          cases hh : c.popts.allowMissing with
          | true => rfl
          | false => rw [hh] at he; simp at he
        obtain ⟨N, c1, h1, h2, h3⟩ := askip_value c0 (nm, .string) v _ hs0
        obtain ⟨h4, h5⟩ := h3.next' (by simp)
        have h02 := (hc0.trans h2).trans h5
        obtain ⟨N', c', asg', h6, h7, h8⟩ := ih c1.next old asg p hl h4 (by rw [h02.opts]; exact hp)
        have hun : ∀ f, N ≤ f → c.unknown f nm = some (none, c1) := by
          intro f hf
          have : c.unknown f nm = if c0.allowMissing then (do
              let c ← skipArrayOrObject f c0
              some (if c.error ≠ .noError then some c.error else none, c)) else some (some .missingPropertyMember, c0) := rfl
          rw [this, hop, ha, h1 f hf]; simp [h3.err]
        refine ⟨N + N' + 1, c', asg', fun f n hf hn => ?_, ?_, fun he => ?_⟩
        · obtain ⟨n, rfl⟩ : ∃ m, n = m + 1 := ⟨n - 1, by omega⟩
          have h6 := h6 f n (by omega) (by omega)
          simp only [structLoop, hna, if_false, hfind, Option.bind_eq_bind, Option.bind_some, hnm, if_true, hun f (by omega), h4.err, ne_eq,
            not_true_eq_false, h6]
        · simpa using h02.trans h7
        · exact ⟨(h8 he).1, marked_miss hrn (h8 he).2⟩

theorem struct_asem {M : Meta T} {ss : List (AMemberSpec T)} (h : ADescribed (M.visit 0 []) ss) (init : T) : (structH init M).ASem (structADec ss) := by
  intro W c old i rest r hst hd
  have ht := hst.item.1
  rcases objectADec_cases hd with ⟨hn, rfl⟩ | ⟨l, s, ms, rfl, hf⟩
  · exact Does.pure (fun n => by simp [structH, structTo, ht, hn]) (by simp)
  · have hce := hst.err
    obtain ⟨h1, h2, h3, h4, h5⟩ := aobj_stream hst
    have hc1 : ({ c with tz := (c.tz.nextToken c.token).2.1, token := (c.tz.nextToken c.token).2.2 } : Ctx) = c.next := by
      have : (c.tz.nextToken c.token).1 = .noError := h4
      simp only [Ctx.next, this, ← hce]
    have he1 : (c.tz.nextToken c.token).1 = .noError := h4
    rw [h5]
    obtain ⟨q, hq, hf⟩ := Option.bind_eq_some_iff.mp hf
    obtain ⟨N, c', asg', h6, h7, h8⟩ := structLoop_asim h _ rest ms c.next old (List.replicate M.count false) q (by simp) h2
      (by rw [h3.opts]; exact hq)
    have h37 := h3.trans h7
    simp only [List.nil_append] at h37
    rcases andThen_cases hf with ⟨he, rfl⟩ | ⟨he, p, hp, rfl⟩
    · refine ⟨N, c', fun n hn => ?_, h37, fun h => absurd h he⟩
      simp [structH, structTo, h1, he1, hc1, h6 n n hn hn, he]
    · obtain ⟨h9, h10⟩ := h8 he
      have hun := unassigned_eq (ss' := ss.map AMemberSpec.named) h.plain (asg' := asg') (ms := plainMembers ms) 0 (by
        intro j v hj
        rw [h10.2 j v hj, Nat.add_zero]
        have : (List.replicate M.count false).getD v.idx false = false := by
          simp only [List.getD_eq_getElem?_getD, List.getElem?_replicate]; split <;> rfl
        rw [this, Bool.false_or])
      have hun : (unassignedVisits asg' (M.visit 0 [])).map (·.qname) = unassignedNames (ss.map AMemberSpec.named) (plainMembers ms) := hun
      have hnil : unassignedVisits asg' (M.visit 0 []) = [] ↔ unassignedNames (ss.map AMemberSpec.named) (plainMembers ms) = [] := by
        rw [← hun]; simp
      have htr : c'.track = c.popts.track := congrArg POpts.track h37.opts
      have hal : c'.allowUnassigned = c.popts.allowUnassigned := congrArg POpts.allowUnassigned h37.opts
      simp only [Option.some.injEq] at hp
      subst hp
      have hto : ∀ n, N ≤ n → (structH init M).to n old c = (
          let ver := M.verify 0 asg' c'.track []
          if ver.1 = .unassignedRequiredMember then
            let c := if c'.track then { c' with unassigned := c'.unassigned ++ ver.2 } else c'
            some (if c.allowUnassigned then .noError else ver.1, q.val, c)
          else some (ver.1, q.val, c')) := by
        intro n hn
        simp only [structH, structTo, h1, he1, hc1, h6 n n hn hn, he, ne_eq, not_true_eq_false, if_false, Option.bind_eq_bind, Option.bind_some]
      simp only [verify_eq, verdict] at hto
      by_cases hz : unassignedNames (ss.map AMemberSpec.named) (plainMembers ms) = []
      · rw [if_pos (hnil.mpr hz)] at hto
        refine ⟨N, c', fun n hn => ?_, ?_, fun _ => h9⟩
        · dsimp only; rw [hto n hn]; simp [hz]
        · simpa [hz] using h37
      · rw [if_neg (fun h => hz (hnil.mp h)), hun] at hto
        simp only [if_true, htr] at hto
        by_cases htk : c.popts.track = true
        · simp only [htk, if_true] at hto
          refine ⟨N, { c' with unassigned := c'.unassigned ++ unassignedNames (ss.map AMemberSpec.named) (plainMembers ms) }, fun n hn => ?_, ?_, fun _ => h9⟩
          · dsimp only; rw [hto n hn, hal]; simp [hz, htr, htk]
          · have : c'.Adds [] (unassignedNames (ss.map AMemberSpec.named) (plainMembers ms)) { c' with unassigned := c'.unassigned ++ unassignedNames (ss.map AMemberSpec.named) (plainMembers ms) } := ⟨rfl, by simp, rfl⟩
            simpa [htk] using h37.trans this
        · simp only [htk, if_false, Bool.false_eq_true] at hto
          refine ⟨N, c', fun n hn => ?_, ?_, fun _ => h9⟩
          · dsimp only; rw [hto n hn, hal]; simp [hz]
          · simpa [htk] using h37

/-! ### Types -/

theorem ADescribed.up {vs : List (Visit S)} {ss : List (AMemberSpec S)} (h : ADescribed vs ss) (get : T → S) (set : S → T → T) :
    ADescribed (vs.map (Visit.up get set)) (ss.map (AMemberSpec.up get set)) := by
  induction h with
  | nil => exact .nil
  | cons h1 h2 h3 h4 _ ih => exact .cons h1 h2 h3 (member_up_asem h4 get set) ih

/-- Members one by one. -/
inductive AFits : List (Member T) → List (AMemberSpec T) → Prop
  | nil : AFits [] []
  | cons {m s ms ss} : m.names = s.names → m.optional = s.optional → m.ASem s.dec → AFits ms ss → AFits (m :: ms) (s :: ss)

theorem AFits.append {a b : List (Member T)} {x y : List (AMemberSpec T)} (h : AFits a x) (h' : AFits b y) : AFits (a ++ b) (x ++ y) := by
  induction h with
  | nil => exact h'
  | cons h1 h2 h3 _ ih => exact .cons h1 h2 h3 ih

theorem AFits.reverse {a : List (Member T)} {x : List (AMemberSpec T)} (h : AFits a x) : AFits a.reverse x.reverse := by
  induction h with
  | nil => exact .nil
  | cons h1 h2 h3 _ ih => simp only [List.reverse_cons]; exact ih.append (.cons h1 h2 h3 .nil)

theorem AFits.described {ms : List (Member T)} {ss : List (AMemberSpec T)} (h : AFits ms ss) (page : Nat) (sn : Bytes)
    (hq : ∀ s ∈ ss, s.qname = qualifiedName sn (s.names.headD [])) : ADescribed (revVisit page sn ms) ss := by
  induction h with
  | nil => exact .nil
  | @cons m s ms ss h1 h2 h3 _ ih =>
    refine .cons ?_ h1 h2 h3 (ih fun s hs => hq s (List.mem_cons_of_mem _ hs))
    rw [hq s (List.mem_cons_self ..), ← h1]
    rfl

theorem aspecs_qname (sn : Bytes) : {T : Type} → (ms : RMembers T) → ∀ s ∈ ms.aspecs sn, s.qname = qualifiedName sn (s.names.headD [])
  | _, .nil => by simp [RMembers.aspecs]
  | _, .cons names t get set ms => by
    simp only [RMembers.aspecs, List.mem_cons]
    rintro s (rfl | hs)
    · rfl
    · exact aspecs_qname sn ms s hs

mutual
theorem RType.asem : {T : Type} → (t : RType T) → t.handler.ASem t.adec
  | _, .lib t => plain_asem fun E => @CType.sem E _ t
  | _, .raw k addr => raw_asem k addr
  | _, .rawRef k => rawRef_asem k
  | _, .nullable t => nullable_asem t.asem
  | _, .nullableChecked t => nullableChecked_asem t.asem
  | _, .optional t => t.asem
  | _, .optionalChecked t => optionalChecked_asem t.asem
  | _, .stdOptional t => stdOptional_asem t.asem
  | _, .sharedPtr t => ptr_asem t.asem
  | _, .uniquePtr t => ptr_asem t.asem
  | _, .silentVector t => vec_asem t.asem
  | _, .silentUniquePtr t => ptr_asem t.asem
  | _, .vector t => vec_asem t.asem
  | _, .oneOrMany t => oneOrMany_asem t.asem
  | _, .array N t => arr_asem N t.asem
  | _, .arrayVariable count t => avc_asem count t.asem
  | _, .tuple ts => tuple_asem ts.asem
  | _, .set _ ins t => set_asem ins t.asem
  | _, .map ins t => map_asem ins t.asem
  | _, .struct init s => struct_asem (s.adescribed 0 []) init
theorem RTypes.asem : {Ts : Type} → (ts : RTypes Ts) → (ts.build rawH).ASem ts.adec
  | _, .nil => tupNil_asem
  | _, .cons t ts => tupCons_asem t.asem ts.asem
theorem RStruct.adescribed : {T : Type} → (s : RStruct T) → (page : Nat) → (sn : Bytes) → ADescribed ((s.meta rawH).visit page sn) (s.aspecs sn)
  | _, .mk ms ss, page, sn => by
    simp only [RStruct.meta, Meta.visit, RStruct.aspecs]
    refine .append ((ms.afits sn).reverse.described page sn fun s hs => ?_) (ss.adescribed _)
    exact aspecs_qname sn ms s (List.mem_reverse.mp hs)
theorem RMembers.afits : {T : Type} → (ms : RMembers T) → (sn : Bytes) → AFits (ms.members rawH) (ms.aspecs sn)
  | _, .nil, _ => .nil
  | _, .cons names t get set ms, sn => .cons rfl rfl (member_asem t.asem names t.isOptional get set) (ms.afits sn)
theorem RSupers.adescribed : {T : Type} → (ss : RSupers T) → (page : Nat) → ADescribed (visitSupers page (ss.supers rawH)) ss.aspecs
  | _, .nil, _ => .nil
  | _, .cons name get set s ss, page => by
    simp only [RSupers.supers, visitSupers, RSupers.aspecs, visit_up]
    exact .append ((s.adescribed page name).up get set) (ss.adescribed _)
end

end JsonStruct
