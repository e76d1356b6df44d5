import Verif.Spec.Types
import Verif.Lemmas.Parse

/- Every handler does what the decoder of its type says. -/

set_option linter.unusedSectionVars false

namespace JsonStruct

variable [EndCond]

def Visit.up (get : T → S) (set : S → T → T) (v : Visit S) : Visit T := ⟨v.idx, v.qname, v.mem.up get set⟩

theorem revVisit_up (get : T → S) (set : S → T → T) (page : Nat) (sn : Bytes) (ms : List (Member S)) :
    revVisit page sn (ms.map (Member.up get set)) = (revVisit page sn ms).map (Visit.up get set) := by
  induction ms with
  | nil => rfl
  | cons m ms ih => simp only [List.map_cons, revVisit, ih, List.length_map]; rfl

mutual
theorem count_up (get : T → S) (set : S → T → T) (M : Meta S) : (M.up get set).count = M.count := by
  match M with
  | .mk ms ss => simp only [Meta.up, Meta.count, List.length_map, supersCount_up get set ss]
theorem supersCount_up (get : T → S) (set : S → T → T) (ss : List (Bytes × Meta S)) : supersCount (supersUp get set ss) = supersCount ss := by
  match ss with
  | [] => rfl
  | (n, m) :: ss => simp only [supersUp, supersCount, count_up get set m, supersCount_up get set ss]
end

mutual
theorem visit_up (get : T → S) (set : S → T → T) (M : Meta S) (page : Nat) (sn : Bytes) :
    (M.up get set).visit page sn = (M.visit page sn).map (Visit.up get set) := by
  match M with
  | .mk ms ss =>
    simp only [Meta.up, Meta.visit, List.map_append, ← List.map_reverse, revVisit_up, List.length_map, visitSupers_up get set ss]
theorem visitSupers_up (get : T → S) (set : S → T → T) (ss : List (Bytes × Meta S)) (page : Nat) :
    visitSupers page (supersUp get set ss) = (visitSupers page ss).map (Visit.up get set) := by
  match ss with
  | [] => rfl
  | (n, m) :: ss => simp only [supersUp, visitSupers, List.map_append, visit_up get set m, visitSupers_up get set ss, count_up]
end

theorem Described.up {vs : List (Visit S)} {ss : List (MemberSpec S)} (h : Described vs ss) (get : T → S) (set : S → T → T) :
    Described (vs.map (Visit.up get set)) (ss.map (MemberSpec.up get set)) := by
  induction h with
  | nil => exact .nil
  | cons h1 h2 h3 h4 _ ih => exact .cons h1 h2 h3 (member_up_sem h4 get set) ih

/-- Members one by one. -/
inductive Fits : List (Member T) → List (MemberSpec T) → Prop
  | nil : Fits [] []
  | cons {m s ms ss} : m.names = s.names → m.optional = s.optional → m.Sem s.dec → Fits ms ss → Fits (m :: ms) (s :: ss)

theorem Fits.append {a b : List (Member T)} {x y : List (MemberSpec T)} (h : Fits a x) (h' : Fits b y) : Fits (a ++ b) (x ++ y) := by
  induction h with
  | nil => exact h'
  | cons h1 h2 h3 _ ih => exact .cons h1 h2 h3 ih

theorem Fits.reverse {a : List (Member T)} {x : List (MemberSpec T)} (h : Fits a x) : Fits a.reverse x.reverse := by
  induction h with
  | nil => exact .nil
  | cons h1 h2 h3 _ ih => simp only [List.reverse_cons]; exact ih.append (.cons h1 h2 h3 .nil)

theorem Fits.described {ms : List (Member T)} {ss : List (MemberSpec T)} (h : Fits ms ss) (page : Nat) (sn : Bytes)
    (hq : ∀ s ∈ ss, s.qname = qualifiedName sn (s.names.headD [])) : Described (revVisit page sn ms) ss := by
  induction h with
  | nil => exact .nil
  | @cons m s ms ss h1 h2 h3 _ ih =>
    refine .cons ?_ h1 h2 h3 (ih fun s hs => hq s (List.mem_cons_of_mem _ hs))
    rw [hq s (List.mem_cons_self ..), ← h1]
    rfl

theorem specs_qname (sn : Bytes) : {T : Type} → (ms : CMembers T) → ∀ s ∈ ms.specs sn, s.qname = qualifiedName sn (s.names.headD [])
  | _, .nil => by simp [CMembers.specs]
  | _, .cons names t get set ms => by
    simp only [CMembers.specs, List.mem_cons]
    rintro s (rfl | hs)
    · rfl
    · exact specs_qname sn ms s hs

theorem jmap_sem : jmapH.Sem jmapDec := by
  intro c old i rest r hst hd
  simp only [jmapDec, Option.bind_eq_some_iff, Option.map_eq_some_iff] at hd
  obtain ⟨q, h1, metas, h2, rfl⟩ := hd
  have hq : q = ⟨.noError, q.val, [], []⟩ := by
    cases i with
    | close => simp [tokensDec] at h1
    | val l v => simp only [tokensDec, Option.some.injEq] at h1; rw [← h1]
  rw [hq] at h1
  obtain ⟨N, c', g1, g2, g3⟩ := tokens_sem c old.tokens i rest _ hst h1
  refine ⟨N, c', fun n hn => ?_, g2, g3⟩
  simp only [jmapH, g1 n hn, Option.map_some, jmapRead, if_true, h2]

mutual
theorem CType.sem : {T : Type} → (t : CType T) → t.handler.Sem t.dec
  | _, .bool => bool_sem
  | _, .int I => int_sem I
  | _, .double => double_sem
  | _, .float => float_sem
  | _, .time C => time_sem C
  | _, .string m => string_sem m
  | _, .enum names U => enum_sem names U
  | _, .enumValue U => enumValue_sem U
  | _, .nullable t => nullable_sem t.sem
  | _, .nullableChecked t => nullableChecked_sem t.sem
  | _, .optional t => optional_sem t.sem
  | _, .optionalChecked t => optionalChecked_sem t.sem
  | _, .stdOptional t => stdOptional_sem t.sem
  | _, .sharedPtr t => ptr_sem t.sem
  | _, .uniquePtr t => ptr_sem t.sem
  | _, .silentString m => silentString_sem m
  | _, .silentVector t => silentVec_sem t.sem
  | _, .silentUniquePtr t => silentPtr_sem t.sem
  | _, .vector t => vec_sem t.sem
  | _, .oneOrMany t => oneOrMany_sem t.sem
  | _, .array N t => arr_sem N t.sem
  | _, .arrayVariable count t => avc_sem count t.sem
  | _, .tuple ts => tuple_sem ts.sem
  | _, .set _ ins t => set_sem ins t.sem
  | _, .map ins t => map_sem ins t.sem
  | _, .tokens => tokens_sem
  | _, .jmap => jmap_sem
  | _, .struct init s => struct_sem (s.described 0 []) init
theorem CTypes.sem : {Ts : Type} → (ts : CTypes Ts) → ts.handler.Sem ts.dec
  | _, .nil => tupNil_sem
  | _, .cons t ts => tupCons_sem t.sem ts.sem
theorem CStruct.described : {T : Type} → (s : CStruct T) → (page : Nat) → (sn : Bytes) → Described (s.meta.visit page sn) (s.specs sn)
  | _, .mk ms ss, page, sn => by
    simp only [CStruct.meta, Meta.visit, CStruct.specs]
    refine .append ((ms.fits sn).reverse.described page sn fun s hs => ?_) (ss.described _)
    exact specs_qname sn ms s (List.mem_reverse.mp hs)
theorem CMembers.fits : {T : Type} → (ms : CMembers T) → (sn : Bytes) → Fits ms.members (ms.specs sn)
  | _, .nil, _ => .nil
  | _, .cons names t get set ms, sn => .cons rfl rfl (member_sem t.sem names t.isOptional get set) (ms.fits sn)
theorem CSupers.described : {T : Type} → (ss : CSupers T) → (page : Nat) → Described (visitSupers page ss.supers) ss.specs
  | _, .nil, _ => .nil
  | _, .cons name get set s ss, page => by
    simp only [CSupers.supers, visitSupers, CSupers.specs, visit_up]
    exact .append ((s.described page name).up get set) (ss.described _)
end

end JsonStruct
