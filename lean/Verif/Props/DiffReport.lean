import Verif.Lemmas.DiffReport
import Verif.Props.Diff

/-
C53, C64: what a comparison reports for each token.
-/

namespace JsonStruct

theorem Marks.is {w : JVal} {run : Nat → Option DRes} {cs : List DiffCell} (hl : cs.length = w.docToks.length)
    (h : Marks (diffDocOf w).doc.tokens.length (fun _ => {}) 0 0 run cs) : ∃ s, Ends run s ∧ s.Is cs := by
  obtain ⟨s, h1, h2⟩ := h
  refine ⟨s, h1, by rw [h2.length, hl]; rfl, fun i => ?_, h2.members, h2.items, by simpa [wt] using h2.count⟩
  rw [h2.cell]
  simp [over]

theorem diff_start_at (w : JVal) : At (diffDocOf w).doc.tokens.length (diffDocOf w).res (fun _ => {}) 0 0 (w.cells .noDiff) := by
  refine ⟨by simp [diffDocOf], ?_, ⟨by simp [diffDocOf], by simp [diffDocOf]⟩, ⟨by simp [diffDocOf], by simp [diffDocOf]⟩, ?_⟩
  · funext i
    simp only [DRes.cell, diffDocOf, missingAt, over, JVal.cells, List.lookup, Option.getD_none, Nat.zero_le, if_true, Nat.sub_zero, List.getD_eq_getElem?_getD,
      List.getElem?_replicate]
    split <;> rfl
  · simp [diffDocOf, wt, JVal.cells, DiffCell.weight]

theorem rootReport_length {q : Bytes → Bytes → Bool} {new : List JVal → List DiffCell} (hnew : ∀ ws, (new ws).length = (elemToks ws).length) (w v : JVal) :
    (w.rootReport q new v).length = w.docToks.length := by
  unfold JVal.rootReport
  split
  · exact report_length hnew w v
  · simp

/-- **C53, C64**, as the code does it. Two documents without objects with two members of the same name: comparing them is
defined and ends, and the report is the one in the specification, where new items are marked by `firstNew`. -/
theorem C53_report_partial {D : Type} (c : NumCmp D) (v w : JVal) (t u : Bytes) (hv : v.isContainer = true) (hw : w.isContainer = true)
    (ht : Doc rfc v t) (hu : Doc rfc w u) (nv : v.Numbers fun a => (c.stod a).isSome) (nw : w.Numbers fun a => (c.stod a).isSome)
    (dv : v.Distinct) (dw : w.Distinct) :
    ∃ ctx d, DiffCtx.new c.same t = some ctx ∧ ctx.Reports u d ∧ d.doc.tokens = w.docToks ∧ d.res.Is (w.rootReport c.equal firstNew v) := by
  have hq : ∀ a b, (c.stod a).isSome = true → (c.stod b).isSome = true → c.same a b = some (c.equal a b) := by
    intro a b ha hb
    obtain ⟨x, hx⟩ := Option.isSome_iff_exists.1 ha
    obtain ⟨y, hy⟩ := Option.isSome_iff_exists.1 hb
    simp [NumCmp.equal, NumCmp.same, hx, hy]
  obtain ⟨ks, hk⟩ := toks_cons [] .ascii v
  obtain ⟨ls, hl⟩ := toks_cons [] .ascii w
  have hbt : (diffDocOf v).doc.tokens = ⟨[], .ascii, v.lead, v.ty⟩ :: ks := hk
  have hdt : (diffDocOf w).doc.tokens = ⟨[], .ascii, w.lead, w.ty⟩ :: ls := hl
  have hc0 : { (diffDocOf w).res with count := 0 } = (diffDocOf w).res := rfl
  have hm : ∃ s, Ends (fun m => diffDocs c.same m (diffDocOf v).doc (diffDocOf w).doc (diffDocOf w).res) s ∧ s.Is (w.rootReport c.equal firstNew v) := by
    refine Marks.is (rootReport_length firstNew_length w v) ?_
    unfold JVal.rootReport
    by_cases hty : v.ty = w.ty
    · rw [if_pos (sameKind_iff.2 hty)]
      obtain ⟨s', ⟨N, hN⟩, h2⟩ := diffTokens_at hq (diffDocOf v).doc (diffDocOf w).doc v w 0 0 [] .ascii [] .ascii (diffDocOf w).res _ 0 (diffDocOf_val v)
        (diffDocOf_val w) hty (doc_plain ht nv) (doc_plain hu nw) dv dw (diff_start_at w)
      refine ⟨s', ⟨N, fun m hm => ?_⟩, h2⟩
      have := hN (m + 1) (by omega)
      simp only [diffTokens, (diffDocOf_val v).get, (diffDocOf_val w).get, hty] at this
      simp only [diffDocs, hbt, hdt, hty, if_true, hc0]
      cases w with
      | arr ws => simpa [JVal.ty] using this
      | obj ks => simpa [JVal.ty] using this
      | _ => simp [JVal.isContainer] at hw
    · rw [if_neg (fun h => hty (sameKind_iff.1 h))]
      obtain ⟨s', ⟨N, hN⟩, h2⟩ := setEntire_at (t := .rootItemDiff) ⟨by simp, by simp⟩ (diffDocOf_val w) (diff_start_at w)
      refine ⟨s', ⟨N, fun m hm => ?_⟩, h2⟩
      simp only [diffDocs, hbt, hdt, hty, if_false, hc0]
      exact hN m hm
  obtain ⟨s', ⟨N, hN⟩, h2⟩ := hm
  refine ⟨{ base := diffDocOf v, error := (diffDocOf v).error, same := c.same }, { diffDocOf w with res := s' }, by simp [DiffCtx.new, diffDocOf_text hv ht],
    ⟨N, fun m hm => ?_⟩, rfl, h2⟩
  have he : ((diffDocOf w).error ≠ .noError) = False := by simp [diffDocOf]
  simp only [DiffCtx.diff, diffDocOf_text hw hu, bind, Option.bind, he, if_false, DiffCtx.diffDoc, hN m hm]

/-! ### New items are marked, unless the first one is an array -/

theorem firstNew_eq {w : JVal} {ws : List JVal} (h : ∀ us, w ≠ .arr us) : firstNew (w :: ws) = allNew (w :: ws) := by
  unfold firstNew
  split
  · next he => exact absurd (List.cons.inj he).1 (h _)
  · rfl

mutual
theorem report_all {q : Bytes → Bytes → Bool} : (w v : JVal) → w.noNewArrays v → w.report q firstNew v = w.report q allNew v
  | .arr ws, .arr vs, h => by
    rw [JVal.noNewArrays] at h
    rw [JVal.report, JVal.report, itemsReport_all ws vs h]
  | .obj ks, .obj ms, h => by
    rw [JVal.noNewArrays] at h
    rw [JVal.report, JVal.report, membersReport_all ks ms h]
  | .null, v, _ | .arr _, .null, _ | .arr _, .bool _, _ | .arr _, .num _, _ | .arr _, .str _, _ | .arr _, .obj _, _
  | .obj _, .null, _ | .obj _, .bool _, _ | .obj _, .num _, _ | .obj _, .str _, _ | .obj _, .arr _, _ => by simp [JVal.report]
  | .bool _, v, _ | .num _, v, _ | .str _, v, _ => by cases v <;> simp [JVal.report]
theorem itemsReport_all {q : Bytes → Bytes → Bool} : (ws vs : List JVal) → itemsNoNewArrays ws vs → itemsReport q firstNew ws vs = itemsReport q allNew ws vs
  | [], _, _ => by simp [itemsReport]
  | w :: ws, v :: vs, h => by
    rw [itemsNoNewArrays] at h
    rw [itemsReport, itemsReport, report_all w v h.1, itemsReport_all ws vs h.2]
  | w :: ws, [], h => by
    rw [itemsNoNewArrays] at h
    rw [itemsReport, itemsReport, firstNew_eq h]
theorem membersReport_all {q : Bytes → Bytes → Bool} : (ks ms : List (Bytes × JVal)) → membersNoNewArrays ks ms →
    membersReport q firstNew ks ms = membersReport q allNew ks ms
  | [], _, _ => by simp [membersReport]
  | (n, w) :: ks, ms, h => by
    rw [membersNoNewArrays] at h
    rw [membersReport, membersReport, membersReport_all ks ms h.2]
    cases hl : ms.lookup n with
    | none => rfl
    | some v => simp only [report_all w v (h.1 v hl)]
end

/-- **C53** (part). If no array is the first item that is new in an array, every token has the mark it should have: all the
tokens of new members and of new items, all the tokens of members and roots of another type, the first token of items of
another type, values that differ, and the opening brackets of arrays and objects where something is missing; no other token
is marked. Missing: arrays as new items, see `C53_false_new_items`. -/
theorem C53_marks_partial {D : Type} (c : NumCmp D) (v w : JVal) (t u : Bytes) (hv : v.isContainer = true) (hw : w.isContainer = true)
    (ht : Doc rfc v t) (hu : Doc rfc w u) (nv : v.Numbers fun a => (c.stod a).isSome) (nw : w.Numbers fun a => (c.stod a).isSome)
    (dv : v.Distinct) (dw : w.Distinct) (hn : w.noNewArrays v) :
    ∃ ctx d, DiffCtx.new c.same t = some ctx ∧ ctx.Reports u d ∧ d.doc.tokens = w.docToks ∧
      d.res.diffs = (w.rootReport c.equal allNew v).map DiffCell.mark := by
  obtain ⟨ctx, d, h1, h2, h3, h4⟩ := C53_report_partial c v w t u hv hw ht hu nv nw dv dw
  refine ⟨ctx, d, h1, h2, h3, ?_⟩
  have he : w.rootReport c.equal firstNew v = w.rootReport c.equal allNew v := by
    unfold JVal.rootReport
    rw [report_all w v hn]
  rw [he] at h4
  apply List.ext_getElem (by rw [h4.length]; simp)
  intro i h5 h6
  have := congrArg DiffCell.mark (h4.cell i)
  simp only [DRes.cell, List.getD_eq_getElem?_getD, List.getElem?_eq_getElem h5, Option.getD_some,
    List.getElem?_eq_getElem (show i < (w.rootReport c.equal allNew v).length by simpa using h6)] at this
  simpa using this

/-! ### C64: what is missing, and the number of differences -/

mutual
theorem report_missing {q : Bytes → Bytes → Bool} : (w v : JVal) →
    (w.report q firstNew v).map (fun x => (x.members, x.items)) = (w.report q allNew v).map (fun x => (x.members, x.items))
  | .arr ws, .arr vs => by simp [JVal.report, itemsReport_missing ws vs]
  | .obj ks, .obj ms => by simp [JVal.report, membersReport_missing ks ms]
  | .null, v | .arr _, .null | .arr _, .bool _ | .arr _, .num _ | .arr _, .str _ | .arr _, .obj _
  | .obj _, .null | .obj _, .bool _ | .obj _, .num _ | .obj _, .str _ | .obj _, .arr _ => by simp [JVal.report]
  | .bool _, v | .num _, v | .str _, v => by cases v <;> simp [JVal.report]
theorem itemsReport_missing {q : Bytes → Bytes → Bool} : (ws vs : List JVal) →
    (itemsReport q firstNew ws vs).map (fun x => (x.members, x.items)) = (itemsReport q allNew ws vs).map (fun x => (x.members, x.items))
  | [], _ => by simp [itemsReport]
  | w :: ws, v :: vs => by
    rw [itemsReport, itemsReport, List.map_append, List.map_append, itemsReport_missing ws vs]
    split
    · rw [report_missing w v]
    · rfl
  | w :: ws, [] => by
    rw [itemsReport, itemsReport]
    unfold firstNew
    split
    · next us ws' he =>
      have := docToks_pos (.arr us)
      rw [he]
      rw [allNew, itemCells_eq, itemCells_eq, elems_length, JVal.cells]
      simp only [List.map_append, List.map_replicate, List.map_cons, List.dropLast_replicate]
      rw [← List.replicate_succ, ← List.replicate_add]
      congr 1
      omega
    · rfl
theorem membersReport_missing {q : Bytes → Bytes → Bool} : (ks ms : List (Bytes × JVal)) →
    (membersReport q firstNew ks ms).map (fun x => (x.members, x.items)) = (membersReport q allNew ks ms).map (fun x => (x.members, x.items))
  | [], _ => by simp [membersReport]
  | (n, w) :: ks, ms => by
    rw [membersReport, membersReport, List.map_append, List.map_append, membersReport_missing ks ms]
    cases ms.lookup n with
    | none => rfl
    | some v =>
      simp only []
      split
      · rw [report_missing w v]
      · rfl
end

theorem rootReport_missing {q : Bytes → Bytes → Bool} (w v : JVal) (i : Nat) :
    ((w.rootReport q firstNew v).getD i {}).members = ((w.rootReport q allNew v).getD i {}).members ∧
    ((w.rootReport q firstNew v).getD i {}).items = ((w.rootReport q allNew v).getD i {}).items := by
  have h : (w.rootReport q firstNew v).map (fun x => (x.members, x.items)) = (w.rootReport q allNew v).map (fun x => (x.members, x.items)) := by
    unfold JVal.rootReport
    split
    · exact report_missing w v
    · rfl
  have hi := congrArg (fun l => l[i]?) h
  simp only [List.getElem?_map] at hi
  simp only [List.getD_eq_getElem?_getD]
  cases h1 : (w.rootReport q firstNew v)[i]? with
  | none =>
    cases h2 : (w.rootReport q allNew v)[i]? with
    | none => exact ⟨rfl, rfl⟩
    | some y => simp [h1, h2] at hi
  | some x =>
    cases h2 : (w.rootReport q allNew v)[i]? with
    | none => simp [h1, h2] at hi
    | some y => simpa [h1, h2] using hi

/-- **C64** (part). What is listed as missing at a token: the tokens of the members of the base that the object starting there
lacks, or of the items of the base behind the end of the array starting there, in their order; nothing at other tokens. There
is one entry for each position, and it is not empty. Missing: documents with two members of the same name, and scalar roots. -/
theorem C64_missing_partial {D : Type} (c : NumCmp D) (v w : JVal) (t u : Bytes) (hv : v.isContainer = true) (hw : w.isContainer = true)
    (ht : Doc rfc v t) (hu : Doc rfc w u) (nv : v.Numbers fun a => (c.stod a).isSome) (nw : w.Numbers fun a => (c.stod a).isSome)
    (dv : v.Distinct) (dw : w.Distinct) :
    ∃ ctx d, DiffCtx.new c.same t = some ctx ∧ ctx.Reports u d ∧
      (∀ i, missingAt d.res.missingMembers i = ((w.rootReport c.equal allNew v).getD i {}).members) ∧
      (∀ i, missingAt d.res.missingArrayItems i = ((w.rootReport c.equal allNew v).getD i {}).items) ∧
      ((d.res.missingMembers.map Prod.fst).Nodup ∧ ∀ e ∈ d.res.missingMembers, e.2 ≠ []) ∧
      ((d.res.missingArrayItems.map Prod.fst).Nodup ∧ ∀ e ∈ d.res.missingArrayItems, e.2 ≠ []) := by
  obtain ⟨ctx, d, h1, h2, h3, h4⟩ := C53_report_partial c v w t u hv hw ht hu nv nw dv dw
  refine ⟨ctx, d, h1, h2, fun i => ?_, fun i => ?_, h4.members, h4.items⟩
  · rw [← (rootReport_missing w v i).1, ← h4.cell i]; rfl
  · rw [← (rootReport_missing w v i).2, ← h4.cell i]; rfl

theorem getMissing_eq {l : List (Nat × List Tok)} (h : ∀ e ∈ l, e.2 ≠ []) (i : Nat) :
    getMissingTokens i l = if missingAt l i = [] then none else some (missingAt l i) := by
  induction l with
  | nil => simp [getMissingTokens, missingAt]
  | cons e l ih =>
    have ih := ih fun x hx => h x (by simp [hx])
    obtain ⟨p, ks⟩ := e
    unfold getMissingTokens missingAt at *
    by_cases hp : p = i
    · subst hp
      have := h (p, ks) (by simp)
      simpa [List.lookup] using this
    · have : (i == p) = false := by simpa using fun h => hp h.symm
      simpa [List.lookup, this, hp] using ih

/-- **C64** (part), the functions of the API. `size` is the number of the tokens of the document; `getMissingMembers` and
`getMissingArrayItems` give what is missing at a token, as in `C64_missing_partial`, and no list at all (`nullptr`) where nothing
is. Missing: as there. -/
theorem C64_accessors_partial {D : Type} (c : NumCmp D) (v w : JVal) (t u : Bytes) (hv : v.isContainer = true) (hw : w.isContainer = true)
    (ht : Doc rfc v t) (hu : Doc rfc w u) (nv : v.Numbers fun a => (c.stod a).isSome) (nw : w.Numbers fun a => (c.stod a).isSome)
    (dv : v.Distinct) (dw : w.Distinct) :
    ∃ ctx d, DiffCtx.new c.same t = some ctx ∧ ctx.Reports u d ∧ d.doc.tokens = w.docToks ∧ d.size = some w.docToks.length ∧
      (∀ i, d.getMissingMembers i =
        match ((w.rootReport c.equal allNew v).getD i {}).members with
        | [] => none
        | k :: ks => some (k :: ks)) ∧
      (∀ i, d.getMissingArrayItems i =
        match ((w.rootReport c.equal allNew v).getD i {}).items with
        | [] => none
        | k :: ks => some (k :: ks)) := by
  obtain ⟨ctx, d, h1, h2, h3, h4⟩ := C53_report_partial c v w t u hv hw ht hu nv nw dv dw
  refine ⟨ctx, d, h1, h2, h3, ?_, fun i => ?_, fun i => ?_⟩
  · have : d.res.diffs.length = w.docToks.length := by
      rw [h4.length, rootReport_length firstNew_length]
    simp [DiffDoc.size, h3, this]
  · rw [DiffDoc.getMissingMembers, getMissing_eq h4.members.2, ← (rootReport_missing w v i).1, ← h4.cell i]
    cases h : (d.res.cell i).members <;> simp [DRes.cell] at h ⊢ <;> simp [h]
  · rw [DiffDoc.getMissingArrayItems, getMissing_eq h4.items.2, ← (rootReport_missing w v i).2, ← h4.cell i]
    cases h : (d.res.cell i).items <;> simp [DRes.cell] at h ⊢ <;> simp [h]

theorem missingAt_cons (p : Nat) (ks : List Tok) (l : List (Nat × List Tok)) (i : Nat) : missingAt ((p, ks) :: l) i = if i = p then ks else missingAt l i := by
  unfold missingAt
  by_cases h : i = p
  · subst h; simp [List.lookup]
  · have : (i == p) = false := by simpa using h
    simp [List.lookup, this, h]

theorem missingAt_not {l : List (Nat × List Tok)} {i : Nat} (h : i ∉ l.map Prod.fst) : missingAt l i = [] := by
  induction l with
  | nil => rfl
  | cons e l ih =>
    simp only [List.map_cons, List.mem_cons, not_or] at h
    obtain ⟨p, ks⟩ := e
    rw [missingAt_cons, if_neg h.1, ih h.2]

theorem sum_range_ite (N p x : Nat) (g : Nat → Nat) (hp : p < N) (hg : g p = 0) :
    ((List.range N).map fun i => if i = p then x else g i).sum = x + ((List.range N).map g).sum := by
  induction N with
  | zero => omega
  | succ N ih =>
    rw [List.range_succ, List.map_append, List.sum_append, List.map_append, List.sum_append]
    by_cases h : p = N
    · subst h
      have : ((List.range p).map fun i => if i = p then x else g i) = (List.range p).map g := by
        apply List.map_congr_left
        intro i hi
        rw [List.mem_range] at hi
        rw [if_neg (by omega)]
      rw [this]
      simp [hg]; omega
    · rw [ih (by omega)]
      simp [Ne.symm h]
      omega

theorem missing_sum (N : Nat) (l : List (Nat × List Tok)) (hn : (l.map Prod.fst).Nodup) (hl : ∀ e ∈ l, e.1 < N) :
    ((List.range N).map fun i => (missingAt l i).length).sum = (l.map fun e => e.2.length).sum := by
  induction l with
  | nil => simp [missingAt]
  | cons e l ih =>
    obtain ⟨p, ks⟩ := e
    simp only [List.map_cons, List.nodup_cons] at hn
    have e1 : (fun i => (missingAt ((p, ks) :: l) i).length) = fun i => if i = p then ks.length else (missingAt l i).length := by
      funext i
      rw [missingAt_cons]
      split <;> rfl
    rw [e1, sum_range_ite N p ks.length _ (hl (p, ks) (by simp)) (by rw [missingAt_not hn.1]; rfl), ih hn.2 (fun e he => hl e (by simp [he]))]
    simp

theorem missing_lt {N : Nat} {l : List (Nat × List Tok)} (hn : (l.map Prod.fst).Nodup) (he : ∀ e ∈ l, e.2 ≠ []) (h : ∀ i, N ≤ i → missingAt l i = []) :
    ∀ e ∈ l, e.1 < N := by
  intro e hm
  have : missingAt l e.1 = e.2 := by
    clear h he
    induction l with
    | nil => simp at hm
    | cons a l ih =>
      obtain ⟨p, ks⟩ := a
      simp only [List.map_cons, List.nodup_cons] at hn
      rw [missingAt_cons]
      rcases List.mem_cons.1 hm with rfl | hm
      · simp
      · have : e.1 ≠ p := fun hc => hn.1 (hc ▸ List.mem_map_of_mem hm)
        rw [if_neg this, ih hn.2 hm]
  by_contra hc
  exact he e hm (by rw [← this]; exact h _ (by omega))

theorem sum_map_add {α : Type} (l : List α) (f g : α → Nat) : (l.map fun x => f x + g x).sum = (l.map f).sum + (l.map g).sum := by
  induction l with
  | nil => rfl
  | cons x l ih => simp [ih]; omega

theorem count_eq {s : DRes} {cs : List DiffCell} (h : s.Is cs) :
    s.count = s.diffs.countP (fun t => t ≠ .noDiff ∧ t ≠ .missingMembers ∧ t ≠ .missingArrayItems) +
      (s.missingMembers.map fun e => e.2.length).sum + (s.missingArrayItems.map fun e => e.2.length).sum := by
  have hend : ∀ i, cs.length ≤ i → missingAt s.missingMembers i = [] ∧ missingAt s.missingArrayItems i = [] := by
    intro i hi
    have := h.cell i
    rw [List.getD_eq_getElem?_getD, List.getElem?_eq_none hi] at this
    simp only [DRes.cell, Option.getD_none, DiffCell.mk.injEq] at this
    exact this.2
  rw [h.count, ← missing_sum cs.length _ h.members.1 (missing_lt h.members.1 h.members.2 fun i hi => (hend i hi).1),
    ← missing_sum cs.length _ h.items.1 (missing_lt h.items.1 h.items.2 fun i hi => (hend i hi).2)]
  have e1 : cs = (List.range cs.length).map fun i => s.cell i := by
    apply List.ext_getElem (by simp)
    intro i h1 h2
    simp [h.cell i, h1]
  have e2 : s.diffs = (List.range cs.length).map fun i => (s.cell i).mark := by
    apply List.ext_getElem (by simp [h.length])
    intro i h1 h2
    simp [DRes.cell, h1]
  have e3 : s.diffs.countP (fun t => t ≠ .noDiff ∧ t ≠ .missingMembers ∧ t ≠ .missingArrayItems) =
      ((List.range cs.length).map fun i =>
        if (s.cell i).mark = .noDiff ∨ (s.cell i).mark = .missingMembers ∨ (s.cell i).mark = .missingArrayItems then 0 else 1).sum := by
    rw [e2]
    generalize List.range cs.length = l
    induction l with
    | nil => rfl
    | cons i l ih =>
      rw [List.map_cons, List.countP_cons, ih, List.map_cons, List.sum_cons]
      by_cases ha : (s.cell i).mark = .noDiff <;> by_cases hb : (s.cell i).mark = .missingMembers <;>
        by_cases hc : (s.cell i).mark = .missingArrayItems <;> simp [ha, hb, hc] <;> omega
  rw [e3]
  conv_lhs => rw [e1]
  rw [List.map_map, ← sum_map_add, ← sum_map_add]
  rfl

/-- **C64** (part). The number of differences is the number of tokens that are marked for a difference of their own, plus the
number of tokens that are missing. Missing: documents with two members of the same name, and scalar roots. -/
theorem C64_count_partial {D : Type} (c : NumCmp D) (v w : JVal) (t u : Bytes) (hv : v.isContainer = true) (hw : w.isContainer = true)
    (ht : Doc rfc v t) (hu : Doc rfc w u) (nv : v.Numbers fun a => (c.stod a).isSome) (nw : w.Numbers fun a => (c.stod a).isSome)
    (dv : v.Distinct) (dw : w.Distinct) :
    ∃ ctx d, DiffCtx.new c.same t = some ctx ∧ ctx.Reports u d ∧
      d.res.count = d.res.diffs.countP (fun t => t ≠ .noDiff ∧ t ≠ .missingMembers ∧ t ≠ .missingArrayItems) +
        (d.res.missingMembers.map fun e => e.2.length).sum + (d.res.missingArrayItems.map fun e => e.2.length).sum := by
  obtain ⟨ctx, d, h1, h2, h3, h4⟩ := C53_report_partial c v w t u hv hw ht hu nv nw dv dw
  exact ⟨ctx, d, h1, h2, count_eq h4⟩

/-- `{"b":[null,1],"c":1}` -/
def exampleDoc3 : JVal := .obj [(b!"b", .arr [.null, .num b!"1"]), (b!"c", .num b!"1")]

theorem exampleDoc3_text : Doc rfc exampleDoc3 b!"{\"b\":[null,1],\"c\":1}" :=
  ⟨[], _, [], ws_nil, .obj (.cons (w1 := []) (w2 := []) (w3 := []) (w4 := []) ws_nil (example_string _ (by decide)) ws_nil ws_nil
      (.arr (.cons (w := []) (w' := []) ws_nil .null ws_nil (.one (w := []) (w' := []) ws_nil (.num example_num) ws_nil))) ws_nil
    (.one (w1 := []) (w2 := []) (w3 := []) (w4 := []) ws_nil (example_string _ (by decide)) ws_nil ws_nil
      (.num example_num) ws_nil)), ws_nil, rfl⟩

theorem exampleDoc3_items : exampleDoc3.noNewArrays exampleDoc1 := by
  rw [exampleDoc3, exampleDoc1, JVal.noNewArrays, membersNoNewArrays, membersNoNewArrays, membersNoNewArrays]
  refine ⟨fun v hv => ?_, fun v hv => by simp [List.lookup] at hv, trivial⟩
  have : v = .arr [.null] := by
    have h : List.lookup b!"b" [(b!"a", JVal.num b!"1"), (b!"b", .arr [.null])] = some (.arr [.null]) := rfl
    rw [h] at hv
    exact (Option.some.inj hv).symm
  subst this
  rw [JVal.noNewArrays, itemsNoNewArrays, itemsNoNewArrays]
  exact ⟨by simp [JVal.noNewArrays], by simp⟩

/-- The hypotheses of the theorems above are met by `{"a":1,"b":[null]}` and `{"b":[null,1],"c":1}`; the report: a member is
missing, an item and a member are new. -/
example : (∃ ctx d, DiffCtx.new byText.same b!"{\"a\":1,\"b\":[null]}" = some ctx ∧ ctx.Reports b!"{\"b\":[null,1],\"c\":1}" d ∧
      d.doc.tokens = exampleDoc3.docToks ∧ d.res.diffs = (exampleDoc3.rootReport byText.equal allNew exampleDoc1).map DiffCell.mark) ∧
    exampleDoc3.rootReport byText.equal allNew exampleDoc1 =
      [⟨.missingMembers, [⟨b!"a", .string, b!"1", .number⟩], []⟩, {}, {}, ⟨.newArrayItem, [], []⟩, {}, ⟨.newMember, [], []⟩, {}] :=
  ⟨C53_marks_partial byText exampleDoc1 exampleDoc3 _ _ rfl rfl exampleDoc1_text exampleDoc3_text
    (by simp [exampleDoc1, JVal.Numbers, JVal.WF, membersWF, elemsWF, byText])
    (by simp [exampleDoc3, JVal.Numbers, JVal.WF, membersWF, elemsWF, byText])
    (by simp [exampleDoc1, JVal.Distinct, membersDistinct, elemsDistinct])
    (by simp [exampleDoc3, JVal.Distinct, membersDistinct, elemsDistinct])
    exampleDoc3_items, by decide +kernel⟩

end JsonStruct
