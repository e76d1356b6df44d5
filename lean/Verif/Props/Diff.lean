import Verif.Lemmas.Diff
import Verif.Props.Map

/-
C28, C29, C30: comparing documents.
-/

namespace JsonStruct

/-! ### A document that has been tokenized -/

/-- The `DiffTokens` of a document, before a comparison. -/
def diffDocOf (v : JVal) : DiffDoc where
  doc := ⟨v.docToks, v.containers.map metaOf⟩
  res := { diffs := List.replicate v.docToks.length .noDiff }

theorem diffDocOf_text {v : JVal} {t : Bytes} (hv : v.isContainer = true) (h : Doc rfc v t) : DiffDoc.ofText t = some (diffDocOf v) := by
  have ht := C02_document_tokenized {} rfl v t hv h
  have hp := docToks_pos v
  have hne : v.docToks ≠ [] := by intro h; rw [h] at hp; simp at hp
  have htn : t ≠ [] := by
    intro h
    subst h
    have : (tokenize {} []).1 = [] := by decide +kernel
    rw [ht] at this
    exact hne this
  have hm := metaForTokens_value [] .ascii v
  simp only [DiffDoc.ofText, htn, if_false, ht, hne, bind, Option.bind, show metaForTokens v.docToks = some (v.containers.map metaOf) from hm]
  rfl

theorem positions_nodup (v : JVal) : (v.containers.map Prod.fst).Nodup := by
  rw [C25_positions]
  have h1 : (v.docToks.zipIdx.map Prod.snd).Nodup := by simp [List.nodup_range']
  exact h1.sublist (List.filter_sublist.map _)

theorem find_nodup {es : List (Nat × JVal)} (h : (es.map Prod.fst).Nodup) {e : Nat × JVal} (he : e ∈ es) :
    (es.map metaOf).find? (fun m => m.position = e.1) = some (metaOf e) := by
  induction es with
  | nil => simp at he
  | cons a es ih =>
    simp only [List.map_cons, List.nodup_cons] at h
    rcases List.mem_cons.1 he with rfl | he
    · simp [metaOf]
    · have : a.1 ≠ e.1 := fun hc => h.1 (List.mem_map.2 ⟨e, he, hc.symm⟩)
      rw [List.map_cons, List.find?_cons_of_neg (by rw [decide_eq_true_iff]; exact this), ih h.2 he]

theorem diffDocOf_val (v : JVal) : (diffDocOf v).doc.Val 0 [] .ascii v :=
  ⟨⟨[], by simp [diffDocOf, JVal.docToks]⟩, fun _ he => find_nodup (positions_nodup v) he⟩

/-- Comparing two documents: the comparison is defined, ends, and counts no difference exactly if they are alike. -/
theorem diffDocs_runs {D : Type} (c : NumCmp D) {v w : JVal} {t u : Bytes} (hv : v.isContainer = true) (hw : w.isContainer = true)
    (ht : Doc rfc v t) (hu : Doc rfc w u) (nv : v.Numbers fun a => (c.stod a).isSome) (nw : w.Numbers fun a => (c.stod a).isSome) (dw : w.Distinct) :
    Runs (fun m => diffDocs c.same m (diffDocOf v).doc (diffDocOf w).doc (diffDocOf w).res) (diffDocOf w).res (v.alike c.equal w) := by
  have hq : ∀ a b, (c.stod a).isSome = true → (c.stod b).isSome = true → c.same a b = some (c.equal a b) := by
    intro a b ha hb
    obtain ⟨x, hx⟩ := Option.isSome_iff_exists.1 ha
    obtain ⟨y, hy⟩ := Option.isSome_iff_exists.1 hb
    simp [NumCmp.equal, NumCmp.same, hx, hy]
  obtain ⟨ks, hk⟩ := toks_cons [] .ascii v
  obtain ⟨ls, hl⟩ := toks_cons [] .ascii w
  have hbt : (diffDocOf v).doc.tokens = ⟨[], .ascii, v.lead, v.ty⟩ :: ks := hk
  have hdt : (diffDocOf w).doc.tokens = ⟨[], .ascii, w.lead, w.ty⟩ :: ls := hl
  have hlen : (diffDocOf w).res.diffs.length = (diffDocOf w).doc.tokens.length := by simp [diffDocOf]
  have hc0 : { (diffDocOf w).res with count := 0 } = (diffDocOf w).res := rfl
  by_cases hty : v.ty = w.ty
  · have hr := diffTokens_runs hq (diffDocOf v).doc (diffDocOf w).doc v w 0 0 [] .ascii [] .ascii (diffDocOf w).res (diffDocOf_val v) (diffDocOf_val w)
      hty (doc_plain ht nv) (doc_plain hu nw) dw hlen
    obtain ⟨s', ⟨N, hN⟩, h2, h3⟩ := hr
    refine ⟨s', ⟨N, fun m hm => ?_⟩, h2, h3⟩
    have := hN (m + 1) (by omega)
    simp only [diffTokens, (diffDocOf_val v).get, (diffDocOf_val w).get, hty] at this
    simp only [diffDocs, hbt, hdt, hty, if_true, hc0]
    cases w with
    | arr ws => simpa [JVal.ty] using this
    | obj ks => simpa [JVal.ty] using this
    | _ => simp [JVal.isContainer] at hw
  · obtain ⟨s', ⟨N, hN⟩, h2, h3⟩ := setEntire_runs (t := .rootItemDiff) (by simp) (diffDocOf_val w) hlen (P := v.alike c.equal w) (fun h => hty (alike_ty h))
    refine ⟨s', ⟨N, fun m hm => ?_⟩, h2, h3⟩
    simp only [diffDocs, hbt, hdt, hty, if_false, hc0]
    exact hN m hm

theorem reports_of_runs {D : Type} (c : NumCmp D) {v w : JVal} {t u : Bytes} (hv : v.isContainer = true) (hw : w.isContainer = true)
    (ht : Doc rfc v t) (hu : Doc rfc w u) (nv : v.Numbers fun a => (c.stod a).isSome) (nw : w.Numbers fun a => (c.stod a).isSome) (dw : w.Distinct) :
    ∃ ctx d, DiffCtx.new c.same t = some ctx ∧ ctx.Reports u d ∧ (diffDocOf w).res.Step d.res ∧ (d.res.count = 0 ↔ v.alike c.equal w) := by
  obtain ⟨s', ⟨N, hN⟩, h2, h3⟩ := diffDocs_runs c hv hw ht hu nv nw dw
  refine ⟨{ base := diffDocOf v, error := (diffDocOf v).error, same := c.same }, { diffDocOf w with res := s' }, by simp [DiffCtx.new, diffDocOf_text hv ht],
    ⟨N, fun m hm => ?_⟩, h2, h3⟩
  have he : ((diffDocOf w).error ≠ .noError) = False := by simp [diffDocOf]
  simp only [DiffCtx.diff, diffDocOf_text hw hu, bind, Option.bind, he, if_false, DiffCtx.diffDoc, hN m hm]

/-! ### C28 -/

/-- **C28** (part). Two texts of the same array or object whose objects have no two members of the same name are compared
without finding a difference, if every number in it can be read and is equal to itself: the count is zero, no token is
marked, and nothing is reported missing. Missing: documents with two members of the same name, and scalar roots. -/
theorem C28_equal_documents_partial {D : Type} (c : NumCmp D) (hr : ∀ x, c.eq x x = true) (v : JVal) (t u : Bytes) (hv : v.isContainer = true)
    (ht : Doc rfc v t) (hu : Doc rfc v u) (hn : v.Numbers fun a => (c.stod a).isSome) (hd : v.Distinct) :
    ∃ ctx d, DiffCtx.new c.same t = some ctx ∧ ctx.Reports u d ∧ d.Clean := by
  obtain ⟨ctx, d, h1, h2, h3, h4⟩ := reports_of_runs c hv hv ht hu hn hn hd
  have hc : d.res.count = 0 := h4.2 (alike_of_Alike (Alike.refl (P := fun a => (c.stod a).isSome) (by
    intro a ha
    obtain ⟨x, hx⟩ := Option.isSome_iff_exists.1 ha
    simp [NumCmp.equal, NumCmp.same, hx, hr]) v hn))
  have hs := h3.same hc (by intro x hx; exact List.eq_of_mem_replicate hx)
  refine ⟨ctx, d, h1, h2, hc, ?_, ?_, ?_⟩ <;> rw [hs]
  · intro x hx; exact List.eq_of_mem_replicate hx
  · rfl
  · rfl

/-- Numbers are compared as they are written. -/
def byText : NumCmp Bytes := ⟨some, (· == ·)⟩

/-- `{"a":1,"b":[null]}` -/
def exampleDoc1 : JVal := .obj [(b!"a", .num b!"1"), (b!"b", .arr [.null])]
/-- `{"b":[null],"a":1}` -/
def exampleDoc2 : JVal := .obj [(b!"b", .arr [.null]), (b!"a", .num b!"1")]

theorem example_string (c : Byte) (h : 0x20 ≤ c ∧ c ≠ 0x22 ∧ c ≠ 0x5C) : JsonString [c] := .plain h.1 h.2.1 h.2.2 .nil
theorem example_num : JsonNumber b!"1" := ⟨[], b!"1", [], [], rfl, .inl rfl, .inr ⟨⟨by decide, by decide⟩, by decide⟩, .inl rfl, .inl rfl⟩
theorem ws_blank : Ws b!" " := by simp [Ws, isWs]

theorem exampleDoc1_text : Doc rfc exampleDoc1 b!"{\"a\":1,\"b\":[null]}" :=
  ⟨[], _, [], ws_nil, .obj (.cons (w1 := []) (w2 := []) (w3 := []) (w4 := []) ws_nil (example_string _ (by decide)) ws_nil ws_nil (.num example_num) ws_nil
    (.one (w1 := []) (w2 := []) (w3 := []) (w4 := []) ws_nil (example_string _ (by decide)) ws_nil ws_nil
      (.arr (.one (w := []) (w' := []) ws_nil .null ws_nil)) ws_nil)), ws_nil, rfl⟩

theorem exampleDoc1_text' : Doc rfc exampleDoc1 b!" {\"a\": 1,\"b\":[null]}" :=
  ⟨b!" ", _, [], ws_blank, .obj (.cons (w1 := []) (w2 := []) (w3 := b!" ") (w4 := []) ws_nil (example_string _ (by decide)) ws_nil ws_blank (.num example_num) ws_nil
    (.one (w1 := []) (w2 := []) (w3 := []) (w4 := []) ws_nil (example_string _ (by decide)) ws_nil ws_nil
      (.arr (.one (w := []) (w' := []) ws_nil .null ws_nil)) ws_nil)), ws_nil, rfl⟩

theorem exampleDoc2_text : Doc rfc exampleDoc2 b!"{\"b\":[null],\"a\":1}" :=
  ⟨[], _, [], ws_nil, .obj (.cons (w1 := []) (w2 := []) (w3 := []) (w4 := []) ws_nil (example_string _ (by decide)) ws_nil ws_nil
      (.arr (.one (w := []) (w' := []) ws_nil .null ws_nil)) ws_nil
    (.one (w1 := []) (w2 := []) (w3 := []) (w4 := []) ws_nil (example_string _ (by decide)) ws_nil ws_nil
      (.num example_num) ws_nil)), ws_nil, rfl⟩

/-- The hypotheses of `C28_equal_documents_partial` are met: `{"a":1,"b":[null]}` with and without blanks. -/
example : ∃ ctx d, DiffCtx.new byText.same b!"{\"a\":1,\"b\":[null]}" = some ctx ∧ ctx.Reports b!" {\"a\": 1,\"b\":[null]}" d ∧ d.Clean :=
  C28_equal_documents_partial byText (by simp [byText]) exampleDoc1 _ _ rfl exampleDoc1_text exampleDoc1_text'
    (by simp [exampleDoc1, JVal.Numbers, JVal.WF, membersWF, elemsWF, byText])
    (by simp [exampleDoc1, JVal.Distinct, membersDistinct, elemsDistinct])

/-- The number of differences reported for two texts. -/
def diffCount (n : Nat) (t u : Bytes) : Option (Option Nat) := do
  let c ← DiffCtx.new byText.same t
  let (i, c) ← c.diff n u
  some (i.bind fun i => (c.diffs[i]?).map fun d => d.res.count)

/-- **C28** is false if an object has two members of the same name: the second one is compared with the first one. -/
theorem C28_false_same_name : diffCount 100 b!"{\"a\":1,\"a\":2}" b!"{\"a\":1,\"a\":2}" = some (some 1) := by decide +kernel

/-- **C28** is false for a scalar root: there is no report. -/
theorem C28_false_scalar_root : diffCount 100 b!"1" b!"1" = some none := by decide +kernel

/-! ### C29 -/

/-- **C29** (part). The comparison of two documents without objects that have two members of the same name is defined and
ends, and it counts no difference exactly if they are equal up to the order of members and up to the comparison of
numbers. Missing: scalar roots. -/
theorem C29_no_difference_iff_equal_partial {D : Type} (c : NumCmp D) (v w : JVal) (t u : Bytes) (hv : v.isContainer = true) (hw : w.isContainer = true)
    (ht : Doc rfc v t) (hu : Doc rfc w u) (nv : v.Numbers fun a => (c.stod a).isSome) (nw : w.Numbers fun a => (c.stod a).isSome)
    (dv : v.Distinct) (dw : w.Distinct) :
    ∃ ctx d, DiffCtx.new c.same t = some ctx ∧ ctx.Reports u d ∧ (d.res.count = 0 ↔ Alike c.equal v w) := by
  obtain ⟨ctx, d, h1, h2, h3, h4⟩ := reports_of_runs c hv hw ht hu nv nw dw
  exact ⟨ctx, d, h1, h2, h4.trans ⟨Alike_of_alike v w dv dw, alike_of_Alike⟩⟩

/-- The hypotheses of `C29_no_difference_iff_equal_partial` are met, and the right hand side holds for two documents that
are not the same: `{"a":1,"b":[null]}` and `{"b":[null],"a":1}`. -/
example : ∃ ctx d, DiffCtx.new byText.same b!"{\"a\":1,\"b\":[null]}" = some ctx ∧ ctx.Reports b!"{\"b\":[null],\"a\":1}" d ∧
    (d.res.count = 0 ↔ Alike byText.equal exampleDoc1 exampleDoc2) :=
  C29_no_difference_iff_equal_partial byText exampleDoc1 exampleDoc2 _ _ rfl rfl exampleDoc1_text exampleDoc2_text
    (by simp [exampleDoc1, JVal.Numbers, JVal.WF, membersWF, elemsWF, byText])
    (by simp [exampleDoc2, JVal.Numbers, JVal.WF, membersWF, elemsWF, byText])
    (by simp [exampleDoc1, JVal.Distinct, membersDistinct, elemsDistinct])
    (by simp [exampleDoc2, JVal.Distinct, membersDistinct, elemsDistinct])

example : Alike byText.equal exampleDoc1 exampleDoc2 :=
  .obj (.swap _ _ _) (.cons (.arr (.cons .null .nil)) (.cons (.num (by decide)) .nil))

/-- **C29** does not extend to what else the tokenizer accepts: strings are compared up to a NUL byte (the texts are
`["\0b"]` and `["\0c"]` with a NUL byte), and words without quotes are not compared at all. -/
theorem C29_false_outside_json :
    diffCount 100 ([0x5B, 0x22, 0, 0x62, 0x22, 0x5D]) ([0x5B, 0x22, 0, 0x63, 0x22, 0x5D]) = some (some 0) ∧
    diffCount 100 b!"[abc]" b!"[abd]" = some (some 0) := by decide +kernel

/-! ### C30 -/

/-- The documents of the context are those of the texts. -/
structure DiffCtx.Holds (c : DiffCtx) (x : DiffTexts) : Prop where
  base : some c.base.doc = (DiffDoc.ofText x.base).map (·.doc)
  diffs : c.diffs.map (fun d => some d.doc) = x.others.map (fun u => (DiffDoc.ofText u).map (·.doc))

theorem diffDoc_doc {c : DiffCtx} {n : Nat} {d d' : DiffDoc} (h : c.diffDoc n d = some d') : d'.doc = d.doc := by
  simp only [DiffCtx.diffDoc, bind, Option.bind] at h
  split at h
  · simp at h
  · simp at h; rw [← h]

theorem rediff_get {c : DiffCtx} {n : Nat} {ds ds' : List DiffDoc} (h : c.rediff n ds = some ds') :
    ds'.length = ds.length ∧ ∀ (i : Nat) (d : DiffDoc), ds[i]? = some d → ∃ d', ds'[i]? = some d' ∧ c.diffDoc n d.invalidate = some d' := by
  induction ds generalizing ds' with
  | nil => simp [DiffCtx.rediff] at h; subst h; simp
  | cons d ds ih =>
    simp only [DiffCtx.rediff, bind, Option.bind] at h
    split at h
    · simp at h
    · next d' hd =>
      dsimp only at h
      split at h
      · simp at h
      · next ds'' hds =>
        simp at h
        subst h
        obtain ⟨g1, g2⟩ := ih hds
        refine ⟨by simp [g1], fun i x hi => ?_⟩
        cases i with
        | zero => simp at hi ⊢; rw [← hi]; exact hd
        | succ i => simpa using g2 i x (by simpa using hi)

theorem rediff_docs {c : DiffCtx} {n : Nat} {ds ds' : List DiffDoc} (h : c.rediff n ds = some ds') :
    ds'.map (fun d => some d.doc) = ds.map (fun d => some d.doc) := by
  obtain ⟨h1, h2⟩ := rediff_get h
  apply List.ext_getElem? 
  intro i
  simp only [List.getElem?_map]
  cases hi : ds[i]? with
  | none =>
    have : ds'[i]? = none := by rw [List.getElem?_eq_none_iff] at hi ⊢; omega
    simp [this]
  | some d =>
    obtain ⟨d', g1, g2⟩ := h2 i d hi
    have := diffDoc_doc g2
    simp [g1, this, DiffDoc.invalidate]

theorem invalidate_holds {c c' : DiffCtx} {x : DiffTexts} {n : Nat} {same : Bytes → Bytes → Option Bool} (hx : c.Holds x)
    (h : c.invalidate n same = some c') : c'.Holds x := by
  simp only [DiffCtx.invalidate, bind, Option.bind] at h
  split at h
  · simp at h
  · next ds hds =>
    simp at h
    subst h
    exact ⟨by simpa [DiffDoc.invalidate] using hx.base, by simp only []; rw [rediff_docs hds]; exact hx.diffs⟩

theorem run_holds {c c' : DiffCtx} {x : DiffTexts} {n : Nat} {op : DiffOp} (hx : c.Holds x) (h : c.run n op = some c') : c'.Holds (x.step op) := by
  cases op with
  | diff t =>
    simp only [DiffCtx.run, DiffCtx.diff, bind, Option.bind] at h
    split at h
    · simp at h
    · next d hd =>
      have herr : d.error ≠ .noError ↔ (t = [] ∨ (tokenize {} t).1 = []) := by
        simp only [DiffDoc.ofText, bind, Option.bind] at hd
        split at hd
        · simp at hd
        · simp at hd
          subst hd
          by_cases ht : t = [] <;> simp [ht]
      dsimp only at h
      by_cases he : d.error ≠ .noError
      · rw [if_pos he] at h
        simp at h
        subst h
        rw [DiffTexts.step, if_pos (herr.1 he)]
        exact ⟨hx.base, hx.diffs⟩
      · rw [if_neg he] at h
        split at h
        · simp at h
        · next d' hd' =>
          rw [DiffTexts.step, if_neg (fun h => he (herr.2 h))]
          simp at h
          subst h
          exact ⟨hx.base, by simp [hx.diffs, hd, diffDoc_doc hd']⟩
  | invalidate same => exact invalidate_holds hx h
  | changeBase pos =>
    simp only [DiffCtx.run, DiffCtx.changeBase] at h
    split at h
    · simp at h
    · next d hd =>
      refine invalidate_holds (c := { c with diffs := c.diffs.set pos c.base, base := d }) ⟨?_, ?_⟩ h
      · have := congrArg (fun l => l[pos]?) hx.diffs
        simp only [List.getElem?_map, hd, Option.map_some] at this
        simp only [DiffTexts.step, List.getD_eq_getElem?_getD]
        cases ho : x.others[pos]? with
        | none => simp [ho] at this
        | some u => simpa [ho] using this
      · simp only [DiffTexts.step, List.map_set, hx.base, hx.diffs]

theorem runAll_holds {n : Nat} {ops : List DiffOp} {c c' : DiffCtx} {x : DiffTexts} (hx : c.Holds x) (h : c.runAll n ops = some c') :
    c'.Holds (ops.foldl DiffTexts.step x) := by
  induction ops generalizing c x with
  | nil => simp [DiffCtx.runAll] at h; subst h; exact hx
  | cons op ops ih =>
    simp only [DiffCtx.runAll] at h
    cases hr : c.run n op with
    | none => simp [hr] at h
    | some c1 => exact ih (run_holds hx hr) (by simpa [hr] using h)

theorem new_holds {same : Bytes → Bytes → Option Bool} {t : Bytes} {c : DiffCtx} (h : DiffCtx.new same t = some c) : c.Holds ⟨t, []⟩ := by
  simp only [DiffCtx.new, bind, Option.bind] at h
  split at h
  · simp at h
  · next b hb =>
    simp at h
    subst h
    exact ⟨by simp [hb], rfl⟩

theorem ofText_res {u : Bytes} {d : DiffDoc} (h : DiffDoc.ofText u = some d) : d.res = { diffs := List.replicate d.doc.tokens.length .noDiff } := by
  simp only [DiffDoc.ofText, bind, Option.bind] at h
  split at h
  · simp at h
  · simp at h
    subst h
    rfl

/-- **C30** (part). After any calls of `diff`, `invalidate` and `changeBase`, `invalidate` recomputes every report: for each
text `u` that is there, the report is the one a new context with the same base and options makes of `u`, except for the
missing array items; and those are the same too if the old report had none. -/
theorem C30_invalidate_recomputes_partial (same same' : Bytes → Bytes → Option Bool) (t : Bytes) (n : Nat) (ops : List DiffOp) (c0 c c' : DiffCtx)
    (h0 : DiffCtx.new same t = some c0) (h1 : c0.runAll n ops = some c) (h2 : c.invalidate n same' = some c') :
    let texts := ops.foldl DiffTexts.step ⟨t, []⟩
    c'.diffs.length = texts.others.length ∧
    ∀ (i : Nat) (u : Bytes), texts.others[i]? = some u → u ≠ [] → (tokenize {} u).1 ≠ [] →
      ∃ (d old f : DiffDoc) (fresh fresh' : DiffCtx), c'.diffs[i]? = some d ∧ c.diffs[i]? = some old ∧
        DiffCtx.new same' texts.base = some fresh ∧ fresh.diff n u = some (some 0, fresh') ∧ fresh'.diffs = [f] ∧
        d.doc = f.doc ∧ d.res.AgreesBut f.res ∧ (old.res.missingArrayItems = [] → d.res = f.res) := by
  intro texts
  have hx : c.Holds texts := runAll_holds (new_holds h0) h1
  have hlen : c.diffs.length = texts.others.length := by simpa using congrArg List.length hx.diffs
  simp only [DiffCtx.invalidate, bind, Option.bind] at h2
  split at h2
  · simp at h2
  next ds hds =>
  simp at h2
  subst h2
  obtain ⟨g1, g2⟩ := rediff_get hds
  refine ⟨by simp only []; omega, fun i u hu hne hts => ?_⟩
  have hi := congrArg (fun l => l[i]?) hx.diffs
  simp only [List.getElem?_map, hu, Option.map_some] at hi
  cases hold : c.diffs[i]? with
  | none => simp [hold] at hi
  | some old =>
    cases hd0 : DiffDoc.ofText u with
    | none => simp [hold, hd0] at hi
    | some d0 =>
      cases hb : DiffDoc.ofText texts.base with
      | none => have := hx.base; simp [hb] at this
      | some b =>
        have hbd : c.base.doc = b.doc := by simpa [hb] using hx.base
        simp only [hold, hd0, Option.map_some, Option.some.injEq] at hi
        obtain ⟨d, k1, k2⟩ := g2 i old hold
        have he : d0.error = .noError := by
          simp only [DiffDoc.ofText, bind, Option.bind, hne, if_false] at hd0
          split at hd0
          · simp at hd0
          · simp [hts] at hd0; rw [← hd0]
        have hcore : old.invalidate.res.core = d0.res.core := by
          rw [ofText_res hd0]
          simp [DiffDoc.invalidate, DRes.core, hi]
        have hrep := rep_diffDocs same' n b.doc d0.doc hcore
        have hdoc : old.invalidate.doc = d0.doc := hi
        simp only [DiffCtx.diffDoc, bind, Option.bind, hdoc] at k2
        have hbase : (c.base.invalidate).doc = b.doc := hbd
        simp only [hbase] at k2
        cases hr : diffDocs same' n b.doc d0.doc old.invalidate.res with
        | none => simp [hr] at k2
        | some r =>
          simp only [hr, Option.some.injEq] at k2
          cases hr0 : diffDocs same' n b.doc d0.doc d0.res with
          | none => simp [CoreEq, hr, hr0] at hrep
          | some r0 =>
            have hrr : r.core = r0.core := by simpa [CoreEq, hr, hr0] using hrep
            refine ⟨d, old, { d0 with res := r0 }, { base := b, error := b.error, same := same' },
              { base := b, error := .noError, same := same', diffs := [{ d0 with res := r0 }] }, k1, rfl, by simp [DiffCtx.new, hb], ?_, rfl, ?_, ?_, ?_⟩
            · simp [DiffCtx.diff, hd0, he, DiffCtx.diffDoc, hr0, bind, Option.bind]
            · rw [← k2]
            · rw [← k2]
              exact rep_fields hrr
            · intro hm
              have : old.invalidate.res = d0.res := by
                rw [ofText_res hd0]
                simp [DiffDoc.invalidate, hi, hm]
              rw [this, hr0] at hr
              rw [← k2]
              exact (Option.some.inj hr).symm

/-- A history that meets the hypotheses of `C30_invalidate_recomputes_partial`: two texts are compared, then the first of
them becomes the base. -/
example : ((do
    let c0 ← DiffCtx.new byText.same b!"[1,2]"
    let c ← c0.runAll 100 [.diff b!"[1]", .diff b!"{\"a\":1}", .changeBase 0]
    c.invalidate 100 byText.same : Option DiffCtx).map fun c => c.diffs.map fun d => d.res.count) = some [1, 3] := by decide +kernel

/-- The missing items reported before and after `invalidate` for the base `[1,2]` and the text `[1]`. -/
def missingTwice : Option (List (Nat × List Tok) × List (Nat × List Tok)) := do
  let c ← DiffCtx.new byText.same b!"[1,2]"
  let (_, c) ← c.diff 100 b!"[1]"
  let c' ← c.invalidate 100 byText.same
  let d ← c.diffs[0]?
  let d' ← c'.diffs[0]?
  some (d.res.missingArrayItems, d'.res.missingArrayItems)

/-- **C30** is false for the missing array items: the ones found before stay, so they are reported twice. -/
theorem C30_false_missing_items_kept :
    missingTwice = some ([(0, [⟨[], .ascii, b!"2", .number⟩])], [(0, [⟨[], .ascii, b!"2", .number⟩, ⟨[], .ascii, b!"2", .number⟩])]) := by
  decide +kernel

/-! ### C53: marks -/

theorem mark_drop (t : DiffType) (pos l : Nat) (s : DRes) (h : pos + l ≤ s.diffs.length) (i : Nat) :
    (s.mark t pos l).diffs[i]? = if pos ≤ i ∧ i < pos + l then some t else s.diffs[i]? := by
  induction l generalizing pos s with
  | zero => rw [if_neg (by omega)]; rfl
  | succ l ih =>
    rw [DRes.mark, ih (pos + 1) (s.put pos t) (by simp [DRes.put]; omega)]
    simp only [DRes.put, List.getElem?_set]
    by_cases h1 : pos = i
    · subst h1
      rw [if_neg (by omega), if_pos rfl, if_pos (by omega), if_pos (by omega)]
    · by_cases h2 : pos + 1 ≤ i ∧ i < pos + 1 + l
      · rw [if_pos h2, if_pos (by omega)]
      · rw [if_neg h2, if_neg h1, if_neg (by omega)]

/-- **C53** (part). If one root is an array and the other one an object, every token of the new document is marked as a
root that differs, and each of them is counted. Missing: the marks inside of roots of the same type. -/
theorem C53_root_replaced_partial {D : Type} (c : NumCmp D) (v w : JVal) (t u : Bytes) (hv : v.isContainer = true) (hw : w.isContainer = true)
    (ht : Doc rfc v t) (hu : Doc rfc w u) (hty : ¬(v matches .arr _ ↔ w matches .arr _)) :
    ∃ ctx d, DiffCtx.new c.same t = some ctx ∧ ctx.Reports u d ∧ d.res.diffs = List.replicate w.docToks.length .rootItemDiff ∧
      d.res.count = w.docToks.length := by
  have hlen : (diffDocOf w).res.diffs.length = (diffDocOf w).doc.tokens.length := by simp [diffDocOf]
  obtain ⟨N, hN⟩ := setEntire_val (diffDocOf w).doc .rootItemDiff w 0 [] .ascii (diffDocOf w).res (diffDocOf_val w) hlen
  obtain ⟨ks, hk⟩ := toks_cons [] .ascii v
  obtain ⟨ls, hl⟩ := toks_cons [] .ascii w
  have hbt : (diffDocOf v).doc.tokens = ⟨[], .ascii, v.lead, v.ty⟩ :: ks := hk
  have hdt : (diffDocOf w).doc.tokens = ⟨[], .ascii, w.lead, w.ty⟩ :: ls := hl
  have hty' : ¬ v.ty = w.ty := by
    intro h
    apply hty
    cases v <;> cases w <;> simp_all [JVal.isContainer, JVal.ty]
  have hc0 : { (diffDocOf w).res with count := 0 } = (diffDocOf w).res := rfl
  refine ⟨{ base := diffDocOf v, error := (diffDocOf v).error, same := c.same },
    { diffDocOf w with res := (diffDocOf w).res.mark .rootItemDiff 0 w.docToks.length }, by simp [DiffCtx.new, diffDocOf_text hv ht],
    ⟨N, fun m hm => ?_⟩, ?_, ?_⟩
  · have he : ((diffDocOf w).error ≠ .noError) = False := by simp [diffDocOf]
    have hr : diffDocs c.same m (diffDocOf v).doc (diffDocOf w).doc (diffDocOf w).res =
        some ((diffDocOf w).res.mark .rootItemDiff 0 w.docToks.length) := by
      simp only [diffDocs, hbt, hdt, hty', if_false, hc0]
      exact hN m hm
    simp only [DiffCtx.diff, diffDocOf_text hw hu, bind, Option.bind, he, if_false, DiffCtx.diffDoc, hr]
  · apply List.ext_getElem?
    intro i
    have hl : (diffDocOf w).res.diffs.length = w.docToks.length := by simp [diffDocOf]
    rw [mark_drop _ _ _ _ (by omega), List.getElem?_replicate]
    split
    · next h => rw [if_pos (by omega)]
    · next h => rw [if_neg (by omega), List.getElem?_eq_none (by omega)]
  · rw [DRes.mark_count (by simp)]
    simp [diffDocOf]

/-- The hypotheses of `C53_root_replaced_partial` are met by the base `{"a":1,"b":[null]}` and the text `[null]`. -/
example : ¬(exampleDoc1 matches .arr _ ↔ JVal.arr [.null] matches .arr _) ∧ Doc rfc (.arr [.null]) b!"[null]" :=
  ⟨by simp [exampleDoc1], [], _, [], ws_nil, .arr (.one (w := []) (w' := []) ws_nil .null ws_nil), ws_nil, rfl⟩

/-- The marks reported for two texts. -/
def diffMarks (n : Nat) (t u : Bytes) : Option (Option (List DiffType)) := do
  let c ← DiffCtx.new byText.same t
  let (i, c) ← c.diff n u
  some (i.bind fun i => (c.diffs[i]?).map fun d => d.res.diffs)

/-- **C53** is false: of the new items `[1]` and `2` only the first two tokens are marked. -/
theorem C53_false_new_items : diffMarks 100 b!"[]" b!"[[1],2]" =
    some (some [.noDiff, .newArrayItem, .newArrayItem, .noDiff, .noDiff, .noDiff]) := by decide +kernel

/-! ### C54: any texts -/

/-- **C54** is false: texts that are not JSON are accepted without an error, although the tokenizer reported one, and
what follows is ignored; ... -/
theorem C54_false_no_error : (tokenize {} b!"[1 2]").2 = .expectedDelimiter ∧
    (DiffDoc.ofText b!"[1 2]").map (·.error) = some .noError ∧ diffCount 100 b!"[1 2]" b!"[3 4]" = some (some 0) := by
  decide +kernel

/-- **C54** (part). Comparing two arrays or objects without two members of the same name in an object is defined and ends. -/
theorem C54_documents_partial {D : Type} (c : NumCmp D) (v w : JVal) (t u : Bytes) (hv : v.isContainer = true) (hw : w.isContainer = true)
    (ht : Doc rfc v t) (hu : Doc rfc w u) (nv : v.Numbers fun a => (c.stod a).isSome) (nw : w.Numbers fun a => (c.stod a).isSome) (dw : w.Distinct) :
    ∃ ctx d, DiffCtx.new c.same t = some ctx ∧ ctx.Reports u d := by
  obtain ⟨ctx, d, h1, h2, _⟩ := reports_of_runs c hv hw ht hu nv nw dw
  exact ⟨ctx, d, h1, h2⟩

/-- ... comparing them may read behind the tokens, however many steps are taken; ... -/
theorem C54_false_malformed (n : Nat) : (DiffCtx.new byText.same b!"[1,").bind (fun c => c.diff n b!"[1,") = none := by
  have h : DiffDoc.ofText b!"[1," = some
      { doc := ⟨[⟨[], .ascii, b!"[", .arrayStart⟩, ⟨[], .ascii, b!"1", .number⟩], [⟨0, 2, 1, 1, 0, true, true⟩]⟩, res := { diffs := [.noDiff, .noDiff] } } := by
    decide +kernel
  have hs : byText.same b!"1" b!"1" = some true := by decide
  rcases n with _ | _ | _ | _ | n <;>
    simp [DiffCtx.new, h, DiffCtx.diff, DiffCtx.diffDoc, diffDocs, diffArrays, diffItems, diffTokens, bind, Option.bind, DToks.childCount, hs,
      Tok.isPlain, diffScalar, DRes.set, DToks.skip, isComplexValue]

/-- ... and an empty text as the base, which is accepted, leads to a read and a write outside of empty vectors by `changeBase`. -/
theorem C54_false_change_base :
    ∃ c c', DiffCtx.new byText.same [] = some c ∧ c.diff 100 b!"{}" = some (some 0, c') ∧ ∀ m, c'.changeBase m 0 = none := by
  have h : DiffDoc.ofText b!"{}" = some
      { doc := ⟨[⟨[], .ascii, b!"{", .objectStart⟩, ⟨[], .ascii, b!"}", .objectEnd⟩], [⟨0, 2, 1, 0, 0, false, false⟩]⟩,
        res := { diffs := [.noDiff, .noDiff] } } := by
    decide +kernel
  have h0 : DiffDoc.ofText [] = some { error := .emptyString } := by decide +kernel
  refine ⟨{ base := { error := .emptyString }, error := .emptyString, same := byText.same },
    { base := { error := .emptyString }, same := byText.same, diffs := [
      { doc := ⟨[⟨[], .ascii, b!"{", .objectStart⟩, ⟨[], .ascii, b!"}", .objectEnd⟩], [⟨0, 2, 1, 0, 0, false, false⟩]⟩,
        res := { diffs := [.newMember, .newMember], count := 2 } }] },
    by simp only [DiffCtx.new, h0, bind, Option.bind], by
      simp only [DiffCtx.diff, h, bind, Option.bind, ne_eq, not_true_eq_false, if_false]; rfl, fun m => ?_⟩
  rcases m with _ | m <;>
    simp [DiffCtx.changeBase, DiffCtx.invalidate, DiffCtx.rediff, DiffCtx.diffDoc, diffDocs, DiffDoc.invalidate, addMissingAll, DRes.addMissing, DRes.set, bind,
      Option.bind]

end JsonStruct
