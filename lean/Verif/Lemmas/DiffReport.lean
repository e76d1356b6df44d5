import Verif.Lemmas.Diff
import Verif.Spec.DiffReport

/-
What a comparison reports for each token (C53, C64).
-/

namespace JsonStruct

/-! ### Reports in a range of tokens -/

/-- The report `f` with the tokens from `pos` on replaced. -/
def over (f : Nat → DiffCell) (pos : Nat) (cs : List DiffCell) (i : Nat) : DiffCell :=
  if pos ≤ i then (cs[i - pos]?).getD (f i) else f i

theorem over_mid (f : Nat → DiffCell) (pos : Nat) (X Y Y' Z : List DiffCell) (h : Y'.length = Y.length) :
    over (over f pos (X ++ Y ++ Z)) (pos + X.length) Y' = over f pos (X ++ Y' ++ Z) := by
  funext i
  unfold over
  by_cases h1 : pos + X.length ≤ i
  · rw [if_pos h1, if_pos (show pos ≤ i by omega), if_pos (show pos ≤ i by omega)]
    have e : i - (pos + X.length) = i - pos - X.length := by omega
    rw [e, List.append_assoc, List.append_assoc, List.getElem?_append_right (l₁ := X) (by omega),
      List.getElem?_append_right (l₁ := X) (by omega)]
    by_cases h2 : i - pos - X.length < Y'.length
    · rw [List.getElem?_append_left h2, List.getElem?_eq_getElem h2]; simp
    · rw [List.getElem?_append_right (l₁ := Y') (by omega), List.getElem?_append_right (l₁ := Y) (by omega), h,
        List.getElem?_eq_none (by omega)]
      simp
  · rw [if_neg h1]
    split
    · rw [List.append_assoc, List.append_assoc, List.getElem?_append_left (by omega), List.getElem?_append_left (by omega)]
    · rfl

/-- The sum of the weights. -/
def wt (cs : List DiffCell) : Nat := (cs.map DiffCell.weight).sum

@[simp] theorem wt_nil : wt [] = 0 := rfl
@[simp] theorem wt_cons (c : DiffCell) (cs : List DiffCell) : wt (c :: cs) = c.weight + wt cs := by simp [wt]
@[simp] theorem wt_append (a b : List DiffCell) : wt (a ++ b) = wt a + wt b := by simp [wt]

/-- One entry for each position, and it is not empty. -/
def Neat (l : List (Nat × List Tok)) : Prop := (l.map Prod.fst).Nodup ∧ ∀ e ∈ l, e.2 ≠ []

/-- In the range from `pos` on the report is `cs`, elsewhere `f`; `c` differences are counted elsewhere. -/
structure At (N : Nat) (s : DRes) (f : Nat → DiffCell) (c pos : Nat) (cs : List DiffCell) : Prop where
  length : s.diffs.length = N
  cell : s.cell = over f pos cs
  members : Neat s.missingMembers
  items : Neat s.missingArrayItems
  count : s.count = c + wt cs

theorem At.sub {N s f c pos} {X Y Z : List DiffCell} (h : At N s f c pos (X ++ Y ++ Z)) :
    At N s (over f pos (X ++ Y ++ Z)) (c + wt X + wt Z) (pos + X.length) Y :=
  ⟨h.length, by rw [over_mid _ _ _ _ _ _ rfl, h.cell], h.members, h.items, by rw [h.count]; simp; omega⟩

theorem At.up {N s f c pos} {X Y Y' Z : List DiffCell} (h : At N s (over f pos (X ++ Y ++ Z)) (c + wt X + wt Z) (pos + X.length) Y')
    (hl : Y'.length = Y.length) : At N s f c pos (X ++ Y' ++ Z) :=
  ⟨h.length, by rw [h.cell, over_mid _ _ _ _ _ _ hl], h.members, h.items, by rw [h.count]; simp; omega⟩

/-- A computation that works on a part of the range. -/
theorem At.step {N s f c pos} {X Y Y' Z : List DiffCell} {run : Nat → Option DRes} (h : At N s f c pos (X ++ Y ++ Z)) (hl : Y'.length = Y.length)
    (hr : ∀ f c, At N s f c (pos + X.length) Y → ∃ s', Ends run s' ∧ At N s' f c (pos + X.length) Y') :
    ∃ s', Ends run s' ∧ At N s' f c pos (X ++ Y' ++ Z) := by
  obtain ⟨s', h1, h2⟩ := hr _ _ h.sub
  exact ⟨s', h1, h2.up hl⟩

/-! ### Setting marks -/

/-- A blank cell with a mark. -/
abbrev cellOf (t : DiffType) : DiffCell := ⟨t, [], []⟩

/-- Marks that are counted for themselves. -/
def Counted (t : DiffType) : Prop := t ≠ .missingMembers ∧ t ≠ .missingArrayItems

theorem At.put {N s f c pos} {t : DiffType} (ht : Counted t) (h : At N s f c pos [{}]) (hp : pos < N) :
    At N (s.put pos t) f c pos [cellOf t] := by
  have hl := h.length
  refine ⟨by simpa [DRes.put] using hl, ?_, h.members, h.items, ?_⟩
  · funext i
    have hi := congrFun h.cell i
    by_cases hip : i = pos
    · subst hip
      simp only [over, Nat.le_refl, if_true, Nat.sub_self, List.getElem?_cons_zero, Option.getD_some] at hi ⊢
      unfold DRes.cell at hi ⊢
      simp only [DiffCell.mk.injEq] at hi
      simp only [DRes.put, cellOf, DiffCell.mk.injEq]
      exact ⟨by rw [List.getD_eq_getElem?_getD, List.getElem?_set_self (by omega)]; rfl, hi.2.1, hi.2.2⟩
    · have h1 : over f pos [cellOf t] i = f i := by
        unfold over
        split
        · rw [List.getElem?_eq_none (by simp only [List.length_singleton]; omega)]; rfl
        · rfl
      have h2 : over f pos [{}] i = f i := by
        unfold over
        split
        · rw [List.getElem?_eq_none (by simp only [List.length_singleton]; omega)]; rfl
        · rfl
      rw [h1, ← h2, ← hi]
      simp only [DRes.cell, DRes.put, List.getD_eq_getElem?_getD, List.getElem?_set, Ne.symm hip, if_false]
  · have hc := h.count
    simp only [wt_cons, wt_nil, DRes.put, DiffCell.weight, cellOf, List.length_nil] at hc ⊢
    by_cases h0 : t = .noDiff
    · subst h0; simpa using hc
    · simp only [ne_eq, h0, not_false_eq_true, if_true, ht.1, ht.2, or_self, if_false]
      simp at hc
      omega

theorem At.set {N s f c pos} {t : DiffType} (ht : Counted t) (h : At N s f c pos [{}]) (hp : pos < N) :
    ∃ s', Ends (fun _ => s.set pos t) s' ∧ At N s' f c pos [cellOf t] :=
  ⟨_, ⟨0, fun _ _ => DRes.set_put t (by rw [h.length]; exact hp)⟩, h.put ht hp⟩

theorem At.mark {N s f c pos} {t : DiffType} (ht : Counted t) (l : Nat) (h : At N s f c pos (List.replicate l {})) (hp : pos + l ≤ N) :
    At N (s.mark t pos l) f c pos (List.replicate l (cellOf t)) := by
  induction l generalizing pos s f c with
  | zero => exact h
  | succ l ih =>
    rw [DRes.mark]
    rw [List.replicate_succ] at h
    have h1 := (At.sub (X := []) (Y := [{}]) (Z := List.replicate l {}) h).put ht (by simp; omega)
    have h2 : At N (s.put pos t) f c pos ([cellOf t] ++ List.replicate l (cellOf .noDiff) ++ []) := by
      have := h1.up rfl
      simpa using this
    have h3 := (ih h2.sub (by simp; omega)).up (by simp)
    simpa [List.replicate_succ] using h3

/-! ### Missing tokens -/

theorem missingAt_add (pos : Nat) (k : Tok) (l : List (Nat × List Tok)) (i : Nat) :
    missingAt (addEntry pos k l) i = if i = pos then missingAt l i ++ [k] else missingAt l i := by
  unfold missingAt
  induction l with
  | nil =>
    simp only [addEntry, List.lookup]
    by_cases h : i = pos
    · simp [h]
    · have : (i == pos) = false := by simpa using h
      simp [this, h]
  | cons e l ih =>
    obtain ⟨p, ks⟩ := e
    simp only [addEntry]
    by_cases hp : p = pos
    · subst hp
      simp only [if_true, List.lookup]
      by_cases h : i = p
      · subst h; simp
      · have : (i == p) = false := by simpa using h
        simp [this, h]
    · simp only [if_neg hp, List.lookup]
      by_cases h : i = p
      · subst h; simp [hp]
      · have : (i == p) = false := by simpa using h
        simp only [this]
        exact ih

theorem addEntry_keys (pos : Nat) (k : Tok) (l : List (Nat × List Tok)) :
    (addEntry pos k l).map Prod.fst = if pos ∈ l.map Prod.fst then l.map Prod.fst else l.map Prod.fst ++ [pos] := by
  induction l with
  | nil => simp [addEntry]
  | cons e l ih =>
    simp only [addEntry]
    by_cases hp : e.1 = pos
    · subst hp; simp
    · simp only [if_neg hp, List.map_cons, ih, List.mem_cons, Ne.symm hp, false_or]
      split <;> simp

theorem Neat.add {l : List (Nat × List Tok)} (h : Neat l) (pos : Nat) (k : Tok) : Neat (addEntry pos k l) := by
  refine ⟨?_, ?_⟩
  · rw [addEntry_keys]
    split
    · exact h.1
    · next hp =>
      rw [List.nodup_append]
      exact ⟨h.1, by simp, by intro a ha b hb; simp at hb; subst hb; intro he; subst he; exact hp ha⟩
  · have h2 := h.2
    clear h
    induction l with
    | nil => simp [addEntry]
    | cons e l ih =>
      intro e' he'
      simp only [addEntry] at he'
      split at he'
      · rcases List.mem_cons.1 he' with rfl | he'
        · simp
        · exact h2 e' (by simp [he'])
      · rcases List.mem_cons.1 he' with rfl | he'
        · exact h2 _ (by simp)
        · exact ih (fun e he => h2 e (by simp [he])) e' he'

theorem over_one {f : Nat → DiffCell} {pos i : Nat} (x : DiffCell) : over f pos [x] i = if i = pos then x else f i := by
  unfold over
  by_cases h : i = pos
  · subst h; simp
  · rw [if_neg h]
    split
    · rw [List.getElem?_eq_none (by simp only [List.length_singleton]; omega)]; rfl
    · rfl

/-- One missing token; `array` says whether it is an item or part of a member. -/
theorem At.missOne {N s f c pos} {M : List Tok} (array : Bool) (k : Tok)
    (h : At N s f c pos [if array then openCell [] M else openCell M []]) (hp : pos < N) :
    At N (s.miss array pos k) f c pos [if array then openCell [] (M ++ [k]) else openCell (M ++ [k]) []] := by
  have hl := h.length
  have hc := h.count
  refine ⟨by simpa using hl, ?_, ?_, ?_, ?_⟩
  · funext i
    have hi := congrFun h.cell i
    rw [over_one] at hi ⊢
    by_cases hip : i = pos
    · subst hip
      rw [if_pos rfl] at hi ⊢
      have hg : ∀ t, (s.diffs.set i t)[i]?.getD .noDiff = t := by
        intro t
        rw [List.getElem?_set_self (by omega)]; rfl
      cases array <;> simp [DRes.cell, DRes.miss, DRes.put, openCell, missingAt_add, hg] at hi ⊢ <;> simp [hi]
    · rw [if_neg hip] at hi ⊢
      rw [← hi]
      have hg : ∀ t, (s.diffs.set pos t)[i]? = s.diffs[i]? := by
        intro t
        rw [List.getElem?_set, if_neg (Ne.symm hip)]
      cases array <;> simp [DRes.cell, DRes.miss, DRes.put, missingAt_add, hip, hg]
  · cases array <;> simp only [DRes.miss, DRes.put]
    · exact h.members.add _ _
    · exact h.members
  · cases array <;> simp only [DRes.miss, DRes.put]
    · exact h.items
    · exact h.items.add _ _
  · cases array <;> simp [DRes.miss, DRes.put, openCell, DiffCell.weight] at hc ⊢ <;> split at hc <;> simp_all <;> omega

theorem At.missAll {N f c pos} (array : Bool) (ks : List Tok) : ∀ {s : DRes} {M : List Tok},
    At N s f c pos [if array then openCell [] M else openCell M []] → pos < N →
    At N (ks.foldl (DRes.miss array pos) s) f c pos [if array then openCell [] (M ++ ks) else openCell (M ++ ks) []] := by
  induction ks with
  | nil => intro s M h _; simpa using h
  | cons k ks ih =>
    intro s M h hp
    have := ih (h.missOne array k hp) hp
    simpa using this

/-! ### Lengths -/

theorem sameKind_iff {v w : JVal} : v.sameKind w = true ↔ v.ty = w.ty := by
  cases v <;> cases w <;> simp [JVal.sameKind, JVal.ty]

theorem arr_length (ws : List JVal) : (JVal.arr ws).docToks.length = (elemToks ws).length + 2 := by
  simp [JVal.docToks, JVal.toks]

theorem obj_length (ks : List (Bytes × JVal)) : (JVal.obj ks).docToks.length = (memberToks ks).length + 2 := by
  simp [JVal.docToks, JVal.toks]

theorem elems_length (w : JVal) (ws : List JVal) : (elemToks (w :: ws)).length = w.docToks.length + (elemToks ws).length := by
  simp [elemToks, JVal.toks_length]

theorem members_length (n : Bytes) (w : JVal) (ks : List (Bytes × JVal)) :
    (memberToks ((n, w) :: ks)).length = w.docToks.length + (memberToks ks).length := by
  simp [memberToks, JVal.toks_length]

@[simp] theorem cells_length (w : JVal) (t : DiffType) : (w.cells t).length = w.docToks.length := by simp [JVal.cells]

theorem itemCells_eq (t : DiffType) (ws : List JVal) : itemCells t ws = List.replicate (elemToks ws).length (cellOf t) := by
  induction ws with
  | nil => rfl
  | cons w ws ih =>
    rw [elems_length, List.replicate_add, ← ih]
    rfl

theorem firstNew_length (ws : List JVal) : (firstNew ws).length = (elemToks ws).length := by
  unfold firstNew
  split
  · rw [itemCells_eq, elems_length]
    rename_i us ws
    have := docToks_pos (.arr us)
    simp only [List.length_append, List.length_dropLast, cells_length, List.length_replicate, List.length_cons]
    omega
  · rw [allNew, itemCells_eq]; simp

theorem allNew_length (ws : List JVal) : (allNew ws).length = (elemToks ws).length := by
  rw [allNew, itemCells_eq]; simp

/-- Where there is no member of the same name in the base, the tokens have the mark `t`. -/
def membersWith (q : Bytes → Bytes → Bool) (new : List JVal → List DiffCell) (t : DiffType) : List (Bytes × JVal) → List (Bytes × JVal) → List DiffCell
  | [], _ => []
  | (n, w) :: ks, ms =>
    (match ms.lookup n with
     | none => w.cells t
     | some v => if v.sameKind w then w.report q new v else w.cells .typeDiff) ++ membersWith q new t ks ms

section
variable {q : Bytes → Bytes → Bool} {new : List JVal → List DiffCell}

theorem membersWith_new (ks ms : List (Bytes × JVal)) : membersWith q new .newMember ks ms = membersReport q new ks ms := by
  induction ks with
  | nil => rw [membersWith, membersReport]
  | cons e ks ih =>
    obtain ⟨n, w⟩ := e
    rw [membersWith, membersReport, ih]
    cases ms.lookup n <;> rfl

variable (hnew : ∀ ws, (new ws).length = (elemToks ws).length)
include hnew

mutual
theorem report_length : (w v : JVal) → (w.report q new v).length = w.docToks.length
  | .arr ws, .arr vs => by simp [JVal.report, arr_length, itemsReport_length ws vs]
  | .obj ks, .obj ms => by simp [JVal.report, obj_length, membersReport_length ks ms]
  | .null, v | .arr _, .null | .arr _, .bool _ | .arr _, .num _ | .arr _, .str _ | .arr _, .obj _
  | .obj _, .null | .obj _, .bool _ | .obj _, .num _ | .obj _, .str _ | .obj _, .arr _ => by simp [JVal.report]
  | .bool true, v | .bool false, v | .num _, v | .str _, v => by cases v <;> simp [JVal.report, JVal.docToks, JVal.toks]
theorem itemsReport_length : (ws vs : List JVal) → (itemsReport q new ws vs).length = (elemToks ws).length
  | [], _ => by simp [itemsReport, elemToks]
  | w :: ws, v :: vs => by
    have := docToks_pos w
    rw [itemsReport, elems_length, List.length_append, itemsReport_length ws vs]
    split
    · rw [report_length w v]
    · simp; omega
  | w :: ws, [] => by rw [itemsReport, hnew]
theorem membersReport_length : (ks ms : List (Bytes × JVal)) → (membersReport q new ks ms).length = (memberToks ks).length
  | [], _ => by simp [membersReport, memberToks]
  | (n, w) :: ks, ms => by
    rw [membersReport, members_length, List.length_append, membersReport_length ks ms]
    split
    · simp
    · split
      · rw [report_length w]
      · simp
end

theorem membersWith_length (t : DiffType) (ks ms : List (Bytes × JVal)) : (membersWith q new t ks ms).length = (memberToks ks).length := by
  induction ks with
  | nil => simp [membersWith, memberToks]
  | cons e ks ih =>
    obtain ⟨n, w⟩ := e
    rw [membersWith, members_length, List.length_append, ih]
    split
    · simp
    · split
      · rw [report_length hnew w]
      · simp

end

/-! ### Looking for a member -/

theorem findMember_at (d : DToks) {n : Bytes} (hn : (0 : Byte) ∉ n) (x : Bytes) (a : Ty) (ms : List (Bytes × JVal)) (pos : Nat) (h : d.Members pos ms) :
    (n ∉ ms.map Prod.fst ∧ Ends (fun m => findMember m d pos ⟨n, .string, x, a⟩) none) ∨
    ∃ ms1 w ms2, ms = ms1 ++ (n, w) :: ms2 ∧ n ∉ ms1.map Prod.fst ∧ d.Val (pos + (memberToks ms1).length) n .string w ∧
      Ends (fun m => findMember m d pos ⟨n, .string, x, a⟩) (some (pos + (memberToks ms1).length)) := by
  induction ms generalizing pos with
  | nil => exact .inl ⟨by simp, Ends.now (fun m => by simp [findMember, h.nil])⟩
  | cons e ms ih =>
    obtain ⟨n', v⟩ := e
    obtain ⟨hv, hms⟩ := h.cons
    have he : v.ty ≠ .objectEnd := by cases v <;> simp [JVal.ty]
    by_cases hnn : n = n'
    · subst hnn
      exact .inr ⟨[], v, ms, rfl, by simp, by simpa [memberToks] using hv, Ends.now (fun m => by simp [findMember, hv.get, he, (isSameMember_iff hn x v.lead a v.ty).2, memberToks])⟩
    · have hs : isSameMember ⟨n, .string, x, a⟩ ⟨n', .string, v.lead, v.ty⟩ = false := by
        rw [Bool.eq_false_iff]; exact fun h => hnn ((isSameMember_iff hn _ _ _ _).1 h)
      have hstep : ∀ m, findMember (m + 1) d pos ⟨n, .string, x, a⟩ = findMember m d (pos + v.docToks.length) ⟨n, .string, x, a⟩ := by
        intro m; simp [findMember, hv.get, he, hs, hv.skip, bind, Option.bind]
      rcases ih _ hms with ⟨g1, g2⟩ | ⟨ms1, w, ms2, g1, g2, g3, g4⟩
      · exact .inl ⟨by simp only [List.map_cons, List.mem_cons, not_or]; exact ⟨hnn, g1⟩, g2.succ hstep⟩
      · refine .inr ⟨(n', v) :: ms1, w, ms2, by simp [g1], by simp only [List.map_cons, List.mem_cons, not_or]; exact ⟨hnn, g2⟩, ?_, ?_⟩
        · rw [members_length, ← Nat.add_assoc]; exact g3
        · rw [members_length, ← Nat.add_assoc]; exact g4.succ hstep

/-! ### New items -/

/-- How many square brackets are open; `none` if more are closed than were open. -/
def openAfter : List Tok → Nat → Option Nat
  | [], o => some o
  | k :: ks, o =>
    if k.valueType = .arrayStart then openAfter ks (o + 1)
    else if k.valueType = .arrayEnd then (match o with | 0 => none | o + 1 => openAfter ks o)
    else openAfter ks o

theorem openAfter_append (a b : List Tok) (o : Nat) : openAfter (a ++ b) o = (openAfter a o).bind (openAfter b) := by
  induction a generalizing o with
  | nil => rfl
  | cons k a ih =>
    simp only [List.cons_append, openAfter]
    split
    · exact ih _
    · split
      · cases o with
        | zero => rfl
        | succ o => exact ih _
      · exact ih _

mutual
theorem openAfter_val (n : Bytes) (nt : Ty) : (v : JVal) → ∀ o, openAfter (v.toks n nt) o = some o
  | .arr vs, o => by simp [JVal.toks, openAfter, openAfter_append, openAfter_elems vs]
  | .obj ms, o => by simp [JVal.toks, openAfter, openAfter_append, openAfter_members ms]
  | .null, o | .bool true, o | .bool false, o | .num _, o | .str _, o => by simp [JVal.toks, openAfter]
theorem openAfter_elems : (vs : List JVal) → ∀ o, openAfter (elemToks vs) o = some o
  | [], o => rfl
  | v :: vs, o => by simp [elemToks, openAfter_append, openAfter_val [] .ascii v, openAfter_elems vs]
theorem openAfter_members : (ms : List (Bytes × JVal)) → ∀ o, openAfter (memberToks ms) o = some o
  | [], o => rfl
  | (n, v) :: ms, o => by simp [memberToks, openAfter_append, openAfter_val n .string v, openAfter_members ms]
end

theorem newItems_mark (d : DToks) (ks : List Tok) (k : Tok) (hk : k.valueType = .arrayEnd) (rest : List Tok) (pos o : Nat) (s : DRes)
    (hl : s.diffs.length = d.tokens.length) (h : d.tokens.drop (pos + 1) = ks ++ k :: rest) (ho : openAfter ks o = some 0) :
    Ends (fun m => newItems m d pos o s) (s.mark .newArrayItem pos (ks.length + 1)) := by
  induction ks generalizing pos o s with
  | nil =>
    have hg : d.tokens[pos + 1]? = some k := by
      have := congrArg (fun l => l[0]?) h
      simpa using this
    have hlt : pos + 1 < d.tokens.length := by
      rcases Nat.lt_or_ge (pos + 1) d.tokens.length with h' | h'
      · exact h'
      · rw [List.getElem?_eq_none h'] at hg; simp at hg
    have hset : s.set pos .newArrayItem = some (s.put pos .newArrayItem) := DRes.set_put _ (by omega)
    simp only [openAfter, Option.some.injEq] at ho
    subst ho
    exact Ends.now (fun m => by simp [newItems, hset, hg, hk, bind, Option.bind, DRes.mark])
  | cons x ks ih =>
    have hg : d.tokens[pos + 1]? = some x := by
      have := congrArg (fun l => l[0]?) h
      simpa using this
    have hlt : pos + 1 < d.tokens.length := by
      rcases Nat.lt_or_ge (pos + 1) d.tokens.length with h' | h'
      · exact h'
      · rw [List.getElem?_eq_none h'] at hg; simp at hg
    have hset : s.set pos .newArrayItem = some (s.put pos .newArrayItem) := DRes.set_put _ (by omega)
    have hd : d.tokens.drop (pos + 1 + 1) = ks ++ k :: rest := by
      rw [← List.drop_drop, h]; rfl
    have hl' : (s.put pos .newArrayItem).diffs.length = d.tokens.length := by simpa [DRes.put] using hl
    rw [List.length_cons, DRes.mark]
    simp only [openAfter] at ho
    by_cases h1 : x.valueType = .arrayStart
    · rw [if_pos h1] at ho
      exact (ih (pos + 1) (o + 1) _ hl' hd ho).succ (fun m => by simp [newItems, hset, hg, h1, bind, Option.bind])
    · rw [if_neg h1] at ho
      by_cases h2 : x.valueType = .arrayEnd
      · rw [if_pos h2] at ho
        match o, ho with
        | o + 1, ho =>
          exact (ih (pos + 1) o _ hl' hd ho).succ (fun m => by simp [newItems, hset, hg, h2, bind, Option.bind])
      · rw [if_neg h2] at ho
        exact (ih (pos + 1) o _ hl' hd ho).succ (fun m => by simp [newItems, hset, hg, h1, h2, bind, Option.bind])

theorem newItems_at {d : DToks} {w : JVal} {ws : List JVal} {pos c : Nat} {s : DRes} {f : Nat → DiffCell} (h : d.Elems pos (w :: ws))
    (ha : At d.tokens.length s f c pos (List.replicate (elemToks (w :: ws)).length {})) :
    ∃ s', Ends (fun m => newItems m d pos 0 s) s' ∧ At d.tokens.length s' f c pos (firstNew (w :: ws)) := by
  have hle := h.le (by simp)
  rw [List.length_append, List.length_singleton] at hle
  obtain ⟨⟨rest, h1⟩, _⟩ := h
  have hct : Counted .newArrayItem := ⟨by simp, by simp⟩
  by_cases hw : ∃ us, w = .arr us
  · obtain ⟨us, rfl⟩ := hw
    rw [elemToks, JVal.toks] at h1
    refine ⟨_, newItems_mark d (elemToks us) ⟨[], .ascii, b!"]", .arrayEnd⟩ rfl (elemToks ws ++ [⟨[], .ascii, b!"]", .arrayEnd⟩] ++ rest) pos 0 s ha.length
      (by rw [← List.drop_drop, h1]; simp) (openAfter_elems us 0), ?_⟩
    have e1 : (elemToks (.arr us :: ws)).length = (elemToks us).length + 1 + (1 + (elemToks ws).length) := by
      rw [elems_length, arr_length]; omega
    rw [e1] at hle ha
    rw [List.replicate_add] at ha
    have h2 := (At.sub (X := []) (Y := List.replicate ((elemToks us).length + 1) {}) (Z := List.replicate (1 + (elemToks ws).length) {}) ha).mark hct
      _ (by simp; omega)
    have h3 := h2.up (by simp)
    have e2 : firstNew (.arr us :: ws) = [] ++ List.replicate ((elemToks us).length + 1) (cellOf .newArrayItem) ++
        List.replicate (1 + (elemToks ws).length) (cellOf .noDiff) := by
      simp only [firstNew, JVal.cells, arr_length, itemCells_eq, List.replicate_add]
      simp [cellOf, List.replicate_succ']
    rw [e2]
    exact h3
  · have e2 : firstNew (w :: ws) = List.replicate (elemToks (w :: ws)).length (cellOf .newArrayItem) := by
      rw [firstNew, allNew, itemCells_eq]
      intro us vs he
      exact hw ⟨us, (List.cons.inj he).1⟩
    rw [e2]
    obtain ⟨ks, hk⟩ := toks_cons [] .ascii w
    have hty : w.ty ≠ .arrayStart ∧ w.ty ≠ .arrayEnd := by
      cases w <;> simp [JVal.ty] at hw ⊢
    have ho : openAfter (ks ++ elemToks ws) 0 = some 0 := by
      have := openAfter_elems (w :: ws) 0
      rw [elemToks, hk, List.cons_append, openAfter] at this
      simpa [hty] using this
    have hlen : (elemToks (w :: ws)).length = (ks ++ elemToks ws).length + 1 := by simp [elemToks, hk]
    refine ⟨_, newItems_mark d (ks ++ elemToks ws) ⟨[], .ascii, b!"]", .arrayEnd⟩ rfl rest pos 0 s ha.length
      (by rw [← List.drop_drop, h1, elemToks, hk]; simp) ho, ?_⟩
    rw [← hlen]
    exact ha.mark hct _ (by omega)

/-! ### Comparing -/

/-- A computation ends, and then the report in the range from `pos` on is `cs`. -/
def Marks (N : Nat) (f : Nat → DiffCell) (c pos : Nat) (run : Nat → Option DRes) (cs : List DiffCell) : Prop :=
  ∃ s', Ends run s' ∧ At N s' f c pos cs

theorem Marks.succ {N f c pos cs} {run g : Nat → Option DRes} (h : Marks N f c pos g cs) (hf : ∀ m, run (m + 1) = g m) : Marks N f c pos run cs := by
  obtain ⟨s', h1, h2⟩ := h
  exact ⟨s', h1.succ hf, h2⟩

theorem Marks.bind {N f c pos cs cs'} {run : Nat → Option DRes} {g : DRes → Nat → Option DRes} (h : Marks N f c pos run cs)
    (hg : ∀ s', At N s' f c pos cs → Marks N f c pos (g s') cs') : Marks N f c pos (fun m => (run m).bind fun x => g x m) cs' := by
  obtain ⟨s', h1, h2⟩ := h
  obtain ⟨s'', h3, h4⟩ := hg s' h2
  exact ⟨s'', h1.bind (g := g) h3, h4⟩

theorem Marks.done {N f c pos cs s} {run : Nat → Option DRes} (h : At N s f c pos cs) (hf : ∀ m, run (m + 1) = some s) : Marks N f c pos run cs :=
  ⟨s, Ends.now hf, h⟩

theorem setEntire_at {d : DToks} {t : DiffType} (ht : Counted t) {w : JVal} {pos : Nat} {n : Bytes} {nt : Ty} {s : DRes} {f : Nat → DiffCell} {c : Nat}
    (h : d.Val pos n nt w) (ha : At d.tokens.length s f c pos (w.cells .noDiff)) :
    Marks d.tokens.length f c pos (fun m => setEntire m d pos t s) (w.cells t) :=
  ⟨_, setEntire_val d t w pos n nt s h ha.length, At.mark ht _ ha h.le⟩

theorem missingItems_at (d : DToks) (vs : List JVal) {N : Nat} {f : Nat → DiffCell} {c p : Nat} (hp : p < N) : ∀ (pos : Nat) (s : DRes) (M : List Tok),
    d.Elems pos vs → At N s f c p [openCell [] M] →
    Marks N f c p (fun m => missingItems m d pos p s) [openCell [] (M ++ elemToks vs)] := by
  induction vs with
  | nil => exact fun pos s M h ha => .done (by simpa [elemToks] using ha) (fun m => by simp [missingItems, h.nil])
  | cons v vs ih =>
    intro pos s M h ha
    obtain ⟨hv, hvs⟩ := h.cons
    have he : v.ty ≠ .arrayEnd := by cases v <;> simp [JVal.ty]
    have h1 : Marks N f c p (fun m => addMissingAll m true p d pos s) [openCell [] (M ++ v.toks [] .ascii)] :=
      ⟨_, addMissing_val d true p v pos [] .ascii s hv (by rw [ha.length]; exact hp), At.missAll true _ ha hp⟩
    have h2 := h1.bind (g := fun s m => missingItems m d (pos + v.docToks.length) p s) (fun s' ha' => ih _ s' _ hvs ha')
    rw [elemToks, ← List.append_assoc]
    exact h2.succ (fun m => by simp [missingItems, hv.get, he, hv.skip, bind, Option.bind])

theorem lookup_none {n : Bytes} {ms : List (Bytes × JVal)} (h : n ∉ ms.map Prod.fst) : ms.lookup n = none := by
  induction ms with
  | nil => rfl
  | cons e ms ih =>
    simp only [List.map_cons, List.mem_cons, not_or] at h
    obtain ⟨n', v⟩ := e
    have : (n == n') = false := by simpa using h.1
    simp only [List.lookup, this]
    exact ih h.2

theorem lookup_some {n : Bytes} {ms : List (Bytes × JVal)} (h : n ∈ ms.map Prod.fst) : ∃ v, ms.lookup n = some v := by
  induction ms with
  | nil => simp at h
  | cons e ms ih =>
    obtain ⟨n', v⟩ := e
    by_cases hn : n = n'
    · subst hn; exact ⟨v, by simp [List.lookup]⟩
    · have : (n == n') = false := by simpa using hn
      simp only [List.lookup, this]
      exact ih (by simpa [hn] using h)

theorem lookup_append (n : Bytes) (a b : List (Bytes × JVal)) : (a ++ b).lookup n = (a.lookup n).or (b.lookup n) := by
  induction a with
  | nil => simp
  | cons e a ih =>
    obtain ⟨n', v⟩ := e
    by_cases hn : n == n' <;> simp [List.lookup, hn, ih]

section
variable {q : Bytes → Bytes → Bool} {new : List JVal → List DiffCell} {t : DiffType}

theorem membersWith_append (a b ms : List (Bytes × JVal)) : membersWith q new t (a ++ b) ms = membersWith q new t a ms ++ membersWith q new t b ms := by
  induction a with
  | nil => simp [membersWith]
  | cons e a ih =>
    obtain ⟨n, w⟩ := e
    simp only [List.cons_append, membersWith, ih, List.append_assoc]

theorem membersWith_other {ks : List (Bytes × JVal)} {n : Bytes} (h : n ∉ ks.map Prod.fst) (v : JVal) (ms : List (Bytes × JVal)) :
    membersWith q new t ks (ms ++ [(n, v)]) = membersWith q new t ks ms := by
  induction ks with
  | nil => simp [membersWith]
  | cons e ks ih =>
    obtain ⟨n', w⟩ := e
    simp only [List.map_cons, List.mem_cons, not_or] at h
    have : (n' == n) = false := by simpa using Ne.symm h.1
    simp only [membersWith, ih h.2, lookup_append, List.lookup, this, Option.or_none]

theorem membersWith_none (ks : List (Bytes × JVal)) : membersWith q new .noDiff ks [] = List.replicate (memberToks ks).length (cellOf .noDiff) := by
  induction ks with
  | nil => rfl
  | cons e ks ih =>
    obtain ⟨n, w⟩ := e
    rw [members_length, List.replicate_add, ← ih]
    rfl

end

section
variable (q : Bytes → Bytes → Bool) (base diff : DToks)

/-- The second loop of the comparison of objects: new members. -/
theorem newMembers_at {ms : List (Bytes × JVal)} {basePos : Nat} (hb : base.Members (basePos + 1) ms) {f : Nat → DiffCell} {c pos : Nat}
    (ks : List (Bytes × JVal)) (hz : ∀ n ∈ ks.map Prod.fst, (0 : Byte) ∉ n) : ∀ (dPos : Nat) (s : DRes) (X : List DiffCell),
    diff.Members dPos ks → dPos = pos + X.length →
    At diff.tokens.length s f c pos (X ++ membersWith q firstNew .noDiff ks ms ++ [cellOf .noDiff]) →
    Marks diff.tokens.length f c pos (fun m => newMembers m base basePos diff dPos s) (X ++ membersReport q firstNew ks ms ++ [cellOf .noDiff]) := by
  induction ks with
  | nil =>
    intro dPos s X h hd ha
    rw [membersReport]
    rw [membersWith] at ha
    exact .done ha (fun m => by simp [newMembers, h.nil])
  | cons e ks ih =>
    obtain ⟨n, w⟩ := e
    intro dPos s X h hd ha
    obtain ⟨hw, hks⟩ := h.cons
    have he : w.ty ≠ .objectEnd := by cases w <;> simp [JVal.ty]
    let C : List DiffCell :=
      match ms.lookup n with
      | none => w.cells .newMember
      | some v => if v.sameKind w then w.report q firstNew v else w.cells .typeDiff
    have hCl : C.length = w.docToks.length := by
      simp only [C]
      split
      · simp
      · split
        · exact report_length firstNew_length _ _
        · simp
    have e2 : X ++ membersReport q firstNew ((n, w) :: ks) ms ++ [cellOf .noDiff] = X ++ C ++ membersReport q firstNew ks ms ++ [cellOf .noDiff] := by
      rw [membersReport]
      show X ++ (C ++ membersReport q firstNew ks ms) ++ _ = _
      rw [← List.append_assoc X]
    have ih' := fun (s' : DRes) (h' : At diff.tokens.length s' f c pos (X ++ C ++ (membersWith q firstNew .noDiff ks ms ++ [cellOf .noDiff]))) =>
      ih (fun n hn => hz n (by simp only [List.map_cons, List.mem_cons]; exact .inr hn)) (dPos + w.docToks.length) s' (X ++ C) hks (by
        simp only [List.length_append, hCl, hd]; omega) (by rw [← List.append_assoc] at h'; exact h')
    let g := fun (r : Option Nat) (m : Nat) =>
      match r with
      | none => setEntire m diff dPos .newMember s
      | some _ => some s
    rw [e2]
    have hstep : Marks diff.tokens.length f c pos (fun m => (findMember m base (basePos + 1) ⟨n, .string, w.lead, w.ty⟩).bind fun r => g r m)
        (X ++ C ++ (membersWith q firstNew .noDiff ks ms ++ [cellOf .noDiff])) := by
      rcases findMember_spec base (hz n (by simp)) w.lead w.ty ms (basePos + 1) hb with ⟨g1, g2⟩ | ⟨v, p, g1, g2, g3⟩
      · have hl := lookup_none g1
        have hC : C = w.cells .newMember := by simp only [C, hl]
        rw [membersWith, hl] at ha
        simp only [List.append_assoc] at ha
        rw [← List.append_assoc] at ha
        obtain ⟨s', k1, k2⟩ := ha.step (Y' := w.cells .newMember) (run := fun m => setEntire m diff dPos .newMember s) (by simp) (by
          intro f c ha
          rw [← hd] at ha ⊢
          exact setEntire_at ⟨by simp, by simp⟩ hw ha)
        rw [hC]
        exact ⟨s', g2.bind (g := g) k1, k2⟩
      · obtain ⟨v', hl⟩ := lookup_some (List.mem_map.2 ⟨_, g1, rfl⟩ : n ∈ ms.map Prod.fst)
        refine ⟨s, g3.bind (g := g) ⟨0, fun _ _ => rfl⟩, ?_⟩
        rw [membersWith] at ha
        simp only [C, hl] at ha ⊢
        simpa only [List.append_assoc] using ha
    exact (hstep.bind (g := fun s' m => newMembers m base basePos diff (dPos + w.docToks.length) s') ih').succ (fun m => by
      simp only [newMembers, hw.get, he, if_false, hw.skip, bind, Option.bind, g]
      cases findMember m base (basePos + 1) ⟨n, .string, w.lead, w.ty⟩ with
      | none => rfl
      | some r => cases r <;> rfl)

end

section
variable {same : Bytes → Bytes → Option Bool} {q : Bytes → Bytes → Bool} {P : Bytes → Prop}
  (hq : ∀ a b, P a → P b → same a b = some (q a b)) (base diff : DToks)
include hq

mutual
theorem diffTokens_at : (v : JVal) → ∀ (w : JVal) (bPos dPos : Nat) (n : Bytes) (nt : Ty) (n' : Bytes) (nt' : Ty) (s : DRes) (f : Nat → DiffCell) (c : Nat),
    base.Val bPos n nt v → diff.Val dPos n' nt' w → v.ty = w.ty → v.WF (plainDialect P) → w.WF (plainDialect P) → v.Distinct → w.Distinct →
    At diff.tokens.length s f c dPos (w.cells .noDiff) →
    Marks diff.tokens.length f c dPos (fun m => diffTokens same m base bPos diff dPos s) (w.report q firstNew v)
  | .arr vs, w, bPos, dPos, n, nt, n', nt', s, f, c, hv, hw, ht, wv, ww, dv, dw, ha => by
    cases w with
    | arr ws =>
      rw [JVal.report]
      rw [JVal.WF] at wv ww
      rw [JVal.Distinct] at dv dw
      have c1 : base.childCount bPos = vs.length := by rcases hv.childCount with h | h <;> simp_all [JVal.kids, JVal.isContainer]
      have c2 : diff.childCount dPos = ws.length := by rcases hw.childCount with h | h <;> simp_all [JVal.kids, JVal.isContainer]
      have := hw.le
      have := docToks_pos (.arr ws)
      have e1 : (JVal.arr ws).cells .noDiff = openCell [] [] :: [] ++ List.replicate (elemToks ws).length (cellOf .noDiff) ++ [cellOf .noDiff] := by
        rw [JVal.cells, arr_length, List.replicate_succ, List.replicate_succ']
        rfl
      rw [e1] at ha
      have h1 : Marks diff.tokens.length f c dPos (fun m => diffArrays same m base bPos diff dPos s)
          (openCell [] (elemToks (vs.drop ws.length)) :: itemsReport q firstNew ws vs ++ [cellOf .noDiff]) := by
        by_cases hc : vs.length = 0 ∧ ws.length = 0
        · refine Marks.done ?_ (fun m => by simp only [diffArrays, c1, c2, hc, and_self, if_true]; rfl)
          rw [List.length_eq_zero_iff.1 hc.1]
          rw [List.length_eq_zero_iff.1 hc.2] at ha ⊢
          simpa [itemsReport, elemToks] using ha
        · refine Marks.succ (diffItems_at vs ws (bPos + 1) dPos (dPos + 1) [] s f c hv.arr hw.arr wv ww dv dw rfl (by omega) ha) (fun m => ?_)
          simp only [diffArrays, c1, c2, hc, if_false]
      exact h1.succ (fun m => by simp [diffTokens, hv.get, hw.get, JVal.ty])
    | _ => simp [JVal.ty] at ht
  | .obj ms, w, bPos, dPos, n, nt, n', nt', s, f, c, hv, hw, ht, wv, ww, dv, dw, ha => by
    cases w with
    | obj ks =>
      rw [JVal.report]
      rw [JVal.WF] at wv ww
      rw [JVal.Distinct] at dv dw
      have c1 : base.childCount bPos = ms.length := by rcases hv.childCount with h | h <;> simp_all [JVal.kids, JVal.isContainer]
      have c2 : diff.childCount dPos = ks.length := by rcases hw.childCount with h | h <;> simp_all [JVal.kids, JVal.isContainer]
      have := hw.le
      have := docToks_pos (.obj ks)
      have e1 : (JVal.obj ks).cells .noDiff = openCell (memberToks (without [] ks)) [] :: membersWith q firstNew .noDiff ks [] ++ [cellOf .noDiff] := by
        rw [JVal.cells, obj_length, List.replicate_succ, List.replicate_succ', membersWith_none]
        rfl
      rw [e1] at ha
      have h1 : Marks diff.tokens.length f c dPos (fun m => diffObjects same m base bPos diff dPos s)
          (openCell (memberToks (without ms ks)) [] :: membersReport q firstNew ks ms ++ [cellOf .noDiff]) := by
        by_cases hc : ms.length = 0 ∧ ks.length = 0
        · refine Marks.done ?_ (fun m => by simp only [diffObjects, c1, c2, hc, and_self, if_true]; rfl)
          rw [List.length_eq_zero_iff.1 hc.1]
          rw [List.length_eq_zero_iff.1 hc.2] at ha ⊢
          simpa [membersReport, membersWith] using ha
        · have g1 := diffMembers_at ms [] ks (bPos + 1) dPos s f c hv.obj hw.obj wv ww (by simpa using dv.1) dv.2 dw.1 dw.2 (by omega) ha
          have g2 := g1.bind (g := fun s m => newMembers m base bPos diff (dPos + 1) s) (fun s' hs' =>
            newMembers_at q base diff hv.obj ks (by
              intro n hn
              obtain ⟨e, he, rfl⟩ := List.mem_map.1 hn
              exact (membersWF_mem ww e he).1) (dPos + 1) s' [openCell (memberToks (without ms ks)) []] hw.obj (by simp) (by simpa using hs'))
          exact g2.succ (fun m => by simp only [diffObjects, c1, c2, hc, if_false]; rfl)
      exact h1.succ (fun m => by simp [diffTokens, hv.get, hw.get, JVal.ty])
    | _ => simp [JVal.ty] at ht
  | .null, w, bPos, dPos, n, nt, n', nt', s, f, c, hv, hw, ht, wv, ww, dv, dw, ha => by
    cases w with
    | null =>
      have := hw.le
      have := docToks_pos .null
      rw [JVal.report]
      · exact Marks.succ (At.set (t := .noDiff) ⟨by simp, by simp⟩ ha (by omega)) (fun m => by
          simp [diffTokens, hv.get, hw.get, JVal.ty, Tok.isPlain, diffScalar])
      all_goals simp
    | _ => simp [JVal.ty] at ht
  | .bool a, w, bPos, dPos, n, nt, n', nt', s, f, c, hv, hw, ht, wv, ww, dv, dw, ha => by
    cases w with
    | bool b =>
      have := hw.le
      have := docToks_pos (.bool b)
      rw [JVal.report]
      have hx : At diff.tokens.length s f c dPos [cellOf .noDiff] := by cases b <;> exact ha
      exact Marks.succ (At.set (t := if a = b then .noDiff else .valueDiff) (by split <;> exact ⟨by simp, by simp⟩) hx (by omega)) (fun m => by
        cases a <;> cases b <;> simp [diffTokens, hv.get, hw.get, JVal.ty, Tok.isPlain, diffScalar, JVal.lead, boolText, boolTo])
    | _ => simp [JVal.ty] at ht
  | .num a, w, bPos, dPos, n, nt, n', nt', s, f, c, hv, hw, ht, wv, ww, dv, dw, ha => by
    cases w with
    | num b =>
      have := hw.le
      have := docToks_pos (.num b)
      rw [JVal.report]
      rw [JVal.WF] at wv ww
      have hs := hq a b wv ww
      exact Marks.succ (At.set (t := if q a b then .noDiff else .valueDiff) (by split <;> exact ⟨by simp, by simp⟩) ha (by omega)) (fun m => by
        simp [diffTokens, hv.get, hw.get, JVal.ty, Tok.isPlain, diffScalar, JVal.lead, hs])
    | _ => simp [JVal.ty] at ht
  | .str a, w, bPos, dPos, n, nt, n', nt', s, f, c, hv, hw, ht, wv, ww, dv, dw, ha => by
    cases w with
    | str b =>
      have := hw.le
      have := docToks_pos (.str b)
      rw [JVal.report]
      rw [JVal.WF] at wv ww
      have hi : (if stringsEqual a b then DiffType.noDiff else .valueDiff) = if a = b then .noDiff else .valueDiff := by
        by_cases hab : a = b
        · rw [if_pos ((stringsEqual_iff wv).2 hab), if_pos hab]
        · rw [if_neg (fun h => hab ((stringsEqual_iff wv).1 h)), if_neg hab]
      exact Marks.succ (At.set (t := if a = b then .noDiff else .valueDiff) (by split <;> exact ⟨by simp, by simp⟩) ha (by omega)) (fun m => by
        rw [← hi]
        simp [diffTokens, hv.get, hw.get, JVal.ty, Tok.isPlain, diffScalar, JVal.lead])
    | _ => simp [JVal.ty] at ht
theorem diffItems_at : (vs : List JVal) → ∀ (ws : List JVal) (bPos diffPos dPos : Nat) (X : List DiffCell) (s : DRes) (f : Nat → DiffCell) (c : Nat),
    base.Elems bPos vs → diff.Elems dPos ws →
    elemsWF (plainDialect P) vs → elemsWF (plainDialect P) ws → elemsDistinct vs → elemsDistinct ws → dPos = diffPos + 1 + X.length →
    diffPos < diff.tokens.length →
    At diff.tokens.length s f c diffPos (openCell [] [] :: X ++ List.replicate (elemToks ws).length (cellOf .noDiff) ++ [cellOf .noDiff]) →
    Marks diff.tokens.length f c diffPos (fun m => diffItems same m base bPos diff diffPos dPos s)
      (openCell [] (elemToks (vs.drop ws.length)) :: X ++ itemsReport q firstNew ws vs ++ [cellOf .noDiff])
  | [], ws, bPos, diffPos, dPos, X, s, f, c, hv, hw, wv, ww, dv, dw, hd, hp, ha => by
    cases ws with
    | nil =>
      refine Marks.done ?_ (fun m => by simp [diffItems, hv.nil, hw.nil]; rfl)
      simpa [itemsReport, elemToks] using ha
    | cons w ws =>
      have he : ¬(Ty.arrayEnd = w.ty) := by cases w <;> simp [JVal.ty]
      rw [itemsReport, List.drop_nil, elemToks]
      exact Marks.succ (ha.step (run := fun m => newItems m diff dPos 0 s) (by simp [firstNew_length]) (fun f c ha => by
        have e : diffPos + (openCell [] [] :: X).length = dPos := by simp [hd]; omega
        rw [e] at ha ⊢
        exact newItems_at hw ha)) (fun m => by simp [diffItems, hv.nil, hw.cons.1.get, he])
  | v :: vs, ws, bPos, diffPos, dPos, X, s, f, c, hv, hw, wv, ww, dv, dw, hd, hp, ha => by
    obtain ⟨hv1, hv2⟩ := hv.cons
    have he : ¬(v.ty = .arrayEnd) := by cases v <;> simp [JVal.ty]
    cases ws with
    | nil =>
      rw [itemsReport, List.length_nil, List.drop_zero]
      rw [elemToks, List.length_nil, List.replicate_zero] at ha
      have ha' : At diff.tokens.length s f c diffPos ([] ++ [openCell [] []] ++ (X ++ [] ++ [cellOf .noDiff])) := by simpa using ha
      have h1 := ha'.step (Y' := [openCell [] (elemToks (v :: vs))]) (run := fun m => missingItems m base bPos diffPos s) rfl (fun f c ha =>
        missingItems_at base (v :: vs) (by simpa using hp) bPos s [] hv ha)
      have h2 : Marks diff.tokens.length f c diffPos (fun m => missingItems m base bPos diffPos s)
        (openCell [] (elemToks (v :: vs)) :: X ++ [] ++ [cellOf .noDiff]) := by
        obtain ⟨s', k1, k2⟩ := h1
        exact ⟨s', k1, by simpa using k2⟩
      exact h2.succ (fun m => by simp [diffItems, hv1.get, hw.nil, he])
    | cons w ws =>
      obtain ⟨hw1, hw2⟩ := hw.cons
      have he' : ¬(w.ty = .arrayEnd) := by cases w <;> simp [JVal.ty]
      rw [elemsWF] at wv ww
      rw [elemsDistinct] at dv dw
      have hlen : (if v.sameKind w then w.report q firstNew v else ⟨.typeDiff, [], []⟩ :: (w.cells .noDiff).tail).length = w.docToks.length := by
        have := docToks_pos w
        split
        · exact report_length firstNew_length _ _
        · simp; omega
      have e2 : openCell [] (elemToks ((v :: vs).drop (w :: ws).length)) :: X ++ itemsReport q firstNew (w :: ws) (v :: vs) ++ [cellOf .noDiff] =
          openCell [] (elemToks (vs.drop ws.length)) :: (X ++ (if v.sameKind w then w.report q firstNew v else ⟨.typeDiff, [], []⟩ :: (w.cells .noDiff).tail)) ++
            itemsReport q firstNew ws vs ++ [cellOf .noDiff] := by
        rw [itemsReport]
        simp
      rw [e2]
      generalize hC : (if v.sameKind w then w.report q firstNew v else ⟨.typeDiff, [], []⟩ :: (w.cells .noDiff).tail) = C at hlen
      have ih := fun (s' : DRes) (hs' : At diff.tokens.length s' f c diffPos
            (openCell [] [] :: X ++ C ++ (List.replicate (elemToks ws).length (cellOf .noDiff) ++ [cellOf .noDiff]))) =>
        diffItems_at vs ws (bPos + v.docToks.length) diffPos (dPos + w.docToks.length) (X ++ C) s' f c hv2 hw2 wv.2 ww.2 dv.2 dw.2
          (by simp [hlen, hd]; omega) hp (by simpa using hs')
      have ha' : At diff.tokens.length s f c diffPos (openCell [] [] :: X ++ w.cells .noDiff ++ (List.replicate (elemToks ws).length (cellOf .noDiff) ++ [cellOf .noDiff])) := by
        rw [elems_length, List.replicate_add, ← List.append_assoc, List.append_assoc (_ ++ _)] at ha
        exact ha
      have e : diffPos + (openCell [] [] :: X).length = dPos := by simp [hd]; omega
      by_cases ht : v.ty = w.ty
      · rw [if_pos (sameKind_iff.2 ht)] at hC
        have h1 := ha'.step (Y' := C) (run := fun m => diffTokens same m base bPos diff dPos s) (by rw [hlen]; simp) (fun f c ha => by
          rw [e] at ha ⊢
          rw [← hC]
          exact diffTokens_at v w bPos dPos [] .ascii [] .ascii s f c hv1 hw1 ht wv.1 ww.1 dv.1 dw.1 ha)
        exact (Marks.bind (g := fun s m => diffItems same m base (bPos + v.docToks.length) diff diffPos (dPos + w.docToks.length) s) h1 ih).succ (fun m => by
          simp [diffItems, hv1.get, hw1.get, ht, he', hv1.skip, hw1.skip, bind, Option.bind])
      · rw [if_neg (fun h => ht (sameKind_iff.1 h))] at hC
        have h1 := ha'.step (Y' := C) (run := fun _ => s.set dPos .typeDiff) (by rw [hlen]; simp) (fun f c ha => by
          rw [e] at ha ⊢
          have := hw1.le
          have := docToks_pos w
          have e3 : w.cells .noDiff = [] ++ [cellOf .noDiff] ++ (w.cells .noDiff).tail := by
            rw [JVal.cells]
            cases h : w.docToks.length with
            | zero => omega
            | succ l => simp [List.replicate_succ]
          rw [← hC]
          rw [e3] at ha
          exact ha.step (Y' := [cellOf .typeDiff]) rfl (fun f c ha => At.set ⟨by simp, by simp⟩ ha (by omega)))
        exact (Marks.bind (g := fun s m => diffItems same m base (bPos + v.docToks.length) diff diffPos (dPos + w.docToks.length) s) h1 ih).succ (fun m => by
          simp [diffItems, hv1.get, hw1.get, ht, he, he', hv1.skip, hw1.skip, bind, Option.bind])
theorem diffMembers_at : (ms done ks : List (Bytes × JVal)) → ∀ (bPos diffPos : Nat) (s : DRes) (f : Nat → DiffCell) (c : Nat),
    base.Members bPos ms → diff.Members (diffPos + 1) ks →
    membersWF (plainDialect P) ms → membersWF (plainDialect P) ks → ((done ++ ms).map Prod.fst).Nodup → membersDistinct ms →
    (ks.map Prod.fst).Nodup → membersDistinct ks → diffPos < diff.tokens.length →
    At diff.tokens.length s f c diffPos (openCell (memberToks (without done ks)) [] :: membersWith q firstNew .noDiff ks done ++ [cellOf .noDiff]) →
    Marks diff.tokens.length f c diffPos (fun m => diffMembers same m base bPos diff diffPos s)
      (openCell (memberToks (without (done ++ ms) ks)) [] :: membersWith q firstNew .noDiff ks (done ++ ms) ++ [cellOf .noDiff])
  | [], done, ks, bPos, diffPos, s, f, c, hv, hw, wv, ww, dn', dv, dn, dw, hp, ha => by
    refine Marks.done ?_ (fun m => by simp [diffMembers, hv.nil]; rfl)
    simpa using ha
  | (n, v) :: ms, done, ks, bPos, diffPos, s, f, c, hv, hw, wv, ww, dn', dv, dn, dw, hp, ha => by
    obtain ⟨hv1, hv2⟩ := hv.cons
    have he : ¬(v.ty = .objectEnd) := by cases v <;> simp [JVal.ty]
    rw [membersWF] at wv
    rw [membersDistinct] at dv
    have hnd : n ∉ done.map Prod.fst := by
      rw [List.map_append, List.nodup_append] at dn'
      exact fun h => dn'.2.2 n h n (by simp) rfl
    have ea : done ++ (n, v) :: ms = done ++ [(n, v)] ++ ms := by simp
    rw [ea] at dn' ⊢
    have ih := fun (s' : DRes) (hs' : At diff.tokens.length s' f c diffPos
          (openCell (memberToks (without (done ++ [(n, v)]) ks)) [] :: membersWith q firstNew .noDiff ks (done ++ [(n, v)]) ++ [cellOf .noDiff])) =>
      diffMembers_at ms (done ++ [(n, v)]) ks _ diffPos s' f c hv2 hw wv.2.2 ww dn' dv.2 dn dw hp hs'
    let g := fun (r : Option Nat) (m : Nat) =>
      match r with
      | none => addMissingAll m false diffPos base bPos s
      | some dPos =>
        match diff.tokens[dPos]? with
        | none => none
        | some k =>
          if v.ty = k.valueType then diffTokens same m base bPos diff dPos s
          else setEntire m diff dPos .typeDiff s
    have hstep : Marks diff.tokens.length f c diffPos (fun m => (findMember m diff (diffPos + 1) ⟨n, .string, v.lead, v.ty⟩).bind fun r => g r m)
        (openCell (memberToks (without (done ++ [(n, v)]) ks)) [] :: membersWith q firstNew .noDiff ks (done ++ [(n, v)]) ++ [cellOf .noDiff]) := by
      rcases findMember_at diff wv.1 v.lead v.ty ks (diffPos + 1) hw with ⟨g1, g2⟩ | ⟨ks1, w, ks2, g0, g1, g2, g3⟩
      · rw [membersWith_other g1]
        have e1 : memberToks (without (done ++ [(n, v)]) ks) = memberToks (without done ks) ++ v.toks n .string := by
          have : (ks.map Prod.fst).contains n = false := by simpa using g1
          simp only [without, List.filter_append, List.filter_cons, List.filter_nil, this, Bool.not_false, if_true, memberToks_append, memberToks,
            List.append_nil]
        rw [e1]
        have ha' : At diff.tokens.length s f c diffPos ([] ++ [openCell (memberToks (without done ks)) []] ++
            (membersWith q firstNew .noDiff ks done ++ [cellOf .noDiff])) := by simpa using ha
        have h1 := ha'.step (Y' := [openCell (memberToks (without done ks) ++ v.toks n .string) []])
          (run := fun m => addMissingAll m false diffPos base bPos s) rfl (fun f c ha =>
            ⟨_, addMissing_val base false diffPos v bPos n .string s hv1 (by rw [ha.length]; exact hp), At.missAll false _ ha (by simpa using hp)⟩)
        obtain ⟨s', k1, k2⟩ := h1
        exact ⟨s', g2.bind (g := g) k1, by simpa using k2⟩
      · have dw' : w.Distinct := membersDistinct_mem dw (n, w) (by rw [g0]; simp)
        have ww' : w.WF (plainDialect P) := (membersWF_mem ww (n, w) (by rw [g0]; simp)).2
        have hn2 : n ∉ ks2.map Prod.fst := by
          rw [g0, List.map_append, List.nodup_append] at dn
          exact (List.nodup_cons.1 dn.2.1).1
        have e1 : memberToks (without (done ++ [(n, v)]) ks) = memberToks (without done ks) := by
          have : (ks.map Prod.fst).contains n = true := by rw [g0]; simp
          simp only [without, List.filter_append, List.filter_cons, List.filter_nil, this, Bool.not_true, Bool.false_eq_true, if_false, List.append_nil]
        have e2 : membersWith q firstNew .noDiff ks done =
            membersWith q firstNew .noDiff ks1 done ++ (w.cells .noDiff ++ membersWith q firstNew .noDiff ks2 done) := by
          rw [g0, membersWith_append, membersWith, lookup_none hnd]
        have e3 : membersWith q firstNew .noDiff ks (done ++ [(n, v)]) =
            membersWith q firstNew .noDiff ks1 done ++ ((if v.sameKind w then w.report q firstNew v else w.cells .typeDiff) ++
              membersWith q firstNew .noDiff ks2 done) := by
          rw [g0, membersWith_append, membersWith, membersWith_other g1, membersWith_other hn2, lookup_append, lookup_none hnd]
          simp [List.lookup]
        have e4 : diffPos + (openCell (memberToks (without done ks)) [] :: membersWith q firstNew .noDiff ks1 done).length =
            diffPos + 1 + (memberToks ks1).length := by
          rw [List.length_cons, membersWith_length firstNew_length]; omega
        have ha' : At diff.tokens.length s f c diffPos (openCell (memberToks (without done ks)) [] :: membersWith q firstNew .noDiff ks1 done ++
            w.cells .noDiff ++ (membersWith q firstNew .noDiff ks2 done ++ [cellOf .noDiff])) := by
          rw [e2] at ha
          simpa using ha
        rw [e1, e3]
        by_cases ht : v.ty = w.ty
        · rw [if_pos (sameKind_iff.2 ht)]
          obtain ⟨s', k1, k2⟩ := ha'.step (Y' := w.report q firstNew v)
            (run := fun m => diffTokens same m base bPos diff (diffPos + 1 + (memberToks ks1).length) s)
            (by rw [report_length firstNew_length]; simp) (fun f c ha => by
              rw [e4] at ha ⊢
              exact diffTokens_at v w bPos _ n .string n .string s f c hv1 g2 ht wv.2.1 ww' dv.1 dw' ha)
          refine ⟨s', g3.bind (g := g) ?_, by simpa using k2⟩
          simpa only [g, g2.get, ht, if_true] using k1
        · rw [if_neg (fun h => ht (sameKind_iff.1 h))]
          obtain ⟨s', k1, k2⟩ := ha'.step (Y' := w.cells .typeDiff)
            (run := fun m => setEntire m diff (diffPos + 1 + (memberToks ks1).length) .typeDiff s) (by simp) (fun f c ha => by
              rw [e4] at ha ⊢
              exact setEntire_at ⟨by simp, by simp⟩ g2 ha)
          refine ⟨s', g3.bind (g := g) ?_, by simpa using k2⟩
          simpa only [g, g2.get, ht, if_false] using k1
    exact (hstep.bind (g := fun s' m => diffMembers same m base (bPos + v.docToks.length) diff diffPos s') ih).succ (fun m => by
      simp only [diffMembers, hv1.get, he, if_false, hv1.skip, bind, g]
      cases findMember m diff (diffPos + 1) ⟨n, .string, v.lead, v.ty⟩ with
      | none => rfl
      | some r =>
        cases r with
        | none => rfl
        | some p =>
          simp only [Option.bind_some]
          cases diff.tokens[p]? with
          | none => rfl
          | some k => simp only []; split <;> rfl)
end

end

end JsonStruct
