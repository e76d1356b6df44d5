import Verif.Spec.Diff
import Verif.Lemmas.Map

/- Comparing documents: helper lemmas. -/

namespace JsonStruct

/-! ### Names and strings -/

theorem strncmpEq_iff {a b : Bytes} (ha : (0 : Byte) ∉ a) (hl : a.length = b.length) : strncmpEq a b = true ↔ a = b := by
  induction a generalizing b with
  | nil => cases b with
    | nil => simp [strncmpEq]
    | cons y b => simp at hl
  | cons x a ih =>
    cases b with
    | nil => simp at hl
    | cons y b =>
      simp only [List.mem_cons, not_or] at ha
      have hx : x ≠ 0 := fun h => ha.1 h.symm
      simp only [strncmpEq, List.cons.injEq]
      by_cases h : x = y
      · rw [if_pos h, if_neg hx, ih ha.2 (by simpa using hl)]
        simp [h]
      · simp [h]

theorem stringsEqual_iff {a b : Bytes} (ha : (0 : Byte) ∉ a) : stringsEqual a b = true ↔ a = b := by
  unfold stringsEqual
  by_cases hl : a.length = b.length
  · simp [hl, strncmpEq_iff ha hl]
  · simp only [hl, decide_false, Bool.false_and, Bool.false_eq_true, false_iff]
    exact fun h => hl (by rw [h])

/-! ### Values in the tokens of a document -/

/-- The type of the first token of a value. -/
def JVal.ty : JVal → Ty
  | .null => .null | .bool _ => .bool | .num _ => .number | .str _ => .string | .arr _ => .arrayStart | .obj _ => .objectStart

/-- The text of the first token of a value. -/
def JVal.lead : JVal → Bytes
  | .null => b!"null" | .bool b => boolText b | .num n => n | .str s => s | .arr _ => b!"[" | .obj _ => b!"{"

theorem toks_cons (n : Bytes) (nt : Ty) (v : JVal) : ∃ ks, v.toks n nt = ⟨n, nt, v.lead, v.ty⟩ :: ks := by
  cases v with
  | bool b => cases b <;> exact ⟨_, rfl⟩
  | _ => simp [JVal.toks, JVal.lead, JVal.ty]

/-- The tokens `ks` are at `pos`, and the metadata has the containers `cs`. -/
def DToks.Has (d : DToks) (pos : Nat) (ks : List Tok) (cs : List (Nat × JVal)) : Prop :=
  (∃ rest, d.tokens.drop pos = ks ++ rest) ∧ ∀ e ∈ cs, d.metas.find? (fun m => m.position = e.1) = some (metaOf e)

theorem DToks.Has.append {d : DToks} {pos : Nat} {ks ks' : List Tok} {cs cs' : List (Nat × JVal)} (h : d.Has pos (ks ++ ks') (cs ++ cs')) :
    d.Has pos ks cs ∧ d.Has (pos + ks.length) ks' cs' := by
  obtain ⟨⟨rest, h1⟩, h2⟩ := h
  refine ⟨⟨⟨ks' ++ rest, by simpa using h1⟩, fun e he => h2 e (by simp [he])⟩, ⟨rest, ?_⟩, fun e he => h2 e (by simp [he])⟩
  rw [← List.drop_drop, h1]
  simp

theorem DToks.Has.get {d : DToks} {pos : Nat} {k : Tok} {ks : List Tok} {cs : List (Nat × JVal)} (h : d.Has pos (k :: ks) cs) :
    d.tokens[pos]? = some k := by
  obtain ⟨⟨rest, h1⟩, _⟩ := h
  have := congrArg (fun l => l[0]?) h1
  simpa using this

theorem DToks.Has.le {d : DToks} {pos : Nat} {ks : List Tok} {cs : List (Nat × JVal)} (h : d.Has pos ks cs) (hne : ks ≠ []) :
    pos + ks.length ≤ d.tokens.length := by
  obtain ⟨⟨rest, h1⟩, _⟩ := h
  have := congrArg List.length h1
  have : 0 < ks.length := by cases ks with | nil => exact absurd rfl hne | cons _ _ => simp
  simp at *
  omega

/-- The value `v` is at `pos`. -/
def DToks.Val (d : DToks) (pos : Nat) (n : Bytes) (nt : Ty) (v : JVal) : Prop := d.Has pos (v.toks n nt) (v.containersAt pos)

/-- The elements `vs` and the closing bracket are at `pos`. -/
def DToks.Elems (d : DToks) (pos : Nat) (vs : List JVal) : Prop :=
  d.Has pos (elemToks vs ++ [⟨[], .ascii, b!"]", .arrayEnd⟩]) (elemContainersAt pos vs)

/-- The members `ms` and the closing bracket are at `pos`. -/
def DToks.Members (d : DToks) (pos : Nat) (ms : List (Bytes × JVal)) : Prop :=
  d.Has pos (memberToks ms ++ [⟨[], .ascii, b!"}", .objectEnd⟩]) (memberContainersAt pos ms)

theorem DToks.Val.get {d : DToks} {pos : Nat} {n : Bytes} {nt : Ty} {v : JVal} (h : d.Val pos n nt v) :
    d.tokens[pos]? = some ⟨n, nt, v.lead, v.ty⟩ := by
  obtain ⟨ks, hk⟩ := toks_cons n nt v
  unfold DToks.Val at h
  rw [hk] at h
  exact h.get

theorem DToks.Val.le {d : DToks} {pos : Nat} {n : Bytes} {nt : Ty} {v : JVal} (h : d.Val pos n nt v) :
    pos + v.docToks.length ≤ d.tokens.length := by
  obtain ⟨ks, hk⟩ := toks_cons n nt v
  have := DToks.Has.le h (by rw [hk]; simp)
  rwa [JVal.toks_length] at this

theorem DToks.Val.arr {d : DToks} {pos : Nat} {n : Bytes} {nt : Ty} {vs : List JVal} (h : d.Val pos n nt (.arr vs)) : d.Elems (pos + 1) vs := by
  unfold DToks.Val at h
  rw [JVal.toks, JVal.containersAt] at h
  exact (DToks.Has.append (ks := [_]) (cs := [_]) h).2

theorem DToks.Val.obj {d : DToks} {pos : Nat} {n : Bytes} {nt : Ty} {ms : List (Bytes × JVal)} (h : d.Val pos n nt (.obj ms)) :
    d.Members (pos + 1) ms := by
  unfold DToks.Val at h
  rw [JVal.toks, JVal.containersAt] at h
  exact (DToks.Has.append (ks := [_]) (cs := [_]) h).2

theorem DToks.Elems.cons {d : DToks} {pos : Nat} {v : JVal} {vs : List JVal} (h : d.Elems pos (v :: vs)) :
    d.Val pos [] .ascii v ∧ d.Elems (pos + v.docToks.length) vs := by
  unfold DToks.Elems at h
  rw [elemToks, elemContainersAt, List.append_assoc] at h
  have := h.append
  rwa [JVal.toks_length] at this

theorem DToks.Elems.nil {d : DToks} {pos : Nat} (h : d.Elems pos []) : d.tokens[pos]? = some ⟨[], .ascii, b!"]", .arrayEnd⟩ :=
  DToks.Has.get h

theorem DToks.Members.cons {d : DToks} {pos : Nat} {n : Bytes} {v : JVal} {ms : List (Bytes × JVal)} (h : d.Members pos ((n, v) :: ms)) :
    d.Val pos n .string v ∧ d.Members (pos + v.docToks.length) ms := by
  unfold DToks.Members at h
  rw [memberToks, memberContainersAt, List.append_assoc] at h
  have := h.append
  rwa [JVal.toks_length] at this

theorem DToks.Members.nil {d : DToks} {pos : Nat} (h : d.Members pos []) : d.tokens[pos]? = some ⟨[], .ascii, b!"}", .objectEnd⟩ :=
  DToks.Has.get h

theorem DToks.Val.skip {d : DToks} {pos : Nat} {n : Bytes} {nt : Ty} {v : JVal} (h : d.Val pos n nt v) :
    d.skip pos = some (pos + v.docToks.length) := by
  cases hv : v.isContainer with
  | true =>
    obtain ⟨es, he⟩ := containersAt_container hv pos
    have hm := h.2 (pos, v) (by simp [he])
    have hc : isComplexValue ⟨n, nt, v.lead, v.ty⟩ = true := by cases v <;> simp_all [JVal.isContainer, JVal.ty, isComplexValue]
    simp only [DToks.skip, h.get, hc, if_true, hm, metaOf]
  | false =>
    have hc : isComplexValue ⟨n, nt, v.lead, v.ty⟩ = false := by cases v <;> simp_all [JVal.isContainer, JVal.ty, isComplexValue]
    simp [DToks.skip, h.get, hc, docToks_scalar hv]

theorem DToks.Val.childCount {d : DToks} {pos : Nat} {n : Bytes} {nt : Ty} {v : JVal} (h : d.Val pos n nt v) :
    d.childCount pos = v.kids.length ∨ v.isContainer = false := by
  cases hv : v.isContainer with
  | true =>
    obtain ⟨es, he⟩ := containersAt_container hv pos
    have hm := h.2 (pos, v) (by simp [he])
    simp only [DToks.childCount, hm, metaOf]
    exact .inl trivial
  | false => exact .inr rfl

/-! ### Setting the state of all the tokens of a value -/

/-- `set` where it is defined. -/
def DRes.put (s : DRes) (pos : Nat) (t : DiffType) : DRes :=
  { s with diffs := s.diffs.set pos t, count := if t ≠ .noDiff then s.count + 1 else s.count }

theorem DRes.set_put {s : DRes} {pos : Nat} (t : DiffType) (h : pos < s.diffs.length) : s.set pos t = some (s.put pos t) := by
  simp [DRes.set, DRes.put, h]

/-- The states of `l` tokens from `pos` on are set. -/
def DRes.mark (t : DiffType) : Nat → Nat → DRes → DRes
  | _, 0, s => s
  | pos, l + 1, s => DRes.mark t (pos + 1) l (s.put pos t)

theorem DRes.mark_add (t : DiffType) (pos l l' : Nat) (s : DRes) : s.mark t pos (l + l') = (s.mark t pos l).mark t (pos + l) l' := by
  induction l generalizing pos s with
  | zero => simp [DRes.mark]
  | succ l ih => rw [show l + 1 + l' = (l + l') + 1 by omega, DRes.mark, DRes.mark, ih]; congr 1; omega

@[simp] theorem DRes.mark_length (t : DiffType) (pos l : Nat) (s : DRes) : (s.mark t pos l).diffs.length = s.diffs.length := by
  induction l generalizing pos s with
  | zero => rfl
  | succ l ih => rw [DRes.mark, ih]; simp [DRes.put]

theorem DRes.mark_count {t : DiffType} (ht : t ≠ .noDiff) (pos l : Nat) (s : DRes) : (s.mark t pos l).count = s.count + l := by
  induction l generalizing pos s with
  | zero => rfl
  | succ l ih => rw [DRes.mark, ih]; simp [DRes.put, ht]; omega

/-- A bounded computation ends with `r` if the bound is large enough. -/
def Ends (f : Nat → Option α) (r : α) : Prop := ∃ N, ∀ m, N ≤ m → f m = some r

theorem Ends.succ {f g : Nat → Option α} {r : α} (h : Ends g r) (hf : ∀ m, f (m + 1) = g m) : Ends f r := by
  obtain ⟨N, hN⟩ := h
  refine ⟨N + 1, fun m hm => ?_⟩
  match m, hm with
  | m + 1, hm => rw [hf]; exact hN m (by omega)

theorem Ends.now {f : Nat → Option α} {r : α} (hf : ∀ m, f (m + 1) = some r) : Ends f r := Ends.succ (g := fun _ => some r) ⟨0, fun _ _ => rfl⟩ hf

theorem Ends.bind {f : Nat → Option α} {g : α → Nat → Option β} {a : α} {b : β} (hf : Ends f a) (hg : Ends (g a) b) :
    Ends (fun m => (f m).bind fun x => g x m) b := by
  obtain ⟨N, hN⟩ := hf
  obtain ⟨M, hM⟩ := hg
  exact ⟨N + M, fun m hm => by simp [hN m (by omega), hM m (by omega)]⟩

mutual
theorem setEntire_val (d : DToks) (t : DiffType) : (v : JVal) → ∀ (pos : Nat) (n : Bytes) (nt : Ty) (s : DRes), d.Val pos n nt v →
    s.diffs.length = d.tokens.length → Ends (fun m => setEntire m d pos t s) (s.mark t pos v.docToks.length)
  | .arr vs, pos, n, nt, s, h, hl => by
    have hg := h.get
    have hle := h.le
    have := docToks_pos (.arr vs)
    have hset : s.set pos t = some (s.put pos t) := DRes.set_put t (by omega)
    have ih := setEntire_elems d t vs (pos + 1) (s.put pos t) h.arr (by simpa [DRes.put] using hl)
    refine Ends.succ (g := fun m => setEntireLoop m d (pos + 1) t (s.put pos t)) ?_ (fun m => by
      simp [setEntire, hset, hg, JVal.ty, isComplexValue])
    have e : (JVal.arr vs).docToks.length = (elemToks vs).length + 1 + 1 := by simp [JVal.docToks, JVal.toks]
    rw [e, DRes.mark]; exact ih
  | .obj ms, pos, n, nt, s, h, hl => by
    have hg := h.get
    have hle := h.le
    have := docToks_pos (.obj ms)
    have hset : s.set pos t = some (s.put pos t) := DRes.set_put t (by omega)
    have ih := setEntire_members d t ms (pos + 1) (s.put pos t) h.obj (by simpa [DRes.put] using hl)
    refine Ends.succ (g := fun m => setEntireLoop m d (pos + 1) t (s.put pos t)) ?_ (fun m => by
      simp [setEntire, hset, hg, JVal.ty, isComplexValue])
    have e : (JVal.obj ms).docToks.length = (memberToks ms).length + 1 + 1 := by simp [JVal.docToks, JVal.toks]
    rw [e, DRes.mark]; exact ih
  | .null, pos, n, nt, s, h, hl | .bool b, pos, n, nt, s, h, hl | .num x, pos, n, nt, s, h, hl | .str x, pos, n, nt, s, h, hl => by
    have hg := h.get
    have hle := h.le
    rw [docToks_scalar (by rfl)] at hle ⊢
    have hset : s.set pos t = some (s.put pos t) := DRes.set_put t (by omega)
    exact Ends.now (fun m => by simp [setEntire, hset, hg, JVal.ty, isComplexValue, DRes.mark])
theorem setEntire_elems (d : DToks) (t : DiffType) : (vs : List JVal) → ∀ (pos : Nat) (s : DRes), d.Elems pos vs →
    s.diffs.length = d.tokens.length → Ends (fun m => setEntireLoop m d pos t s) (s.mark t pos ((elemToks vs).length + 1))
  | [], pos, s, h, hl => by
    have hg := h.nil
    have hlt : pos < d.tokens.length := by
      rcases Nat.lt_or_ge pos d.tokens.length with h' | h'
      · exact h'
      · rw [List.getElem?_eq_none h'] at hg; simp at hg
    have hset : s.set pos t = some (s.put pos t) := DRes.set_put t (by omega)
    exact Ends.now (fun m => by simp [setEntireLoop, hset, hg, isComplexValue, DRes.mark, elemToks])
  | v :: vs, pos, s, h, hl => by
    obtain ⟨hv, hvs⟩ := h.cons
    have hg := hv.get
    have hle := hv.le
    have hp := docToks_pos v
    have ih := setEntire_elems d t vs (pos + v.docToks.length) (s.mark t pos v.docToks.length) hvs (by simpa using hl)
    rw [elemToks, List.length_append, JVal.toks_length, Nat.add_assoc, DRes.mark_add]
    cases hc : v.isContainer with
    | true =>
      have hc' : isComplexValue ⟨[], .ascii, v.lead, v.ty⟩ = true := by cases v <;> simp_all [JVal.isContainer, JVal.ty, isComplexValue]
      refine Ends.succ ((setEntire_val d t v pos [] .ascii s hv hl).bind (g := fun s m => setEntireLoop m d (pos + v.docToks.length) t s) ih) (fun m => ?_)
      simp [setEntireLoop, hg, hc', hv.skip, bind, Option.bind]
    | false =>
      have hc' : isComplexValue ⟨[], .ascii, v.lead, v.ty⟩ = false := by cases v <;> simp_all [JVal.isContainer, JVal.ty, isComplexValue]
      have hc'' : ¬(v.ty = .objectEnd ∨ v.ty = .arrayEnd) := by cases v <;> simp [JVal.ty]
      have hset : s.set pos t = some (s.put pos t) := DRes.set_put t (by omega)
      rw [docToks_scalar hc] at ih ⊢
      refine Ends.succ ih (fun m => ?_)
      have := hv.skip
      rw [docToks_scalar hc] at this
      simp [setEntireLoop, hg, hc', hc'', this, hset, DRes.mark, bind, Option.bind]
theorem setEntire_members (d : DToks) (t : DiffType) : (ms : List (Bytes × JVal)) → ∀ (pos : Nat) (s : DRes), d.Members pos ms →
    s.diffs.length = d.tokens.length → Ends (fun m => setEntireLoop m d pos t s) (s.mark t pos ((memberToks ms).length + 1))
  | [], pos, s, h, hl => by
    have hg := h.nil
    have hlt : pos < d.tokens.length := by
      rcases Nat.lt_or_ge pos d.tokens.length with h' | h'
      · exact h'
      · rw [List.getElem?_eq_none h'] at hg; simp at hg
    have hset : s.set pos t = some (s.put pos t) := DRes.set_put t (by omega)
    exact Ends.now (fun m => by simp [setEntireLoop, hset, hg, isComplexValue, DRes.mark, memberToks])
  | (nm, v) :: ms, pos, s, h, hl => by
    obtain ⟨hv, hvs⟩ := h.cons
    have hg := hv.get
    have hle := hv.le
    have hp := docToks_pos v
    have ih := setEntire_members d t ms (pos + v.docToks.length) (s.mark t pos v.docToks.length) hvs (by simpa using hl)
    rw [memberToks, List.length_append, JVal.toks_length, Nat.add_assoc, DRes.mark_add]
    cases hc : v.isContainer with
    | true =>
      have hc' : isComplexValue ⟨nm, .string, v.lead, v.ty⟩ = true := by cases v <;> simp_all [JVal.isContainer, JVal.ty, isComplexValue]
      refine Ends.succ ((setEntire_val d t v pos nm .string s hv hl).bind (g := fun s m => setEntireLoop m d (pos + v.docToks.length) t s) ih) (fun m => ?_)
      simp [setEntireLoop, hg, hc', hv.skip, bind, Option.bind]
    | false =>
      have hc' : isComplexValue ⟨nm, .string, v.lead, v.ty⟩ = false := by cases v <;> simp_all [JVal.isContainer, JVal.ty, isComplexValue]
      have hc'' : ¬(v.ty = .objectEnd ∨ v.ty = .arrayEnd) := by cases v <;> simp [JVal.ty]
      have hset : s.set pos t = some (s.put pos t) := DRes.set_put t (by omega)
      rw [docToks_scalar hc] at ih ⊢
      refine Ends.succ ih (fun m => ?_)
      have := hv.skip
      rw [docToks_scalar hc] at this
      simp [setEntireLoop, hg, hc', hc'', this, hset, DRes.mark, bind, Option.bind]
end

/-! ### Missing values -/

/-- `addMissing` where it is defined. -/
def DRes.miss (array : Bool) (pos : Nat) (s : DRes) (k : Tok) : DRes :=
  if array then { s with missingArrayItems := addEntry pos k s.missingArrayItems }.put pos .missingArrayItems
  else { s with missingMembers := addEntry pos k s.missingMembers }.put pos .missingMembers

theorem DRes.addMissing_miss {s : DRes} {pos : Nat} (array : Bool) (k : Tok) (h : pos < s.diffs.length) :
    s.addMissing array pos k = some (s.miss array pos k) := by
  cases array <;> simp [DRes.addMissing, DRes.miss, DRes.set_put, h]

@[simp] theorem DRes.miss_length (array : Bool) (pos : Nat) (s : DRes) (k : Tok) : (s.miss array pos k).diffs.length = s.diffs.length := by
  cases array <;> simp [DRes.miss, DRes.put]

@[simp] theorem DRes.missAll_length (array : Bool) (pos : Nat) (s : DRes) (ks : List Tok) :
    (ks.foldl (DRes.miss array pos) s).diffs.length = s.diffs.length := by
  induction ks generalizing s with
  | nil => rfl
  | cons k ks ih => simp [ih]

theorem DRes.missAll_count (array : Bool) (pos : Nat) (s : DRes) (ks : List Tok) :
    (ks.foldl (DRes.miss array pos) s).count = s.count + ks.length := by
  induction ks generalizing s with
  | nil => rfl
  | cons k ks ih =>
    have : (s.miss array pos k).count = s.count + 1 := by cases array <;> simp [DRes.miss, DRes.put]
    simp [ih, this]; omega

mutual
theorem addMissing_val (d : DToks) (array : Bool) (p : Nat) : (v : JVal) → ∀ (pos : Nat) (n : Bytes) (nt : Ty) (s : DRes), d.Val pos n nt v →
    p < s.diffs.length → Ends (fun m => addMissingAll m array p d pos s) ((v.toks n nt).foldl (DRes.miss array p) s)
  | .arr vs, pos, n, nt, s, h, hl => by
    have hg := h.get
    have hm : ∀ k, s.addMissing array p k = some (s.miss array p k) := fun k => DRes.addMissing_miss array k hl
    have ih := addMissing_elems d array p vs (pos + 1) (s.miss array p ⟨n, nt, b!"[", .arrayStart⟩) h.arr (by simpa using hl)
    refine Ends.succ ih (fun m => by
      simp [addMissingAll, hg, hm, JVal.ty, JVal.lead, isComplexValue, bind, Option.bind])
  | .obj ms, pos, n, nt, s, h, hl => by
    have hg := h.get
    have hm : ∀ k, s.addMissing array p k = some (s.miss array p k) := fun k => DRes.addMissing_miss array k hl
    have ih := addMissing_members d array p ms (pos + 1) (s.miss array p ⟨n, nt, b!"{", .objectStart⟩) h.obj (by simpa using hl)
    refine Ends.succ ih (fun m => by
      simp [addMissingAll, hg, hm, JVal.ty, JVal.lead, isComplexValue, bind, Option.bind])
  | .null, pos, n, nt, s, h, hl | .bool true, pos, n, nt, s, h, hl | .bool false, pos, n, nt, s, h, hl | .num x, pos, n, nt, s, h, hl
  | .str x, pos, n, nt, s, h, hl => by
    have hg := h.get
    have hm : ∀ k, s.addMissing array p k = some (s.miss array p k) := fun k => DRes.addMissing_miss array k hl
    exact Ends.now (fun m => by simp [addMissingAll, hg, hm, JVal.ty, JVal.lead, isComplexValue, bind, Option.bind, JVal.toks, boolText])
theorem addMissing_elems (d : DToks) (array : Bool) (p : Nat) : (vs : List JVal) → ∀ (pos : Nat) (s : DRes), d.Elems pos vs →
    p < s.diffs.length → Ends (fun m => addMissingLoop m array p d pos s) ((elemToks vs ++ [(⟨[], .ascii, b!"]", .arrayEnd⟩ : Tok)]).foldl (DRes.miss array p) s)
  | [], pos, s, h, hl => by
    have hm : ∀ k, s.addMissing array p k = some (s.miss array p k) := fun k => DRes.addMissing_miss array k hl
    exact Ends.now (fun m => by simp [addMissingLoop, hm, h.nil, isComplexValue, elemToks])
  | v :: vs, pos, s, h, hl => by
    obtain ⟨hv, hvs⟩ := h.cons
    have hg := hv.get
    have hm : ∀ k, s.addMissing array p k = some (s.miss array p k) := fun k => DRes.addMissing_miss array k hl
    have ih := addMissing_elems d array p vs (pos + v.docToks.length) ((v.toks [] .ascii).foldl (DRes.miss array p) s) hvs (by simpa using hl)
    rw [elemToks, List.append_assoc, List.foldl_append]
    cases hc : v.isContainer with
    | true =>
      have hc' : isComplexValue ⟨[], .ascii, v.lead, v.ty⟩ = true := by cases v <;> simp_all [JVal.isContainer, JVal.ty, isComplexValue]
      refine Ends.succ ((addMissing_val d array p v pos [] .ascii s hv hl).bind (g := fun s m => addMissingLoop m array p d (pos + v.docToks.length) s) ih) (fun m => ?_)
      simp [addMissingLoop, hg, hc', hv.skip, bind, Option.bind]
    | false =>
      have hc' : isComplexValue ⟨[], .ascii, v.lead, v.ty⟩ = false := by cases v <;> simp_all [JVal.isContainer, JVal.ty, isComplexValue]
      have hc'' : ¬(v.ty = .objectEnd ∨ v.ty = .arrayEnd) := by cases v <;> simp [JVal.ty]
      have ht : v.toks [] .ascii = [⟨[], .ascii, v.lead, v.ty⟩] := by
        cases v with
        | bool b => cases b <;> rfl
        | _ => first | rfl | simp [JVal.isContainer] at hc
      rw [ht] at ih ⊢
      refine Ends.succ ih (fun m => ?_)
      simp [addMissingLoop, hg, hc', hc'', hv.skip, hm, bind, Option.bind]
theorem addMissing_members (d : DToks) (array : Bool) (p : Nat) : (ms : List (Bytes × JVal)) → ∀ (pos : Nat) (s : DRes), d.Members pos ms →
    p < s.diffs.length → Ends (fun m => addMissingLoop m array p d pos s) ((memberToks ms ++ [(⟨[], .ascii, b!"}", .objectEnd⟩ : Tok)]).foldl (DRes.miss array p) s)
  | [], pos, s, h, hl => by
    have hm : ∀ k, s.addMissing array p k = some (s.miss array p k) := fun k => DRes.addMissing_miss array k hl
    exact Ends.now (fun m => by simp [addMissingLoop, hm, h.nil, isComplexValue, memberToks])
  | (nm, v) :: ms, pos, s, h, hl => by
    obtain ⟨hv, hvs⟩ := h.cons
    have hg := hv.get
    have hm : ∀ k, s.addMissing array p k = some (s.miss array p k) := fun k => DRes.addMissing_miss array k hl
    have ih := addMissing_members d array p ms (pos + v.docToks.length) ((v.toks nm .string).foldl (DRes.miss array p) s) hvs (by simpa using hl)
    rw [memberToks, List.append_assoc, List.foldl_append]
    cases hc : v.isContainer with
    | true =>
      have hc' : isComplexValue ⟨nm, .string, v.lead, v.ty⟩ = true := by cases v <;> simp_all [JVal.isContainer, JVal.ty, isComplexValue]
      refine Ends.succ ((addMissing_val d array p v pos nm .string s hv hl).bind (g := fun s m => addMissingLoop m array p d (pos + v.docToks.length) s) ih) (fun m => ?_)
      simp [addMissingLoop, hg, hc', hv.skip, bind, Option.bind]
    | false =>
      have hc' : isComplexValue ⟨nm, .string, v.lead, v.ty⟩ = false := by cases v <;> simp_all [JVal.isContainer, JVal.ty, isComplexValue]
      have hc'' : ¬(v.ty = .objectEnd ∨ v.ty = .arrayEnd) := by cases v <;> simp [JVal.ty]
      have ht : v.toks nm .string = [⟨nm, .string, v.lead, v.ty⟩] := by
        cases v with
        | bool b => cases b <;> rfl
        | _ => first | rfl | simp [JVal.isContainer] at hc
      rw [ht] at ih ⊢
      refine Ends.succ ih (fun m => ?_)
      simp [addMissingLoop, hg, hc', hc'', hv.skip, hm, bind, Option.bind]
end

/-! ### Looking for a member -/

theorem isSameMember_iff {n n' : Bytes} (hn : (0 : Byte) ∉ n) (x y : Bytes) (a b : Ty) :
    isSameMember ⟨n, .string, x, a⟩ ⟨n', .string, y, b⟩ = true ↔ n = n' := by
  simp [isSameMember, stringsEqual_iff hn]

theorem findMember_spec (d : DToks) {n : Bytes} (hn : (0 : Byte) ∉ n) (x : Bytes) (a : Ty) (ms : List (Bytes × JVal)) (pos : Nat) (h : d.Members pos ms) :
    (n ∉ ms.map Prod.fst ∧ Ends (fun m => findMember m d pos ⟨n, .string, x, a⟩) none) ∨
    ∃ w p, (n, w) ∈ ms ∧ d.Val p n .string w ∧ Ends (fun m => findMember m d pos ⟨n, .string, x, a⟩) (some p) := by
  induction ms generalizing pos with
  | nil => exact .inl ⟨by simp, Ends.now (fun m => by simp [findMember, h.nil])⟩
  | cons e ms ih =>
    obtain ⟨n', v⟩ := e
    obtain ⟨hv, hms⟩ := h.cons
    have he : v.ty ≠ .objectEnd := by cases v <;> simp [JVal.ty]
    by_cases hnn : n = n'
    · subst hnn
      exact .inr ⟨v, pos, by simp, hv, Ends.now (fun m => by simp [findMember, hv.get, he, (isSameMember_iff hn x v.lead a v.ty).2])⟩
    · have hs : isSameMember ⟨n, .string, x, a⟩ ⟨n', .string, v.lead, v.ty⟩ = false := by
        rw [Bool.eq_false_iff]; exact fun h => hnn ((isSameMember_iff hn _ _ _ _).1 h)
      have hstep : ∀ m, findMember (m + 1) d pos ⟨n, .string, x, a⟩ = findMember m d (pos + v.docToks.length) ⟨n, .string, x, a⟩ := by
        intro m; simp [findMember, hv.get, he, hs, hv.skip, bind, Option.bind]
      rcases ih _ hms with ⟨g1, g2⟩ | ⟨w, p, g1, g2, g3⟩
      · exact .inl ⟨by simp only [List.map_cons, List.mem_cons, not_or]; exact ⟨hnn, g1⟩, g2.succ hstep⟩
      · exact .inr ⟨w, p, by simp [g1], g2, g3.succ hstep⟩

/-! ### The comparison -/

mutual
/-- `Alike`, as a function; the members of the first object are looked up in the second one. -/
def JVal.alike (q : Bytes → Bytes → Bool) : JVal → JVal → Prop
  | .null, .null => True
  | .bool a, .bool b => a = b
  | .num a, .num b => q a b = true
  | .str a, .str b => a = b
  | .arr vs, .arr ws => elemsAlike q vs ws
  | .obj ms, .obj ks => membersAlike q ms ks ∧ ∀ n ∈ ks.map Prod.fst, n ∈ ms.map Prod.fst
  | _, _ => False
def elemsAlike (q : Bytes → Bytes → Bool) : List JVal → List JVal → Prop
  | [], [] => True
  | v :: vs, w :: ws => v.alike q w ∧ elemsAlike q vs ws
  | _, _ => False
def membersAlike (q : Bytes → Bytes → Bool) : List (Bytes × JVal) → List (Bytes × JVal) → Prop
  | [], _ => True
  | (n, v) :: ms, ks => (∃ w, (n, w) ∈ ks ∧ v.alike q w) ∧ membersAlike q ms ks
end

/-- A comparison adds differences; if it adds none, nothing at all has changed. -/
structure DRes.Step (s s' : DRes) : Prop where
  length : s'.diffs.length = s.diffs.length
  le : s.count ≤ s'.count
  same : s'.count = s.count → (∀ x ∈ s.diffs, x = .noDiff) → s' = s

theorem DRes.Step.refl (s : DRes) : s.Step s := ⟨rfl, Nat.le_refl _, fun _ _ => rfl⟩

theorem DRes.Step.trans {a b c : DRes} (h : a.Step b) (h' : b.Step c) : a.Step c := by
  refine ⟨h'.length.trans h.length, Nat.le_trans h.le h'.le, fun hc hn => ?_⟩
  have h1 := h.le
  have h2 := h'.le
  have e := h.same (by omega) hn
  subst e
  exact h'.same hc hn

theorem DRes.Step.of_lt {s s' : DRes} (hl : s'.diffs.length = s.diffs.length) (h : s.count < s'.count) : s.Step s' :=
  ⟨hl, Nat.le_of_lt h, fun he => absurd he (by omega)⟩

/-- The computation ends, and adds no difference exactly if `P` holds. -/
def Runs (f : Nat → Option DRes) (s : DRes) (P : Prop) : Prop := ∃ s', Ends f s' ∧ s.Step s' ∧ (s'.count = s.count ↔ P)

theorem Runs.congr {f : Nat → Option DRes} {s : DRes} {P Q : Prop} (h : Runs f s P) (hpq : P ↔ Q) : Runs f s Q := by
  obtain ⟨s', h1, h2, h3⟩ := h
  exact ⟨s', h1, h2, h3.trans hpq⟩

theorem Runs.succ {f g : Nat → Option DRes} {s : DRes} {P : Prop} (h : Runs g s P) (hf : ∀ m, f (m + 1) = g m) : Runs f s P := by
  obtain ⟨s', h1, h2, h3⟩ := h
  exact ⟨s', h1.succ hf, h2, h3⟩

theorem Runs.done {f : Nat → Option DRes} {s : DRes} {P : Prop} (hf : ∀ m, f (m + 1) = some s) (hp : P) : Runs f s P :=
  ⟨s, Ends.now hf, .refl s, by simp [hp]⟩

theorem Runs.lt {f : Nat → Option DRes} {s s' : DRes} {P : Prop} (hf : Ends f s') (hl : s'.diffs.length = s.diffs.length)
    (h : s.count < s'.count) (hp : ¬P) : Runs f s P :=
  ⟨s', hf, .of_lt hl h, by constructor <;> intro h' <;> first | omega | exact absurd h' hp⟩

theorem Runs.bind {f : Nat → Option DRes} {g : DRes → Nat → Option DRes} {s : DRes} {P Q : Prop} (hf : Runs f s P)
    (hg : ∀ s', s'.diffs.length = s.diffs.length → Runs (g s') s' Q) : Runs (fun m => (f m).bind fun x => g x m) s (P ∧ Q) := by
  obtain ⟨s1, h1, h2, h3⟩ := hf
  obtain ⟨s2, g1, g2, g3⟩ := hg s1 h2.length
  refine ⟨s2, h1.bind g1, h2.trans g2, ?_⟩
  have := h2.le
  have := g2.le
  rw [← h3, ← g3]
  omega

theorem set_runs {s : DRes} {pos : Nat} (h : pos < s.diffs.length) (t : DiffType) {P : Prop} (hp : t = .noDiff ↔ P) : Runs (fun _ => s.set pos t) s P := by
  refine ⟨s.put pos t, ⟨0, fun _ _ => DRes.set_put t h⟩, ⟨by simp [DRes.put], by simp only [DRes.put]; split <;> omega, fun hc hn => ?_⟩, ?_⟩
  · have ht : t = .noDiff := by
      simp only [DRes.put] at hc
      split at hc
      · omega
      · next h => simpa using h
    subst ht
    have : s.diffs.set pos .noDiff = s.diffs := by
      apply List.ext_getElem (by simp)
      intro i h1 h2
      rw [List.getElem_set]
      split
      · exact (hn _ (List.getElem_mem _)).symm
      · rfl
    cases s
    simp_all [DRes.put]
  · rw [← hp]
    by_cases ht : t = .noDiff <;> simp [DRes.put, ht]

theorem setEntire_runs {d : DToks} {t : DiffType} (ht : t ≠ .noDiff) {v : JVal} {pos : Nat} {n : Bytes} {nt : Ty} {s : DRes} (h : d.Val pos n nt v)
    (hl : s.diffs.length = d.tokens.length) {P : Prop} (hp : ¬P) : Runs (fun m => setEntire m d pos t s) s P := by
  have := docToks_pos v
  exact Runs.lt (setEntire_val d t v pos n nt s h hl) (by simp) (by rw [DRes.mark_count ht]; omega) hp

theorem addMissing_runs {d : DToks} (array : Bool) {v : JVal} {pos p : Nat} {n : Bytes} {nt : Ty} {s : DRes} (h : d.Val pos n nt v)
    (hl : p < s.diffs.length) {P : Prop} (hp : ¬P) : Runs (fun m => addMissingAll m array p d pos s) s P := by
  have := docToks_pos v
  exact Runs.lt (addMissing_val d array p v pos n nt s h hl) (by simp) (by rw [DRes.missAll_count, JVal.toks_length]; omega) hp

/-- Opening less closing square brackets. -/
def level : List Tok → Int
  | [] => 0
  | k :: ks => (if k.valueType = .arrayStart then 1 else if k.valueType = .arrayEnd then -1 else 0) + level ks

theorem level_append (a b : List Tok) : level (a ++ b) = level a + level b := by
  induction a with
  | nil => simp [level]
  | cons k a ih => simp [level, ih]; omega

mutual
theorem level_val (n : Bytes) (nt : Ty) : (v : JVal) → level (v.toks n nt) = 0
  | .arr vs => by simp [JVal.toks, level, level_append, level_elems vs]
  | .obj ms => by simp [JVal.toks, level, level_append, level_members ms]
  | .null | .bool true | .bool false | .num _ | .str _ => by simp [JVal.toks, level]
theorem level_elems : (vs : List JVal) → level (elemToks vs) = 0
  | [] => rfl
  | v :: vs => by simp [elemToks, level_append, level_val [] .ascii v, level_elems vs]
theorem level_members : (ms : List (Bytes × JVal)) → level (memberToks ms) = 0
  | [] => rfl
  | (n, v) :: ms => by simp [memberToks, level_append, level_val n .string v, level_members ms]
end

theorem newItems_ends (d : DToks) (ks rest : List Tok) (pos open_ : Nat) (s : DRes) (hl : s.diffs.length = d.tokens.length)
    (h : d.tokens.drop (pos + 1) = ks ++ rest) (hlv : (open_ : Int) + level ks < 0) :
    ∃ s', Ends (fun m => newItems m d pos open_ s) s' ∧ s'.diffs.length = s.diffs.length ∧ s.count < s'.count := by
  induction ks generalizing pos open_ s with
  | nil => simp [level] at hlv; omega
  | cons k ks ih =>
    have hg : d.tokens[pos + 1]? = some k := by
      have := congrArg (fun l => l[0]?) h
      simpa using this
    have hlt : pos + 1 < d.tokens.length := by
      rcases Nat.lt_or_ge (pos + 1) d.tokens.length with h' | h'
      · exact h'
      · rw [List.getElem?_eq_none h'] at hg; simp at hg
    have hset : s.set pos .newArrayItem = some (s.put pos .newArrayItem) := DRes.set_put _ (by omega)
    have hd : d.tokens.drop (pos + 1 + 1) = ks ++ rest := by
      rw [← List.drop_drop, h]; rfl
    have hl' : (s.put pos .newArrayItem).diffs.length = d.tokens.length := by simpa [DRes.put] using hl
    have hc : (s.put pos .newArrayItem).count = s.count + 1 := by simp [DRes.put]
    have hp : (s.put pos .newArrayItem).diffs.length = s.diffs.length := by simp [DRes.put]
    simp only [level] at hlv
    by_cases h1 : k.valueType = .arrayStart
    · obtain ⟨s', g1, g2, g3⟩ := ih (pos + 1) (open_ + 1) _ hl' hd (by simp only [h1, if_true] at hlv; omega)
      exact ⟨s', g1.succ (fun m => by simp [newItems, hset, hg, h1, bind, Option.bind]), g2.trans hp, by omega⟩
    · by_cases h2 : k.valueType = .arrayEnd
      · match open_ with
        | 0 => exact ⟨_, Ends.now (fun m => by simp [newItems, hset, hg, h2, bind, Option.bind]), hp, by omega⟩
        | o + 1 =>
          obtain ⟨s', g1, g2, g3⟩ := ih (pos + 1) o _ hl' hd (by rw [h2] at hlv; simp at hlv; omega)
          exact ⟨s', g1.succ (fun m => by simp [newItems, hset, hg, h2, bind, Option.bind]), g2.trans hp, by omega⟩
      · obtain ⟨s', g1, g2, g3⟩ := ih (pos + 1) open_ _ hl' hd (by simp only [h1, h2, if_false] at hlv; omega)
        exact ⟨s', g1.succ (fun m => by simp [newItems, hset, hg, h1, h2, bind, Option.bind]), g2.trans hp, by omega⟩

theorem newItems_runs {d : DToks} {w : JVal} {ws : List JVal} {pos : Nat} {s : DRes} (h : d.Elems pos (w :: ws)) (hl : s.diffs.length = d.tokens.length)
    {P : Prop} (hp : ¬P) : Runs (fun m => newItems m d pos 0 s) s P := by
  obtain ⟨⟨rest, h1⟩, _⟩ := h
  obtain ⟨ks, hk⟩ := toks_cons [] .ascii w
  have hlv : level (elemToks (w :: ws) ++ [(⟨[], .ascii, b!"]", .arrayEnd⟩ : Tok)]) = -1 := by
    rw [level_append, level_elems]; simp [level]
  rw [elemToks, hk] at h1 hlv
  obtain ⟨s', g1, g2, g3⟩ := newItems_ends d (ks ++ elemToks ws ++ [⟨[], .ascii, b!"]", .arrayEnd⟩]) rest pos 0 s hl
    (by rw [← List.drop_drop, h1]; simp) (by
      simp only [List.cons_append, level] at hlv
      cases w <;> simp [JVal.ty] at hlv ⊢ <;> omega)
  exact Runs.lt g1 g2 g3 hp

theorem missingItems_runs (d : DToks) (vs : List JVal) (pos p : Nat) (s : DRes) (h : d.Elems pos vs) (hl : p < s.diffs.length) :
    Runs (fun m => missingItems m d pos p s) s (vs = []) := by
  induction vs generalizing pos s with
  | nil => exact Runs.done (fun m => by simp [missingItems, h.nil]) rfl
  | cons v vs ih =>
    obtain ⟨hv, hvs⟩ := h.cons
    have he : v.ty ≠ .arrayEnd := by cases v <;> simp [JVal.ty]
    have := (addMissing_runs true (P := False) hv hl (by simp)).bind (g := fun s m => missingItems m d (pos + v.docToks.length) p s)
      (fun s' hs' => ih _ s' hvs (by omega))
    exact (this.succ (fun m => by simp [missingItems, hv.get, he, hv.skip, bind, Option.bind])).congr (by simp)

theorem newMembers_runs (base diff : DToks) {ms : List (Bytes × JVal)} {basePos : Nat} (hb : base.Members (basePos + 1) ms)
    (ks : List (Bytes × JVal)) (hz : ∀ n ∈ ks.map Prod.fst, (0 : Byte) ∉ n) (pos : Nat) (s : DRes)
    (h : diff.Members pos ks) (hl : s.diffs.length = diff.tokens.length) :
    Runs (fun m => newMembers m base basePos diff pos s) s (∀ n ∈ ks.map Prod.fst, n ∈ ms.map Prod.fst) := by
  induction ks generalizing pos s with
  | nil => exact Runs.done (fun m => by simp [newMembers, h.nil]) (by simp)
  | cons e ks ih =>
    obtain ⟨n, w⟩ := e
    obtain ⟨hw, hks⟩ := h.cons
    have he : w.ty ≠ .objectEnd := by cases w <;> simp [JVal.ty]
    have ih' := fun s' hs' => ih (fun n hn => hz n (by simp at hn ⊢; exact .inr hn)) _ s' hks hs'
    have hstep : Runs (fun m => (findMember m base (basePos + 1) ⟨n, .string, w.lead, w.ty⟩).bind fun r =>
        match r with
        | none => setEntire m diff pos .newMember s
        | some _ => some s) s (n ∈ ms.map Prod.fst) := by
      rcases findMember_spec base (hz n (by simp)) w.lead w.ty ms (basePos + 1) hb with ⟨g1, g2⟩ | ⟨v, p, g1, g2, g3⟩
      · obtain ⟨s', k1, k2, k3⟩ := setEntire_runs (t := .newMember) (by simp) hw hl (P := n ∈ ms.map Prod.fst) g1
        exact ⟨s', g2.bind (g := fun r m => match r with
          | none => setEntire m diff pos .newMember s
          | some _ => some s) k1, k2, k3⟩
      · refine ⟨s, g3.bind (g := fun r m => match r with
          | none => setEntire m diff pos .newMember s
          | some _ => some s) ⟨0, fun _ _ => rfl⟩, .refl s, ?_⟩
        simp only [true_iff]
        exact List.mem_map.2 ⟨_, g1, rfl⟩
    have := hstep.bind (g := fun s m => newMembers m base basePos diff (pos + w.docToks.length) s) (fun s' hs' => ih' s' (by omega))
    refine (this.succ (fun m => ?_)).congr (by simp)
    simp only [newMembers, hw.get, he, if_false, hw.skip, bind]
    cases findMember m base (basePos + 1) ⟨n, .string, w.lead, w.ty⟩ with
    | none => rfl
    | some r => cases r <;> rfl

/-- Strings without NUL bytes, numbers with the property `P`. -/
def plainDialect (P : Bytes → Prop) : Dialect := { rfc with str := fun s => (0 : Byte) ∉ s, num := P }

theorem membersWF_mem {d : Dialect} {ms : List (Bytes × JVal)} (h : membersWF d ms) : ∀ e ∈ ms, d.str e.1 ∧ e.2.WF d := by
  induction ms with
  | nil => simp
  | cons e ms ih =>
    obtain ⟨n, v⟩ := e
    rw [membersWF] at h
    intro e he
    rcases List.mem_cons.1 he with rfl | he
    · exact ⟨h.1, h.2.1⟩
    · exact ih h.2.2 e he

theorem membersDistinct_mem {ms : List (Bytes × JVal)} (h : membersDistinct ms) : ∀ e ∈ ms, e.2.Distinct := by
  induction ms with
  | nil => simp
  | cons e ms ih =>
    obtain ⟨n, v⟩ := e
    rw [membersDistinct] at h
    intro e he
    rcases List.mem_cons.1 he with rfl | he
    · exact h.1
    · exact ih h.2 e he

theorem nodup_unique {ks : List (Bytes × JVal)} (h : (ks.map Prod.fst).Nodup) {n : Bytes} {a b : JVal} (ha : (n, a) ∈ ks) (hb : (n, b) ∈ ks) : a = b := by
  induction ks with
  | nil => simp at ha
  | cons e ks ih =>
    simp only [List.map_cons, List.nodup_cons] at h
    rcases List.mem_cons.1 ha with ha' | ha' <;> rcases List.mem_cons.1 hb with hb' | hb'
    · rw [← ha'] at hb'; simpa using hb'.symm
    · rw [← ha'] at h; exact absurd (List.mem_map.2 ⟨_, hb', rfl⟩) h.1
    · rw [← hb'] at h; exact absurd (List.mem_map.2 ⟨_, ha', rfl⟩) h.1
    · exact ih h.2 ha' hb'

theorem alike_ty {q : Bytes → Bytes → Bool} {v w : JVal} (h : v.alike q w) : v.ty = w.ty := by
  cases v <;> cases w <;> simp_all [JVal.alike, JVal.ty]

section
variable {same : Bytes → Bytes → Option Bool} {q : Bytes → Bytes → Bool} {P : Bytes → Prop}
  (hq : ∀ a b, P a → P b → same a b = some (q a b)) (base diff : DToks)
include hq

mutual
theorem diffTokens_runs : (v : JVal) → ∀ (w : JVal) (bPos dPos : Nat) (n : Bytes) (nt : Ty) (n' : Bytes) (nt' : Ty) (s : DRes),
    base.Val bPos n nt v → diff.Val dPos n' nt' w → v.ty = w.ty → v.WF (plainDialect P) → w.WF (plainDialect P) → w.Distinct →
    s.diffs.length = diff.tokens.length → Runs (fun m => diffTokens same m base bPos diff dPos s) s (v.alike q w)
  | .arr vs, w, bPos, dPos, n, nt, n', nt', s, hv, hw, ht, wv, ww, dw, hl => by
    cases w with
    | arr ws =>
      rw [JVal.alike]
      rw [JVal.WF] at wv ww
      rw [JVal.Distinct] at dw
      have c1 : base.childCount bPos = vs.length := by rcases hv.childCount with h | h <;> simp_all [JVal.kids, JVal.isContainer]
      have c2 : diff.childCount dPos = ws.length := by rcases hw.childCount with h | h <;> simp_all [JVal.kids, JVal.isContainer]
      have := hw.le
      have := docToks_pos (.arr ws)
      have h1 : Runs (fun m => diffArrays same m base bPos diff dPos s) s (elemsAlike q vs ws) := by
        by_cases hc : vs.length = 0 ∧ ws.length = 0
        · refine Runs.done (fun m => by simp only [diffArrays, c1, c2, hc, and_self, if_true]) ?_
          rw [List.length_eq_zero_iff.1 hc.1, List.length_eq_zero_iff.1 hc.2]
          simp [elemsAlike]
        · refine Runs.succ (diffItems_runs vs ws (bPos + 1) dPos (dPos + 1) s hv.arr hw.arr wv ww dw hl (by omega)) (fun m => ?_)
          simp only [diffArrays, c1, c2, hc, if_false]
      exact h1.succ (fun m => by simp [diffTokens, hv.get, hw.get, JVal.ty])
    | _ => simp [JVal.ty] at ht
  | .obj ms, w, bPos, dPos, n, nt, n', nt', s, hv, hw, ht, wv, ww, dw, hl => by
    cases w with
    | obj ks =>
      rw [JVal.alike]
      rw [JVal.WF] at wv ww
      rw [JVal.Distinct] at dw
      have c1 : base.childCount bPos = ms.length := by rcases hv.childCount with h | h <;> simp_all [JVal.kids, JVal.isContainer]
      have c2 : diff.childCount dPos = ks.length := by rcases hw.childCount with h | h <;> simp_all [JVal.kids, JVal.isContainer]
      have := hw.le
      have := docToks_pos (.obj ks)
      have h1 : Runs (fun m => diffObjects same m base bPos diff dPos s) s (membersAlike q ms ks ∧ ∀ n ∈ ks.map Prod.fst, n ∈ ms.map Prod.fst) := by
        by_cases hc : ms.length = 0 ∧ ks.length = 0
        · refine Runs.done (fun m => by simp only [diffObjects, c1, c2, hc, and_self, if_true]) ?_
          rw [List.length_eq_zero_iff.1 hc.1, List.length_eq_zero_iff.1 hc.2]
          simp [membersAlike]
        · have g1 := diffMembers_runs ms ks (bPos + 1) dPos s hv.obj hw.obj wv ww dw.1 dw.2 hl (by omega)
          have g2 := g1.bind (g := fun s m => newMembers m base bPos diff (dPos + 1) s) (fun s' hs' =>
            newMembers_runs base diff hv.obj ks (by
              intro n hn
              obtain ⟨e, he, rfl⟩ := List.mem_map.1 hn
              exact (membersWF_mem ww e he).1) (dPos + 1) s' hw.obj (by omega))
          exact g2.succ (fun m => by simp only [diffObjects, c1, c2, hc, if_false]; rfl)
      exact h1.succ (fun m => by simp [diffTokens, hv.get, hw.get, JVal.ty])
    | _ => simp [JVal.ty] at ht
  | .null, w, bPos, dPos, n, nt, n', nt', s, hv, hw, ht, wv, ww, dw, hl => by
    cases w with
    | null =>
      have := hw.le
      have := docToks_pos .null
      rw [JVal.alike]
      exact (set_runs (s := s) (pos := dPos) (by omega) .noDiff (P := True) (by simp)).succ (fun m => by
        simp [diffTokens, hv.get, hw.get, JVal.ty, Tok.isPlain, diffScalar])
    | _ => simp [JVal.ty] at ht
  | .bool a, w, bPos, dPos, n, nt, n', nt', s, hv, hw, ht, wv, ww, dw, hl => by
    cases w with
    | bool b =>
      have := hw.le
      have := docToks_pos (.bool b)
      rw [JVal.alike]
      exact (set_runs (s := s) (pos := dPos) (by omega) (if a ^^ b then .valueDiff else .noDiff) (P := a = b) (by
        cases a <;> cases b <;> simp)).succ (fun m => by
        cases a <;> cases b <;> simp [diffTokens, hv.get, hw.get, JVal.ty, Tok.isPlain, diffScalar, JVal.lead, boolText, boolTo])
    | _ => simp [JVal.ty] at ht
  | .num a, w, bPos, dPos, n, nt, n', nt', s, hv, hw, ht, wv, ww, dw, hl => by
    cases w with
    | num b =>
      have := hw.le
      have := docToks_pos (.num b)
      rw [JVal.alike]
      rw [JVal.WF] at wv ww
      have hs := hq a b wv ww
      exact (set_runs (s := s) (pos := dPos) (by omega) (if q a b then .noDiff else .valueDiff) (P := q a b = true) (by
        cases q a b <;> simp)).succ (fun m => by
        simp [diffTokens, hv.get, hw.get, JVal.ty, Tok.isPlain, diffScalar, JVal.lead, hs])
    | _ => simp [JVal.ty] at ht
  | .str a, w, bPos, dPos, n, nt, n', nt', s, hv, hw, ht, wv, ww, dw, hl => by
    cases w with
    | str b =>
      have := hw.le
      have := docToks_pos (.str b)
      rw [JVal.alike]
      rw [JVal.WF] at wv ww
      exact (set_runs (s := s) (pos := dPos) (by omega) (if stringsEqual a b then .noDiff else .valueDiff) (P := a = b) (by
        rw [← stringsEqual_iff wv]
        cases stringsEqual a b <;> simp)).succ (fun m => by
        simp [diffTokens, hv.get, hw.get, JVal.ty, Tok.isPlain, diffScalar, JVal.lead])
    | _ => simp [JVal.ty] at ht
theorem diffItems_runs : (vs : List JVal) → ∀ (ws : List JVal) (bPos diffPos dPos : Nat) (s : DRes), base.Elems bPos vs → diff.Elems dPos ws →
    elemsWF (plainDialect P) vs → elemsWF (plainDialect P) ws → elemsDistinct ws → s.diffs.length = diff.tokens.length → diffPos < s.diffs.length →
    Runs (fun m => diffItems same m base bPos diff diffPos dPos s) s (elemsAlike q vs ws)
  | [], ws, bPos, diffPos, dPos, s, hv, hw, wv, ww, dw, hl, hp => by
    cases ws with
    | nil => exact Runs.done (fun m => by simp [diffItems, hv.nil, hw.nil]) (by simp [elemsAlike])
    | cons w ws =>
      have he : ¬(Ty.arrayEnd = w.ty) := by cases w <;> simp [JVal.ty]
      exact (newItems_runs hw hl (P := elemsAlike q [] (w :: ws)) (by simp [elemsAlike])).succ (fun m => by
        simp [diffItems, hv.nil, hw.cons.1.get, he])
  | v :: vs, ws, bPos, diffPos, dPos, s, hv, hw, wv, ww, dw, hl, hp => by
    obtain ⟨hv1, hv2⟩ := hv.cons
    have he : ¬(v.ty = .arrayEnd) := by cases v <;> simp [JVal.ty]
    cases ws with
    | nil =>
      exact ((missingItems_runs base (v :: vs) bPos diffPos s hv hp).succ (fun m => by
        simp [diffItems, hv1.get, hw.nil, he])).congr (by simp [elemsAlike])
    | cons w ws =>
      obtain ⟨hw1, hw2⟩ := hw.cons
      have he' : ¬(w.ty = .arrayEnd) := by cases w <;> simp [JVal.ty]
      rw [elemsWF] at wv ww
      rw [elemsDistinct] at dw
      rw [elemsAlike]
      have ih := fun (s' : DRes) (hs' : s'.diffs.length = s.diffs.length) =>
        diffItems_runs vs ws _ diffPos _ s' hv2 hw2 wv.2 ww.2 dw.2 (by omega) (by omega)
      by_cases ht : v.ty = w.ty
      · exact ((diffTokens_runs v w bPos dPos [] .ascii [] .ascii s hv1 hw1 ht wv.1 ww.1 dw.1 hl).bind
          (g := fun s m => diffItems same m base (bPos + v.docToks.length) diff diffPos (dPos + w.docToks.length) s) ih).succ (fun m => by
          simp [diffItems, hv1.get, hw1.get, ht, he', hv1.skip, hw1.skip, bind, Option.bind])
      · have := hw1.le
        have := docToks_pos w
        exact ((set_runs (s := s) (pos := dPos) (by omega) .typeDiff (P := v.alike q w) (by
            simp only [reduceCtorEq, false_iff]; exact fun h => ht (alike_ty h))).bind
          (g := fun s m => diffItems same m base (bPos + v.docToks.length) diff diffPos (dPos + w.docToks.length) s) ih).succ (fun m => by
          simp [diffItems, hv1.get, hw1.get, ht, he, he', hv1.skip, hw1.skip, bind, Option.bind])
theorem diffMembers_runs : (ms ks : List (Bytes × JVal)) → ∀ (bPos diffPos : Nat) (s : DRes), base.Members bPos ms → diff.Members (diffPos + 1) ks →
    membersWF (plainDialect P) ms → membersWF (plainDialect P) ks → (ks.map Prod.fst).Nodup → membersDistinct ks →
    s.diffs.length = diff.tokens.length → diffPos < s.diffs.length →
    Runs (fun m => diffMembers same m base bPos diff diffPos s) s (membersAlike q ms ks)
  | [], ks, bPos, diffPos, s, hv, hw, wv, ww, dn, dw, hl, hp => Runs.done (fun m => by simp [diffMembers, hv.nil]) (by simp [membersAlike])
  | (n, v) :: ms, ks, bPos, diffPos, s, hv, hw, wv, ww, dn, dw, hl, hp => by
    obtain ⟨hv1, hv2⟩ := hv.cons
    have he : ¬(v.ty = .objectEnd) := by cases v <;> simp [JVal.ty]
    rw [membersWF] at wv
    rw [membersAlike]
    have ih := fun (s' : DRes) (hs' : s'.diffs.length = s.diffs.length) =>
      diffMembers_runs ms ks _ diffPos s' hv2 hw wv.2.2 ww dn dw (by omega) (by omega)
    let g := fun (r : Option Nat) (m : Nat) =>
      match r with
      | none => addMissingAll m false diffPos base bPos s
      | some dPos =>
        match diff.tokens[dPos]? with
        | none => none
        | some k =>
          if v.ty = k.valueType then diffTokens same m base bPos diff dPos s
          else setEntire m diff dPos .typeDiff s
    have hstep : Runs (fun m => (findMember m diff (diffPos + 1) ⟨n, .string, v.lead, v.ty⟩).bind fun r => g r m) s (∃ w, (n, w) ∈ ks ∧ v.alike q w) := by
      rcases findMember_spec diff wv.1 v.lead v.ty ks (diffPos + 1) hw with ⟨g1, g2⟩ | ⟨w, p, g1, g2, g3⟩
      · obtain ⟨s', k1, k2, k3⟩ := addMissing_runs false hv1 hp (P := ∃ w, (n, w) ∈ ks ∧ v.alike q w) (by
          rintro ⟨w, hw, _⟩; exact g1 (List.mem_map.2 ⟨_, hw, rfl⟩))
        exact ⟨s', g2.bind (g := g) k1, k2, k3⟩
      · have hpq : v.alike q w ↔ ∃ w, (n, w) ∈ ks ∧ v.alike q w :=
          ⟨fun h => ⟨w, g1, h⟩, fun ⟨w', h1, h2⟩ => by rwa [nodup_unique dn g1 h1]⟩
        by_cases ht : v.ty = w.ty
        · have hr := diffTokens_runs v w bPos p n .string n .string s hv1 g2 ht wv.2.1 (membersWF_mem ww _ g1).2 (membersDistinct_mem dw _ g1) hl
          obtain ⟨s', k1, k2, k3⟩ := hr.congr hpq
          refine ⟨s', g3.bind (g := g) ?_, k2, k3⟩
          simpa only [g, g2.get, ht, if_true] using k1
        · have hr := setEntire_runs (t := .typeDiff) (by simp) g2 hl (P := v.alike q w) (fun h => ht (alike_ty h))
          obtain ⟨s', k1, k2, k3⟩ := hr.congr hpq
          refine ⟨s', g3.bind (g := g) ?_, k2, k3⟩
          simpa only [g, g2.get, ht, if_false] using k1
    have := hstep.bind (g := fun s m => diffMembers same m base (bPos + v.docToks.length) diff diffPos s) ih
    refine this.succ (fun m => ?_)
    simp only [diffMembers, hv1.get, he, if_false, hv1.skip, bind, g]
    cases findMember m diff (diffPos + 1) ⟨n, .string, v.lead, v.ty⟩ with
    | none => rfl
    | some r =>
      cases r with
      | none => rfl
      | some p =>
        simp only [Option.bind_some]
        cases diff.tokens[p]? with
        | none => rfl
        | some k => simp only []; split <;> rfl
end
end

/-! ### `alike` is `Alike` -/

mutual
theorem alike_of_Alike {q : Bytes → Bytes → Bool} : {v w : JVal} → Alike q v w → v.alike q w
  | _, _, .null => by simp [JVal.alike]
  | _, _, .bool => by simp [JVal.alike]
  | _, _, .num h => by simpa [JVal.alike] using h
  | _, _, .str => by simp [JVal.alike]
  | _, _, .arr h => by rw [JVal.alike]; exact elemsAlike_of h
  | _, _, .obj hp h => by
    obtain ⟨h1, h2⟩ := membersAlike_of h
    rw [JVal.alike]
    refine ⟨membersAlike_mem (fun e he => h1 e (hp.mem_iff.1 he)), fun n hn => ?_⟩
    obtain ⟨e, he, rfl⟩ := List.mem_map.1 (h2 n hn)
    exact List.mem_map.2 ⟨e, hp.mem_iff.2 he, rfl⟩
theorem elemsAlike_of {q : Bytes → Bytes → Bool} : {vs ws : List JVal} → AlikeElems q vs ws → elemsAlike q vs ws
  | _, _, .nil => by simp [elemsAlike]
  | _, _, .cons h hs => by rw [elemsAlike]; exact ⟨alike_of_Alike h, elemsAlike_of hs⟩
theorem membersAlike_of {q : Bytes → Bytes → Bool} : {ms ks : List (Bytes × JVal)} → AlikeMembers q ms ks →
    (∀ e ∈ ms, ∃ w, (e.1, w) ∈ ks ∧ e.2.alike q w) ∧ ∀ n ∈ ks.map Prod.fst, n ∈ ms.map Prod.fst
  | _, _, .nil => by simp
  | _, _, .cons (n := n) (w := w) h hs => by
    obtain ⟨h1, h2⟩ := membersAlike_of hs
    constructor
    · intro e he
      rcases List.mem_cons.1 he with rfl | he
      · exact ⟨w, by simp, alike_of_Alike h⟩
      · obtain ⟨w', g1, g2⟩ := h1 e he
        exact ⟨w', by simp [g1], g2⟩
    · intro n' hn
      simp only [List.map_cons, List.mem_cons] at hn ⊢
      rcases hn with hn | hn
      · exact .inl hn
      · exact .inr (h2 n' hn)
theorem membersAlike_mem {q : Bytes → Bytes → Bool} : {ms ks : List (Bytes × JVal)} → (∀ e ∈ ms, ∃ w, (e.1, w) ∈ ks ∧ e.2.alike q w) → membersAlike q ms ks
  | [], _, _ => by simp [membersAlike]
  | (n, v) :: ms, ks, h => by
    rw [membersAlike]
    exact ⟨h (n, v) (by simp), membersAlike_mem (fun e he => h e (by simp [he]))⟩
end

theorem perm_alike {q : Bytes → Bytes → Bool} {ms ks : List (Bytes × JVal)} (hm : (ms.map Prod.fst).Nodup) (hk : (ks.map Prod.fst).Nodup)
    (h1 : ∀ e ∈ ms, ∃ w, (e.1, w) ∈ ks ∧ Alike q e.2 w) (h2 : ∀ n ∈ ks.map Prod.fst, n ∈ ms.map Prod.fst) :
    ∃ ms', ms.Perm ms' ∧ AlikeMembers q ms' ks := by
  induction ks generalizing ms with
  | nil =>
    cases ms with
    | nil => exact ⟨[], .refl _, .nil⟩
    | cons e ms => obtain ⟨w, hw, _⟩ := h1 e (by simp); simp at hw
  | cons e ks ih =>
    obtain ⟨n, w⟩ := e
    obtain ⟨⟨n', v⟩, he, hn⟩ := List.mem_map.1 (h2 n (by simp))
    simp only at hn
    subst hn
    obtain ⟨l, r, rfl⟩ := List.append_of_mem he
    have hv : Alike q v w := by
      obtain ⟨w', g1, g2⟩ := h1 (n', v) he
      rwa [nodup_unique hk g1 (show (n', w) ∈ (n', w) :: ks by simp)] at g2
    have hp : (l ++ (n', v) :: r).Perm ((n', v) :: (l ++ r)) := List.perm_middle
    have hm' := (hp.map Prod.fst).nodup_iff.1 hm
    simp only [List.map_cons, List.nodup_cons] at hm' hk
    obtain ⟨ms', g1, g2⟩ := ih hm'.2 hk.2 (fun e he' => by
      obtain ⟨w', k1, k2⟩ := h1 e (hp.mem_iff.2 (by simp only [List.mem_cons]; exact .inr he'))
      rcases List.mem_cons.1 k1 with k | k
      · exact absurd (List.mem_map.2 ⟨e, he', by simpa using congrArg Prod.fst k⟩) hm'.1
      · exact ⟨w', k, k2⟩) (fun n hn => by
      obtain ⟨e, k1, rfl⟩ := List.mem_map.1 (h2 n (by simp only [List.map_cons, List.mem_cons]; exact .inr hn))
      rcases List.mem_cons.1 (hp.mem_iff.1 k1) with k | k
      · subst k; exact absurd hn hk.1
      · exact List.mem_map.2 ⟨e, k, rfl⟩)
    exact ⟨(n', v) :: ms', hp.trans (g1.cons _), .cons hv g2⟩

mutual
theorem Alike_of_alike {q : Bytes → Bytes → Bool} : (v w : JVal) → v.Distinct → w.Distinct → v.alike q w → Alike q v w
  | .null, w, _, _, h => by cases w <;> simp_all [JVal.alike]; exact .null
  | .bool a, w, _, _, h => by
    cases w <;> simp_all [JVal.alike]; exact .bool
  | .num a, w, _, _, h => by
    cases w <;> simp_all [JVal.alike]; exact .num h
  | .str a, w, _, _, h => by
    cases w <;> simp_all [JVal.alike]; exact .str
  | .arr vs, w, hv, hw, h => by
    cases w with
    | arr ws =>
      rw [JVal.Distinct] at hv hw
      rw [JVal.alike] at h
      exact .arr (AlikeElems_of vs ws hv hw h)
    | _ => simp [JVal.alike] at h
  | .obj ms, w, hv, hw, h => by
    cases w with
    | obj ks =>
      rw [JVal.Distinct] at hv hw
      rw [JVal.alike] at h
      obtain ⟨ms', g1, g2⟩ := perm_alike hv.1 hw.1 (AlikeMembers_of ms ks hv.2 hw.2 h.1) h.2
      exact .obj g1 g2
    | _ => simp [JVal.alike] at h
theorem AlikeElems_of {q : Bytes → Bytes → Bool} : (vs ws : List JVal) → elemsDistinct vs → elemsDistinct ws → elemsAlike q vs ws → AlikeElems q vs ws
  | [], ws, _, _, h => by cases ws <;> simp_all [elemsAlike]; exact .nil
  | v :: vs, ws, hv, hw, h => by
    cases ws with
    | nil => simp [elemsAlike] at h
    | cons w ws =>
      rw [elemsDistinct] at hv hw
      rw [elemsAlike] at h
      exact .cons (Alike_of_alike v w hv.1 hw.1 h.1) (AlikeElems_of vs ws hv.2 hw.2 h.2)
theorem AlikeMembers_of {q : Bytes → Bytes → Bool} : (ms ks : List (Bytes × JVal)) → membersDistinct ms → membersDistinct ks → membersAlike q ms ks →
    ∀ e ∈ ms, ∃ w, (e.1, w) ∈ ks ∧ Alike q e.2 w
  | [], _, _, _, _ => by simp
  | (n, v) :: ms, ks, hv, hw, h => by
    rw [membersDistinct] at hv
    rw [membersAlike] at h
    intro e he
    rcases List.mem_cons.1 he with rfl | he
    · obtain ⟨w, g1, g2⟩ := h.1
      exact ⟨w, g1, Alike_of_alike v w hv.1 (membersDistinct_mem hw _ g1) g2⟩
    · exact AlikeMembers_of ms ks hv.2 hw h.2 e he
end

mutual
theorem Alike.refl {q : Bytes → Bytes → Bool} {P : Bytes → Prop} (hq : ∀ a, P a → q a a = true) : (v : JVal) → v.Numbers P → Alike q v v
  | .null, _ => .null
  | .bool _, _ => .bool
  | .num a, h => .num (hq a (by simpa [JVal.Numbers, JVal.WF] using h))
  | .str _, _ => .str
  | .arr vs, h => .arr (AlikeElems.refl hq vs (by simpa [JVal.Numbers, JVal.WF] using h))
  | .obj ms, h => .obj (.refl _) (AlikeMembers.refl hq ms (by simpa [JVal.Numbers, JVal.WF] using h))
theorem AlikeElems.refl {q : Bytes → Bytes → Bool} {P : Bytes → Prop} (hq : ∀ a, P a → q a a = true) : (vs : List JVal) →
    elemsWF { rfc with str := fun _ => True, num := P } vs → AlikeElems q vs vs
  | [], _ => .nil
  | v :: vs, h => by
    rw [elemsWF] at h
    exact .cons (Alike.refl hq v h.1) (AlikeElems.refl hq vs h.2)
theorem AlikeMembers.refl {q : Bytes → Bytes → Bool} {P : Bytes → Prop} (hq : ∀ a, P a → q a a = true) : (ms : List (Bytes × JVal)) →
    membersWF { rfc with str := fun _ => True, num := P } ms → AlikeMembers q ms ms
  | [], _ => .nil
  | (n, v) :: ms, h => by
    rw [membersWF] at h
    exact .cons (Alike.refl hq v h.2.1) (AlikeMembers.refl hq ms h.2.2)
end

/-! ### Texts have well formed values -/

mutual
theorem Text.wf {d : Dialect} : {v : JVal} → {t : Bytes} → Text d v t → v.WF d
  | _, _, .null => by simp [JVal.WF]
  | _, _, .tru => by simp [JVal.WF]
  | _, _, .fls => by simp [JVal.WF]
  | _, _, .num h => by simpa [JVal.WF] using h
  | _, _, .str h => by simpa [JVal.WF] using h
  | _, _, .arrEmpty _ => by simp [JVal.WF, elemsWF]
  | _, _, .arr h => by rw [JVal.WF]; exact TextElems.wf h
  | _, _, .objEmpty _ => by simp [JVal.WF, membersWF]
  | _, _, .obj h => by rw [JVal.WF]; exact TextMembers.wf h
theorem TextElems.wf {d : Dialect} : {vs : List JVal} → {t : Bytes} → TextElems d vs t → elemsWF d vs
  | _, _, .one _ h _ => by simp only [elemsWF]; exact ⟨h.wf, trivial⟩
  | _, _, .cons _ h _ hs => by rw [elemsWF]; exact ⟨h.wf, hs.wf⟩
  | _, _, .trail _ _ h _ _ => by simp only [elemsWF]; exact ⟨h.wf, trivial⟩
theorem TextMembers.wf {d : Dialect} : {ms : List (Bytes × JVal)} → {t : Bytes} → TextMembers d ms t → membersWF d ms
  | _, _, .one _ hn _ _ h _ => by simp only [membersWF]; exact ⟨hn, h.wf, trivial⟩
  | _, _, .cons _ hn _ _ h _ hs => by rw [membersWF]; exact ⟨hn, h.wf, hs.wf⟩
  | _, _, .trail _ _ hn _ _ h _ _ => by simp only [membersWF]; exact ⟨hn, h.wf, trivial⟩
end

mutual
/-- Two facts about the strings and the numbers are combined. -/
theorem JVal.WF.mix {d e f : Dialect} (hs : ∀ s, d.str s → f.str s) (hn : ∀ s, e.num s → f.num s) : (v : JVal) → v.WF d → v.WF e → v.WF f
  | .null, _, _ => by simp [JVal.WF]
  | .bool _, _, _ => by simp [JVal.WF]
  | .num a, _, h => by simp only [JVal.WF] at h ⊢; exact hn a h
  | .str a, h, _ => by simp only [JVal.WF] at h ⊢; exact hs a h
  | .arr vs, h, h' => by simp only [JVal.WF] at h h' ⊢; exact elemsWF.mix hs hn vs h h'
  | .obj ms, h, h' => by simp only [JVal.WF] at h h' ⊢; exact membersWF.mix hs hn ms h h'
theorem elemsWF.mix {d e f : Dialect} (hs : ∀ s, d.str s → f.str s) (hn : ∀ s, e.num s → f.num s) : (vs : List JVal) → elemsWF d vs → elemsWF e vs → elemsWF f vs
  | [], _, _ => by simp [elemsWF]
  | v :: vs, h, h' => by simp only [elemsWF] at h h' ⊢; exact ⟨JVal.WF.mix hs hn v h.1 h'.1, elemsWF.mix hs hn vs h.2 h'.2⟩
theorem membersWF.mix {d e f : Dialect} (hs : ∀ s, d.str s → f.str s) (hn : ∀ s, e.num s → f.num s) : (ms : List (Bytes × JVal)) →
    membersWF d ms → membersWF e ms → membersWF f ms
  | [], _, _ => by simp [membersWF]
  | (n, v) :: ms, h, h' => by
    simp only [membersWF] at h h' ⊢
    exact ⟨hs n h.1, JVal.WF.mix hs hn v h.2.1 h'.2.1, membersWF.mix hs hn ms h.2.2 h'.2.2⟩
end

theorem jsonString_no_nul {s : Bytes} (h : JsonString s) : (0 : Byte) ∉ s := by
  induction h with
  | nil => simp
  | plain h1 _ _ _ ih =>
    simp only [List.mem_cons, not_or]
    refine ⟨fun h => ?_, ih⟩
    subst h
    exact absurd h1 (by decide)
  | esc h1 _ ih =>
    simp only [List.mem_cons, not_or]
    refine ⟨by decide, fun h => ?_, ih⟩
    subst h
    exact absurd h1 (by decide)
  | uni h1 h2 h3 h4 _ ih =>
    simp only [List.mem_cons, not_or]
    have hz : ∀ c, isHex c = true → (0 : Byte) ≠ c := by
      intro c hc h
      subst h
      exact absurd hc (by decide)
    exact ⟨by decide, by decide, hz _ h1, hz _ h2, hz _ h3, hz _ h4, ih⟩

/-- The strings of an RFC 8259 document have no NUL bytes. -/
theorem doc_plain {v : JVal} {t : Bytes} {P : Bytes → Prop} (h : Doc rfc v t) (hn : v.Numbers P) : v.WF (plainDialect P) := by
  obtain ⟨w, b, w', _, h, _⟩ := h
  exact JVal.WF.mix (d := rfc) (e := { rfc with str := fun _ => True, num := P }) (f := plainDialect P) (fun s hs => jsonString_no_nul hs) (fun s hs => hs) v h.wf hn

/-! ### The missing array items do not matter for anything else -/

/-- A report without its missing array items. -/
def DRes.core (s : DRes) : DRes := { s with missingArrayItems := [] }

/-- Both fail, or both give reports that differ in the missing array items at most. -/
def CoreEq (a b : Option DRes) : Prop := a.map DRes.core = b.map DRes.core

theorem rep_bind {a b : Option DRes} {f g : DRes → Option DRes} (h : CoreEq a b) (hf : ∀ x y, x.core = y.core → CoreEq (f x) (g y)) :
    CoreEq (a.bind f) (b.bind g) := by
  cases a with
  | none => cases b with
    | none => rfl
    | some y => simp [CoreEq] at h
  | some x => cases b with
    | none => simp [CoreEq] at h
    | some y => exact hf x y (by simpa [CoreEq] using h)

theorem rep_some {x y : DRes} (h : x.core = y.core) : CoreEq (some x) (some y) := by simp [CoreEq, h]

theorem rep_none : CoreEq none none := rfl

theorem rep_bindr {o : Option α} {f g : α → Option DRes} (h : ∀ x, o = some x → CoreEq (f x) (g x)) : CoreEq (o.bind f) (o.bind g) := by
  cases o with
  | none => rfl
  | some x => exact h x rfl

theorem rep_fields {x y : DRes} (h : x.core = y.core) : x.missingMembers = y.missingMembers ∧ x.diffs = y.diffs ∧ x.count = y.count := by
  simpa [DRes.core] using h

theorem rep_set {x y : DRes} (h : x.core = y.core) (pos : Nat) (t : DiffType) : CoreEq (x.set pos t) (y.set pos t) := by
  obtain ⟨h1, h2, h3⟩ := rep_fields h
  simp only [DRes.set, h2, h3]
  split <;> simp [CoreEq, DRes.core, h1]

theorem rep_addMissing {x y : DRes} (h : x.core = y.core) (array : Bool) (pos : Nat) (k : Tok) : CoreEq (x.addMissing array pos k) (y.addMissing array pos k) := by
  obtain ⟨h1, h2, h3⟩ := rep_fields h
  cases array <;> exact rep_set (by simp [DRes.core, h1, h2, h3]) _ _

theorem rep_setEntire (d : DToks) (t : DiffType) (n : Nat) : ∀ (pos : Nat) (x y : DRes), x.core = y.core →
    CoreEq (setEntire n d pos t x) (setEntire n d pos t y) ∧ CoreEq (setEntireLoop n d pos t x) (setEntireLoop n d pos t y) := by
  induction n with
  | zero => intro pos x y h; exact ⟨rfl, rfl⟩
  | succ n ih =>
    intro pos x y h
    constructor
    · simp only [setEntire]
      have := rep_set h pos t
      cases hx : x.set pos t <;> cases hy : y.set pos t <;> simp only [hx, hy, CoreEq, Option.map_none, Option.map_some, reduceCtorEq, Option.some.injEq] at this
      · exact rep_none
      · cases d.tokens[pos]? with
        | none => exact rep_none
        | some k =>
          simp only []
          split
          · exact (ih _ _ _ this).2
          · exact rep_some this
    · simp only [setEntireLoop]
      cases d.tokens[pos]? with
      | none => exact rep_none
      | some k =>
        simp only []
        split
        · exact rep_bind (ih _ _ _ h).1 (fun a b hab => rep_bindr fun p _ => (ih _ _ _ hab).2)
        · split
          · exact rep_set h _ _
          · exact rep_bind (rep_set h _ _) (fun a b hab => rep_bindr fun p _ => (ih _ _ _ hab).2)

theorem rep_addMissingAll (array : Bool) (p : Nat) (d : DToks) (n : Nat) : ∀ (pos : Nat) (x y : DRes), x.core = y.core →
    CoreEq (addMissingAll n array p d pos x) (addMissingAll n array p d pos y) ∧ CoreEq (addMissingLoop n array p d pos x) (addMissingLoop n array p d pos y) := by
  induction n with
  | zero => intro pos x y h; exact ⟨rfl, rfl⟩
  | succ n ih =>
    intro pos x y h
    constructor
    · simp only [addMissingAll]
      cases d.tokens[pos]? with
      | none => exact rep_none
      | some k =>
        refine rep_bind (rep_addMissing h _ _ _) (fun a b hab => ?_)
        split
        · exact (ih _ _ _ hab).2
        · exact rep_some hab
    · simp only [addMissingLoop]
      cases d.tokens[pos]? with
      | none => exact rep_none
      | some k =>
        simp only []
        split
        · exact rep_bind (ih _ _ _ h).1 (fun a b hab => rep_bindr fun p _ => (ih _ _ _ hab).2)
        · split
          · exact rep_addMissing h _ _ _
          · exact rep_bind (rep_addMissing h _ _ _) (fun a b hab => rep_bindr fun p _ => (ih _ _ _ hab).2)

theorem rep_newItems (d : DToks) (n : Nat) : ∀ (pos o : Nat) (x y : DRes), x.core = y.core → CoreEq (newItems n d pos o x) (newItems n d pos o y) := by
  induction n with
  | zero => intro pos o x y h; exact rfl
  | succ n ih =>
    intro pos o x y h
    simp only [newItems]
    refine rep_bind (rep_set h _ _) (fun a b hab => ?_)
    cases d.tokens[pos + 1]? with
    | none => exact rep_none
    | some k =>
      simp only []
      split
      · exact ih _ _ _ _ hab
      · split
        · cases o with
          | zero => exact rep_some hab
          | succ o => exact ih _ _ _ _ hab
        · exact ih _ _ _ _ hab

theorem rep_missingItems (d : DToks) (p : Nat) (n : Nat) : ∀ (pos : Nat) (x y : DRes), x.core = y.core →
    CoreEq (missingItems n d pos p x) (missingItems n d pos p y) := by
  induction n with
  | zero => intro pos x y h; exact rfl
  | succ n ih =>
    intro pos x y h
    simp only [missingItems]
    cases d.tokens[pos]? with
    | none => exact rep_none
    | some k =>
      simp only []
      split
      · exact rep_some h
      · exact rep_bind (rep_addMissingAll _ _ _ _ _ _ _ h).1 (fun a b hab => rep_bindr fun p _ => ih _ _ _ hab)

theorem rep_newMembers (base diff : DToks) (bp : Nat) (n : Nat) : ∀ (pos : Nat) (x y : DRes), x.core = y.core →
    CoreEq (newMembers n base bp diff pos x) (newMembers n base bp diff pos y) := by
  induction n with
  | zero => intro pos x y h; exact rfl
  | succ n ih =>
    intro pos x y h
    simp only [newMembers]
    cases diff.tokens[pos]? with
    | none => exact rep_none
    | some k =>
      simp only []
      split
      · exact rep_some h
      · simp only [bind]
        refine rep_bindr fun r _ => ?_
        cases r with
        | none => exact rep_bind (rep_setEntire _ _ _ _ _ _ h).1 (fun a b hab => rep_bindr fun p _ => ih _ _ _ hab)
        | some r => exact rep_bind (rep_some h) (fun a b hab => rep_bindr fun p _ => ih _ _ _ hab)

theorem rep_diff (same : Bytes → Bytes → Option Bool) (base diff : DToks) (n : Nat) : ∀ (x y : DRes), x.core = y.core → ∀ bPos dPos e : Nat,
    CoreEq (diffTokens same n base bPos diff dPos x) (diffTokens same n base bPos diff dPos y) ∧
    CoreEq (diffObjects same n base bPos diff dPos x) (diffObjects same n base bPos diff dPos y) ∧
    CoreEq (diffMembers same n base bPos diff dPos x) (diffMembers same n base bPos diff dPos y) ∧
    CoreEq (diffArrays same n base bPos diff dPos x) (diffArrays same n base bPos diff dPos y) ∧
    CoreEq (diffItems same n base bPos diff e dPos x) (diffItems same n base bPos diff e dPos y) := by
  induction n with
  | zero => intro x y h bPos dPos e; simp [diffTokens, diffObjects, diffMembers, diffArrays, diffItems, CoreEq]
  | succ n ih =>
    intro x y h bPos dPos e
    refine ⟨?_, ?_, ?_, ?_, ?_⟩
    · simp only [diffTokens]
      cases base.tokens[bPos]? <;> cases diff.tokens[dPos]? <;> try exact rep_none
      simp only []
      split
      · exact (ih x y h _ _ 0).2.1
      · split
        · exact (ih x y h _ _ 0).2.2.2.1
        · split
          · exact rep_bindr fun t _ => rep_set h _ _
          · exact rep_some h
    · simp only [diffObjects]
      split
      · exact rep_some h
      · exact rep_bind (ih x y h _ _ 0).2.2.1 (fun a b hab => rep_newMembers _ _ _ _ _ _ _ hab)
    · simp only [diffMembers]
      cases base.tokens[bPos]? with
      | none => exact rep_none
      | some b =>
        simp only []
        split
        · exact rep_some h
        · simp only [bind]
          refine rep_bindr fun r _ => ?_
          have hk : ∀ a b : DRes, a.core = b.core → CoreEq ((base.skip bPos).bind fun bPos => diffMembers same n base bPos diff dPos a)
              ((base.skip bPos).bind fun bPos => diffMembers same n base bPos diff dPos b) :=
            fun a b hab => rep_bindr fun p _ => (ih _ _ hab _ _ 0).2.2.1
          cases r with
          | none => exact rep_bind (rep_addMissingAll _ _ _ _ _ _ _ h).1 hk
          | some r =>
            simp only []
            cases diff.tokens[r]? with
            | none => exact rep_bind rep_none hk
            | some k =>
              simp only []
              split
              · exact rep_bind (ih x y h _ _ 0).1 hk
              · exact rep_bind (rep_setEntire _ _ _ _ _ _ h).1 hk
    · simp only [diffArrays]
      split
      · exact rep_some h
      · exact (ih x y h _ _ _).2.2.2.2
    · simp only [diffItems]
      cases base.tokens[bPos]? <;> cases diff.tokens[dPos]? <;> try exact rep_none
      simp only []
      split
      · split
        · exact rep_some h
        · exact rep_bind (ih x y h _ _ 0).1 (fun a b hab => rep_bindr fun p _ => rep_bindr fun p' _ => (ih a b hab _ _ _).2.2.2.2)
      · split
        · exact rep_newItems _ _ _ _ _ _ h
        · split
          · exact rep_missingItems _ _ _ _ _ _ h
          · exact rep_bind (rep_set h _ _) (fun a b hab => rep_bindr fun p _ => rep_bindr fun p' _ => (ih a b hab _ _ _).2.2.2.2)

theorem rep_diffDocs (same : Bytes → Bytes → Option Bool) (n : Nat) (base diff : DToks) {x y : DRes} (h : x.core = y.core) :
    CoreEq (diffDocs same n base diff x) (diffDocs same n base diff y) := by
  have h' : DRes.core { x with count := 0 } = DRes.core { y with count := 0 } := by
    obtain ⟨h1, h2, _⟩ := rep_fields h
    simp [DRes.core, h1, h2]
  simp only [diffDocs]
  cases base.tokens <;> cases diff.tokens <;> simp only []
  · exact rep_some h
  · exact (rep_setEntire _ _ _ _ _ _ h).1
  · split
    · exact (rep_addMissingAll _ _ _ _ _ _ _ h).1
    · split
      · exact (rep_addMissingAll _ _ _ _ _ _ _ h).1
      · exact (rep_setEntire _ _ _ _ _ _ h).1
  · split
    · split
      · exact (rep_diff _ _ _ _ _ _ h' _ _ 0).2.1
      · split
        · exact (rep_diff _ _ _ _ _ _ h' _ _ 0).2.2.2.1
        · exact (rep_setEntire _ _ _ _ _ _ h').1
    · exact (rep_setEntire _ _ _ _ _ _ h').1

end JsonStruct
