import Verif.Props.Struct
import Verif.Lemmas.RoundTrip

/-
C76: each member of a struct is read on its own. As in `Props/Struct.lean`, no string is given an array or an object.
-/

namespace JsonStruct

/-- The member a name means is the one declared with it, or another one, which is another part of the struct. -/
theorem meant_entry {s : CStruct T} (hs : (s.entries.map Entry.access).Pairwise Access.Apart) {n : Bytes} {m : MemberSpec T}
    (hm : (resolve (s.specs []) n).bind ((s.specs [])[·]?) = some m) {e : Entry T} (he : e ∈ s.entries) :
    (n ∈ e.names ∧ m.dec = partDec e.get e.set e.type.dec) ∨
    ∃ e' ∈ s.entries, n ∈ e'.names ∧ m.dec = partDec e'.get e'.set e'.type.dec ∧ e.access.Apart e'.access ∧
      ((s.entries.flatMap Entry.names).Nodup → n ∉ e.names) := by
  obtain ⟨l, h1, h2⟩ := s.specs_of []
  obtain ⟨i, hi, hmi⟩ := Option.bind_eq_some_iff.mp hm
  obtain ⟨m', g1, g2⟩ := resolve_some hi
  rw [hmi] at g1
  cases g1
  obtain ⟨e', k1, k2, k3, _⟩ := forall₂_get h1 hmi
  rw [k2] at g2
  obtain ⟨k, hk⟩ := List.mem_iff_getElem?.mp (h2.mem_iff.mpr he)
  by_cases hik : i = k
  · subst hik
    rw [hk] at k1
    cases k1
    exact .inl ⟨g2, k3⟩
  · refine .inr ⟨e', h2.mem_iff.mp (List.mem_iff_getElem?.mpr ⟨i, k1⟩), g2, k3, ?_, fun hd hn => ?_⟩
    · have hp : (l.map Entry.access).Pairwise Access.Apart := (h2.map _).pairwise_iff (fun h => h.symm) |>.mpr hs
      rw [List.pairwise_iff_getElem] at hp
      obtain ⟨a1, rfl⟩ := List.getElem?_eq_some_iff.mp k1
      obtain ⟨a2, rfl⟩ := List.getElem?_eq_some_iff.mp hk
      rcases Nat.lt_or_gt_of_ne hik with h | h
      · have := hp i k (by simpa using a1) (by simpa using a2) h
        simpa using this.symm
      · have := hp k i (by simpa using a2) (by simpa using a1) h
        simpa using this
    · have hd' : (l.flatMap Entry.names).Nodup := (h2.flatMap_right _).nodup_iff.mpr hd
      rw [List.nodup_flatMap] at hd'
      have hp := hd'.2
      rw [List.pairwise_iff_getElem] at hp
      obtain ⟨a1, rfl⟩ := List.getElem?_eq_some_iff.mp k1
      obtain ⟨a2, rfl⟩ := List.getElem?_eq_some_iff.mp hk
      rcases Nat.lt_or_gt_of_ne hik with h | h
      · exact hp i k a1 a2 h g2 hn
      · exact hp k i a2 a1 h hn g2

theorem part_apart {e e' : Entry T} (h : e.access.Apart e'.access) {p : POpts} {x : T} {i : Item} {q : Res T}
    (hq : partDec e'.get e'.set e'.type.dec p x i = some q) : e.get q.val = e.get x := by
  obtain ⟨r, _, rfl⟩ := Option.map_eq_some_iff.mp hq
  exact h.1 _ _

theorem kept_reads {s : CStruct T} (hs : (s.entries.map Entry.access).Pairwise Access.Apart) {p : POpts} {e : Entry T} (he : e ∈ s.entries)
    {x y : T} {ms : List (Bytes × JVal)} {mis un : List Bytes} (h : ReadsTo s p x ms y mis un) (hn : ∀ m ∈ ms, m.1 ∉ e.names) :
    e.get y = e.get x := by
  induction h with
  | nil => rfl
  | known hm hq hok h ih =>
    rw [ih fun m hm => hn m (by simp [hm])]
    rcases meant_entry hs hm he with ⟨h1, _⟩ | ⟨e', _, _, h2, h3, _⟩
    · exact absurd h1 (hn _ (List.mem_cons_self ..))
    · rw [h2] at hq
      exact part_apart h3 hq
  | unknown hu ha h ih => exact ih fun m hm => hn m (by simp [hm])

/-- **C76**, members that are not mentioned. Whatever else the object has, and whether it is read without error or not, a
member of the struct none of whose names occurs in the object has the value afterwards that it had before. -/
theorem C76_unmentioned_kept_partial (init : T) (s : CStruct T) (hs : (s.entries.map Entry.access).Pairwise Access.Apart) {o : Opts} (hn : o.newLines = false)
    (p : POpts) {ms : List (Bytes × JVal)} {t : Bytes} (ht : Doc (lenient o) (.obj ms) t) (old : T) {r : Res T}
    (hr : (CType.struct init s).dec p old (JVal.obj ms).root = some r) :
    Parses (CType.struct init s).handler o p old t r ∧
    ∀ e ∈ s.entries, (∀ m ∈ ms, m.1 ∉ e.names) → e.get r.val = e.get old := by
  obtain ⟨hp, h⟩ := C19_any_object_partial init s hn p ht old hr
  refine ⟨hp, fun e he hne => ?_⟩
  rcases h with ⟨mis, un, h1, -⟩ | ⟨a, n, v, b, x, mis, un, rfl, h1, h2⟩
  · exact kept_reads hs he h1 hne
  · have hk := kept_reads hs he h1 fun m hm => hne m (by simp [hm])
    rcases h2 with ⟨_, _, rfl⟩ | ⟨m, q, hm, hq, _, rfl⟩
    · exact hk
    · dsimp only
      rw [← hk]
      rcases meant_entry hs hm he with ⟨k1, _⟩ | ⟨e', _, _, k2, k3, _⟩
      · exact absurd k1 (hne (n, v) (by simp))
      · rw [k2] at hq
        exact part_apart k3 hq

/-- Reading values one after the other into the same variable of a type. -/
def readInTurn (t : CType M) (p : POpts) : M → List (Bytes × JVal) → Option M
  | x, [] => some x
  | x, (n, v) :: ms => (t.dec p x (.val (n, .string) v)).bind fun q => readInTurn t p q.val ms

theorem turn_reads {s : CStruct T} (hs : (s.entries.map Entry.access).Pairwise Access.Apart) (hst : ∀ e ∈ s.entries, ∀ x t, e.get (e.set x t) = x)
    (hd : (s.entries.flatMap Entry.names).Nodup) {p : POpts} {e : Entry T} (he : e ∈ s.entries)
    {x y : T} {ms : List (Bytes × JVal)} {mis un : List Bytes} (h : ReadsTo s p x ms y mis un) :
    readInTurn e.type p (e.get x) (ms.filter fun m => decide (m.1 ∈ e.names)) = some (e.get y) := by
  induction h with
  | nil => rfl
  | @known x y n v ms m q mis un hm hq hok h ih =>
    rcases meant_entry hs hm he with ⟨h1, h2⟩ | ⟨e', _, _, h2, h3, h4⟩
    · rw [h2] at hq
      obtain ⟨r, hr, rfl⟩ := Option.map_eq_some_iff.mp hq
      rw [List.filter_cons_of_pos (by simpa using h1), readInTurn, hr, Option.bind_some]
      rw [Res.map] at ih
      dsimp only at ih
      rw [hst e he] at ih
      exact ih
    · rw [h2] at hq
      rw [List.filter_cons_of_neg (by simpa using h4 hd), ← part_apart h3 hq]
      exact ih
  | @unknown x y n v ms mis un hu ha h ih =>
    have : n ∉ e.names := by
      obtain ⟨m, hm, h1, _⟩ := (s.specs_entries []).1 e he
      rw [← h1]
      have := resolve_none.mp (Option.not_isSome_iff_eq_none.mp (by rw [← hasMember_resolve, hu]; simp)) m hm
      exact this
    rw [List.filter_cons_of_neg (by simpa using this)]
    exact ih

/-- **C76**. The members of the struct are different parts of it, and no name is declared twice. If the object is read to its
end, each member holds what reading the values given under its names, in their order, into a variable of its type leaves,
beginning with its old value. So it depends on nothing else in the object, and of several values the last one counts, for
types where reading replaces what was there. -/
theorem C76_members_independent_partial (init : T) (s : CStruct T) (hs : (s.entries.map Entry.access).Pairwise Access.Apart)
    (hst : ∀ e ∈ s.entries, ∀ x t, e.get (e.set x t) = x) (hd : (s.entries.flatMap Entry.names).Nodup)
    {o : Opts} (hn : o.newLines = false) (p : POpts) {ms : List (Bytes × JVal)} {t : Bytes} (ht : Doc (lenient o) (.obj ms) t) (old : T) {r : Res T}
    (hr : (CType.struct init s).dec p old (JVal.obj ms).root = some r) (he : r.err = .noError) :
    Parses (CType.struct init s).handler o p old t r ∧
    ∀ e ∈ s.entries, readInTurn e.type p (e.get old) (ms.filter fun m => decide (m.1 ∈ e.names)) = some (e.get r.val) := by
  refine ⟨parse_doc (CType.struct init s).sem hn p rfl ht hr, fun e hmem => ?_⟩
  rcases struct_dec_inv hr with ⟨q, hq, hqe, rfl⟩ | ⟨h1, _⟩
  · rcases membersDec_cases s p ms old q hq with ⟨_, g⟩ | ⟨g, _⟩
    · exact turn_reads hs hst hd hmem g
    · exact absurd hqe g
  · exact absurd he h1

/-- `{"c":3,"x":1,"u":null,"a":2}` read into `{7,7,7}`: "b" is not mentioned, "a" is given twice, once by its alias. -/
example : (exS.entries.map Entry.access).Pairwise Access.Apart ∧ (∀ e ∈ exS.entries, ∀ x t, e.get (e.set x t) = x) ∧
    (exS.entries.flatMap Entry.names).Nodup ∧
    (CType.struct (0, 0, 0) exS).dec {} (7, 7, 7) (JVal.obj [(b!"c", .num b!"3"), (b!"x", .num b!"1"), (b!"u", .null), (b!"a", .num b!"2")]).root =
      some ⟨.noError, (2, 7, 3), [b!"u"], [b!"b"]⟩ := by
  refine ⟨by simp [exS, CStruct.entries, CMembers.entries, CSupers.entries, Access.Apart, Entry.access], ?_, by decide, by decide +kernel⟩
  simp [exS, CStruct.entries, CMembers.entries, CSupers.entries]

/-- **C76** is false if two members have the same name: the one declared last gets the value, the other keeps its own. -/
theorem C76_false_same_name :
    let s : CStruct (Int × Int) := .mk (.cons [b!"a"] (.int i32) (·.1) (fun x t => (x, t.2))
      (.cons [b!"a"] (.int i32) (·.2) (fun x t => (t.1, x)) .nil)) .nil
    Parses (CType.struct (0, 0) s).handler {} {} (7, 7) b!"{\"a\":1}" ⟨.noError, (7, 1), [], [b!"a"]⟩ :=
  parse_toks (v := .obj [(b!"a", .num b!"1")]) (CType.struct _ _).sem _ (by example_text) (by decide +kernel)

end JsonStruct
