import Verif.Lemmas.Evolve
import Verif.Props.RoundTrip
import Verif.Props.Container

/-
C95: what one version of a program writes, the next one reads, if the declarations changed in one of the ways of Spec/Evolve.lean.
-/

namespace JsonStruct

/-- **C95**, for the changes of `Newer`, and values whose text is an array or an object at most 255 levels deep: what `serializeStruct`
returns for a value of the old type, in any style, parses without error into any fresh variable of the new type, with any options of the
tokenizer, and leaves what the changes say in it: members that are still there have their values, converted where their types were
changed; new members keep what they held, and removed ones are skipped. Members that are missing in the text or in the struct must be
allowed, as they are unless a user says otherwise.

Missing: other changes, many of which lose data, see below. -/
theorem C95_evolution_partial {a : CType A} {b : CType B} {R : B → A → B → Prop} (h : Newer a b R) (ha : a.Lawful) (v : A) (hv : a.Valid v)
    {j : JVal} (hj : a.enc v = some j) (hc : j.isContainer = true) (hd : j.depth ≤ 255) (pretty : Bool) (shift : Nat)
    (o : Opts) (p : POpts) (hu : p.allowUnassigned = true) (hm : p.allowMissing = true) (old : B) (ho : b.Fresh old) :
    ∃ text x mis un, serializeStruct a.handler v (userOpts pretty shift 0) = some text ∧
      Parses b.handler o p old text ⟨.noError, x, mis, un⟩ ∧ R old v x := by
  obtain ⟨text, h1, h2, h3⟩ := serialized_lines a ha v hv hj pretty shift 0 (by omega)
  obtain ⟨x, mis, un, g1, g2⟩ := h.readBy.some hv ho hu hm ([], .ascii) hj
  exact ⟨text, x, mis, un, h1, parse_toks b.sem p (delivers_written o hc h2 h3) g1, g2⟩

/-- The same for the variable a user declares, and the options they start with. -/
theorem C95_evolution_new_variable_partial {a : CType A} {b : CType B} {R : B → A → B → Prop} (h : Newer a b R) (ha : a.Lawful)
    (hb : b.Lawful) (v : A) (hv : a.Valid v) {j : JVal} (hj : a.enc v = some j) (hc : j.isContainer = true) (hd : j.depth ≤ 255)
    (pretty : Bool) (shift : Nat) (o : Opts) :
    ∃ text x mis un, serializeStruct a.handler v (userOpts pretty shift 0) = some text ∧
      Parses b.handler o {} b.init text ⟨.noError, x, mis, un⟩ ∧ R b.init v x :=
  C95_evolution_partial h ha v hv hj hc hd pretty shift o {} rfl rfl b.init (b.fresh_init hb)

/-- Structs whose members keep their types. Members are added, removed, renamed with the old name as an alias, put into another order,
and moved to or from super classes: those that are still there have their values, the new ones keep what they held. The two versions
may be exchanged: neither need be the older one. -/
theorem C95_members_partial {init : A} {s : CStruct A} {init' : B} {s' : CStruct B} (hs : (CType.struct init s).Lawful)
    (hs' : (CType.struct init' s').Lawful) (hnames : (s'.entries.flatMap Entry.names).Nodup)
    (hone : s.entries.Pairwise fun e e' => ∀ f ∈ s'.entries, e.Goes f → ¬ e'.Goes f)
    (htype : ∀ e ∈ s.entries, ∀ f ∈ s'.entries, e.Goes f → f.M = e.M ∧ f.type ≍ e.type ∧ e.type.Lawful)
    (v : A) (hv : s.Valid v) {j : JVal} (hj : (CType.struct init s).enc v = some j) (hd : j.depth ≤ 255) (pretty : Bool) (shift : Nat)
    (o : Opts) (p : POpts) (hu : p.allowUnassigned = true) (hm : p.allowMissing = true) (old : B) (ho : s'.Fresh old) :
    ∃ text x mis un, serializeStruct (CType.struct init s).handler v (userOpts pretty shift 0) = some text ∧
      Parses (CType.struct init' s').handler o p old text ⟨.noError, x, mis, un⟩ ∧
      (∀ e ∈ s.entries, ∀ f ∈ s'.entries, e.Goes f → f.get x ≍ e.get v) ∧
      ∀ f ∈ s'.entries, (∀ e ∈ s.entries, ¬ e.Goes f) → f.get x = f.get old := by
  classical
  have key : Newer (.struct init s) (.struct init' s') _ :=
    Newer.struct (((s.entries.product s'.entries).filter fun q => q.1.Goes q.2).map fun q =>
        { before := q.1, after := q.2, rel := fun _ v x => x ≍ v })
      (by
        rintro c hc
        obtain ⟨⟨e, f⟩, hq, rfl⟩ := List.mem_map.mp hc
        obtain ⟨hq, hg⟩ := List.mem_filter.mp hq
        exact ⟨(List.pair_mem_product.mp hq).1, (List.pair_mem_product.mp hq).2, of_decide_eq_true hg⟩)
      (by
        intro e he f hf hg
        exact ⟨_, List.mem_map.mpr ⟨(e, f), List.mem_filter.mpr ⟨List.pair_mem_product.mpr ⟨he, hf⟩, decide_eq_true hg⟩, rfl⟩, rfl, rfl⟩)
      (by
        rintro c hc
        obtain ⟨⟨e, f⟩, hq, rfl⟩ := List.mem_map.mp hc
        obtain ⟨hq, hg⟩ := List.mem_filter.mp hq
        obtain ⟨h1, h2, h3⟩ := htype e (List.pair_mem_product.mp hq).1 f (List.pair_mem_product.mp hq).2 (of_decide_eq_true hg)
        obtain ⟨_, t, _, _⟩ := e
        obtain ⟨_, t', _, _⟩ := f
        simp only at h1 h2 h3
        subst h1
        obtain rfl := eq_of_heq h2
        simpa only [heq_eq_eq] using Newer.same h3)
      hone hnames hs'.1.apart hs'.1.stored
  have hc : j.isContainer = true := by simp only [CType.enc, Option.some.injEq] at hj; subst hj; rfl
  obtain ⟨text, x, mis, un, h1, h2, h3, h4⟩ := C95_evolution_partial key hs v hv hj hc hd pretty shift o p hu hm old ho
  refine ⟨text, x, mis, un, h1, h2, fun e he f hf hg => ?_, h4⟩
  exact h3 _ (List.mem_map.mpr ⟨(e, f), List.mem_filter.mpr ⟨List.pair_mem_product.mpr ⟨he, hf⟩, decide_eq_true hg⟩, rfl⟩)

/-! ### An example -/

def i64 : IntTy := { bits := 64, signed := true }

abbrev ExV1 := Int × Bytes × Bool × List Int
/-- `struct Item { int id; std::string name; bool gone; std::vector<int> sizes; }` -/
def exV1 : CStruct ExV1 :=
  .mk (.cons [b!"id"] (.int i32) (·.1) (fun x t => (x, t.2))
    (.cons [b!"name"] (.string .scalar) (·.2.1) (fun x t => (t.1, x, t.2.2))
    (.cons [b!"gone"] .bool (·.2.2.1) (fun x t => (t.1, t.2.1, x, t.2.2.2))
    (.cons [b!"sizes"] (.vector (.int i32)) (·.2.2.2) (fun x t => (t.1, t.2.1, t.2.2.1, x)) .nil)))) .nil

abbrev ExV2 := Bool × List Int × Bytes × Option Int
def exV2Base : CStruct Bool := .mk (.cons [b!"added"] .bool id (fun x _ => x) .nil) .nil
/-- `struct Base { bool added; }; struct Item : Base { JS::OneOrMany<int64_t> sizes; std::string title; std::shared_ptr<int64_t> id; }`,
with `name` as an alias of `title`. -/
def exV2 : CStruct ExV2 :=
  .mk (.cons [b!"sizes"] (.oneOrMany (.int i64)) (·.2.1) (fun x t => (t.1, x, t.2.2))
    (.cons [b!"title", b!"name"] (.string .scalar) (·.2.2.1) (fun x t => (t.1, t.2.1, x, t.2.2.2))
    (.cons [b!"id"] (.sharedPtr (.int i64)) (·.2.2.2) (fun x t => (t.1, t.2.1, t.2.2.1, x)) .nil)))
    (.cons b!"Base" (·.1) (fun x t => (x, t.2)) exV2Base .nil)

def exV1Type : CType (List ExV1) := .vector (.struct (0, [], false, []) exV1)
def exV2Type : CType (List ExV2) := .vector (.struct (false, [], [], none) exV2)

def exV1Value : List ExV1 := [(1, b!"a", true, [2, 3]), (-4, b!"b", false, [])]

theorem exV1_lawful : exV1Type.Lawful := by
  refine ⟨⟨?_, ?_, ?_, ?_, ?_⟩, ?_, ?_⟩
  · intro e he
    simp only [exV1, CStruct.entries, CMembers.entries, CSupers.entries, List.append_nil, List.mem_cons, List.not_mem_nil, or_false] at he
    rcases he with rfl | rfl | rfl | rfl
    · exact ⟨b!"id", rfl, by decide, by quotable⟩
    · exact ⟨b!"name", rfl, by decide, by quotable⟩
    · exact ⟨b!"gone", rfl, by decide, by quotable⟩
    · exact ⟨b!"sizes", rfl, by decide, by quotable⟩
  · simp only [exV1, CStruct.entries, CMembers.entries, CSupers.entries]; decide +kernel
  · simp [exV1, CStruct.entries, CMembers.entries, CSupers.entries, Access.Apart, Entry.access]
  · intro e he x t
    simp only [exV1, CStruct.entries, CMembers.entries, CSupers.entries, List.append_nil, List.mem_cons, List.not_mem_nil, or_false] at he
    rcases he with rfl | rfl | rfl | rfl <;> rfl
  · intro a b h
    simp [exV1, CStruct.entries, CMembers.entries, CSupers.entries] at h
    exact Prod.ext h.1 (Prod.ext h.2.1 (Prod.ext h.2.2.1 h.2.2.2))
  · simp [exV1, CStruct.Fresh, CMembers.Fresh, CSupers.Fresh, CType.Fresh]
  · simp [exV1, CStruct.Lawful, CMembers.Lawful, CSupers.Lawful, CType.Lawful]

theorem exV2_lawful : exV2Type.Lawful := by
  refine ⟨⟨?_, ?_, ?_, ?_, ?_⟩, ?_, ?_⟩
  · intro e he
    simp only [exV2, exV2Base, CStruct.entries, CMembers.entries, CSupers.entries, List.append_nil, List.mem_append, List.map_cons, List.map_nil,
      List.mem_cons, List.not_mem_nil, or_false] at he
    rcases he with (rfl | rfl | rfl) | rfl
    · exact ⟨b!"sizes", rfl, by decide, by quotable⟩
    · exact ⟨b!"title", rfl, by decide, by quotable⟩
    · exact ⟨b!"id", rfl, by decide, by quotable⟩
    · exact ⟨b!"added", rfl, by decide, by quotable⟩
  · simp only [exV2, exV2Base, CStruct.entries, CMembers.entries, CSupers.entries]; decide +kernel
  · simp [exV2, exV2Base, CStruct.entries, CMembers.entries, CSupers.entries, Access.Apart, Entry.access, Entry.up]
  · intro e he x t
    simp only [exV2, exV2Base, CStruct.entries, CMembers.entries, CSupers.entries, List.append_nil, List.mem_append, List.map_cons, List.map_nil,
      List.mem_cons, List.not_mem_nil, or_false] at he
    rcases he with (rfl | rfl | rfl) | rfl <;> rfl
  · intro a b h
    simp [exV2, exV2Base, CStruct.entries, CMembers.entries, CSupers.entries, Entry.up] at h
    exact Prod.ext h.2.2.2 (Prod.ext h.1 (Prod.ext h.2.1 h.2.2.1))
  · simp [exV2, exV2Base, CStruct.Fresh, CMembers.Fresh, CSupers.Fresh, CType.Fresh]
  · simp [exV2, exV2Base, CStruct.Lawful, CMembers.Lawful, CSupers.Lawful, CType.Lawful]

def exV1Id : Entry ExV1 := { names := [b!"id"], type := .int i32, get := (·.1), set := fun x t => (x, t.2) }
def exV1Name : Entry ExV1 := { names := [b!"name"], type := .string .scalar, get := (·.2.1), set := fun x t => (t.1, x, t.2.2) }
def exV1Gone : Entry ExV1 := { names := [b!"gone"], type := .bool, get := (·.2.2.1), set := fun x t => (t.1, t.2.1, x, t.2.2.2) }
def exV1Sizes : Entry ExV1 := { names := [b!"sizes"], type := .vector (.int i32), get := (·.2.2.2), set := fun x t => (t.1, t.2.1, t.2.2.1, x) }
def exV2Sizes : Entry ExV2 := { names := [b!"sizes"], type := .oneOrMany (.int i64), get := (·.2.1), set := fun x t => (t.1, x, t.2.2) }
def exV2Title : Entry ExV2 :=
  { names := [b!"title", b!"name"], type := .string .scalar, get := (·.2.2.1), set := fun x t => (t.1, t.2.1, x, t.2.2.2) }
def exV2Id : Entry ExV2 := { names := [b!"id"], type := .sharedPtr (.int i64), get := (·.2.2.2), set := fun x t => (t.1, t.2.1, t.2.2.1, x) }
def exV2Added : Entry ExV2 := { names := [b!"added"], type := .bool, get := fun t => t.1, set := fun x t => (x, t.2) }

theorem exV1_entries : exV1.entries = [exV1Id, exV1Name, exV1Gone, exV1Sizes] := rfl
theorem exV2_entries : exV2.entries = [exV2Sizes, exV2Title, exV2Id, exV2Added] := rfl

instance (e : Entry A) (f : Entry B) : Decidable (e.Goes f) := inferInstanceAs (Decidable (_ ∈ _))

def exCarried : List (Carried ExV1 ExV2) :=
  [{ before := exV1Id, after := exV2Id, rel := fun _ v x => ∃ y, x = some y ∧ y = i64.clamp v },
   { before := exV1Name, after := exV2Title, rel := fun _ v x => x = v },
   { before := exV1Sizes, after := exV2Sizes, rel := fun _ v x => List.Forall₂ (fun v x => x = i64.clamp v) v x }]

theorem exEvolves : Newer exV1Type exV2Type fun _ v x => List.Forall₂ (fun v x =>
    (∀ c ∈ exCarried, c.rel (c.after.get (false, [], [], none)) (c.before.get v) (c.after.get x)) ∧
    ∀ f ∈ exV2.entries, (∀ e ∈ exV1.entries, ¬ e.Goes f) → f.get x = f.get (false, [], [], none)) v x := by
  have hi : Newer (.int i32) (.int i64) fun _ v x => x = i64.clamp v :=
    .int (by decide) (by decide) (by decide) (.inl (by decide))
  refine .vector (.struct exCarried ?_ ?_ ?_ ?_ ?_ ?_ ?_) exV2_lawful
  · simp only [exCarried, exV1_entries, exV2_entries, List.forall_mem_cons]
    refine ⟨⟨by simp, by simp, by decide +kernel⟩, ⟨by simp, by simp, by decide +kernel⟩, ⟨by simp, by simp, by decide +kernel⟩, by simp⟩
  · intro e he f hf hg
    simp only [exV1_entries, exV2_entries, List.mem_cons, List.not_mem_nil, or_false] at he hf
    rcases he with rfl | rfl | rfl | rfl <;> rcases hf with rfl | rfl | rfl | rfl <;>
      first
      | exact absurd hg (by decide +kernel)
      | exact ⟨_, .head _, rfl, rfl⟩
      | exact ⟨_, .tail _ (.head _), rfl, rfl⟩
      | exact ⟨_, .tail _ (.tail _ (.head _)), rfl, rfl⟩
  · simp only [exCarried, List.forall_mem_cons]
    exact ⟨.toSharedPtr hi (fun v hv => by
      simp only [CType.Valid] at hv
      have h := intFrom_eq hv.1 v hv.2
      exact ⟨_, by simp only [CType.enc]; rw [h]; rfl, by intro h; cases h⟩) trivial, .same trivial, .vectorToMany hi trivial, by simp⟩
  · rw [exV1_entries, exV2_entries]; decide +kernel
  · decide +kernel
  · exact exV2_lawful.1.apart
  · exact exV2_lawful.1.stored

/-- What becomes of the items: `id`s and `sizes` are the same numbers, `title` is the `name`, `added` is new. -/
theorem exEvolves_to {v : List ExV1} {x : List ExV2} (hv : exV1Type.Valid v) (h : List.Forall₂ (fun v x =>
    (∀ c ∈ exCarried, c.rel (c.after.get (false, [], [], none)) (c.before.get v) (c.after.get x)) ∧
    ∀ f ∈ exV2.entries, (∀ e ∈ exV1.entries, ¬ e.Goes f) → f.get x = f.get (false, [], [], none)) v x) :
    x = v.map fun e => (false, e.2.2.2, e.2.1, some e.1) := by
  have hcl : ∀ n, i32.InRange n → i64.clamp n = n := by
    intro n hn
    simp only [IntTy.InRange, IntTy.min, IntTy.max, i32] at hn
    simp only [IntTy.clamp, IntTy.min, IntTy.max, i64]
    simp at hn ⊢
    omega
  simp only [exV1Type, CType.Valid] at hv
  induction h with
  | nil => rfl
  | @cons v x vs xs h1 _ ih =>
    rw [List.map_cons, ← ih fun e he => hv e (List.mem_cons_of_mem _ he)]
    have hv1 := hv v (List.mem_cons_self ..)
    simp only [exV1, CStruct.Valid, CMembers.Valid, CType.Valid] at hv1
    obtain ⟨h1, h2⟩ := h1
    have a1 := h1 _ (.head _)
    have a2 := h1 _ (.tail _ (.head _))
    have a3 := h1 _ (.tail _ (.tail _ (.head _)))
    have a4 := h2 exV2Added (by simp [exV2_entries]) (by rw [exV1_entries]; decide +kernel)
    obtain ⟨x1, x2, x3, x4⟩ := x
    obtain ⟨v1, v2, v3, v4⟩ := v
    obtain ⟨y, a1, hy⟩ := a1
    simp only [exV2Id, exV2Title, exV2Sizes, exV2Added, exV1Id, exV1Name, exV1Sizes] at a1 a2 a3 a4 hy
    subst a1 a2 a4 hy
    rw [hcl _ hv1.1.1.1.2]
    have : x2 = v4 := by
      have hr := hv1.1.1.2.2.2.1
      clear * - a3 hr hcl
      induction a3 with
      | nil => rfl
      | cons h _ ih => rw [h, hcl _ (hr _ (List.mem_cons_self ..)).1.2, ih fun e he => hr e (List.mem_cons_of_mem _ he)]
    rw [this]

theorem exV1_valid : exV1Type.Valid exV1Value := by
  have h1 : ∀ x : Int, -5 ≤ x → x ≤ 5 → i32.Supported ∧ i32.InRange x := fun x h1 h2 =>
    ⟨by simp [IntTy.Supported, i32], by simp [IntTy.InRange, IntTy.min, IntTy.max, i32]; omega⟩
  have h2 : ∀ x : Int, -5 ≤ x → x ≤ 5 → ((intFrom i32 x).map JVal.num).isSome = true := fun x a b => by
    rw [intFrom_eq (h1 x a b).1 x (h1 x a b).2]; rfl
  simp only [exV1Type, CType.Valid, exV1Value, List.forall_mem_cons, exV1, CStruct.Valid, CMembers.Valid, CSupers.Valid]
  exact ⟨⟨⟨⟨h1 1 (by decide) (by decide), trivial, trivial, ⟨⟨h1 2 (by decide) (by decide), h2 2 (by decide) (by decide)⟩,
    ⟨h1 3 (by decide) (by decide), h2 3 (by decide) (by decide)⟩, by simp⟩, trivial⟩, trivial⟩, rfl⟩,
    ⟨⟨⟨h1 (-4) (by decide) (by decide), trivial, trivial, by simp, trivial⟩, trivial⟩, rfl⟩, by simp⟩

/-- The hypotheses are met, and this is the text of the old program and what the new one reads. -/
example : (∃ j, exV1Type.enc exV1Value = some j ∧ j.isContainer = true ∧ j.depth ≤ 255) ∧
    serializeStruct exV1Type.handler exV1Value (userOpts false 0 0) =
      some b!"[{\"id\":1,\"name\":\"a\",\"gone\":true,\"sizes\":[2,3]},{\"id\":-4,\"name\":\"b\",\"gone\":false,\"sizes\":[]}]" ∧
    ∃ text mis un, serializeStruct exV1Type.handler exV1Value (userOpts true 2 0) = some text ∧
      Parses exV2Type.handler {} {} exV2Type.init text ⟨.noError, [(false, [2, 3], b!"a", some 1), (false, [], b!"b", some (-4))], mis, un⟩ := by
  obtain ⟨j, h1, h2, h3⟩ : ∃ j, exV1Type.enc exV1Value = some j ∧ j.isContainer = true ∧ j.depth ≤ 255 :=
    ⟨_, rfl, rfl, by decide +kernel⟩
  refine ⟨⟨j, h1, h2, h3⟩, by decide +kernel, ?_⟩
  obtain ⟨text, x, mis, un, g1, g2, g3⟩ :=
    C95_evolution_new_variable_partial exEvolves exV1_lawful exV2_lawful exV1Value exV1_valid h1 h2 h3 true 2 {}
  obtain rfl := exEvolves_to exV1_valid g3
  exact ⟨text, mis, un, g1, g2⟩

/-- `struct Item { bool added; std::string title; int id; }`, with `name` as an alias of `title`: the hypotheses of `C95_members_partial`
are met, in both directions but for the renamed member, which the old program does not know. -/
def exV3 : CStruct (Bool × Bytes × Int) :=
  .mk (.cons [b!"added"] .bool (·.1) (fun x t => (x, t.2))
    (.cons [b!"title", b!"name"] (.string .scalar) (·.2.1) (fun x t => (t.1, x, t.2.2))
    (.cons [b!"id"] (.int i32) (·.2.2) (fun x t => (t.1, t.2.1, x)) .nil))) .nil

example : (exV3.entries.flatMap Entry.names).Nodup ∧ (exV1.entries.flatMap Entry.names).Nodup ∧
    (exV1.entries.Pairwise fun e e' => ∀ f ∈ exV3.entries, e.Goes f → ¬ e'.Goes f) ∧
    (exV3.entries.Pairwise fun e e' => ∀ f ∈ exV1.entries, e.Goes f → ¬ e'.Goes f) ∧
    (∀ e ∈ exV1.entries, ∀ f ∈ exV3.entries, e.Goes f → f.M = e.M ∧ f.type ≍ e.type ∧ e.type.Lawful) ∧
    (∀ e ∈ exV3.entries, ∀ f ∈ exV1.entries, e.Goes f → f.M = e.M ∧ f.type ≍ e.type ∧ e.type.Lawful) := by
  refine ⟨by decide +kernel, by decide +kernel, by unfold exV3; simp only [exV1_entries, CStruct.entries, CMembers.entries, CSupers.entries]; decide +kernel,
    by unfold exV3; simp only [exV1_entries, CStruct.entries, CMembers.entries, CSupers.entries]; decide +kernel, ?_, ?_⟩
  all_goals
    intro e he f hf hg
    simp only [exV3, exV1_entries, CStruct.entries, CMembers.entries, CSupers.entries, List.append_nil, List.mem_cons, List.not_mem_nil, or_false] at he hf
  · rcases he with rfl | rfl | rfl | rfl <;> rcases hf with rfl | rfl | rfl <;>
      first
      | exact absurd hg (by decide +kernel)
      | exact ⟨rfl, .rfl, trivial⟩
  · rcases he with rfl | rfl | rfl <;> rcases hf with rfl | rfl | rfl | rfl <;>
      first
      | exact absurd hg (by decide +kernel)
      | exact ⟨rfl, .rfl, trivial⟩

/-- An enumerator is added in front of the others: values are found by name. -/
example : ∃ text mis un, serializeStruct (CType.vector (.enum [b!"low", b!"high"] i32)).handler [1, 0] (userOpts true 4 0) = some text ∧
    Parses (CType.vector (.enum [b!"none", b!"low", b!"high"] i32)).handler {} {} [] text ⟨.noError, [2, 1], mis, un⟩ := by
  have hn : Newer (.vector (.enum [b!"low", b!"high"] i32)) (.vector (.enum [b!"none", b!"low", b!"high"] i32)) _ :=
    .vector (.enum (by decide +kernel)) trivial
  have hv : (CType.vector (.enum [b!"low", b!"high"] i32)).Valid [1, 0] := by
    have hq : Quotable b!"low" ∧ Quotable b!"high" ∧ ∀ x ∈ ([] : List Bytes), Quotable x := ⟨by quotable, by quotable, by simp⟩
    simp only [CType.Valid, List.forall_mem_cons]
    exact ⟨⟨⟨by decide +kernel, hq, by decide, by decide⟩, rfl⟩, ⟨⟨by decide +kernel, hq, by decide, by decide⟩, rfl⟩, by simp⟩
  obtain ⟨text, x, mis, un, h1, h2, h3⟩ := C95_evolution_new_variable_partial hn trivial trivial [1, 0] hv (j := .arr [.str b!"high", .str b!"low"])
    (by rfl) rfl (by decide +kernel) true 4 {}
  refine ⟨text, mis, un, h1, ?_⟩
  obtain ⟨x1, x2, rfl, h4, h5⟩ : ∃ x1 x2, x = [x1, x2] ∧ (0 ≤ x1 ∧ [b!"none", b!"low", b!"high"][x1.toNat]? = some b!"high") ∧
      0 ≤ x2 ∧ [b!"none", b!"low", b!"high"][x2.toNat]? = some b!"low" := by
    cases h3 with
    | cons g1 g2 => cases g2 with
      | cons g3 g4 => cases g4; obtain ⟨p1, n1, p2, p3⟩ := g1; obtain ⟨q1, n2, q2, q3⟩ := g3; cases p2; cases q2; exact ⟨_, _, rfl, ⟨p1, p3⟩, q1, q3⟩
  have hx : ∀ (k : Nat) (n : Bytes), [b!"none", b!"low", b!"high"][k]? = some n → n = b!"high" ∧ k = 2 ∨ n = b!"low" ∧ k = 1 ∨ n = b!"none" := by
    intro k n h
    rcases k with _ | _ | _ | k <;> simp at h <;> simp [← h]
  have e1 : x1 = 2 := by have := hx _ _ h4.2; revert this; simp; omega
  have e2 : x2 = 1 := by have := hx _ _ h5.2; revert this; simp; omega
  exact e1 ▸ e2 ▸ h2

theorem digits_five {ds : Bytes} (hd : JsonInt ds) (h : decVal ds = 5) : ds = b!"5" := by
  rcases hd with rfl | ⟨⟨h1, h2⟩, h3⟩
  · simp [decVal] at h
  · match ds, h1 with
    | c :: s, _ =>
      rw [decVal_cons] at h
      have hc := h2 c (by simp)
      have hne : c.toNat ≠ 48 := fun hc => h3 (by
        have : c = 0x30 := UInt8.toNat_inj.mp hc
        simp [this])
      simp only [isDigit, Bool.and_eq_true, decide_eq_true_eq, UInt8.le_iff_toNat_le] at hc
      have hc' : 48 ≤ c.toNat ∧ c.toNat ≤ 57 := hc
      cases s with
      | nil =>
        have : decVal [] = 0 := rfl
        rw [this] at h
        simp at h
        have : c.toNat = (0x35 : Byte).toNat := by show c.toNat = 53; omega
        rw [UInt8.toNat_inj.mp this]
      | cons c' s =>
        exfalso
        rw [List.length_cons, Nat.pow_succ] at h
        have h5 : 1 * (1 * 10) ≤ (c.toNat - 48) * (10 ^ s.length * 10) :=
          Nat.mul_le_mul (by omega) (Nat.mul_le_mul (Nat.one_le_two_pow.trans (Nat.pow_le_pow_left (by decide) _)) (Nat.le_refl _))
        omega

/-- The elements of a tuple become strings, those of an array larger: `std::tuple<int, bool, std::array<int, 2>>` and
`std::tuple<std::string, std::string, std::array<int64_t, 2>>`. -/
example : ∃ text mis un,
    serializeStruct (CType.tuple (.cons (.int i32) (.cons .bool (.cons (.array 2 (.int i32)) .nil)))).handler (-5, true, [6, -7], ()) (userOpts true 4 0) =
      some text ∧
    Parses (CType.tuple (.cons (.string .scalar) (.cons (.string .scalar) (.cons (.array 2 (.int i64)) .nil)))).handler {} {}
      ([], [], [0, 0], ()) text ⟨.noError, (b!"-5", b!"true", [6, -7], ()), mis, un⟩ := by
  have hn : Newer (.tuple (.cons (.int i32) (.cons .bool (.cons (.array 2 (.int i32)) .nil))))
      (.tuple (.cons (.string .scalar) (.cons (.string .scalar) (.cons (.array 2 (.int i64)) .nil)))) _ :=
    .tupleCons .intText (.tupleCons .boolText (.tupleCons (.array (.int (by decide) (by decide) (by decide) (.inl (by decide)))) .tupleNil))
  have h0 : ∀ x : Int, -7 ≤ x → x ≤ 7 → i32.Supported ∧ i32.InRange x := fun x h1 h2 =>
    ⟨by simp [IntTy.Supported, i32], by simp [IntTy.InRange, IntTy.min, IntTy.max, i32]; omega⟩
  have hv : (CType.tuple (.cons (.int i32) (.cons .bool (.cons (.array 2 (.int i32)) .nil)))).Valid (-5, true, [6, -7], ()) := by
    simp only [CType.Valid, CTypes.Valid, List.forall_mem_cons]
    exact ⟨⟨h0 _ (by decide) (by decide), rfl⟩, ⟨trivial, rfl⟩, ⟨⟨rfl, ⟨h0 _ (by decide) (by decide), rfl⟩, ⟨h0 _ (by decide) (by decide), rfl⟩, by simp⟩, rfl⟩, trivial⟩
  obtain ⟨text, ⟨x1, x2, x3, ⟨⟩⟩, mis, un, h1, h2, h3, h4, ⟨h5, h6⟩, -⟩ := C95_evolution_new_variable_partial hn (by trivial) (by trivial) (-5, true, [6, -7], ()) hv
    (j := .arr [.num b!"-5", .bool true, .arr [.num b!"6", .num b!"-7"]]) (by rfl) rfl (by decide +kernel) true 4 {}
  refine ⟨text, mis, un, h1, ?_⟩
  have e1 : x1 = b!"-5" := by
    obtain ⟨ds, rfl, hd, hd'⟩ := h3
    have hds : ds = b!"5" := digits_five hd hd'
    rw [hds]; rfl
  have e2 : x2 = b!"true" := h4
  have e3 : x3 = [6, -7] := by
    obtain ⟨y1, k1, k2⟩ := h6 0 0 6 rfl rfl
    obtain ⟨y2, k3, k4⟩ := h6 1 0 (-7) rfl rfl
    match x3, h5 with
    | [a, b], _ =>
      cases k1; cases k3
      have c1 : i64.clamp 6 = 6 := by decide
      have c2 : i64.clamp (-7) = -7 := by decide
      rw [k2, k4, c1, c2]
  exact e1 ▸ e2 ▸ e3 ▸ h2

/-- `std::tuple<int, int64_t>` becomes `std::tuple<double, float>`: the numbers stay the same. -/
example : ∃ text mis un,
    serializeStruct (CType.tuple (.cons (.int i32) (.cons (.int i64) .nil))).handler (-5, 6, ()) (userOpts true 4 0) = some text ∧
    Parses (CType.tuple (.cons .double (.cons .float .nil))).handler {} {} (0, 0, ()) text ⟨.noError, (0xC014000000000000, 0x40C00000, ()), mis, un⟩ := by
  have hn : Newer (.tuple (.cons (.int i32) (.cons (.int i64) .nil))) (.tuple (.cons .double (.cons .float .nil))) _ :=
    .tupleCons (.intDouble (by decide) (.inl (by decide))) (.tupleCons (.intFloat (by decide) (.inr (by decide))) .tupleNil)
  have hv : (CType.tuple (.cons (.int i32) (.cons (.int i64) .nil))).Valid (-5, 6, ()) := by
    simp only [CType.Valid, CTypes.Valid]
    exact ⟨⟨⟨by decide, by decide⟩, rfl⟩, ⟨⟨by decide, by decide⟩, rfl⟩, trivial⟩
  obtain ⟨text, ⟨x1, x2, ⟨⟩⟩, mis, un, h1, h2, ⟨b, hb, h3, h4, -⟩, ⟨c, h5, hc, h6⟩, -⟩ := C95_evolution_new_variable_partial hn (by trivial) (by trivial)
    (-5, 6, ()) hv (j := .arr [.num b!"-5", .num b!"6"]) (by rfl) rfl (by decide +kernel) true 4 {}
  have e1 : x1 = 2 ^ 63 + b := h3
  have e2 : x2 = c := h5
  have e3 : c = 0x40C00000 := by
    by_contra hne
    have hval : absValue 23 8 0x40C00000 = 6 := by norm_num [absValue, magnitude]
    have := h6 0x40C00000 (by norm_num) (Ne.symm hne)
    simp only [hval, show (((6 : Int).natAbs : Nat) : ℚ) = 6 from by norm_num, sub_self, abs_zero] at this
    rcases this with h | ⟨h, -⟩
    · exact absurd h (not_lt.2 (abs_nonneg _))
    · have h' : absValue 23 8 c = 6 := by linarith [abs_eq_zero.mp h]
      rcases Nat.lt_or_gt_of_ne hne with g | g
      · have : absValue 23 8 c < absValue 23 8 0x40C00000 := absValue_lt f32.toFloatFmt g (by decide)
        linarith
      · have : absValue 23 8 0x40C00000 < absValue 23 8 c := absValue_lt f32.toFloatFmt g hc
        linarith
  have e4 : b = 0x4014000000000000 := by
    by_contra hne
    have hval : absValue 52 11 0x4014000000000000 = 5 := by norm_num [absValue, magnitude]
    have hb' : absValue 52 11 b = 5 := (h4 (by decide)).trans (by norm_num)
    rcases Nat.lt_or_gt_of_ne hne with g | g
    · have : absValue 52 11 b < absValue 52 11 0x4014000000000000 := absValue_lt f64.toFloatFmt g (by decide)
      linarith
    · have : absValue 52 11 0x4014000000000000 < absValue 52 11 b := absValue_lt f64.toFloatFmt g hb
      linarith
  subst e1 e2 e3 e4
  exact ⟨text, mis, un, h1, h2⟩

/-- `std::unordered_set<int>` becomes `std::unordered_set<int64_t>`. -/
example : ∃ text mis un,
    serializeStruct (CType.set inferInstance (fun l x => l ++ [x]) (.int i32)).handler [3, -4] (userOpts true 4 0) = some text ∧
    Parses (CType.set inferInstance (fun l x => l ++ [x]) (.int i64)).handler {} {} [] text ⟨.noError, [3, -4], mis, un⟩ := by
  have hclamp : ∀ v, (CType.int i32).Valid v → i64.clamp v = v := by
    intro v hv
    simp only [CType.Valid, IntTy.InRange, IntTy.min, IntTy.max, i32] at hv
    simp only [IntTy.clamp, IntTy.min, IntTy.max, i64]
    norm_num at hv ⊢
    rw [if_neg (by omega), if_neg (by omega)]
  have hn : Newer (.set inferInstance (fun l x => l ++ [x]) (.int i32)) (.set inferInstance (fun l x => l ++ [x]) (.int i64)) _ :=
    .set (.int (by decide) (by decide) (by decide) (.inl (by decide))) (by trivial) (fun l x => List.perm_append_comm) (by
      intro v w x hv hw h1 h2
      rw [hclamp v hv] at h1
      rw [hclamp w hw] at h2
      rw [← h1, ← h2])
  have hv : (CType.set inferInstance (fun l x => l ++ [x]) (.int i32)).Valid [3, -4] := by
    simp only [CType.Valid, List.forall_mem_cons]
    exact ⟨by decide, rfl, ⟨⟨by decide, by decide⟩, rfl⟩, ⟨⟨by decide, by decide⟩, rfl⟩, by simp⟩
  obtain ⟨text, x, mis, un, h1, h2, l, h3, rfl⟩ := C95_evolution_new_variable_partial hn ⟨fun l x => List.perm_append_comm, trivial⟩
    ⟨fun l x => List.perm_append_comm, trivial⟩ [3, -4] hv (j := .arr [.num b!"3", .num b!"-4"]) (by rfl) rfl (by decide +kernel) true 4 {}
  refine ⟨text, mis, un, h1, ?_⟩
  have e : l = [3, -4] := by
    cases h3 with
    | cons g1 g2 => cases g2 with
      | cons g2 g3 =>
        cases g3
        have c1 : i64.clamp 3 = 3 := by decide
        have c2 : i64.clamp (-4) = -4 := by decide
        rw [g1, g2, c1, c2]
  subst e
  exact h2

/-- `struct { int a; std::optional<std::string> b; std::string c; }` becomes `std::map<std::string, std::string>`: the empty optional is no
entry of the map. -/
def exRecord : CStruct (Int × Option Bytes × Bytes) :=
  .mk (.cons [b!"a"] (.int i32) (·.1) (fun x t => (x, t.2))
    (.cons [b!"b"] (.stdOptional (.string .scalar)) (·.2.1) (fun x t => (t.1, x, t.2.2))
    (.cons [b!"c"] (.string .scalar) (·.2.2) (fun x t => (t.1, t.2.1, x)) .nil))) .nil

example : ∃ text mis un,
    serializeStruct (CType.struct (0, none, []) exRecord).handler (5, none, b!"x") (userOpts true 4 0) = some text ∧
    Parses (CType.map (fun l x => l ++ [x]) (.string .scalar)).handler {} {} [] text ⟨.noError, [(b!"a", b!"5"), (b!"c", b!"x")], mis, un⟩ := by
  let ea : Entry (Int × Option Bytes × Bytes) := { names := [b!"a"], type := .int i32, get := (·.1), set := fun x t => (x, t.2) }
  let eb : Entry (Int × Option Bytes × Bytes) :=
    { names := [b!"b"], type := .stdOptional (.string .scalar), get := (·.2.1), set := fun x t => (t.1, x, t.2.2) }
  let ec : Entry (Int × Option Bytes × Bytes) := { names := [b!"c"], type := .string .scalar, get := (·.2.2), set := fun x t => (t.1, t.2.1, x) }
  have hes : exRecord.entries = [ea, eb, ec] := rfl
  have hl : (CType.struct (0, none, []) exRecord).Lawful := by
    refine ⟨⟨?_, ?_, ?_, ?_, ?_⟩, ?_, ?_⟩
    · intro e he
      rw [hes] at he
      simp only [List.mem_cons, List.not_mem_nil, or_false] at he
      rcases he with rfl | rfl | rfl
      · exact ⟨b!"a", rfl, by decide, by quotable⟩
      · exact ⟨b!"b", rfl, by decide, by quotable⟩
      · exact ⟨b!"c", rfl, by decide, by quotable⟩
    · rw [hes]; decide +kernel
    · rw [hes]; simp [ea, eb, ec, Access.Apart, Entry.access]
    · intro e he x t
      rw [hes] at he
      simp only [List.mem_cons, List.not_mem_nil, or_false] at he
      rcases he with rfl | rfl | rfl <;> rfl
    · intro a b h
      rw [hes] at h
      simp [ea, eb, ec] at h
      exact Prod.ext h.1 (Prod.ext h.2.1 h.2.2)
    · simp [exRecord, CStruct.Fresh, CMembers.Fresh, CSupers.Fresh, CType.Fresh]
    · simp [exRecord, CStruct.Lawful, CMembers.Lawful, CSupers.Lawful, CType.Lawful]
  obtain ⟨S, hS⟩ : ∃ S, Newer (.stdOptional (.string .scalar)) (.string .scalar) S := ⟨_, .fromStdOptional .string⟩
  let cs : List (AsEntry (Int × Option Bytes × Bytes) Bytes) :=
    [⟨ea, fun _ v x => ∃ ds, x = (if v < 0 then b!"-" else []) ++ ds ∧ JsonInt ds ∧ decVal ds = v.natAbs⟩,
     ⟨eb, S⟩, ⟨ec, fun _ v x => x = v⟩]
  have hn : Newer (.struct (0, none, []) exRecord) (.map (fun l x => l ++ [x]) (.string .scalar)) _ :=
    .structToMap cs (by rw [hes]; rfl) (fun l x => List.perm_append_comm) (by
      simp only [cs, List.forall_mem_cons]
      exact ⟨.intText, hS, .string, by simp⟩) trivial (by rw [hes]; decide +kernel) (by rw [hes]; decide +kernel)
  have hv : (CType.struct (0, none, []) exRecord).Valid (5, none, b!"x") := by
    simp only [exRecord, CType.Valid, CStruct.Valid, CMembers.Valid, CSupers.Valid]
    exact ⟨⟨⟨by simp [IntTy.Supported, i32], by simp [IntTy.InRange, IntTy.min, IntTy.max, i32]⟩, by simp, trivial, trivial⟩, trivial⟩
  obtain ⟨text, x, mis, un, h1, h2, l, h3, rfl⟩ := C95_evolution_new_variable_partial hn hl ⟨fun l x => List.perm_append_comm, trivial⟩ _ hv
    (j := .obj [(b!"a", .num b!"5"), (b!"c", .str b!"x")]) (by rfl) rfl (by decide +kernel) true 4 {}
  refine ⟨text, mis, un, h1, ?_⟩
  have hf : (cs.filter fun c => (c.member.type.enc (c.member.get ((5, none, b!"x") : Int × Option Bytes × Bytes))).isSome) =
      [⟨ea, fun _ v x => ∃ ds, x = (if v < 0 then b!"-" else []) ++ ds ∧ JsonInt ds ∧ decVal ds = v.natAbs⟩, ⟨ec, fun _ v x => x = v⟩] := rfl
  rw [hf] at h3
  obtain ⟨x1, x2, rfl, k1, k2⟩ : ∃ x1 x2, l = [(b!"a", x1), (b!"c", x2)] ∧ (∃ ds, x1 = [] ++ ds ∧ JsonInt ds ∧ decVal ds = 5) ∧ x2 = b!"x" := by
    cases h3 with
    | cons g1 g2 => cases g2 with
      | cons g3 g4 =>
        cases g4
        rename_i f1 f2
        obtain ⟨n1, y1⟩ := f1
        obtain ⟨n2, y2⟩ := f2
        obtain ⟨rfl, g1⟩ := g1
        obtain ⟨rfl, g3⟩ := g3
        exact ⟨_, _, rfl, g1, g3⟩
  obtain ⟨ds, rfl, hd, hd'⟩ := k1
  obtain rfl := digits_five hd hd'
  subst k2
  exact h2

/-- And back: of the entries of a map, those named as the members of `struct { std::string c; std::shared_ptr<std::string> d; }` are taken. -/
def exTaken : CStruct (Bytes × Option Bytes) :=
  .mk (.cons [b!"c"] (.string .scalar) (·.1) (fun x t => (x, t.2)) (.cons [b!"d"] (.sharedPtr (.string .scalar)) (·.2) (fun x t => (t.1, x)) .nil)) .nil

example : ∃ text mis un,
    serializeStruct (CType.map (fun l x => l ++ [x]) (.string .scalar)).handler [(b!"d", b!"y"), (b!"a", b!"5")] (userOpts true 4 0) = some text ∧
    Parses (CType.struct (b!"old", none) exTaken).handler {} {} (b!"old", none) text ⟨.noError, (b!"old", some b!"y"), mis, un⟩ := by
  let ec : Entry (Bytes × Option Bytes) := { names := [b!"c"], type := .string .scalar, get := (·.1), set := fun x t => (x, t.2) }
  let ed : Entry (Bytes × Option Bytes) := { names := [b!"d"], type := .sharedPtr (.string .scalar), get := (·.2), set := fun x t => (t.1, x) }
  have hes : exTaken.entries = [ec, ed] := rfl
  have hsen : exTaken.Sensible := by
    refine ⟨?_, ?_, ?_, ?_, ?_⟩
    · intro e he
      rw [hes] at he
      simp only [List.mem_cons, List.not_mem_nil, or_false] at he
      rcases he with rfl | rfl
      · exact ⟨b!"c", rfl, by decide, by quotable⟩
      · exact ⟨b!"d", rfl, by decide, by quotable⟩
    · rw [hes]; decide +kernel
    · rw [hes]; simp [ec, ed, Access.Apart, Entry.access]
    · intro e he x t
      rw [hes] at he
      simp only [List.mem_cons, List.not_mem_nil, or_false] at he
      rcases he with rfl | rfl <;> rfl
    · intro a b h
      rw [hes] at h
      simp [ec, ed] at h
      exact Prod.ext h.1 h.2
  have hl : (CType.struct (b!"old", none) exTaken).Lawful :=
    ⟨hsen, by simp [exTaken, CStruct.Fresh, CMembers.Fresh, CSupers.Fresh, CType.Fresh],
      by simp [exTaken, CStruct.Lawful, CMembers.Lawful, CSupers.Lawful, CType.Lawful]⟩
  let cs : List (AsMember Bytes (Bytes × Option Bytes)) :=
    [⟨ec, fun _ v x => x = v⟩, ⟨ed, fun _ v x => ∃ y, x = some y ∧ y = v⟩]
  have hn : Newer (.map (fun l x => l ++ [x]) (.string .scalar)) (.struct (b!"old", none) exTaken) _ :=
    .mapToStruct cs (by rw [hes]; rfl) (by
      simp only [cs, List.forall_mem_cons]
      exact ⟨.string, .toSharedPtr .string (fun v _ => ⟨_, by simp only [CType.enc]; rfl, by intro h; cases h⟩) trivial, by simp⟩)
      (by rw [hes]; simp [ec, ed]) (by rw [hes]; decide +kernel) hsen.apart hsen.stored
  have hv : (CType.map (fun l x => l ++ [x]) (.string .scalar)).Valid [(b!"d", b!"y"), (b!"a", b!"5")] := by
    simp only [CType.Valid, List.forall_mem_cons]
    exact ⟨by decide +kernel, rfl, ⟨by decide, by quotable, by decide +kernel, trivial, rfl⟩, ⟨by decide, by quotable, by decide +kernel, trivial, rfl⟩, by simp⟩
  obtain ⟨text, ⟨x1, x2⟩, mis, un, h1, h2, h3, h4⟩ := C95_evolution_new_variable_partial hn ⟨fun l x => List.perm_append_comm, trivial⟩ hl _ hv
    (j := .obj [(b!"d", .str b!"y"), (b!"a", .str b!"5")]) (by rfl) rfl (by decide +kernel) true 4 {}
  refine ⟨text, mis, un, h1, ?_⟩
  obtain ⟨y, k1, k2⟩ := h3 _ (.tail _ (.head _)) b!"d" b!"y" (by simp) rfl
  have k3 := h4 ec (by rw [hes]; simp) (by decide +kernel)
  have e1 : x1 = b!"old" := k3
  have e2 : x2 = some b!"y" := k2 ▸ k1
  subst e1 e2
  exact h2

/-! ### Changes that lose data -/

def u32 : IntTy := { bits := 32, signed := false }

/-- A signed integer becomes unsigned: the sign is lost, without an error. -/
theorem C95_false_unsigned :
    serializeStruct (CType.vector (.int i32)).handler [-7] (userOpts false 0 0) = some b!"[-7]" ∧
    Parses (CType.vector (.int u32)).handler {} {} [] b!"[-7]" ⟨.noError, [7], [], []⟩ :=
  ⟨by decide +kernel, parse_toks (v := .arr [.num b!"-7"]) (CType.sem _) _ (by example_text) (by decide +kernel)⟩

/-- The elements of a set become smaller: two of them become the same, which is an error. -/
theorem C95_false_set :
    serializeStruct (CType.set inferInstance (fun l x => l ++ [x]) (.int i32)).handler [300, 400] (userOpts false 0 0) = some b!"[300,400]" ∧
    Parses (CType.set inferInstance (fun l x => l ++ [x]) (.int { bits := 8, signed := true })).handler {} {} [] b!"[300,400]"
      ⟨.duplicateInSet, [127], [], []⟩ :=
  ⟨by decide +kernel, parse_toks (v := .arr [.num b!"300", .num b!"400"]) (CType.sem _) _ (by example_text) (by decide +kernel)⟩

/-- One value becomes a `std::vector`, which must be an array; `OneOrMany` is what is meant for this. -/
theorem C95_false_vector :
    serializeStruct (oneMember b!"a" (.int i32)).handler 1 (userOpts false 0 0) = some b!"{\"a\":1}" ∧
    Parses (oneMember b!"a" (.vector (.int i32))).handler {} {} [] b!"{\"a\":1}" ⟨.expectedArrayStart, [], [], []⟩ ∧
    Parses (oneMember b!"a" (.oneOrMany (.int i32))).handler {} {} [] b!"{\"a\":1}" ⟨.noError, [1], [], []⟩ :=
  ⟨by decide +kernel, parse_toks (v := .obj [(b!"a", .num b!"1")]) (CType.sem _) _ (by example_text) (by decide +kernel),
    parse_toks (v := .obj [(b!"a", .num b!"1")]) (CType.sem _) _ (by example_text) (by decide +kernel)⟩

/-- A pointer becomes a value: the text of a null pointer is not accepted. -/
theorem C95_false_pointer :
    serializeStruct (oneMember b!"a" (.sharedPtr (.int i32))).handler none (userOpts false 0 0) = some b!"{\"a\":null}" ∧
    Parses (oneMember b!"a" (.int i32)).handler {} {} 0 b!"{\"a\":null}" ⟨.failedToParseInt, 0, [], []⟩ :=
  ⟨by decide +kernel, parse_toks (v := .obj [(b!"a", .null)]) (CType.sem _) _ (by example_text) (by decide +kernel)⟩

/-- One vector becomes an `OneOrMany` of vectors: its elements are taken for the vectors. -/
theorem C95_false_many :
    serializeStruct (oneMember b!"a" (.vector (.int i32))).handler [1] (userOpts false 0 0) = some b!"{\"a\":[1]}" ∧
    Parses (oneMember b!"a" (.oneOrMany (.vector (.int i32)))).handler {} {} [] b!"{\"a\":[1]}" ⟨.expectedArrayStart, [[]], [], []⟩ :=
  ⟨by decide +kernel, parse_toks (v := .obj [(b!"a", .arr [.num b!"1"])]) (CType.sem _) _ (by example_text) (by decide +kernel)⟩

/-- Two members become one: the last one that is written wins. -/
theorem C95_false_merged :
    let t : CType (Int × Int) := .struct (0, 0) (.mk (.cons [b!"x"] (.int i32) (·.1) (fun x t => (x, t.2))
      (.cons [b!"y"] (.int i32) (·.2) (fun x t => (t.1, x)) .nil)) .nil)
    let t' : CType Int := .struct 0 (.mk (.cons [b!"x", b!"y"] (.int i32) id (fun x _ => x) .nil) .nil)
    serializeStruct t.handler (1, 2) (userOpts false 0 0) = some b!"{\"x\":1,\"y\":2}" ∧
    Parses t'.handler {} {} 0 b!"{\"x\":1,\"y\":2}" ⟨.noError, 2, [], []⟩ :=
  ⟨by decide +kernel, parse_toks (v := .obj [(b!"x", .num b!"1"), (b!"y", .num b!"2")]) (CType.sem _) _ (by example_text) (by decide +kernel)⟩

/-- A member is removed, and missing members are not allowed; a member is added, and required members must be there. -/
theorem C95_false_strict :
    serializeStruct (oneMember b!"a" .bool).handler true (userOpts false 0 0) = some b!"{\"a\":true}" ∧
    Parses (oneMember b!"b" .bool).handler {} { allowMissing := false } false b!"{\"a\":true}" ⟨.missingPropertyMember, false, [b!"a"], []⟩ ∧
    Parses (oneMember b!"b" .bool).handler {} { allowUnassigned := false } false b!"{\"a\":true}"
      ⟨.unassignedRequiredMember, false, [b!"a"], [b!"b"]⟩ :=
  ⟨by decide +kernel, parse_toks (v := .obj [(b!"a", .bool true)]) (CType.sem _) _ (by example_text) (by decide +kernel),
    parse_toks (v := .obj [(b!"a", .bool true)]) (CType.sem _) _ (by example_text) (by decide +kernel)⟩

end JsonStruct
