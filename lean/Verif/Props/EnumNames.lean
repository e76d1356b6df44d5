import Verif.Model.EnumNames
import Verif.Props.Container

/- C63: the names of enumerations declared with `JS_ENUM`. -/

namespace JsonStruct

/-! ### The specification: what the arguments of the macro look like -/

/-- A byte that may stand in an identifier of C++. -/
def identByte (c : UInt8) : Prop :=
  (0x41 ≤ c ∧ c ≤ 0x5A) ∨ (0x61 ≤ c ∧ c ≤ 0x7A) ∨ (0x30 ≤ c ∧ c ≤ 0x39) ∨ c = 0x5F

/-- An identifier: letters, digits and underscores, not starting with a digit. -/
def Ident (n : Bytes) : Prop := (∀ c ∈ n, identByte c) ∧ ∃ c s, n = c :: s ∧ ¬(0x30 ≤ c ∧ c ≤ 0x39)

/-- White space between the tokens of C++. -/
def Blank (w : Bytes) : Prop := ∀ c ∈ w, c = SPACE ∨ c = TAB ∨ c = LF ∨ c = CR

/-- The text is a list of enumerators, without values: separated by commas, a last comma is allowed. -/
inductive EnumText : List Bytes → Bytes → Prop
  | last {n w w'} : Ident n → Blank w → Blank w' → EnumText [n] (w ++ n ++ w')
  | lastComma {n w w' w''} : Ident n → Blank w → Blank w' → Blank w'' → EnumText [n] (w ++ n ++ w' ++ COMMA :: w'')
  | cons {n ns w w' t} : Ident n → Blank w → Blank w' → EnumText ns t → EnumText (n :: ns) (w ++ n ++ w' ++ COMMA :: t)

/-! ### Lemmas -/

theorem enumScan_start_blank {w : Bytes} (hw : Blank w) (t : Bytes) : enumScan .findStart (w ++ t) = enumScan .findStart t := by
  induction w with
  | nil => rfl
  | cons c w ih =>
    have hc := hw c List.mem_cons_self
    rw [List.cons_append, enumScan]
    have : c ≠ 0x3D ∧ EnumScan.findStart.step c = ([], .findStart) := by
      rcases hc with rfl | rfl | rfl | rfl <;> decide
    rw [if_neg this.1, this.2, ih fun c hc => hw c (List.mem_cons_of_mem _ hc)]
    simp

theorem enumScan_sep_blank {w : Bytes} (hw : Blank w) (t : Bytes) : enumScan .findSep (w ++ t) = enumScan .findSep t := by
  induction w with
  | nil => rfl
  | cons c w ih =>
    have hc := hw c List.mem_cons_self
    rw [List.cons_append, enumScan]
    have : c ≠ 0x3D ∧ EnumScan.findSep.step c = ([], .findSep) := by
      rcases hc with rfl | rfl | rfl | rfl <;> decide
    rw [if_neg this.1, this.2, ih fun c hc => hw c (List.mem_cons_of_mem _ hc)]
    simp

instance (c : UInt8) : Decidable (identByte c) := by unfold identByte; infer_instance

theorem identByte_inner : ∀ c : UInt8, identByte c → c ≠ 0x3D ∧ endsName c = false :=
  fun c => forall_byte (p := fun c => decide (identByte c → c ≠ 0x3D ∧ endsName c = false)) (by decide +kernel) c |> of_decide_eq_true

theorem identByte_letter : ∀ c : UInt8, identByte c → ¬(0x30 ≤ c ∧ c ≤ 0x39) → c ≠ 0x5F → isLetter c = true :=
  fun c => forall_byte (p := fun c => decide (identByte c → ¬(0x30 ≤ c ∧ c ≤ 0x39) → c ≠ 0x5F → isLetter c = true))
    (by decide +kernel) c |> of_decide_eq_true

theorem enumScan_name {s : Bytes} (hs : ∀ c ∈ s, identByte c) (acc t : Bytes) :
    enumScan (.findEnd acc) (s ++ t) = enumScan (.findEnd (s.reverse ++ acc)) t := by
  induction s generalizing acc with
  | nil => rfl
  | cons c s ih =>
    obtain ⟨h1, h2⟩ := identByte_inner c (hs c List.mem_cons_self)
    rw [List.cons_append, enumScan, if_neg h1]
    have : (EnumScan.findEnd acc).step c = ([], .findEnd (c :: acc)) := by simp [EnumScan.step, h2]
    rw [this, ih fun c hc => hs c (List.mem_cons_of_mem _ hc)]
    simp

theorem enumScan_ident {n w : Bytes} (hn : Ident n) (hu : n.head? ≠ some 0x5F) (hw : Blank w) (t : Bytes) :
    enumScan .findStart (w ++ n ++ t) = enumScan (.findEnd n.reverse) t := by
  obtain ⟨hall, c, s, rfl, hd⟩ := hn
  rw [List.append_assoc, enumScan_start_blank hw, List.cons_append, enumScan]
  have hl := identByte_letter c (hall c List.mem_cons_self) hd (by simpa using hu)
  rw [if_neg (identByte_inner c (hall c List.mem_cons_self)).1]
  have : EnumScan.findStart.step c = ([], .findEnd [c]) := by simp [EnumScan.step, hl]
  rw [this, enumScan_name fun c hc => hall c (List.mem_cons_of_mem _ hc)]
  simp

/-- Blanks and a comma behind a name. -/
theorem enumScan_comma {n w : Bytes} (hw : Blank w) (t : Bytes) :
    enumScan (.findEnd n.reverse) (w ++ COMMA :: t) = (enumScan .findStart t).map (n :: ·) := by
  cases w with
  | nil =>
    rw [List.nil_append, enumScan, if_neg (by decide)]
    have : (EnumScan.findEnd n.reverse).step COMMA = ([n], .findStart) := by
      simp [EnumScan.step, show endsName COMMA = true by decide]
    rw [this]; rfl
  | cons c w =>
    have hc := hw c List.mem_cons_self
    have hc' : c ≠ 0x3D ∧ endsName c = true ∧ c ≠ COMMA := by
      rcases hc with rfl | rfl | rfl | rfl <;> decide
    rw [List.cons_append, enumScan, if_neg hc'.1]
    have : (EnumScan.findEnd n.reverse).step c = ([n], .findSep) := by simp [EnumScan.step, hc'.2.1, hc'.2.2]
    rw [this, enumScan_sep_blank fun c hc => hw c (List.mem_cons_of_mem _ hc), enumScan, if_neg (by decide)]
    simp [EnumScan.step]

/-- Blanks and the end behind a name. -/
theorem enumScan_end {n w : Bytes} (hw : Blank w) : enumScan (.findEnd n.reverse) (w ++ [0]) = some [n] := by
  cases w with
  | nil =>
    simp [enumScan, EnumScan.step, show endsName 0 = true by decide]
  | cons c w =>
    have hc := hw c List.mem_cons_self
    have hc' : c ≠ 0x3D ∧ endsName c = true ∧ c ≠ COMMA := by
      rcases hc with rfl | rfl | rfl | rfl <;> decide
    rw [List.cons_append, enumScan, if_neg hc'.1]
    have : (EnumScan.findEnd n.reverse).step c = ([n], .findSep) := by simp [EnumScan.step, hc'.2.1, hc'.2.2]
    rw [this, enumScan_sep_blank fun c hc => hw c (List.mem_cons_of_mem _ hc), show enumScan .findSep [0] = some [] by decide]
    rfl

/-! ### C63 -/

/-- **C63**. For every list of enumerators, written with any white space between them and with or without a last comma, the
table of names holds exactly the enumerators, in their order. Missing: names that start with an underscore
(`C63_false_underscore`). -/
theorem C63_names_partial (names : List Bytes) (hu : ∀ n ∈ names, n.head? ≠ some 0x5F) (text : Bytes) (ht : EnumText names text) :
    populateEnumNames text = some names := by
  unfold populateEnumNames
  induction ht with
  | last hn hw hw' =>
    rw [List.append_assoc, enumScan_ident hn (hu _ (by simp)) hw, enumScan_end hw']
  | @lastComma n w w' w'' hn hw hw' hw'' =>
    rw [List.append_assoc, List.append_assoc, enumScan_ident hn (hu _ (by simp)) hw, List.cons_append, enumScan_comma hw',
      enumScan_start_blank hw'', show enumScan .findStart [0] = some [] by decide]
    rfl
  | @cons n ns w w' t hn hw hw' _ ih =>
    rw [List.append_assoc, List.append_assoc, enumScan_ident hn (hu _ (by simp)) hw, List.cons_append, enumScan_comma hw',
      ih fun n hn => hu n (List.mem_cons_of_mem _ hn)]
    rfl

theorem ident_quotable {n : Bytes} (hn : Ident n) : Quotable n := by
  obtain ⟨h, -⟩ := hn
  induction n with
  | nil => exact .nil
  | cons c n ih =>
    have : c ≠ 0x22 ∧ c ≠ 0x5C :=
      forall_byte (p := fun c => decide (identByte c → c ≠ 0x22 ∧ c ≠ 0x5C)) (by decide +kernel) c |> of_decide_eq_true
        <| h c List.mem_cons_self
    exact .plain this.1 this.2 (ih fun c hc => h c (List.mem_cons_of_mem _ hc))

theorem EnumText.idents {names text} (h : EnumText names text) : ∀ n ∈ names, Ident n := by
  induction h with
  | last hn => simpa using hn
  | lastComma hn => simpa using hn
  | cons hn _ _ _ ih =>
    intro m hm
    rcases List.mem_cons.mp hm with rfl | hm
    · exact hn
    · exact ih m hm

/-- **C63**, with C22: values of an enumeration declared with `JS_ENUM` are written as the identifiers of their enumerators,
and are read back. Enumerator `i` has the value `i`. -/
theorem C63_round_trip_partial (names : List Bytes) (hnd : names.Nodup) (hu : ∀ n ∈ names, n.head? ≠ some 0x5F) (decl : Bytes)
    (ht : EnumText names decl) (U : IntTy)
    (vs : List Int) (hvs : ∀ v ∈ vs, 0 ≤ v ∧ v < names.length) (pretty : Bool) (shift : Nat) (o : Opts)
    (p : POpts) (hp : p.allowUnassigned = true) (old : List Int) :
    ∃ table, populateEnumNames decl = some table ∧
      let t : CType (List Int) := .vector (.enum table U)
      ∃ text un, serializeStruct t.handler vs (userOpts pretty shift 0) = some text ∧
        Doc rfcBytes (.arr (vs.filterMap fun v => (names[v.toNat]?).map JVal.str)) text ∧
        Parses t.handler o p old text ⟨.noError, vs, [], un⟩ :=
  ⟨names, C63_names_partial names hu decl ht,
    C22_enum_round_trip names U hnd (fun n hm => ident_quotable (ht.idents n hm)) vs hvs pretty shift o p hp old⟩

/-- **C63** is false for names that start with an underscore: `JS_ENUM(E, _a, b)` has the name `a`, and
`JS_ENUM(E, _1, b)` has only the name `b`, which stands for `_1`: reading `"b"` gives 0, and writing `b` is undefined. -/
theorem C63_false_underscore :
    EnumText [b!"_a", b!"b"] b!"_a, b" ∧ populateEnumNames b!"_a, b" = some [b!"a", b!"b"] ∧
    EnumText [b!"_1", b!"b"] b!"_1, b" ∧ populateEnumNames b!"_1, b" = some [b!"b"] ∧
    (let t : CType (List Int) := .vector (.enum [b!"b"] i32)
     Parses t.handler {} {} [] b!"[\"b\"]" ⟨.noError, [0], [], []⟩ ∧ serializeStruct t.handler [1] (userOpts false 0 0) = none) := by
  have hb : EnumText [b!"b"] b!" b" :=
    EnumText.last (n := b!"b") (w := b!" ") (w' := []) (by unfold Ident; exact ⟨by decide, _, _, rfl, by decide⟩)
      (by unfold Blank; decide) (by unfold Blank; decide)
  refine ⟨?_, by decide, ?_, by decide,
    parse_toks (v := .arr [.str b!"b"]) (CType.sem _) _ (by example_text) (by decide +kernel), by decide +kernel⟩
  · exact EnumText.cons (n := b!"_a") (w := []) (w' := []) ⟨by decide, _, _, rfl, by decide⟩ (by unfold Blank; decide) (by unfold Blank; decide) hb
  · exact EnumText.cons (n := b!"_1") (w := []) (w' := []) ⟨by decide, _, _, rfl, by decide⟩ (by unfold Blank; decide) (by unfold Blank; decide) hb

/-- The hypotheses are met: `JS_ENUM(E, red , b_2,)`. -/
example : EnumText [b!"red", b!"b_2"] b!"red , b_2," ∧ (∀ n ∈ [b!"red", b!"b_2"], n.head? ≠ some 0x5F) ∧
    [b!"red", b!"b_2"].Nodup ∧ populateEnumNames b!"red , b_2," = some [b!"red", b!"b_2"] := by
  refine ⟨?_, by decide, by decide, by decide⟩
  refine EnumText.cons (n := b!"red") (w := []) (w' := b!" ") ⟨by decide, _, _, rfl, by decide⟩ (by unfold Blank; decide) (by unfold Blank; decide) ?_
  exact EnumText.lastComma (n := b!"b_2") (w := b!" ") (w' := []) (w'' := []) ⟨by decide, _, _, rfl, by decide⟩ (by unfold Blank; decide)
    (by unfold Blank; decide) (by unfold Blank; decide)

end JsonStruct
