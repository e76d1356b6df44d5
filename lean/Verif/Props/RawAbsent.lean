import Verif.Props.Absent
import Verif.Props.Source
import Verif.Props.Codec

/-
C91, C89: which members may be absent, for types with raw captures in them and for types with users' own handlers.
-/

namespace JsonStruct

/-- A raw capture is required like a number or a string; the wrappers are as in `CType.MayBeAbsent`. -/
def RType.MayBeAbsent : RType T → Prop
  | .lib t => t.MayBeAbsent
  | .optional _ | .optionalChecked _ | .stdOptional _ | .uniquePtr _ | .silentVector _ | .silentUniquePtr _ => True
  | .raw _ _ | .rawRef _ | .nullable _ | .nullableChecked _ | .sharedPtr _ | .vector _ | .oneOrMany _ | .array _ _ | .arrayVariable _ _ | .tuple _
  | .set _ _ _ | .map _ _ | .struct _ _ => False

/-- A type with a handler of its own may be absent if it declares `IsOptionalType`. -/
def KType.MayBeAbsent : KType T → Prop
  | .lib t => t.MayBeAbsent
  | .own k => k.optional = true
  | .optional _ | .optionalChecked _ | .stdOptional _ | .uniquePtr _ | .silentVector _ | .silentUniquePtr _ => True
  | .nullable _ | .nullableChecked _ | .sharedPtr _ | .vector _ | .oneOrMany _ | .array _ _ | .arrayVariable _ _ | .tuple _
  | .set _ _ _ | .map _ _ | .struct _ _ => False

theorem r_mayBeAbsent_iff (t : RType T) : t.isOptional = true ↔ t.MayBeAbsent := by
  cases t <;> simp [RType.isOptional, RType.MayBeAbsent, mayBeAbsent_iff]

theorem k_mayBeAbsent_iff (t : KType T) : t.isOptional = true ↔ t.MayBeAbsent := by
  cases t <;> simp [KType.isOptional, KType.MayBeAbsent, mayBeAbsent_iff]

/-- A struct with a single member. -/
def rOneMember (n : Bytes) (t : RType T) : RType T := .struct t.init (.mk (.cons [n] t id (fun x _ => x) .nil) .nil)
def kOneMember (n : Bytes) (t : KType T) : KType T := .struct t.init (.mk (.cons [n] t id (fun x _ => x) .nil) .nil)

/-- **C91**, which members are required, as `C19_required_types` for types with raw captures: an object without members, read into a struct
with a single member, leaves the struct as it was, and the member is reported, and an error if required members must not be missing,
exactly if it may not be absent. -/
theorem C91_required_types (n : Bytes) (t : RType T) {o : Opts} (hn : o.newLines = false) (p : POpts) {text : Bytes}
    (ht : Doc (lenient o) (.obj []) text) (old : T) :
    ∃ r, Parses (rOneMember n t).handler o p old text r ∧ r.val = old ∧ r.missing = [] ∧
      (t.MayBeAbsent → r.err = .noError ∧ r.unassigned = []) ∧
      (¬ t.MayBeAbsent → r.err = (if p.allowUnassigned then .noError else .unassignedRequiredMember) ∧ r.unassigned = if p.track then [n] else []) := by
  have hq : qualifiedName [] n = n := by simp [qualifiedName]
  have hu : unassignedNames (((RStruct.mk (.cons [n] t id (fun x _ => x) .nil) .nil).aspecs []).map AMemberSpec.named) [] =
      if t.isOptional then [] else [n] := by
    have hs : (RStruct.mk (.cons [n] t id (fun x _ => x) .nil) .nil).aspecs [] =
        [⟨qualifiedName [] n, [n], t.isOptional, partADec id (fun x _ => x) t.adec⟩] := rfl
    rw [hs, hq]
    cases t.isOptional <;> rfl
  obtain ⟨a, ha, hl⟩ := C91_every_document ht
  obtain ⟨s, rfl⟩ : ∃ s, a = .obj s [] := by
    cases a <;> simp only [AVal.plain, reduceCtorEq, JVal.obj.injEq] at ha
    rename_i s ms
    cases ms with
    | nil => exact ⟨s, rfl⟩
    | cons m ms => obtain ⟨k, v⟩ := m; simp [plainMembers] at ha
  have hd : (rOneMember n t).adec p old (aelem (.obj s [])) =
      some ⟨if (if t.isOptional then [] else [n]) = [] ∨ p.allowUnassigned = true then .noError else .unassignedRequiredMember, old, [],
        if p.track then (if t.isOptional then [] else [n]) else []⟩ := by
    simp only [rOneMember, RType.adec, structADec, objectADec, aelem, membersADec, Option.bind_eq_bind, Option.bind_some, plainMembers, hu]
    rw [Res.andThen_ok rfl]
    simp
  refine ⟨_, C91_captures_partial _ hn p rfl (.inr hl) hd, ?_⟩
  simp only [← r_mayBeAbsent_iff]
  cases t.isOptional <;> cases p.allowUnassigned <;> simp

/-- **C89**, which members are required: the same for types with users' own handlers. -/
theorem C89_required_types (n : Bytes) (t : KType T) (hl : (kOneMember n t).Lawful) {o : Opts} (hn : o.newLines = false) (p : POpts) {text : Bytes}
    (ht : Doc (lenient o) (.obj []) text) (old : T) :
    ∃ r, Parses (kOneMember n t).handler o p old text r ∧ r.val = old ∧ r.missing = [] ∧
      (t.MayBeAbsent → r.err = .noError ∧ r.unassigned = []) ∧
      (¬ t.MayBeAbsent → r.err = (if p.allowUnassigned then .noError else .unassignedRequiredMember) ∧ r.unassigned = if p.track then [n] else []) := by
  have hq : qualifiedName [] n = n := by simp [qualifiedName]
  have hu : unassignedNames ((KStruct.mk (.cons [n] t id (fun x _ => x) .nil) .nil).specs []) [] = if t.isOptional then [] else [n] := by
    have hs : (KStruct.mk (.cons [n] t id (fun x _ => x) .nil) .nil).specs [] =
        [⟨qualifiedName [] n, [n], t.isOptional, partDec id (fun x _ => x) t.dec⟩] := rfl
    rw [hs, hq]
    cases t.isOptional <;> rfl
  have hd : (kOneMember n t).dec p old (.val ([], .ascii) (.obj [])) =
      some ⟨if (if t.isOptional then [] else [n]) = [] ∨ p.allowUnassigned = true then .noError else .unassignedRequiredMember, old, [],
        if p.track then (if t.isOptional then [] else [n]) else []⟩ := by
    simp only [kOneMember, KType.dec, structDec, objectDec, membersDec, Option.bind_eq_bind, Option.bind_some, hu]
    rw [Res.andThen_ok rfl]
    simp
  refine ⟨_, parse_doc ((kOneMember n t).sem hl) hn p rfl ht hd, ?_⟩
  simp only [← k_mayBeAbsent_iff]
  cases t.isOptional <;> cases p.allowUnassigned <;> simp

/-- The hypotheses are met; both kinds of types exist. -/
example : Doc (lenient {}) (.obj []) b!"{}" ∧ ¬ (RType.raw .object 0).MayBeAbsent ∧ (RType.stdOptional (.raw .object 0)).MayBeAbsent ∧
    (kOneMember b!"n" (.vector (.own readmeCodec))).Lawful := by
  refine ⟨doc_mono (rfc_le {}) ⟨[], _, [], by simp [rfc, Ws], .objEmpty (w := []) (by simp [rfc, Ws]), by simp [rfc, Ws], rfl⟩, fun h => h, trivial, ?_⟩
  refine ⟨⟨?_, ?_, ?_, ?_, ?_⟩, ?_, ?_⟩
  · intro e he
    simp only [KStruct.entries, KMembers.entries, KSupers.entries, List.append_nil, List.mem_cons, List.not_mem_nil, or_false] at he
    subst he
    exact ⟨b!"n", rfl, by decide, by quotable⟩
  · simp [KStruct.entries, KMembers.entries, KSupers.entries]
  · simp [KStruct.entries, KMembers.entries, KSupers.entries]
  · intro e he x t
    simp only [KStruct.entries, KMembers.entries, KSupers.entries, List.append_nil, List.mem_cons, List.not_mem_nil, or_false] at he
    subst he
    rfl
  · intro a b h
    simpa [KStruct.entries, KMembers.entries, KSupers.entries] using h
  · simp only [KStruct.Fresh, KMembers.Fresh, KSupers.Fresh, KType.Fresh, and_true]
  · simp only [KStruct.Lawful, KMembers.Lawful, KSupers.Lawful, KType.Lawful, and_true]
    exact C89_readme

end JsonStruct
