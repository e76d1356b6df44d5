import Verif.Props.Container
import Verif.Props.RoundTrip

/-
C19: which members may be absent; C01 if required members must not be.
-/

namespace JsonStruct

/-- **C19**, which members are required: an object without members, read into a struct with a single member of any type, leaves the
struct as it was. If required members must not be missing, it is an error exactly for the types that may not be absent; if they may,
it is none, and the member is reported exactly for these types. -/
theorem C19_required_types (n : Bytes) (t : CType T) {o : Opts} (hn : o.newLines = false) (p : POpts) {text : Bytes}
    (ht : Doc (lenient o) (.obj []) text) (old : T) :
    ∃ r, Parses (oneMember n t).handler o p old text r ∧ r.val = old ∧ r.missing = [] ∧
      (t.MayBeAbsent → r.err = .noError ∧ r.unassigned = []) ∧
      (¬ t.MayBeAbsent → r.err = (if p.allowUnassigned then .noError else .unassignedRequiredMember) ∧ r.unassigned = if p.track then [n] else []) := by
  have hs : (CStruct.mk (.cons [n] t id (fun x _ => x) .nil) .nil).specs [] = [⟨qualifiedName [] n, [n], t.isOptional, partDec id (fun x _ => x) t.dec⟩] := rfl
  have hq : qualifiedName [] n = n := by simp [qualifiedName]
  have hu : unassignedNames ((CStruct.mk (.cons [n] t id (fun x _ => x) .nil) .nil).specs []) [] = if t.isOptional then [] else [n] := by
    rw [hs, hq]
    cases t.isOptional <;> rfl
  have hd := struct_dec_ok (init := t.init) (s := CStruct.mk (.cons [n] t id (fun x _ => x) .nil) .nil) (p := p) (old := old) (l := ([], .ascii)) (ms := [])
    (by simp [membersDec]; rfl) rfl
  refine ⟨_, parse_doc (oneMember n t).sem hn p rfl ht hd, ?_⟩
  rw [hu]
  simp only [← mayBeAbsent_iff]
  cases t.isOptional <;> cases p.allowUnassigned <;> simp

/-- The hypotheses are met. -/
example : Doc (lenient {}) (.obj []) b!"{ }" ∧ (CType.silentString .sse2).MayBeAbsent ∧ ¬ (CType.oneOrMany .bool).MayBeAbsent :=
  ⟨doc_mono (rfc_le {}) ⟨[], _, [], by simp [rfc, Ws], .objEmpty (w := b!" ") (by simp [rfc, Ws]; decide), by simp [rfc, Ws], rfl⟩, trivial, fun h => h⟩

/-- **C01**, partial, for all options: no matter which members must be present and which may be unknown, the value is read back, and no
member is reported missing. The type has no member that is required but left out when empty (`C01_false_strict`). The rest is as in
`C01_round_trip_partial`. -/
theorem C01_strict_partial (t : CType T) (ht : t.Lawful) (hc : t.WritesRequired) (v : T) (hv : t.Valid v) {j : JVal} (hj : t.enc v = some j)
    (hcon : j.isContainer = true) (hd : j.depth ≤ 255) (pretty : Bool) (shift : Nat) (o : Opts) (p : POpts) (old : T) (ho : t.Fresh old) :
    ∃ text, serializeStruct t.handler v (userOpts pretty shift 0) = some text ∧ Doc rfcBytes j text ∧
      Parses t.handler o p old text ⟨.noError, v, [], []⟩ := by
  obtain ⟨text, h1, h2, h3⟩ := serialized_lines t ht v hv hj pretty shift 0 (by omega)
  obtain ⟨un, hu, hun⟩ := (t.roundTrips ht).full hj hv ho (.inr hc) ([], .ascii) (p := p)
  obtain rfl := hun hc
  exact ⟨text, h1, h2, parse_toks t.sem p (delivers_written o hcon h2 h3) hu⟩

/-- The hypotheses are met by the struct of `C01_round_trip_partial`, which has a pointer, and by a struct with an empty `SilentString`. -/
theorem exDerived_complete : exDerived.WritesRequired := by
  have hint : ∀ v, (CType.int i32).Valid v → ((CType.int i32).enc v).isSome := fun v hv => by
    obtain ⟨txt, h, _⟩ := intDec_enc hv.1 hv.2 {} 0 ([], .ascii)
    simp [CType.enc, h]
  simp only [exDerived, exPoint, exBase, CType.WritesRequired, CStruct.WritesRequired, CMembers.WritesRequired, CSupers.WritesRequired, CTypes.WritesRequired, and_true]
  refine ⟨⟨.inr fun _ _ => rfl, .inr fun _ _ => rfl, .inl trivial, .inr hint, .inr fun v hv => ?_⟩, .inr fun _ _ => rfl⟩
  simp only [CType.Valid] at hv
  simpa [CType.enc] using hint v hv.1

example : exDerived.Lawful ∧ exDerived.WritesRequired ∧ exDerived.Valid exValue ∧ exDerived.Fresh exDerived.init :=
  ⟨exDerived_lawful, exDerived_complete, exDerived_valid, exDerived.fresh_init exDerived_lawful⟩

example : (oneMember b!"a" (.silentString .sse2)).WritesRequired := by
  simp [oneMember, CType.WritesRequired, CStruct.WritesRequired, CMembers.WritesRequired, CSupers.WritesRequired, CType.MayBeAbsent]

/-- **C01** is false for an empty `OneOrMany` if required members must not be missing: nothing is written for it, but it is required. -/
theorem C01_false_strict :
    let t := oneMember b!"a" (.oneOrMany .bool)
    serializeStruct t.handler [] (userOpts false 0 0) = some b!"{}" ∧
    Parses t.handler {} { allowUnassigned := false } [] b!"{}" ⟨.unassignedRequiredMember, [], [], [b!"a"]⟩ :=
  ⟨by decide +kernel, parse_toks (v := .obj []) (CType.sem _) _ (by example_text) (by decide +kernel)⟩

end JsonStruct
