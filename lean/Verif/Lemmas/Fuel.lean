import Verif.Lemmas.Alike
import Verif.Lemmas.Call

/- A larger bound on the loops changes nothing for a reading that ends. -/

namespace JsonStruct

/-- The right one is the left one, or the left one has not ended. -/
def Upto (a b : Option α) : Prop := ∀ r, a = some r → b = some r

theorem Upto.refl (a : Option α) : Upto a a := fun _ h => h
theorem Upto.none {a : Option α} : Upto none a := fun _ h => by cases h

theorem Upto.bind {a b : Option α} {f g : α → Option β} (h : Upto a b) (hf : ∀ x, Upto (f x) (g x)) : Upto (a.bind f) (b.bind g) := by
  intro r hr
  obtain ⟨x, h1, h2⟩ := Option.bind_eq_some_iff.mp hr
  rw [h x h1, Option.bind_some]
  exact hf x r h2

theorem Upto.map {a b : Option α} (h : Upto a b) (f : α → β) : Upto (a.map f) (b.map f) := by
  intro r hr
  obtain ⟨x, h1, rfl⟩ := Option.map_eq_some_iff.mp hr
  rw [h x h1, Option.map_some]

theorem Upto.ite {p : Prop} [Decidable p] {a a' b b' : Option α} (h : Upto a a') (h' : Upto b b') :
    Upto (if p then a else b) (if p then a' else b') := by
  split
  · exact h
  · exact h'

def Steady (f : Nat → T → Ctx → Option (Err × T × Ctx)) : Prop := ∀ n m, n ≤ m → ∀ old c, Upto (f n old c) (f m old c)

theorem steady_of_eq {f : Nat → T → Ctx → Option (Err × T × Ctx)} (h : ∀ n m old c, f n old c = f m old c) : Steady f :=
  fun n m _ old c => by rw [h n m]; exact .refl _

theorem nullable_steady {h : Handler T} (hs : Steady h.to) : Steady (nullableH h).to :=
  fun n m hm old c => .ite (.refl _) (hs n m hm old c)
theorem nullableChecked_steady {h : Handler T} (hs : Steady h.to) : Steady (nullableCheckedH h).to :=
  fun n m hm old c => .ite (.refl _) ((hs n m hm old.1 c).map _)
theorem optionalChecked_steady {h : Handler T} (hs : Steady h.to) : Steady (optionalCheckedH h).to :=
  fun n m hm old c => (hs n m hm old.1 c).map _
theorem stdOptional_steady {h : Handler T} (hs : Steady h.to) : Steady (stdOptionalH h).to :=
  fun n m hm _ c => (hs n m hm h.init c).map _
theorem ptr_steady {h : Handler T} (hs : Steady h.to) : Steady (ptrH h).to :=
  fun n m hm old c => .ite ((hs n m hm (old.getD h.init) c).map _) (.refl _)

theorem vecLoop_steady {h : Handler T} (hs : Steady h.to) {f f' : Nat} (hf : f ≤ f') : ∀ (n m : Nat), n ≤ m → ∀ (acc : List T) (c : Ctx),
    Upto (vecLoop h f n acc c) (vecLoop h f' m acc c)
  | 0, _, _, _, _ => .none
  | n + 1, m + 1, hm, acc, c => by
    rw [vecLoop, vecLoop]
    exact .ite (.refl _) ((hs f f' hf h.init c).bind fun r => .ite (.refl _) (.ite (.refl _) (vecLoop_steady hs hf n m (by omega) _ _)))

theorem vec_steady {h : Handler T} (hs : Steady h.to) : Steady (vecH h).to :=
  fun n m hm _ _ => .ite (.refl _) (.ite (.refl _) (vecLoop_steady hs hm n m hm _ _))

theorem oneOrMany_steady {h : Handler T} (hs : Steady h.to) : Steady (oneOrManyH h).to :=
  fun n m hm old c => .ite ((vec_steady hs n m hm old c).map _) ((hs n m hm h.init c).map _)

theorem setLoop_steady [DecidableEq T] (ins : List T → T → List T) {h : Handler T} (hs : Steady h.to) {f f' : Nat} (hf : f ≤ f') :
    ∀ (n m : Nat), n ≤ m → ∀ (acc : List T) (c : Ctx), Upto (setLoop ins h f n acc c) (setLoop ins h f' m acc c)
  | 0, _, _, _, _ => .none
  | n + 1, m + 1, hm, acc, c => by
    rw [setLoop, setLoop]
    exact .ite (.refl _) ((hs f f' hf h.init c).bind fun r => .ite (.refl _) (.ite (.refl _) (.ite (.refl _) (setLoop_steady ins hs hf n m (by omega) _ _))))

theorem set_steady [DecidableEq T] (ins : List T → T → List T) {h : Handler T} (hs : Steady h.to) : Steady (setH ins h).to :=
  fun n m hm _ _ => .ite (.refl _) (.ite (.refl _) (setLoop_steady ins hs hm n m hm _ _))

theorem arrLoop_steady {h : Handler T} (hs : Steady h.to) {f f' : Nat} (hf : f ≤ f') : ∀ (old : List T) (c : Ctx),
    Upto (arrLoop h f old c) (arrLoop h f' old c)
  | [], _ => .refl _
  | x :: xs, c => by
    rw [arrLoop, arrLoop]
    exact .ite (.refl _) ((hs f f' hf x c).bind fun r => .ite (.refl _) ((arrLoop_steady hs hf xs _).bind fun r => .refl _))

theorem arr_steady (N : Nat) {h : Handler T} (hs : Steady h.to) : Steady (arrH N h).to :=
  fun _ _ hm old c => .ite (.refl _) ((arrLoop_steady hs hm old c.next).bind fun _ => .refl _)

theorem avcLoop_steady {h : Handler T} (hs : Steady h.to) {f f' : Nat} (hf : f ≤ f') (size : Nat) : ∀ (old : List T) (i : Nat) (c : Ctx),
    Upto (avcLoop h f size i old c) (avcLoop h f' size i old c)
  | [], _, _ => .refl _
  | x :: xs, i, c => by
    rw [avcLoop, avcLoop]
    exact .ite (.refl _) (.ite (.refl _) ((hs f f' hf x c).bind fun r => .ite (.refl _) ((avcLoop_steady hs hf size xs (i + 1) _).bind fun r => .refl _)))

theorem avc_steady (N : Nat) {h : Handler T} (hs : Steady h.to) : Steady (avcH N h).to :=
  fun _ _ hm old c => .ite (.refl _) ((avcLoop_steady hs hm old.2 old.1 0 c.next).bind fun _ => .refl _)

theorem tupCons_steady {h : Handler T} {t : TupleH Ts} (hs : Steady h.to) (ht : Steady t.to) : Steady (TupleH.cons h t).to :=
  fun n m hm old c => (hs n m hm old.1 c).bind fun _ => .ite (.refl _) (.ite (.refl _) ((ht n m hm old.2 _).map _))

theorem tuple_steady {t : TupleH Ts} (ht : Steady t.to) : Steady (tupleH t).to :=
  fun n m hm old c => .ite (.refl _) (.ite (.refl _) ((ht n m hm old c.next).bind fun _ => .refl _))

theorem mapLoop_steady (ins : List (Bytes × V) → Bytes × V → List (Bytes × V)) {h : Handler V} (hs : Steady h.to) {f f' : Nat} (hf : f ≤ f') :
    ∀ (n m : Nat), n ≤ m → ∀ (e : Err) (acc : List (Bytes × V)) (c : Ctx), Upto (mapLoop ins h f n e acc c) (mapLoop ins h f' m e acc c)
  | 0, _, _, _, _, _ => .none
  | n + 1, m + 1, hm, e, acc, c => by
    rw [mapLoop, mapLoop]
    exact .ite (.refl _) ((hs f f' hf h.init c).bind fun r => .ite (.refl _) (mapLoop_steady ins hs hf n m (by omega) _ _ _))

theorem map_steady (ins : List (Bytes × V) → Bytes × V → List (Bytes × V)) {h : Handler V} (hs : Steady h.to) : Steady (mapH ins h).to :=
  fun n m hm _ _ => .ite (.refl _) (.ite (.refl _) (mapLoop_steady ins hs hm n m hm _ _ _))

theorem tokensLoop_steady : ∀ (n m : Nat), n ≤ m → ∀ (level : Nat) (acc : List Tok) (c : Ctx), Upto (tokensLoop n level acc c) (tokensLoop m level acc c)
  | 0, _, _, _, _, _ => .none
  | n + 1, m + 1, hm, level, acc, c => by
    rw [tokensLoop, tokensLoop]
    exact .ite (.refl _) (.ite (.refl _) (tokensLoop_steady n m (by omega) _ _ _))

theorem tokens_steady : Steady tokensH.to :=
  fun n m hm _ _ => .ite (.refl _) (tokensLoop_steady n m hm _ _ _)

/-! ### Structs -/

theorem skipLoop_steady (a b : Ty) : ∀ (n m : Nat), n ≤ m → ∀ (d : Nat) (c : Ctx), Upto (skipLoop a b n d c) (skipLoop a b m d c)
  | 0, _, _, _, _ => .none
  | n + 1, m + 1, hm, d, c => by
    rw [skipLoop, skipLoop]
    exact .ite (.refl _) (.ite (.refl _) (skipLoop_steady a b n m (by omega) _ _))

theorem skip_steady {n m : Nat} (hm : n ≤ m) (c : Ctx) : Upto (skipArrayOrObject n c) (skipArrayOrObject m c) :=
  .ite (skipLoop_steady _ _ n m hm _ _) (.ite (skipLoop_steady _ _ n m hm _ _) (.refl _))

theorem unknown_steady {n m : Nat} (hm : n ≤ m) (c : Ctx) (name : Bytes) : Upto (c.unknown n name) (c.unknown m name) :=
  .ite ((skip_steady hm _).bind fun _ => .refl _) (.refl _)

theorem unpackVisit_steady {vs : List (Visit T)} (hM : ∀ v ∈ vs, Steady v.mem.to) (prim : Bool) {f f' : Nat} (hf : f ≤ f')
    (old : T) (c : Ctx) (asg : List Bool) : Upto (unpackVisit prim f old c asg vs) (unpackVisit prim f' old c asg vs) := by
  rw [unpackVisit_find, unpackVisit_find]
  cases h1 : vs.find? (fun v => v.mem.named prim c.token.name.bytes) with
  | some v => exact (hM v (List.mem_of_find?_eq_some h1) f f' hf old c).map _
  | none => exact .refl _

theorem find_steady {M : Meta T} (hM : ∀ v ∈ M.visit 0 [], Steady v.mem.to) {f f' : Nat} (hf : f ≤ f') (old : T) (c : Ctx) (asg : List Bool) :
    Upto (M.find f old c asg) (M.find f' old c asg) := by
  simp only [Meta.find, unpack_eq M 0 []]
  exact (unpackVisit_steady hM true hf old c asg).bind fun r => .ite (unpackVisit_steady hM false hf _ _ _) (.refl _)

theorem structLoop_steady {M : Meta T} (hM : ∀ v ∈ M.visit 0 [], Steady v.mem.to) {f f' : Nat} (hf : f ≤ f') :
    ∀ (n m : Nat), n ≤ m → ∀ (old : T) (c : Ctx) (asg : List Bool), Upto (structLoop M f n old c asg) (structLoop M f' m old c asg)
  | 0, _, _, _, _, _ => .none
  | n + 1, m + 1, hm, old, c, asg => by
    by_cases hv : c.token.valueType = .objectEnd
    · rw [structLoop, structLoop, if_pos hv, if_pos hv]; exact .refl _
    rw [structLoop_succ _ _ _ _ _ _ hv, structLoop_succ _ _ _ _ _ _ hv]
    refine (find_steady hM hf old c asg).bind fun r => Upto.bind (.ite (unknown_steady hf _ _) (.refl _)) fun q => ?_
    obtain ⟨stop, c2⟩ := q
    cases stop with
    | some e => exact .refl _
    | none => exact .ite (.refl _) (structLoop_steady hM hf n m (by omega) _ _ _)

theorem struct_steady {M : Meta T} (hM : ∀ v ∈ M.visit 0 [], Steady v.mem.to) : Steady (structTo M) :=
  fun n m hm _ _ => .ite (.refl _) (.ite (.refl _) ((structLoop_steady hM hm n m hm _ _ _).bind fun _ => .refl _))

theorem memberOf_steady {h : Handler M} (hs : Steady h.to) (names : List Bytes) (opt : Bool) (get : T → M) (set : M → T → T) :
    Steady (Member.of names opt h get set).to :=
  fun n m hm old c => (hs n m hm (get old) c).map _

theorem memberUp_steady {k : Member A} (hs : Steady k.to) (get : T → A) (set : A → T → T) : Steady (k.up get set).to :=
  fun n m hm old c => (hs n m hm (get old) c).map _

mutual
theorem CType.steady : {T : Type} → (t : CType T) → Steady t.handler.to
  | _, .bool | _, .int _ | _, .double | _, .float | _, .time _ | _, .string _ | _, .enum _ _ | _, .enumValue _ | _, .silentString _ => fun _ _ _ _ _ => .refl _
  | _, .nullable t => nullable_steady t.steady
  | _, .nullableChecked t => nullableChecked_steady t.steady
  | _, .optional t => t.steady
  | _, .optionalChecked t => optionalChecked_steady t.steady
  | _, .stdOptional t => stdOptional_steady t.steady
  | _, .sharedPtr t => ptr_steady t.steady
  | _, .uniquePtr t => ptr_steady t.steady
  | _, .silentVector t => vec_steady t.steady
  | _, .silentUniquePtr t => ptr_steady t.steady
  | _, .vector t => vec_steady t.steady
  | _, .oneOrMany t => oneOrMany_steady t.steady
  | _, .array N t => arr_steady N t.steady
  | _, .arrayVariable N t => avc_steady N t.steady
  | _, .tuple ts => tuple_steady ts.steady
  | _, .set _ ins t => set_steady ins t.steady
  | _, .map ins t => map_steady ins t.steady
  | _, .tokens => tokens_steady
  | _, .jmap => fun n m hm old c => (tokens_steady n m hm old.tokens c).map _
  | _, .struct _ s => struct_steady (all_visit (P := fun m => Steady m.to) _ s.steady 0 [])
theorem CTypes.steady : {Ts : Type} → (ts : CTypes Ts) → Steady ts.handler.to
  | _, .nil => fun _ _ _ _ _ => .refl _
  | _, .cons t ts => tupCons_steady t.steady ts.steady
theorem CStruct.steady : {T : Type} → (s : CStruct T) → s.meta.All (fun m => Steady m.to)
  | _, .mk ms ss => by rw [CStruct.meta]; exact .mk ms.steady ss.steady
theorem CMembers.steady : {T : Type} → (ms : CMembers T) → ∀ m ∈ ms.members, Steady m.to
  | _, .nil, m, hm => by simp [CMembers.members] at hm
  | _, .cons names t get set ms, m, hm => by
    rw [CMembers.members] at hm
    rcases List.mem_cons.mp hm with rfl | hm
    · exact memberOf_steady t.steady _ _ _ _
    · exact ms.steady m hm
theorem CSupers.steady : {T : Type} → (ss : CSupers T) → SupersAll (fun m => Steady m.to) ss.supers
  | _, .nil => .nil
  | _, .cons name get set s ss => by
    rw [CSupers.supers]
    exact .cons (all_up (fun m hm => memberUp_steady hm get set) _ s.steady) ss.steady
end

theorem parseTo_steady (t : CType T) {n m : Nat} (hm : n ≤ m) (old : T) (c : Ctx) : Upto (parseTo t.handler n old c) (parseTo t.handler m old c) := by
  simp only [parseTo]
  exact .ite (.refl _) ((t.steady n m hm old _).map _)

/-- One run that ends is all runs with bounds that are not smaller. -/
theorem parses_of_run (t : CType T) {o : Opts} {p : POpts} {text : Bytes} {old : T} {r : Res T} (n : Nat)
    (h : (parseTo t.handler n old (Ctx.onText o p text)).map (fun x => (⟨x.1, x.2.1, x.2.2.missing, x.2.2.unassigned⟩ : Res T)) = some r) :
    Parses t.handler o p old text r := by
  obtain ⟨⟨e, v, c⟩, h1, rfl⟩ := Option.map_eq_some_iff.mp h
  have he : c.error = e := by
    simp only [parseTo] at h1
    split at h1
    · cases h1; rfl
    · obtain ⟨x, -, g⟩ := Option.map_eq_some_iff.mp h1
      cases g; rfl
  exact ⟨n, c, fun m hm => parseTo_steady t hm old _ _ h1, rfl, rfl, he⟩

end JsonStruct
