import Verif.Spec.Saved
import Verif.Lemmas.RoundTrip
import Verif.Lemmas.Success

/- What was read can be saved: reading keeps what `CType.Valid` says about the way values are put together. -/

namespace JsonStruct

mutual
/-- `CType.Valid` without what `CType.Ordinary` says. -/
def CType.Kept : {T : Type} → CType T → T → Prop
  | _, .bool, _ | _, .double, _ | _, .float, _ | _, .time _, _ | _, .string _, _ | _, .silentString _, _ => True
  | _, .int I, v | _, .enumValue I, v => I.Supported ∧ I.InRange v
  | _, .enum names _, _ => names.Nodup ∧ ∀ n ∈ names, Quotable n
  | _, .nullable t, v => t.Kept v ∧ (t.Ordinary v → t.enc v ≠ some .null)
  | _, .nullableChecked t, v => t.Kept v.1 ∧ (v.2 = false → t.Ordinary v.1 → t.Solid v.1)
  | _, .optional t, v => t.Kept v
  | _, .optionalChecked t, v => t.Kept v.1 ∧ (v.2 = true → t.Ordinary v.1 → (t.enc v.1).isSome) ∧ (v.2 = false → v.1 = t.init)
  | _, .stdOptional t, v => ∀ x, v = some x → t.Kept x ∧ (t.Ordinary x → (t.enc x).isSome)
  | _, .sharedPtr t, v | _, .uniquePtr t, v | _, .silentUniquePtr t, v => ∀ x, v = some x → t.Kept x ∧ (t.Ordinary x → t.Solid x)
  | _, .silentVector t, v | _, .vector t, v => ∀ x ∈ v, t.Kept x ∧ (t.Ordinary x → (t.enc x).isSome)
  | _, .oneOrMany t, v => (∀ x ∈ v, t.Kept x ∧ (t.Ordinary x → (t.enc x).isSome)) ∧ ∀ x vs, v = [x] → t.enc x ≠ some (.arr vs)
  | _, .array N t, v => v.length = N ∧ ∀ x ∈ v, t.Kept x ∧ (t.Ordinary x → (t.enc x).isSome)
  | _, .arrayVariable count t, v => v.1.length = count ∧ (v.2 < count ∨ v.2 = 0) ∧ (∀ x ∈ v.1, t.Kept x) ∧
      ∀ x ∈ v.1.take v.2, t.Ordinary x → (t.enc x).isSome
  | _, .tuple ts, v => ts.Kept v
  | _, .set _ ins t, v => v.Nodup ∧ v.foldl ins [] = v ∧ ∀ x ∈ v, t.Kept x ∧ (t.Ordinary x → (t.enc x).isSome)
  | _, .map ins t, v => (v.map Prod.fst).Nodup ∧ v.foldl ins [] = v ∧ ∀ e ∈ v, t.Kept e.2 ∧ (t.Ordinary e.2 → (t.enc e.2).isSome)
  | _, .tokens, _ | _, .jmap, _ => False
  | _, .struct _ s, v => s.Kept v
def CTypes.Kept : {Ts : Type} → CTypes Ts → Ts → Prop
  | _, .nil, _ => True
  | _, .cons t ts, v => (t.Kept v.1 ∧ (t.Ordinary v.1 → (t.enc v.1).isSome)) ∧ ts.Kept v.2
def CStruct.Kept : {T : Type} → CStruct T → T → Prop
  | _, .mk ms ss, v => ms.Kept v ∧ ss.Kept v
def CMembers.Kept : {T : Type} → CMembers T → T → Prop
  | _, .nil, _ => True
  | _, .cons _ t get _ ms, v => t.Kept (get v) ∧ ms.Kept v
def CSupers.Kept : {T : Type} → CSupers T → T → Prop
  | _, .nil, _ => True
  | _, .cons _ get _ s ss, v => s.Kept (get v) ∧ ss.Kept v
end

mutual
theorem CType.valid_of : {T : Type} → (t : CType T) → ∀ v, t.Kept v → t.Ordinary v → t.Valid v
  | _, .bool, v, _, _ | _, .string _, v, _, _ | _, .silentString _, v, _, _ => by simp only [CType.Valid]
  | _, .double, v, _, h | _, .float, v, _, h | _, .time _, v, _, h => by simpa only [CType.Valid, CType.Ordinary] using h
  | _, .int _, v, h, _ | _, .enumValue _, v, h, _ => by simpa only [CType.Valid, CType.Kept] using h
  | _, .enum _ _, v, h, h' => by
    simp only [CType.Valid, CType.Kept, CType.Ordinary] at *
    exact ⟨h.1, h.2, h'⟩
  | _, .nullable t, v, h, h' => by
    simp only [CType.Valid, CType.Kept, CType.Ordinary] at *
    exact ⟨t.valid_of v h.1 h', h.2 h'⟩
  | _, .nullableChecked t, v, h, h' => by
    simp only [CType.Valid, CType.Kept, CType.Ordinary] at *
    split
    · next hb => rw [if_pos hb] at h'; exact h'
    · next hb => rw [if_neg hb] at h'; exact ⟨t.valid_of _ h.1 h', h.2 (by simpa using hb) h'⟩
  | _, .optional t, v, h, h' => by
    simp only [CType.Valid, CType.Kept, CType.Ordinary] at *
    exact t.valid_of v h h'
  | _, .optionalChecked t, v, h, h' => by
    simp only [CType.Valid, CType.Kept, CType.Ordinary] at *
    split
    · next hb => exact ⟨t.valid_of _ h.1 (h' hb), h.2.1 hb (h' hb)⟩
    · next hb => exact h.2.2 (by simpa using hb)
  | _, .stdOptional t, v, h, h' => by
    simp only [CType.Valid, CType.Kept, CType.Ordinary] at *
    exact fun x hx => ⟨t.valid_of x (h x hx).1 (h' x hx), (h x hx).2 (h' x hx)⟩
  | _, .sharedPtr t, v, h, h' | _, .uniquePtr t, v, h, h' | _, .silentUniquePtr t, v, h, h' => by
    simp only [CType.Valid, CType.Kept, CType.Ordinary] at *
    exact fun x hx => ⟨t.valid_of x (h x hx).1 (h' x hx), (h x hx).2 (h' x hx)⟩
  | _, .silentVector t, v, h, h' | _, .vector t, v, h, h' => by
    simp only [CType.Valid, CType.Kept, CType.Ordinary] at *
    exact fun x hx => ⟨t.valid_of x (h x hx).1 (h' x hx), (h x hx).2 (h' x hx)⟩
  | _, .oneOrMany t, v, h, h' => by
    simp only [CType.Valid, CType.Kept, CType.Ordinary] at *
    exact ⟨fun x hx => ⟨t.valid_of x (h.1 x hx).1 (h' x hx), (h.1 x hx).2 (h' x hx)⟩, h.2⟩
  | _, .array _ t, v, h, h' => by
    simp only [CType.Valid, CType.Kept, CType.Ordinary] at *
    exact ⟨h.1, fun x hx => ⟨t.valid_of x (h.2 x hx).1 (h' x hx), (h.2 x hx).2 (h' x hx)⟩⟩
  | _, .arrayVariable _ t, v, h, h' => by
    simp only [CType.Valid, CType.Kept, CType.Ordinary] at *
    exact ⟨h.1, h.2.1, fun x hx => ⟨t.valid_of x (h.2.2.1 x (List.mem_of_mem_take hx)) (h'.1 x hx), h.2.2.2 x hx (h'.1 x hx)⟩, h'.2⟩
  | _, .tuple ts, v, h, h' => by
    simp only [CType.Valid, CType.Kept, CType.Ordinary] at *
    exact ts.valid_of v h h'
  | _, .set _ _ t, v, h, h' => by
    simp only [CType.Valid, CType.Kept, CType.Ordinary] at *
    exact ⟨h.1, h.2.1, fun x hx => ⟨t.valid_of x (h.2.2 x hx).1 (h' x hx), (h.2.2 x hx).2 (h' x hx)⟩⟩
  | _, .map _ t, v, h, h' => by
    simp only [CType.Valid, CType.Kept, CType.Ordinary] at *
    refine ⟨h.1, h.2.1, fun e he => ?_⟩
    obtain ⟨k1, k2, k3, k4⟩ := h' e he
    exact ⟨k1, k2, k3, t.valid_of _ (h.2.2 e he).1 k4, (h.2.2 e he).2 k4⟩
  | _, .tokens, v, h, _ | _, .jmap, v, h, _ => by simp only [CType.Kept] at h
  | _, .struct _ s, v, h, h' => by
    simp only [CType.Valid, CType.Kept, CType.Ordinary] at *
    exact s.valid_of v h h'
theorem CTypes.valid_of : {Ts : Type} → (ts : CTypes Ts) → ∀ v, ts.Kept v → ts.Ordinary v → ts.Valid v
  | _, .nil, v, _, _ => by simp only [CTypes.Valid]
  | _, .cons t ts, v, h, h' => by
    simp only [CTypes.Valid, CTypes.Kept, CTypes.Ordinary] at *
    exact ⟨⟨t.valid_of _ h.1.1 h'.1, h.1.2 h'.1⟩, ts.valid_of _ h.2 h'.2⟩
theorem CStruct.valid_of : {T : Type} → (s : CStruct T) → ∀ v, s.Kept v → s.Ordinary v → s.Valid v
  | _, .mk ms ss, v, h, h' => by
    simp only [CStruct.Valid, CStruct.Kept, CStruct.Ordinary] at *
    exact ⟨ms.valid_of v h.1 h'.1, ss.valid_of v h.2 h'.2⟩
theorem CMembers.valid_of : {T : Type} → (ms : CMembers T) → ∀ v, ms.Kept v → ms.Ordinary v → ms.Valid v
  | _, .nil, v, _, _ => by simp only [CMembers.Valid]
  | _, .cons _ t get _ ms, v, h, h' => by
    simp only [CMembers.Valid, CMembers.Kept, CMembers.Ordinary] at *
    exact ⟨t.valid_of _ h.1 h'.1, ms.valid_of v h.2 h'.2⟩
theorem CSupers.valid_of : {T : Type} → (ss : CSupers T) → ∀ v, ss.Kept v → ss.Ordinary v → ss.Valid v
  | _, .nil, v, _, _ => by simp only [CSupers.Valid]
  | _, .cons _ get _ s ss, v, h, h' => by
    simp only [CSupers.Valid, CSupers.Kept, CSupers.Ordinary] at *
    exact ⟨s.valid_of _ h.1 h'.1, ss.valid_of v h.2 h'.2⟩
end

mutual
theorem CType.kept_of : {T : Type} → (t : CType T) → t.Storable → ∀ v, t.Valid v → t.Kept v
  | _, .bool, _, v, _ | _, .string _, _, v, _ | _, .silentString _, _, v, _ => by simp only [CType.Kept]
  | _, .double, _, v, _ | _, .float, _, v, _ | _, .time _, _, v, _ => by simp only [CType.Kept]
  | _, .int _, _, v, h | _, .enumValue _, _, v, h => by simpa only [CType.Valid, CType.Kept] using h
  | _, .enum _ _, _, v, h => by
    simp only [CType.Valid, CType.Kept] at *
    exact ⟨h.1, h.2.1⟩
  | _, .nullable t, hs, v, h => by
    simp only [CType.Valid, CType.Kept, CType.Storable] at *
    exact ⟨t.kept_of hs.1 v h.1, fun _ => h.2⟩
  | _, .nullableChecked t, hs, v, h => by
    simp only [CType.Valid, CType.Kept, CType.Storable] at *
    split at h
    · next hb => exact ⟨h ▸ t.kept_of hs.1 _ hs.2.2, fun hc => by simp [hc] at hb⟩
    · exact ⟨t.kept_of hs.1 _ h.1, fun _ _ => h.2⟩
  | _, .optional t, hs, v, h => by
    simp only [CType.Valid, CType.Kept, CType.Storable] at *
    exact t.kept_of hs v h
  | _, .optionalChecked t, hs, v, h => by
    simp only [CType.Valid, CType.Kept, CType.Storable] at *
    split at h
    · next hb => exact ⟨t.kept_of hs.1 _ h.1, fun _ _ => h.2, fun hc => by simp [hc] at hb⟩
    · next hb => exact ⟨h ▸ t.kept_of hs.1 _ hs.2.2, fun hc => absurd hc hb, fun _ => h⟩
  | _, .stdOptional t, hs, v, h => by
    simp only [CType.Valid, CType.Kept, CType.Storable] at *
    exact fun x hx => ⟨t.kept_of hs.1 x (h x hx).1, fun _ => (h x hx).2⟩
  | _, .sharedPtr t, hs, v, h | _, .uniquePtr t, hs, v, h | _, .silentUniquePtr t, hs, v, h => by
    simp only [CType.Valid, CType.Kept, CType.Storable] at *
    exact fun x hx => ⟨t.kept_of hs.1 x (h x hx).1, fun _ => (h x hx).2⟩
  | _, .silentVector t, hs, v, h | _, .vector t, hs, v, h => by
    simp only [CType.Valid, CType.Kept, CType.Storable] at *
    exact fun x hx => ⟨t.kept_of hs.1 x (h x hx).1, fun _ => (h x hx).2⟩
  | _, .oneOrMany t, hs, v, h => by
    simp only [CType.Valid, CType.Kept, CType.Storable] at *
    exact ⟨fun x hx => ⟨t.kept_of hs.1.1 x (h.1 x hx).1, fun _ => (h.1 x hx).2⟩, h.2⟩
  | _, .array _ t, hs, v, h => by
    simp only [CType.Valid, CType.Kept, CType.Storable] at *
    exact ⟨h.1, fun x hx => ⟨t.kept_of hs.1 x (h.2 x hx).1, fun _ => (h.2 x hx).2⟩⟩
  | _, .arrayVariable _ t, hs, v, h => by
    simp only [CType.Valid, CType.Kept, CType.Storable] at *
    refine ⟨h.1, h.2.1, fun x hx => ?_, fun x hx _ => (h.2.2.1 x hx).2⟩
    rw [← List.take_append_drop v.2 v.1] at hx
    rcases List.mem_append.mp hx with hx | hx
    · exact t.kept_of hs.1 x (h.2.2.1 x hx).1
    · rw [h.2.2.2 x hx]; exact t.kept_of hs.1 _ hs.2.2
  | _, .tuple ts, hs, v, h => by
    simp only [CType.Valid, CType.Kept, CType.Storable] at *
    exact ts.kept_of hs v h
  | _, .set _ _ t, hs, v, h => by
    simp only [CType.Valid, CType.Kept, CType.Storable] at *
    exact ⟨h.1, h.2.1, fun x hx => ⟨t.kept_of hs.1.1 x (h.2.2 x hx).1, fun _ => (h.2.2 x hx).2⟩⟩
  | _, .map _ t, hs, v, h => by
    simp only [CType.Valid, CType.Kept, CType.Storable] at *
    exact ⟨h.1, h.2.1, fun e he => ⟨t.kept_of hs.1.1 _ (h.2.2 e he).2.2.2.1, fun _ => (h.2.2 e he).2.2.2.2⟩⟩
  | _, .tokens, h, v, _ | _, .jmap, h, v, _ => by simp only [CType.Storable] at h
  | _, .struct _ s, hs, v, h => by
    simp only [CType.Valid, CType.Kept, CType.Storable] at *
    exact s.kept_of hs v h
theorem CTypes.kept_of : {Ts : Type} → (ts : CTypes Ts) → ts.Storable → ∀ v, ts.Valid v → ts.Kept v
  | _, .nil, _, v, _ => by simp only [CTypes.Kept]
  | _, .cons t ts, hs, v, h => by
    simp only [CTypes.Valid, CTypes.Kept, CTypes.Storable] at *
    exact ⟨⟨t.kept_of hs.1.1 _ h.1.1, fun _ => h.1.2⟩, ts.kept_of hs.2 _ h.2⟩
theorem CStruct.kept_of : {T : Type} → (s : CStruct T) → s.Storable → ∀ v, s.Valid v → s.Kept v
  | _, .mk ms ss, hs, v, h => by
    simp only [CStruct.Valid, CStruct.Kept, CStruct.Storable] at *
    exact ⟨ms.kept_of hs.1 v h.1, ss.kept_of hs.2 v h.2⟩
theorem CMembers.kept_of : {T : Type} → (ms : CMembers T) → ms.Storable → ∀ v, ms.Valid v → ms.Kept v
  | _, .nil, _, v, _ => by simp only [CMembers.Kept]
  | _, .cons _ t get _ ms, hs, v, h => by
    simp only [CMembers.Valid, CMembers.Kept, CMembers.Storable] at *
    exact ⟨t.kept_of hs.1 _ h.1, ms.kept_of hs.2 v h.2⟩
theorem CSupers.kept_of : {T : Type} → (ss : CSupers T) → ss.Storable → ∀ v, ss.Valid v → ss.Kept v
  | _, .nil, _, v, _ => by simp only [CSupers.Kept]
  | _, .cons _ get _ s ss, hs, v, h => by
    simp only [CSupers.Valid, CSupers.Kept, CSupers.Storable] at *
    exact ⟨s.kept_of hs.1 _ h.1, ss.kept_of hs.2 v h.2⟩
end

mutual
theorem CStruct.kept_entries : {T : Type} → (s : CStruct T) → ∀ v, s.Kept v ↔ ∀ e ∈ s.entries, e.type.Kept (e.get v)
  | _, .mk ms ss, v => by
    simp only [CStruct.Kept, CStruct.entries, List.forall_mem_append, ms.kept_entries, ss.kept_entries]
theorem CMembers.kept_entries : {T : Type} → (ms : CMembers T) → ∀ v, ms.Kept v ↔ ∀ e ∈ ms.entries, e.type.Kept (e.get v)
  | _, .nil, v => by simp [CMembers.Kept, CMembers.entries]
  | _, .cons names t get set ms, v => by
    simp only [CMembers.Kept, CMembers.entries, List.forall_mem_cons, ms.kept_entries]
theorem CSupers.kept_entries : {T : Type} → (ss : CSupers T) → ∀ v, ss.Kept v ↔ ∀ e ∈ ss.entries, e.type.Kept (e.get v)
  | _, .nil, v => by simp [CSupers.Kept, CSupers.entries]
  | _, .cons name get set s ss, v => by
    simp only [CSupers.Kept, CSupers.entries, List.forall_mem_append, List.forall_mem_map, s.kept_entries, ss.kept_entries]
    rfl
end

end JsonStruct
