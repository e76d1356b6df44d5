import Verif.Lemmas.Meta
import Verif.Spec.FirstChild

namespace JsonStruct

theorem memberContainersAt_elem (i : Nat) (ms : List (Bytes × JVal)) : memberContainersAt i ms = elemContainersAt i (ms.map Prod.snd) := by
  induction ms generalizing i with
  | nil => simp [memberContainersAt, elemContainersAt]
  | cons e ms ih => obtain ⟨n, v⟩ := e; simp [memberContainersAt, elemContainersAt, ih]

theorem containersAt_kids {v : JVal} (h : v.isContainer = true) (i : Nat) : v.containersAt i = (i, v) :: elemContainersAt (i + 1) v.kids := by
  cases v with
  | arr vs => simp [JVal.containersAt, JVal.kids]
  | obj ms => simp [JVal.containersAt, JVal.kids, memberContainersAt_elem]
  | _ => simp [JVal.isContainer] at h

mutual
theorem any_value (n : Bytes) (nt : Ty) : (v : JVal) → (v.toks n nt).any Tok.isScalar = v.holdsScalar
  | .null | .bool true | .bool false | .num _ | .str _ => by simp [JVal.toks, JVal.holdsScalar, Tok.isScalar]
  | .arr vs => by simp [JVal.toks, JVal.holdsScalar, Tok.isScalar, any_elems vs]
  | .obj ms => by simp [JVal.toks, JVal.holdsScalar, Tok.isScalar, any_members ms]
theorem any_elems : (vs : List JVal) → (elemToks vs).any Tok.isScalar = elemsHoldScalar vs
  | [] => by simp [elemToks, elemsHoldScalar]
  | v :: vs => by simp [elemToks, elemsHoldScalar, any_value [] .ascii v, any_elems vs]
theorem any_members : (ms : List (Bytes × JVal)) → (memberToks ms).any Tok.isScalar = membersHoldScalar ms
  | [] => by simp [memberToks, membersHoldScalar]
  | (n, v) :: ms => by simp [memberToks, membersHoldScalar, any_value n .string v, any_members ms]
end

theorem metaOf_hasData (e : Nat × JVal) : (metaOf e).hasData = e.2.holdsScalar := any_value [] .ascii e.2

theorem elemsHoldScalar_any (vs : List JVal) : elemsHoldScalar vs = vs.any JVal.holdsScalar := by
  induction vs with
  | nil => rfl
  | cons v vs ih => simp [elemsHoldScalar, ih]

theorem holdsScalar_kids {v : JVal} (h : v.isContainer = true) : v.holdsScalar = v.kids.any JVal.holdsScalar := by
  cases v with
  | arr vs => simp [JVal.holdsScalar, JVal.kids, elemsHoldScalar_any]
  | obj ms =>
    have : membersHoldScalar ms = (ms.map Prod.snd).any JVal.holdsScalar := by
      induction ms with
      | nil => rfl
      | cons e ms ih => obtain ⟨n, v⟩ := e; simp only [membersHoldScalar, ih (by rfl), List.map_cons, List.any_cons]
    simp only [JVal.holdsScalar, JVal.kids, this]
  | _ => simp [JVal.isContainer] at h

/-- All entries of containers are containers. -/
theorem elemContainers_container (i : Nat) (vs : List JVal) (hvs : ∀ v ∈ vs, ∀ j, ∀ e ∈ v.containersAt j, e.2.isContainer = true) :
    ∀ e ∈ elemContainersAt i vs, e.2.isContainer = true := by
  induction vs generalizing i with
  | nil => simp [elemContainersAt]
  | cons v vs ih =>
    intro e he
    simp only [elemContainersAt, List.mem_append] at he
    rcases he with he | he
    · exact hvs v (by simp) i e he
    · exact ih _ (fun w hw => hvs w (by simp [hw])) e he

/-- The entries from an entry on begin with the containers of that container. -/
theorem drop_elems (vs : List JVal)
    (hvs : ∀ v ∈ vs, ∀ i k e, (v.containersAt i)[k]? = some e → e.2.isContainer = true ∧ ∃ rest, (v.containersAt i).drop k = e.2.containersAt e.1 ++ rest) :
    ∀ i k e, (elemContainersAt i vs)[k]? = some e → e.2.isContainer = true ∧ ∃ rest, (elemContainersAt i vs).drop k = e.2.containersAt e.1 ++ rest := by
  induction vs with
  | nil => intro i k e h; simp [elemContainersAt] at h
  | cons v vs ih =>
    intro i k e h
    simp only [elemContainersAt] at h ⊢
    by_cases hk : k < (v.containersAt i).length
    · rw [List.getElem?_append_left hk] at h
      obtain ⟨hc, rest, hr⟩ := hvs v (by simp) i k e h
      refine ⟨hc, rest ++ elemContainersAt (i + v.docToks.length) vs, ?_⟩
      rw [List.drop_append_of_le_length (by omega), hr, List.append_assoc]
    · rw [List.getElem?_append_right (by omega)] at h
      obtain ⟨hc, rest, hr⟩ := ih (fun w hw => hvs w (by simp [hw])) _ _ e h
      refine ⟨hc, rest, ?_⟩
      rw [List.drop_append, List.drop_eq_nil_of_le (by omega), List.nil_append, hr]

theorem drop_containers : (v : JVal) → ∀ i k e, (v.containersAt i)[k]? = some e →
    e.2.isContainer = true ∧ ∃ rest, (v.containersAt i).drop k = e.2.containersAt e.1 ++ rest := by
  suffices H : ∀ n (v : JVal), sizeOf v ≤ n → ∀ i k e, (v.containersAt i)[k]? = some e →
      e.2.isContainer = true ∧ ∃ rest, (v.containersAt i).drop k = e.2.containersAt e.1 ++ rest from fun v => H _ v (Nat.le_refl _)
  intro n
  induction n with
  | zero => intro v h; cases v <;> simp at h
  | succ n ih =>
    intro v hv i k e h
    by_cases hc : v.isContainer = true
    · rw [containersAt_kids hc] at h ⊢
      cases k with
      | zero =>
        simp only [List.getElem?_cons_zero, Option.some.injEq] at h
        subst h
        exact ⟨hc, [], by simp [containersAt_kids hc]⟩
      | succ k =>
        simp only [List.getElem?_cons_succ] at h
        simp only [List.drop_succ_cons]
        refine drop_elems v.kids (fun w hw => ih w ?_) _ k e h
        cases v with
        | arr vs =>
          have := List.sizeOf_lt_of_mem hw
          simp only [JVal.kids] at *
          simp only [JVal.arr.sizeOf_spec] at hv
          omega
        | obj ms =>
          simp only [JVal.kids, List.mem_map] at hw
          obtain ⟨⟨n', w'⟩, hm, rfl⟩ := hw
          have := List.sizeOf_lt_of_mem hm
          simp only [JVal.obj.sizeOf_spec] at hv
          simp only [Prod.mk.sizeOf_spec] at this
          simp only
          omega
        | _ => simp [JVal.isContainer] at hc
    · have : v.containersAt i = [] := by
        cases v <;> simp_all [JVal.containersAt, JVal.isContainer]
      simp [this] at h

/-- The loop over the children. -/
theorem findDataLoop_spec (metas : List JMeta) (start : Nat) (vs : List JVal) : ∀ (q i skip : Nat) (rest : List (Nat × JVal)),
    metas.drop (start + skip + 1) = (elemContainersAt q vs ++ rest).map metaOf →
    findDataLoop metas start (vs.filter JVal.isContainer).length i skip =
      some (((vs.filter JVal.isContainer).findIdx? JVal.holdsScalar).map (i + ·)) := by
  induction vs with
  | nil => intro q i skip rest _; rfl
  | cons v vs ih =>
    intro q i skip rest h
    simp only [elemContainersAt] at h
    by_cases hc : v.isContainer = true
    · rw [containersAt_kids hc] at h
      have hget : metas[start + skip + 1]? = some (metaOf (q, v)) := by
        have := congrArg List.head? h
        simpa [List.head?_drop] using this
      rw [List.filter_cons_of_pos hc]
      simp only [List.length_cons, findDataLoop, hget, Option.bind_eq_bind, Option.bind_some, metaOf_hasData, List.findIdx?_cons]
      by_cases hs : v.holdsScalar = true
      · simp [hs]
      · simp only [hs, Bool.false_eq_true, if_false]
        have hl : (metaOf (q, v)).skip = (v.containersAt q).length := (containersAt_length q v).symm
        rw [ih (q + v.docToks.length) (i + 1) (skip + (metaOf (q, v)).skip) rest]
        · simp only [Option.map_map, Option.some.injEq]
          congr 1
          funext x
          simp only [Function.comp]
          omega
        · rw [hl, show start + (skip + (v.containersAt q).length) + 1 = (v.containersAt q).length + (start + skip + 1) by omega,
            Nat.add_comm, ← List.drop_drop, h, ← containersAt_kids hc, List.append_assoc, List.map_append, List.drop_left' (by simp)]
    · have h0 : v.containersAt q = [] := by
        cases v <;> simp_all [JVal.containersAt, JVal.isContainer]
      rw [List.filter_cons_of_neg (by simpa using hc)]
      rw [h0, List.nil_append] at h
      exact ih _ i skip rest h

end JsonStruct
