import Verif.Spec.Meta

namespace JsonStruct

/-! ### Updating the entries of the open containers -/

/-- The entry of the innermost open container is changed by `f`, those of the others by `g`. -/
def upd (ps : List Nat) (f g : JMeta → JMeta) (m : List JMeta) : List JMeta :=
  m.mapIdx fun j x => if ps.head? = some j then f x else if j ∈ ps then g x else x

theorem upd_upd (ps : List Nat) (f g f' g' : JMeta → JMeta) (m : List JMeta) :
    upd ps f g (upd ps f' g' m) = upd ps (f ∘ f') (g ∘ g') m := by
  simp only [upd, List.mapIdx_mapIdx]
  congr 1
  funext j x
  simp only [Function.comp]
  split <;> (try split) <;> rfl

theorem upd_id (ps : List Nat) (m : List JMeta) : upd ps id id m = m := by
  apply List.ext_getElem?
  intro i
  simp [upd, List.getElem?_mapIdx]

@[simp] theorem length_upd (ps : List Nat) (f g : JMeta → JMeta) (m : List JMeta) : (upd ps f g m).length = m.length := by simp [upd]

theorem upd_append (ps : List Nat) (f g : JMeta → JMeta) (m ys : List JMeta) (h : ∀ p ∈ ps, p < m.length) :
    upd ps f g (m ++ ys) = upd ps f g m ++ ys := by
  apply List.ext_getElem?
  intro i
  by_cases hi : i < m.length
  · rw [List.getElem?_append_left (by simpa using hi)]
    simp [upd, List.getElem?_mapIdx, List.getElem?_append_left hi]
  · have hn : i ∉ ps := fun hc => hi (h i hc)
    have hh : ps.head? ≠ some i := fun hc => hn (List.mem_of_head? hc)
    rw [List.getElem?_append_right (by simpa using Nat.le_of_not_lt hi)]
    simp only [upd, List.getElem?_mapIdx, List.getElem?_append_right (Nat.le_of_not_lt hi), hn, hh, if_false, Option.map_id', List.length_mapIdx]

theorem upd_push (ps : List Nat) (f g : JMeta → JMeta) (m : List JMeta) (x : JMeta) (h : ∀ p ∈ ps, p < m.length) :
    upd (m.length :: ps) f g (m ++ [x]) = upd ps g g m ++ [f x] := by
  apply List.ext_getElem?
  intro i
  by_cases hi : i < m.length
  · have hne : m.length ≠ i := by omega
    have hne' : i ≠ m.length := by omega
    rw [List.getElem?_append_left (by simpa using hi)]
    simp only [upd, List.getElem?_mapIdx, List.getElem?_append_left hi, List.head?_cons, Option.some.injEq, hne, if_false, List.mem_cons,
      hne', false_or]
    congr 1
    funext y
    by_cases hm : i ∈ ps <;> simp [hm]
    intro hc
    exact absurd (List.mem_of_head? hc) hm
  · rw [List.getElem?_append_right (by simpa using Nat.le_of_not_lt hi)]
    simp only [upd, List.getElem?_mapIdx, List.getElem?_append_right (Nat.le_of_not_lt hi), List.length_mapIdx]
    by_cases he : i = m.length
    · subst he; simp
    · rw [List.getElem?_eq_none (by simp; omega)]
      simp [show [f x][i - m.length]? = none from List.getElem?_eq_none (by simp; omega)]

theorem forBack_upd (f : JMeta → JMeta) (ps : List Nat) (m : List JMeta) : forBack f ps m = upd ps f id m := by
  apply List.ext_getElem?
  intro i
  cases ps with
  | nil => simp [forBack, upd, List.getElem?_mapIdx]
  | cons p ps =>
    simp only [forBack, upd, List.getElem?_mapIdx, List.getElem?_modify, List.head?_cons, Option.some.injEq]
    cases m[i]? with
    | none => simp
    | some x => by_cases h : p = i <;> simp [h]

theorem forParents_upd (f : JMeta → JMeta) (ps : List Nat) (hn : ps.Nodup) (m : List JMeta) : forParents f ps m = upd ps f f m := by
  apply List.ext_getElem?
  intro i
  have h1 : (upd ps f f m)[i]? = m[i]?.map fun x => if i ∈ ps then f x else x := by
    simp only [upd, List.getElem?_mapIdx]
    congr 1
    funext x
    by_cases hm : i ∈ ps <;> simp [hm]
    intro hc
    exact absurd (List.mem_of_head? hc) hm
  rw [h1]
  clear h1
  induction ps with
  | nil => simp [forParents]
  | cons p ps ih =>
    have hn' := List.nodup_cons.mp hn
    have := ih hn'.2
    simp only [forParents, List.foldr_cons, List.getElem?_modify] at this ⊢
    rw [this]
    cases m[i]? with
    | none => simp
    | some x =>
      by_cases h : p = i
      · subst h; simp [hn'.1]
      · simp [h, show i ≠ p from fun hc => h hc.symm]

/-! ### Effects -/

/-- What the tokens of a value, or of several, add to the entry of the container they stand in. -/
structure Eff where
  size : Nat
  skip : Nat
  children : Nat
  complex : Nat
  data : Bool

def JMeta.add (e : Eff) (x : JMeta) : JMeta :=
  { x with size := x.size + e.size, skip := x.skip + e.skip, children := x.children + e.children,
           complexChildren := x.complexChildren + e.complex, hasData := x.hasData || e.data }

/-- What they add to the entries further out. -/
def Eff.deep (e : Eff) : Eff := { e with children := 0, complex := 0 }

def Eff.plus (a b : Eff) : Eff := ⟨a.size + b.size, a.skip + b.skip, a.children + b.children, a.complex + b.complex, a.data || b.data⟩

def Eff.zero : Eff := ⟨0, 0, 0, 0, false⟩

/-- All open containers are updated. -/
def updE (ps : List Nat) (e : Eff) (m : List JMeta) : List JMeta := upd ps (JMeta.add e) (JMeta.add e.deep) m

theorem add_add (a b : Eff) : JMeta.add b ∘ JMeta.add a = JMeta.add (a.plus b) := by
  funext x
  simp [JMeta.add, Eff.plus, Nat.add_assoc, Bool.or_assoc]

theorem deep_deep (e : Eff) : e.deep.deep = e.deep := rfl
theorem deep_plus (a b : Eff) : (a.plus b).deep = a.deep.plus b.deep := by simp [Eff.deep, Eff.plus]

theorem updE_updE (ps : List Nat) (a b : Eff) (m : List JMeta) : updE ps b (updE ps a m) = updE ps (a.plus b) m := by
  rw [updE, updE, upd_upd, updE, add_add, add_add, deep_plus]

theorem updE_zero (ps : List Nat) (m : List JMeta) : updE ps .zero m = m := by
  have : JMeta.add .zero = id := by funext x; simp [JMeta.add, Eff.zero]
  rw [updE, show Eff.zero.deep = .zero from rfl, this, upd_id]

theorem updE_append (ps : List Nat) (e : Eff) (m ys : List JMeta) (h : ∀ p ∈ ps, p < m.length) : updE ps e (m ++ ys) = updE ps e m ++ ys :=
  upd_append _ _ _ _ _ h

@[simp] theorem length_updE (ps : List Nat) (e : Eff) (m : List JMeta) : (updE ps e m).length = m.length := length_upd ..

theorem updE_push (ps : List Nat) (e : Eff) (m : List JMeta) (x : JMeta) (h : ∀ p ∈ ps, p < m.length) :
    updE (m.length :: ps) e (m ++ [x]) = updE ps e.deep m ++ [x.add e] := by
  rw [updE, upd_push _ _ _ _ _ h, updE, deep_deep]

/-! ### The steps of the loop -/

theorem metaLoop_scalar {k : Tok} (hk : k.isScalar = true) (i : Nat) (ks : List Tok) (m : List JMeta) {ps : List Nat} (hn : ps.Nodup) :
    metaLoop i (k :: ks) m ps = metaLoop (i + 1) ks (updE ps ⟨1, 0, 1, 0, true⟩ m) ps := by
  simp only [Tok.isScalar, Bool.and_eq_true, decide_eq_true_eq] at hk
  simp only [metaLoop, hk.1.1.1, hk.1.1.2, hk.1.2, hk.2, or_self, if_false]
  rw [forParents_upd _ _ hn, forBack_upd, forParents_upd _ _ hn, upd_upd, upd_upd]
  congr 2
  · funext x
    simp [JMeta.add]
  · funext x
    simp [JMeta.add, Eff.deep]

theorem metaLoop_start {k : Tok} (hk : k.valueType = .arrayStart ∨ k.valueType = .objectStart) (i : Nat) (ks : List Tok) (m : List JMeta)
    {ps : List Nat} (hn : ps.Nodup) :
    metaLoop i (k :: ks) m ps =
      metaLoop (i + 1) ks (updE ps ⟨1, 1, 1, 1, false⟩ m ++ [{ position := i, isArray := k.valueType = .arrayStart }]) (m.length :: ps) := by
  have h1 : ¬(k.valueType = .arrayEnd ∨ k.valueType = .objectEnd) := by rcases hk with h | h <;> simp [h]
  simp only [metaLoop, h1, if_neg, if_pos hk, not_false_eq_true, if_false]
  rw [forParents_upd _ _ hn, forBack_upd, forBack_upd, forParents_upd _ _ hn, upd_upd, upd_upd, upd_upd]
  rw [show ∀ (a : List JMeta) (x : JMeta), (a ++ [x]).length - 1 = a.length from fun a x => by simp, length_upd, updE]
  congr 4
  · funext x
    simp [JMeta.add]
  · funext x
    simp [JMeta.add, Eff.deep]

theorem metaLoop_end {k : Tok} (hk : k.valueType = .arrayEnd ∨ k.valueType = .objectEnd) (i : Nat) (ks : List Tok) (m : List JMeta) (p : Nat)
    {ps : List Nat} (hn : (p :: ps).Nodup) :
    metaLoop i (k :: ks) m (p :: ps) = metaLoop (i + 1) ks (updE (p :: ps) ⟨1, 0, 0, 0, false⟩ m) ps := by
  simp only [metaLoop, hk, if_true]
  rw [forParents_upd _ _ hn, updE]
  congr 2
  · funext x
    simp [JMeta.add]
  · funext x
    simp [JMeta.add, Eff.deep]

/-! ### Values -/

mutual
theorem JVal.toks_length (n : Bytes) (nt : Ty) : (v : JVal) → (v.toks n nt).length = v.docToks.length
  | .null | .bool true | .bool false | .num _ | .str _ => rfl
  | .arr vs => by simp [JVal.docToks, JVal.toks]
  | .obj ms => by simp [JVal.docToks, JVal.toks]
end

theorem toks_any (n : Bytes) (nt : Ty) (v : JVal) : (v.toks n nt).any Tok.isScalar = v.docToks.any Tok.isScalar := by
  cases v with
  | bool b => cases b <;> rfl
  | arr vs => simp [JVal.docToks, JVal.toks, Tok.isScalar]
  | obj ms => simp [JVal.docToks, JVal.toks, Tok.isScalar]
  | _ => rfl

theorem shift_append (a b : List (Nat × JVal)) (f : Nat × JVal → Nat × JVal) : (a ++ b).map f = a.map f ++ b.map f := List.map_append

mutual
/-- Moving the tokens moves the containers. -/
theorem JVal.containersAt_add (i j : Nat) : (v : JVal) → v.containersAt (i + j) = (v.containersAt i).map fun e => (e.1 + j, e.2)
  | .null | .bool _ | .num _ | .str _ => by simp [JVal.containersAt]
  | .arr vs => by
    simp only [JVal.containersAt, List.map_cons]
    rw [show i + j + 1 = i + 1 + j by omega, elemContainersAt_add (i + 1) j vs]
  | .obj ms => by
    simp only [JVal.containersAt, List.map_cons]
    rw [show i + j + 1 = i + 1 + j by omega, memberContainersAt_add (i + 1) j ms]
theorem elemContainersAt_add (i j : Nat) : (vs : List JVal) → elemContainersAt (i + j) vs = (elemContainersAt i vs).map fun e => (e.1 + j, e.2)
  | [] => by simp [elemContainersAt]
  | v :: vs => by
    simp only [elemContainersAt, List.map_append]
    rw [JVal.containersAt_add i j v, show i + j + v.docToks.length = i + v.docToks.length + j by omega, elemContainersAt_add _ j vs]
theorem memberContainersAt_add (i j : Nat) : (ms : List (Bytes × JVal)) →
    memberContainersAt (i + j) ms = (memberContainersAt i ms).map fun e => (e.1 + j, e.2)
  | [] => by simp [memberContainersAt]
  | (_, v) :: ms => by
    simp only [memberContainersAt, List.map_append]
    rw [JVal.containersAt_add i j v, show i + j + v.docToks.length = i + v.docToks.length + j by omega, memberContainersAt_add _ j ms]
end

theorem containersAt_length (i : Nat) (v : JVal) : (v.containersAt i).length = v.containers.length := by
  have := JVal.containersAt_add 0 i v
  rw [Nat.zero_add] at this
  simp [this, JVal.containers]

theorem elemContainersAt_length (i : Nat) (vs : List JVal) : (elemContainersAt i vs).length = (elemContainersAt 0 vs).length := by
  have := elemContainersAt_add 0 i vs
  rw [Nat.zero_add] at this
  simp [this]

theorem memberContainersAt_length (i : Nat) (ms : List (Bytes × JVal)) : (memberContainersAt i ms).length = (memberContainersAt 0 ms).length := by
  have := memberContainersAt_add 0 i ms
  rw [Nat.zero_add] at this
  simp [this]

def JVal.eff (v : JVal) : Eff :=
  ⟨v.docToks.length, v.containers.length, 1, if v.isContainer then 1 else 0, v.docToks.any Tok.isScalar⟩

def elemEff (vs : List JVal) : Eff :=
  ⟨(elemToks vs).length, (elemContainersAt 0 vs).length, vs.length, (vs.filter JVal.isContainer).length, (elemToks vs).any Tok.isScalar⟩

def memberEff (ms : List (Bytes × JVal)) : Eff :=
  ⟨(memberToks ms).length, (memberContainersAt 0 ms).length, ms.length, ((ms.map Prod.snd).filter JVal.isContainer).length,
    (memberToks ms).any Tok.isScalar⟩

theorem elemEff_cons (v : JVal) (vs : List JVal) : v.eff.plus (elemEff vs) = elemEff (v :: vs) := by
  simp only [JVal.eff, elemEff, Eff.plus, elemToks, elemContainersAt, List.length_append, List.any_append, elemContainersAt_length (0 + _),
    List.length_cons, List.filter_cons]
  refine Eff.mk.injEq .. |>.mpr ⟨?_, ?_, Nat.add_comm .., ?_, ?_⟩
  · rfl
  · rfl
  · cases v.isContainer <;> simp [Nat.add_comm]
  · rfl

theorem memberEff_cons (n : Bytes) (v : JVal) (ms : List (Bytes × JVal)) : v.eff.plus (memberEff ms) = memberEff ((n, v) :: ms) := by
  simp only [JVal.eff, memberEff, Eff.plus, memberToks, memberContainersAt, List.length_append, List.any_append,
    memberContainersAt_length (0 + _), List.length_cons, List.filter_cons, List.map_cons, JVal.toks_length, toks_any]
  refine Eff.mk.injEq .. |>.mpr ⟨?_, ?_, Nat.add_comm .., ?_, ?_⟩
  · rfl
  · rfl
  · cases v.isContainer <;> simp [Nat.add_comm]
  · rfl

mutual
/-- The loop on the tokens of a value. -/
theorem metaLoop_value (n : Bytes) (nt : Ty) : (v : JVal) → ∀ (i : Nat) (rest : List Tok) (m : List JMeta) (ps : List Nat), ps.Nodup →
    (∀ p ∈ ps, p < m.length) → metaLoop i (v.toks n nt ++ rest) m ps =
      metaLoop (i + v.docToks.length) rest (updE ps v.eff m ++ (v.containersAt i).map metaOf) ps
  | .null, i, rest, m, ps, hn, hl | .bool true, i, rest, m, ps, hn, hl | .bool false, i, rest, m, ps, hn, hl
  | .num _, i, rest, m, ps, hn, hl | .str _, i, rest, m, ps, hn, hl => by
    simp only [JVal.toks, List.cons_append, List.nil_append, JVal.containersAt, List.map_nil, List.append_nil]
    rw [metaLoop_scalar (by rfl) i rest m hn]
    rfl
  | .arr vs, i, rest, m, ps, hn, hl => by
    have hnd : (m.length :: ps).Nodup := List.nodup_cons.mpr ⟨fun hc => Nat.lt_irrefl _ (hl _ hc), hn⟩
    have hlt : ∀ p ∈ m.length :: ps, p < (updE ps ⟨1, 1, 1, 1, false⟩ m).length + 1 := by
      intro p hp
      rcases List.mem_cons.mp hp with h | h
      · simp [h]
      · simpa using Nat.lt_succ_of_lt (hl p h)
    simp only [JVal.toks, List.cons_append, List.append_assoc]
    rw [metaLoop_start (Or.inl rfl) _ _ _ hn, metaLoop_elems vs _ _ _ _ hnd (by simpa using hlt), List.nil_append,
      metaLoop_end (Or.inl rfl) _ _ _ _ hnd]
    rw [updE_append _ _ _ _ (by simpa using hlt), updE_updE,
      show m.length = (updE ps ⟨1, 1, 1, 1, false⟩ m).length by simp,
      updE_push _ _ _ _ (by simpa using hl), updE_updE]
    rw [show i + 1 + (elemToks vs).length + 1 = i + (JVal.arr vs).docToks.length by simp [JVal.docToks, JVal.toks]; omega]
    simp only [JVal.containersAt, List.map_cons, List.append_assoc, List.singleton_append]
    congr 2
    · congr 1
      simp [JVal.eff, Eff.plus, Eff.deep, elemEff, JVal.docToks, JVal.toks, JVal.containers, JVal.containersAt, JVal.isContainer,
        elemContainersAt_length 1, Tok.isScalar]
      omega
    · congr 1
      simp [JMeta.add, Eff.plus, elemEff, metaOf, JVal.docToks, JVal.toks, JVal.containers, JVal.containersAt, JVal.kids,
        elemContainersAt_length 1, Tok.isScalar]
      omega
  | .obj ms, i, rest, m, ps, hn, hl => by
    have hnd : (m.length :: ps).Nodup := List.nodup_cons.mpr ⟨fun hc => Nat.lt_irrefl _ (hl _ hc), hn⟩
    have hlt : ∀ p ∈ m.length :: ps, p < (updE ps ⟨1, 1, 1, 1, false⟩ m).length + 1 := by
      intro p hp
      rcases List.mem_cons.mp hp with h | h
      · simp [h]
      · simpa using Nat.lt_succ_of_lt (hl p h)
    simp only [JVal.toks, List.cons_append, List.append_assoc]
    rw [metaLoop_start (Or.inr rfl) _ _ _ hn, metaLoop_members ms _ _ _ _ hnd (by simpa using hlt), List.nil_append,
      metaLoop_end (Or.inr rfl) _ _ _ _ hnd]
    rw [updE_append _ _ _ _ (by simpa using hlt), updE_updE,
      show m.length = (updE ps ⟨1, 1, 1, 1, false⟩ m).length by simp,
      updE_push _ _ _ _ (by simpa using hl), updE_updE]
    rw [show i + 1 + (memberToks ms).length + 1 = i + (JVal.obj ms).docToks.length by simp [JVal.docToks, JVal.toks]; omega]
    simp only [JVal.containersAt, List.map_cons, List.append_assoc, List.singleton_append]
    congr 2
    · congr 1
      simp [JVal.eff, Eff.plus, Eff.deep, memberEff, JVal.docToks, JVal.toks, JVal.containers, JVal.containersAt, JVal.isContainer,
        memberContainersAt_length 1, Tok.isScalar]
      omega
    · congr 1
      simp [JMeta.add, Eff.plus, memberEff, metaOf, JVal.docToks, JVal.toks, JVal.containers, JVal.containersAt, JVal.kids,
        memberContainersAt_length 1, Tok.isScalar]
      omega
theorem metaLoop_elems : (vs : List JVal) → ∀ (i : Nat) (rest : List Tok) (m : List JMeta) (ps : List Nat), ps.Nodup →
    (∀ p ∈ ps, p < m.length) → metaLoop i (elemToks vs ++ rest) m ps =
      metaLoop (i + (elemToks vs).length) rest (updE ps (elemEff vs) m ++ (elemContainersAt i vs).map metaOf) ps
  | [], i, rest, m, ps, hn, hl => by
    rw [show elemEff [] = .zero from rfl, updE_zero]
    simp [elemToks, elemContainersAt]
  | v :: vs, i, rest, m, ps, hn, hl => by
    rw [elemToks, List.append_assoc, metaLoop_value _ _ v _ _ _ _ hn hl, metaLoop_elems vs _ _ _ _ hn (by
      intro p hp; have := hl p hp; simp; omega)]
    rw [updE_append _ _ _ _ (by simpa using hl), updE_updE, elemEff_cons, List.append_assoc, ← List.map_append, elemContainersAt,
      List.length_append, JVal.toks_length, Nat.add_assoc]
theorem metaLoop_members : (ms : List (Bytes × JVal)) → ∀ (i : Nat) (rest : List Tok) (m : List JMeta) (ps : List Nat), ps.Nodup →
    (∀ p ∈ ps, p < m.length) → metaLoop i (memberToks ms ++ rest) m ps =
      metaLoop (i + (memberToks ms).length) rest (updE ps (memberEff ms) m ++ (memberContainersAt i ms).map metaOf) ps
  | [], i, rest, m, ps, hn, hl => by
    rw [show memberEff [] = .zero from rfl, updE_zero]
    simp [memberToks, memberContainersAt]
  | (n, v) :: ms, i, rest, m, ps, hn, hl => by
    rw [memberToks, List.append_assoc, metaLoop_value _ _ v _ _ _ _ hn hl, metaLoop_members ms _ _ _ _ hn (by
      intro p hp; have := hl p hp; simp; omega)]
    rw [updE_append _ _ _ _ (by simpa using hl), updE_updE, memberEff_cons n, List.append_assoc, ← List.map_append, memberContainersAt,
      List.length_append, JVal.toks_length, Nat.add_assoc]
end

theorem metaForTokens_value (n : Bytes) (nt : Ty) (v : JVal) : metaForTokens (v.toks n nt) = some (v.containers.map metaOf) := by
  have := metaLoop_value n nt v 0 [] [] [] List.nodup_nil (by simp)
  simp only [List.append_nil, metaLoop] at this
  rw [metaForTokens, this, JVal.containers]
  rfl

end JsonStruct
