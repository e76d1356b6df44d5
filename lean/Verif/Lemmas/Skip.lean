import Verif.Lemmas.Handler

/- Loops that count brackets: capturing raw tokens, skipping a value. -/

set_option linter.unusedSimpArgs false
set_option linter.unusedVariables false

set_option linter.unusedSectionVars false

namespace JsonStruct

variable [EndCond]

/-- The level of open brackets after some tokens. -/
def levelAfter (δ : Nat → Ty → Nat) : Nat → List Tok → Nat
  | L, [] => L
  | L, k :: ks => levelAfter δ (δ L k.valueType) ks

/-- The level is positive in front of every token. -/
def Above (δ : Nat → Ty → Nat) : Nat → List Tok → Prop
  | _, [] => True
  | L, k :: ks => 1 ≤ L ∧ Above δ (δ L k.valueType) ks

theorem levelAfter_append (δ : Nat → Ty → Nat) (L : Nat) (a b : List Tok) : levelAfter δ L (a ++ b) = levelAfter δ (levelAfter δ L a) b := by
  induction a generalizing L with
  | nil => rfl
  | cons k a ih => exact ih _

theorem above_append {δ : Nat → Ty → Nat} {L : Nat} {a b : List Tok} (h : Above δ L a) (h' : Above δ (levelAfter δ L a) b) : Above δ L (a ++ b) := by
  induction a generalizing L with
  | nil => exact h'
  | cons k a ih => exact ⟨h.1, ih h.2 h'⟩

/-- A way of counting brackets: of one kind, or of both. -/
structure Counts (δ : Nat → Ty → Nat) : Prop where
  scalar : ∀ L ty, ty ≠ .arrayStart → ty ≠ .arrayEnd → ty ≠ .objectStart → ty ≠ .objectEnd → δ L ty = L
  arr : (∀ L, δ L .arrayStart = L + 1 ∧ δ (L + 1) .arrayEnd = L) ∨ (∀ L, δ L .arrayStart = L ∧ δ L .arrayEnd = L)
  obj : (∀ L, δ L .objectStart = L + 1 ∧ δ (L + 1) .objectEnd = L) ∨ (∀ L, δ L .objectStart = L ∧ δ L .objectEnd = L)

/-- Above the level `L`, and back to it. -/
def Flat (δ : Nat → Ty → Nat) (ks : List Tok) : Prop := ∀ L, 1 ≤ L → Above δ L ks ∧ levelAfter δ L ks = L

theorem flat_append {δ : Nat → Ty → Nat} {a b : List Tok} (ha : Flat δ a) (hb : Flat δ b) : Flat δ (a ++ b) := fun L hL =>
  ⟨above_append (ha L hL).1 (by rw [(ha L hL).2]; exact (hb L hL).1), by rw [levelAfter_append, (ha L hL).2, (hb L hL).2]⟩

theorem flat_scalar {δ : Nat → Ty → Nat} (hδ : Counts δ) (k : Tok) (h : k.valueType ≠ .arrayStart ∧ k.valueType ≠ .arrayEnd ∧ k.valueType ≠ .objectStart ∧ k.valueType ≠ .objectEnd) :
    Flat δ [k] := fun L hL => by
  have := hδ.scalar L _ h.1 h.2.1 h.2.2.1 h.2.2.2
  exact ⟨⟨hL, trivial⟩, this⟩

theorem flat_bracket {δ : Nat → Ty → Nat} {a b : Tok} {ks : List Tok}
    (hδ : (∀ L, δ L a.valueType = L + 1 ∧ δ (L + 1) b.valueType = L) ∨ (∀ L, δ L a.valueType = L ∧ δ L b.valueType = L)) (h : Flat δ ks) :
    Flat δ (a :: (ks ++ [b])) := fun L hL => by
  rcases hδ with hδ | hδ
  · obtain ⟨h1, h2⟩ := h (L + 1) (by omega)
    refine ⟨⟨hL, ?_⟩, ?_⟩
    · rw [(hδ L).1]; exact above_append h1 ⟨by rw [h2]; omega, trivial⟩
    · simp only [levelAfter]; rw [(hδ L).1, levelAfter_append, h2]; exact (hδ L).2
  · obtain ⟨h1, h2⟩ := h L hL
    refine ⟨⟨hL, ?_⟩, ?_⟩
    · rw [(hδ L).1]; exact above_append h1 ⟨by rw [h2]; exact hL, trivial⟩
    · simp only [levelAfter]; rw [(hδ L).1, levelAfter_append, h2]; exact (hδ L).2

mutual
theorem flat_toks {δ : Nat → Ty → Nat} (hδ : Counts δ) (v : JVal) (n : Bytes) (nt : Ty) : Flat δ (v.toks n nt) := by
  match v with
  | .null => exact flat_scalar hδ _ (by simp)
  | .bool true => exact flat_scalar hδ _ (by simp)
  | .bool false => exact flat_scalar hδ _ (by simp)
  | .num _ => exact flat_scalar hδ _ (by simp)
  | .str _ => exact flat_scalar hδ _ (by simp)
  | .arr vs => exact flat_bracket hδ.arr (flat_elems hδ vs)
  | .obj ms => exact flat_bracket hδ.obj (flat_members hδ ms)
theorem flat_elems {δ : Nat → Ty → Nat} (hδ : Counts δ) (vs : List JVal) : Flat δ (elemToks vs) := by
  match vs with
  | [] => exact fun L _ => ⟨trivial, rfl⟩
  | v :: vs => exact flat_append (flat_toks hδ v _ _) (flat_elems hδ vs)
theorem flat_members {δ : Nat → Ty → Nat} (hδ : Counts δ) (ms : List (Bytes × JVal)) : Flat δ (memberToks ms) := by
  match ms with
  | [] => exact fun L _ => ⟨trivial, rfl⟩
  | (n, v) :: ms => exact flat_append (flat_toks hδ v _ _) (flat_members hδ ms)
end

/-- Inside the brackets the level stays positive, and falls to zero at the closing one. -/
theorem inner_toks {δ : Nat → Ty → Nat} {b : Tok} {ks : List Tok} (hb : δ 1 b.valueType = 0) (h : Flat δ ks) :
    Above δ 1 (ks ++ [b]) ∧ levelAfter δ 1 (ks ++ [b]) = 0 := by
  obtain ⟨h1, h2⟩ := h 1 (by omega)
  exact ⟨above_append h1 ⟨by rw [h2]; omega, trivial⟩, by rw [levelAfter_append, h2]; exact hb⟩

/-! ### Capturing tokens -/

/-- The count of `tokensLoop`. -/
def bothLevel (L : Nat) (ty : Ty) : Nat :=
  if ty = .arrayStart ∨ ty = .objectStart then L + 1 else if ty = .arrayEnd ∨ ty = .objectEnd then L - 1 else L

theorem both_counts : Counts bothLevel where
  scalar := fun L ty h1 h2 h3 h4 => by simp [bothLevel, h1, h2, h3, h4]
  arr := Or.inl fun L => by simp [bothLevel]
  obj := Or.inl fun L => by simp [bothLevel]

theorem tokensLoop_run (rest : List Tok) (ts : List Tok) :
    ∀ (k : Tok) (L : Nat) (acc : List Tok) (c : Ctx), Above bothLevel L ts → c.Stream (k :: (ts ++ rest)) →
      ∃ c', (∀ n, tokensLoop (n + ts.length) L acc c = tokensLoop n (levelAfter bothLevel L ts) (acc ++ ts) c') ∧
        c.Adds [] [] c' ∧ c'.Stream ((k :: ts).getLastD {} :: rest) := by
  induction ts with
  | nil => intro k L acc c _ hst; exact ⟨c, fun n => by simp [levelAfter], Ctx.Adds.refl c, hst⟩
  | cons t ts ih =>
    intro k L acc c ha hst
    obtain ⟨h1, h2⟩ := hst.next
    obtain ⟨c', h3, h4, h5⟩ := ih t (bothLevel L t.valueType) (acc ++ [t]) c.next ha.2 h1
    refine ⟨c', fun n => ?_, by simpa using h2.trans h4, h5⟩
    have hL : L ≠ 0 := by have := ha.1; omega
    have ht := h1.tok
    have hv := h1.valueType
    rw [List.length_cons, ← Nat.add_assoc, tokensLoop]
    simp only [hL, if_false, h1.err, ne_eq, not_true_eq_false, ht, hv]
    have h3 := h3 n
    rw [List.append_assoc] at h3
    exact h3

theorem tokens_sem : tokensH.Sem tokensDec := by
  intro c old i rest r hst hd
  have ht := hst.item.1
  have hk := hst.item.2.2.2
  cases i with
  | close => simp [tokensDec] at hd
  | val l v =>
    simp only [tokensDec, Option.some.injEq] at hd
    subst hd
    by_cases hc : v.isContainer = true
    · have key : ∃ a b ks, (Item.val l v).toks = a :: (ks ++ [b]) ∧ (a.valueType = .arrayStart ∨ a.valueType = .objectStart) ∧
          bothLevel 1 b.valueType = 0 ∧ Flat bothLevel ks := by
        cases v with
        | arr vs => exact ⟨_, _, elemToks vs, rfl, Or.inl rfl, rfl, flat_elems both_counts vs⟩
        | obj ms => exact ⟨_, _, memberToks ms, rfl, Or.inr rfl, rfl, flat_members both_counts ms⟩
        | _ => simp [JVal.isContainer] at hc
      obtain ⟨a, b, ks, he, hty, hb, hf⟩ := key
      obtain ⟨h1, h2⟩ := inner_toks hb hf
      rw [he] at hst
      obtain ⟨c', h3, h4, h5⟩ := tokensLoop_run rest (ks ++ [b]) a 1 [a] c h1 hst
      have hfirst : (Item.val l v).first = a := by rw [Item.first, he]; rfl
      refine ⟨1 + (ks ++ [b]).length, c', fun n hn => ?_, h4, fun _ => ?_⟩
      · obtain ⟨m, rfl⟩ : ∃ m, n = (m + 1) + (ks ++ [b]).length := ⟨n - 1 - (ks ++ [b]).length, by omega⟩
        have : ¬ (c.token.valueType ≠ .arrayStart ∧ c.token.valueType ≠ .objectStart) := by
          rw [ht, hfirst]; rcases hty with h | h <;> simp [h]
        simp only [tokensH, this, if_false, hk, hfirst, h3, h2, hc, if_true, he]
        simp [tokensLoop]
      · rw [Item.last, he]; exact h5
    · have hc' : (Item.val l v).isScalar = true := by simp [Item.isScalar, hc]
      obtain ⟨h1, h2⟩ := item_scalar hc'
      have h1' : v.toks l.1 l.2 = [(Item.val l v).first] := h1
      refine Does.pure (fun n => ?_) fun _ => by rw [h2]; rw [h1] at hst; exact hst
      have : c.token.valueType ≠ .arrayStart ∧ c.token.valueType ≠ .objectStart := by
        rw [ht]
        constructor
        · intro h; obtain ⟨_, _, h⟩ := (first_arr _).mp h; cases h; simp [JVal.isContainer] at hc
        · intro h; obtain ⟨_, _, h⟩ := (first_obj _).mp h; cases h; simp [JVal.isContainer] at hc
      simp [tokensH, this, hst.err, hc, h1', hk]

/-! ### Skipping -/

/-- The count of `skipLoop`. -/
def kindLevel (start fin : Ty) (L : Nat) (ty : Ty) : Nat := if ty = start then L + 1 else if ty = fin then L - 1 else L

theorem arr_counts : Counts (kindLevel .arrayStart .arrayEnd) where
  scalar := fun L ty h1 h2 h3 h4 => by simp [kindLevel, h1, h2]
  arr := Or.inl fun L => by simp [kindLevel]
  obj := Or.inr fun L => by simp [kindLevel]

theorem obj_counts : Counts (kindLevel .objectStart .objectEnd) where
  scalar := fun L ty h1 h2 h3 h4 => by simp [kindLevel, h3, h4]
  arr := Or.inr fun L => by simp [kindLevel]
  obj := Or.inl fun L => by simp [kindLevel]

theorem skipLoop_run (start fin : Ty) (rest : List Tok) (ts : List Tok) :
    ∀ (k : Tok) (L : Nat) (c : Ctx), Above (kindLevel start fin) L ts → c.Stream (k :: (ts ++ rest)) →
      ∃ c', (∀ n, skipLoop start fin (n + ts.length) L c = skipLoop start fin n (levelAfter (kindLevel start fin) L ts) c') ∧
        c.Adds [] [] c' ∧ c'.Stream ((k :: ts).getLastD {} :: rest) := by
  induction ts with
  | nil => intro k L c _ hst; exact ⟨c, fun n => by simp [levelAfter], Ctx.Adds.refl c, hst⟩
  | cons t ts ih =>
    intro k L c ha hst
    obtain ⟨h1, h2⟩ := hst.next
    obtain ⟨c', h3, h4, h5⟩ := ih t (kindLevel start fin L t.valueType) c.next ha.2 h1
    refine ⟨c', fun n => ?_, by simpa using h2.trans h4, h5⟩
    have hL : L ≠ 0 := by have := ha.1; omega
    have hv := h1.valueType
    rw [List.length_cons, ← Nat.add_assoc, skipLoop]
    simp only [hL, if_false, h1.err, ne_eq, not_true_eq_false, hv]
    exact h3 n

/-- Skipping consumes exactly one value. -/
theorem skip_value (c : Ctx) (l : Lbl) (v : JVal) (rest : List Tok) (hst : c.Stream ((Item.val l v).toks ++ rest)) :
    ∃ N c', (∀ n, N ≤ n → skipArrayOrObject n c = some c') ∧ c.Adds [] [] c' ∧ c'.Stream ((Item.val l v).last :: rest) := by
  have ht := hst.item.1
  by_cases hc : v.isContainer = true
  · have key : ∃ a b ks, (Item.val l v).toks = a :: (ks ++ [b]) ∧
        ((a.valueType = .objectStart ∧ b.valueType = .objectEnd ∧ Flat (kindLevel .objectStart .objectEnd) ks) ∨
         (a.valueType = .arrayStart ∧ b.valueType = .arrayEnd ∧ Flat (kindLevel .arrayStart .arrayEnd) ks)) := by
      cases v with
      | arr vs => exact ⟨_, _, elemToks vs, rfl, Or.inr ⟨rfl, rfl, flat_elems arr_counts vs⟩⟩
      | obj ms => exact ⟨_, _, memberToks ms, rfl, Or.inl ⟨rfl, rfl, flat_members obj_counts ms⟩⟩
      | _ => simp [JVal.isContainer] at hc
    obtain ⟨a, b, ks, he, hkind⟩ := key
    have hfirst : (Item.val l v).first = a := by rw [Item.first, he]; rfl
    rw [he] at hst
    rcases hkind with ⟨ha, hb, hf⟩ | ⟨ha, hb, hf⟩
    · obtain ⟨h1, h2⟩ := inner_toks (b := b) (by rw [hb]; rfl) hf
      obtain ⟨c', h3, h4, h5⟩ := skipLoop_run _ _ rest (ks ++ [b]) a 1 c h1 hst
      refine ⟨1 + (ks ++ [b]).length, c', fun n hn => ?_, h4, by rw [Item.last, he]; exact h5⟩
      obtain ⟨m, rfl⟩ : ∃ m, n = (m + 1) + (ks ++ [b]).length := ⟨n - 1 - (ks ++ [b]).length, by omega⟩
      simp only [skipArrayOrObject, ht, hfirst, ha, if_true, h3, h2]
      simp [skipLoop]
    · obtain ⟨h1, h2⟩ := inner_toks (b := b) (by rw [hb]; rfl) hf
      obtain ⟨c', h3, h4, h5⟩ := skipLoop_run _ _ rest (ks ++ [b]) a 1 c h1 hst
      refine ⟨1 + (ks ++ [b]).length, c', fun n hn => ?_, h4, by rw [Item.last, he]; exact h5⟩
      obtain ⟨m, rfl⟩ : ∃ m, n = (m + 1) + (ks ++ [b]).length := ⟨n - 1 - (ks ++ [b]).length, by omega⟩
      simp only [skipArrayOrObject, ht, hfirst, ha, if_true, if_false, reduceCtorEq, h3, h2]
      simp [skipLoop]
  · have hc' : (Item.val l v).isScalar = true := by simp [Item.isScalar, hc]
    obtain ⟨h1, h2⟩ := item_scalar hc'
    refine ⟨0, c, fun n _ => ?_, Ctx.Adds.refl c, by rw [h2]; rw [h1] at hst; exact hst⟩
    have h3 : c.token.valueType ≠ .objectStart := by
      rw [ht]; intro h; obtain ⟨_, _, h⟩ := (first_obj _).mp h; cases h; simp [JVal.isContainer] at hc
    have h4 : c.token.valueType ≠ .arrayStart := by
      rw [ht]; intro h; obtain ⟨_, _, h⟩ := (first_arr _).mp h; cases h; simp [JVal.isContainer] at hc
    simp [skipArrayOrObject, h3, h4]

end JsonStruct
