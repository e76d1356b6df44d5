import Verif.Spec.Source
import Verif.Lemmas.RawType
import Verif.Lemmas.Types

/- Streams of tokens that know where in the text they stand; handlers on values that remember their text. -/

set_option linter.unusedSimpArgs false
set_option linter.unusedVariables false

namespace JsonStruct

/-- A token, and for some of them how far from the end of the token which text begins. -/
abbrev ATok := Tok × Option (Nat × Bytes)

def aclose (m : Option (Nat × Bytes)) : ATok := (closeTok, m)
def acloseObj (m : Option (Nat × Bytes)) : ATok := (closeObj, m)

mutual
def AVal.toks (name : Bytes) (nameType : Ty) : AVal → List ATok
  | .null => [(⟨name, nameType, b!"null", .null⟩, none)]
  | .bool true => [(⟨name, nameType, b!"true", .bool⟩, none)]
  | .bool false => [(⟨name, nameType, b!"false", .bool⟩, none)]
  | .num n => [(⟨name, nameType, n, .number⟩, none)]
  | .str s => [(⟨name, nameType, s, .string⟩, none)]
  | .arr s vs => (⟨name, nameType, b!"[", .arrayStart⟩, some (1, s.text ++ s.after)) :: (aelemToks vs ++ [aclose (some (0, s.after))])
  | .obj s ms => (⟨name, nameType, b!"{", .objectStart⟩, some (1, s.text ++ s.after)) :: (amemberToks ms ++ [acloseObj (some (0, s.after))])
def aelemToks : List AVal → List ATok
  | [] => []
  | v :: vs => v.toks [] .ascii ++ aelemToks vs
def amemberToks : List (Bytes × AVal) → List ATok
  | [] => []
  | (n, v) :: ms => v.toks n .string ++ amemberToks ms
end

def AItem.toks : AItem → List ATok
  | .val l v => v.toks l.1 l.2
  | .close => [aclose none]

def AItem.first (i : AItem) : ATok := i.toks.headD ({}, none)
def AItem.last (i : AItem) : ATok := i.toks.getLastD ({}, none)

mutual
theorem atoks_plain (v : AVal) (n : Bytes) (nt : Ty) : (v.toks n nt).map Prod.fst = v.plain.toks n nt := by
  match v with
  | .null | .num _ | .str _ => rfl
  | .bool true => rfl
  | .bool false => rfl
  | .arr s vs => simp only [AVal.toks, AVal.plain, JVal.toks, List.map_cons, List.map_append, aelemToks_plain vs]; rfl
  | .obj s ms => simp only [AVal.toks, AVal.plain, JVal.toks, List.map_cons, List.map_append, amemberToks_plain ms]; rfl
theorem aelemToks_plain (vs : List AVal) : (aelemToks vs).map Prod.fst = elemToks (plainElems vs) := by
  match vs with
  | [] => rfl
  | v :: vs => simp only [aelemToks, plainElems, elemToks, List.map_append, atoks_plain v, aelemToks_plain vs]
theorem amemberToks_plain (ms : List (Bytes × AVal)) : (amemberToks ms).map Prod.fst = memberToks (plainMembers ms) := by
  match ms with
  | [] => rfl
  | (n, v) :: ms => simp only [amemberToks, plainMembers, memberToks, List.map_append, atoks_plain v, amemberToks_plain ms]
end

theorem aitem_plain (i : AItem) : i.toks.map Prod.fst = i.plain.toks := by
  cases i with
  | val l v => exact atoks_plain v _ _
  | close => rfl

theorem aitem_ne (i : AItem) : i.toks ≠ [] := by
  intro h
  have := aitem_plain i
  rw [h] at this
  obtain ⟨ks, hk⟩ := item_first (i := i.plain)
  rw [hk] at this
  cases this

theorem aitem_first (i : AItem) : ∃ ks, i.toks = i.first :: ks := by
  unfold AItem.first
  cases h : i.toks with
  | nil => exact absurd h (aitem_ne i)
  | cons k ks => exact ⟨ks, rfl⟩

theorem first_plain (i : AItem) : i.first.1 = i.plain.first := by
  obtain ⟨ks, hk⟩ := aitem_first i
  have := aitem_plain i
  rw [hk] at this
  rw [Item.first, ← this]; rfl

theorem last_plain (i : AItem) : i.last.1 = i.plain.last := by
  have h := aitem_plain i
  unfold AItem.last Item.last
  rw [← h]
  obtain ⟨ks, hk⟩ := aitem_first i
  rw [hk, List.getLastD_eq_getLast?, List.getLastD_eq_getLast?, List.getLast?_map]
  cases hl : (i.first :: ks).getLast? with
  | none => simp at hl
  | some x => rfl

/-- The last token of an item is no opening bracket. -/
theorem last_closed (i : AItem) : i.last.1.valueType ≠ .arrayStart ∧ i.last.1.valueType ≠ .objectStart := by
  rw [last_plain]
  cases i with
  | close => exact ⟨by decide, by decide⟩
  | val l v =>
    cases v with
    | bool b => cases b <;> simp [AItem.plain, AVal.plain, Item.last, Item.toks, JVal.toks]
    | arr s vs =>
      simp only [AItem.plain, AVal.plain, Item.last, Item.toks, JVal.toks]
      rw [List.getLastD_eq_getLast?, ← List.cons_append, List.getLast?_concat]; simp
    | obj s vs =>
      simp only [AItem.plain, AVal.plain, Item.last, Item.toks, JVal.toks]
      rw [List.getLastD_eq_getLast?, ← List.cons_append, List.getLast?_concat]; simp
    | _ => simp [AItem.plain, AVal.plain, Item.last, Item.toks, JVal.toks]

/-! ### Streams -/

/-- The tokenizer has `W` for its only buffer, and stands where the token says. -/
structure Placed (W : Bytes) (t : Tz) (a : ATok) : Prop where
  good : Good t W
  released : t.released = []
  mark : ∀ k m, a.2 = some (k, m) → W.drop (t.cursor - k) = m

/-- The next calls of `nextToken` deliver these tokens, at these places. -/
def ADelivers (W : Bytes) : Tz → List ATok → Prop
  | _, [] => True
  | t, a :: ks => ∃ t' tok, (∀ next, t.nextToken next = (.noError, t', tok)) ∧ tok.tok = a.1 ∧ Placed W t' a ∧ Ready t' tok ∧ ADelivers W t' ks

def Token.opens (k : Tok) : Prop := k.valueType = .arrayStart ∨ k.valueType = .objectStart

/-- The current token and those to come are `ks`. -/
def Ctx.AStream (W : Bytes) (c : Ctx) (ks : List ATok) : Prop :=
  c.error = .noError ∧ ∃ a ks', ks = a :: ks' ∧ c.token.tok = a.1 ∧ Placed W c.tz a ∧ (Token.opens a.1 → Ready c.tz c.token) ∧ ADelivers W c.tz ks'

variable {W : Bytes}

theorem Ctx.AStream.err {c : Ctx} {ks : List ATok} (h : c.AStream W ks) : c.error = .noError := h.1

theorem Ctx.AStream.tok {c : Ctx} {k : ATok} {ks : List ATok} (h : c.AStream W (k :: ks)) : c.token.tok = k.1 := by
  obtain ⟨_, k', ks', h1, h2, _⟩ := h
  simp only [List.cons.injEq] at h1
  rw [h2, h1.1]

theorem Ctx.AStream.valueType {c : Ctx} {k : ATok} {ks : List ATok} (h : c.AStream W (k :: ks)) : c.token.valueType = k.1.valueType := by
  rw [← h.tok]; rfl

theorem Ctx.AStream.next {c : Ctx} {k k' : ATok} {ks : List ATok} (h : c.AStream W (k :: k' :: ks)) :
    c.next.AStream W (k' :: ks) ∧ c.Adds [] [] c.next := by
  obtain ⟨_, k0, ks', h1, _, _, _, h3⟩ := h
  simp only [List.cons.injEq] at h1
  obtain ⟨rfl, rfl⟩ := h1
  obtain ⟨t', tok, h4, h5, h6, h7, h8⟩ := h3
  have hnx : c.next = { c with tz := t', token := tok, error := .noError } := by simp only [Ctx.next, h4]
  rw [hnx]
  exact ⟨⟨rfl, _, _, rfl, h5, h6, fun _ => h7, h8⟩, ⟨rfl, by simp, by simp⟩⟩

theorem Ctx.AStream.next' {c : Ctx} {k : ATok} {ks : List ATok} (h : c.AStream W (k :: ks)) (hne : ks ≠ []) :
    c.next.AStream W ks ∧ c.Adds [] [] c.next := by
  cases ks with
  | nil => exact absurd rfl hne
  | cons k' ks => exact h.next

theorem Ctx.AStream.item {c : Ctx} {i : AItem} {rest : List ATok} (h : c.AStream W (i.toks ++ rest)) :
    c.token.valueType = i.plain.first.valueType ∧ c.token.name.bytes = i.plain.first.name := by
  obtain ⟨ks, hk⟩ := aitem_first i
  rw [hk] at h
  have := h.tok
  rw [first_plain] at this
  rw [← this]; exact ⟨rfl, rfl⟩

/-- The place of the current token may be forgotten. -/
theorem Ctx.AStream.forget {c : Ctx} {k : Tok} {m : Option (Nat × Bytes)} {ks : List ATok} (h : c.AStream W ((k, m) :: ks)) : c.AStream W ((k, none) :: ks) := by
  obtain ⟨h0, a, ks', h1, h2, h3, h4, h5⟩ := h
  simp only [List.cons.injEq] at h1
  obtain ⟨rfl, rfl⟩ := h1
  exact ⟨h0, _, _, rfl, h2, ⟨h3.good, h3.released, fun k m h => by cases h⟩, h4, h5⟩

/-- The handler does what the decoder says. -/
def Handler.ASem (h : Handler T) (d : ADec T) : Prop :=
  ∀ (W : Bytes) (c : Ctx) (old : T) (i : AItem) (rest : List ATok) (r : Res T), c.AStream W (i.toks ++ rest) → d c.popts old i = some r →
    Does (fun n => h.to n old c) c r (fun c' => c'.AStream W (i.last :: rest))

/-! ### From values without texts -/

/-- Behind the tokens stands this tokenizer. -/
def endsAt (T : Tz) : EndCond := ⟨(· = T)⟩

theorem delivers_split {rest : List ATok} : ∀ (ks : List ATok) (t : Tz), ADelivers W t (ks ++ rest) →
    ∃ T, @Delivers (endsAt T) t (ks.map Prod.fst) ∧ ADelivers W T rest ∧ (∀ k, ks.getLast? = some k → Placed W T k)
  | [], t, h => ⟨t, rfl, h, fun k hk => by cases hk⟩
  | a :: ks, t, h => by
    obtain ⟨t', tok, h1, h2, h3, h4, h5⟩ := h
    obtain ⟨T, g1, g2, g3⟩ := delivers_split ks t' h5
    refine ⟨T, ⟨t', tok, h1, h2, g1⟩, g2, fun k hk => ?_⟩
    cases ks with
    | nil =>
      simp only [List.getLast?_singleton, Option.some.injEq] at hk
      subst hk
      have : t' = T := g1
      rw [← this]; exact h3
    | cons b ks => exact g3 k (by rw [← hk]; simp)

theorem astream_split {c : Ctx} {i : AItem} {rest : List ATok} (h : c.AStream W (i.toks ++ rest)) :
    ∃ T, @Ctx.Stream (endsAt T) c (i.plain.toks ++ []) ∧ ∀ c' : Ctx, @Ctx.Stream (endsAt T) c' (i.plain.last :: []) → c'.AStream W (i.last :: rest) := by
  obtain ⟨ks, hk⟩ := aitem_first i
  have hpl := aitem_plain i
  obtain ⟨h0, a, ks', h1, h2, h3, h4, h5⟩ := h
  rw [hk, List.cons_append, List.cons.injEq] at h1
  obtain ⟨rfl, rfl⟩ := h1
  obtain ⟨T, g1, g2, g3⟩ := delivers_split ks c.tz h5
  refine ⟨T, ⟨h0, i.first.1, ks.map Prod.fst, ?_, h2, g1⟩, ?_⟩
  · rw [List.append_nil, ← hpl, hk]; rfl
  · intro c' ⟨k0, k, ks2, k1, k2, k3⟩
    simp only [List.cons.injEq] at k1
    obtain ⟨rfl, rfl⟩ := k1
    have hT : c'.tz = T := k3
    have hp : Placed W T i.last := by
      cases hl : ks.getLast? with
      | none =>
        have hks : ks = [] := List.getLast?_eq_none_iff.mp hl
        subst hks
        have : c.tz = T := g1
        rw [← this, show i.last = i.first by unfold AItem.last; rw [hk]; rfl]
        exact h3
      | some k =>
        have : i.last = k := by
          unfold AItem.last
          rw [hk, List.getLastD_eq_getLast?]
          cases ks with
          | nil => cases hl
          | cons b ks => rw [List.getLast?_cons_cons, hl]; rfl
        rw [this]; exact g3 k hl
    refine ⟨k0, _, _, rfl, by rw [k2, last_plain], by rw [hT]; exact hp, fun ho => ?_, by rw [hT]; exact g2⟩
    rcases ho with ho | ho
    · exact absurd ho (last_closed i).1
    · exact absurd ho (last_closed i).2

theorem plain_asem {h : Handler T} {d : Dec T} (hs : ∀ E : EndCond, @Handler.Sem E T h d) : h.ASem (plainADec d) := by
  intro W c old i rest r hst hd
  obtain ⟨T, h1, h2⟩ := astream_split hst
  obtain ⟨N, c', g1, g2, g3⟩ := hs (endsAt T) c old i.plain [] r h1 hd
  exact ⟨N, c', g1, g2, fun he => h2 c' (g3 he)⟩

theorem askip_value (c : Ctx) (l : Lbl) (v : AVal) (rest : List ATok) (hst : c.AStream W ((AItem.val l v).toks ++ rest)) :
    ∃ N c', (∀ n, N ≤ n → skipArrayOrObject n c = some c') ∧ c.Adds [] [] c' ∧ c'.AStream W ((AItem.val l v).last :: rest) := by
  obtain ⟨T, h1, h2⟩ := astream_split hst
  obtain ⟨N, c', g1, g2, g3⟩ := @skip_value (endsAt T) c l v.plain [] h1
  exact ⟨N, c', g1, g2, h2 c' g3⟩

/-! ### Kinds of items -/

theorem afirst_null (i : AItem) : i.plain.first.valueType = .null ↔ ∃ l, i = .val l .null := by
  rw [first_null]
  cases i with
  | close => simp [AItem.plain]
  | val l v => cases v <;> simp [AItem.plain, AVal.plain]

theorem afirst_arr (i : AItem) : i.plain.first.valueType = .arrayStart ↔ ∃ l s vs, i = .val l (.arr s vs) := by
  rw [first_arr]
  cases i with
  | close => simp [AItem.plain]
  | val l v => cases v <;> simp [AItem.plain, AVal.plain]

theorem afirst_obj (i : AItem) : i.plain.first.valueType = .objectStart ↔ ∃ l s ms, i = .val l (.obj s ms) := by
  rw [first_obj]
  cases i with
  | close => simp [AItem.plain]
  | val l v => cases v <;> simp [AItem.plain, AVal.plain]

theorem anull_stream {c : Ctx} {i : AItem} {rest : List ATok} (h : c.AStream W (i.toks ++ rest)) (hn : ∃ l, i = .val l .null) :
    c.AStream W (i.last :: rest) := by
  obtain ⟨l, rfl⟩ := hn; exact h

/-! ### Wrappers -/

theorem nullable_asem {h : Handler T} {d : ADec T} (hs : h.ASem d) : (nullableH h).ASem (nullableADec d) := by
  intro W c old i rest r hst hd
  have ht := hst.item.1
  by_cases hn : i.plain.first.valueType = .null
  · have hn' := (afirst_null i).mp hn
    have hd' : r = ⟨.noError, old, [], []⟩ := by
      obtain ⟨l, rfl⟩ := hn'; simp [nullableADec] at hd; exact hd.symm
    subst hd'
    exact Does.pure (fun n => by simp [nullableH, ht, hn]) fun _ => anull_stream hst hn'
  · have hd' : d c.popts old i = some r := by
      unfold nullableADec at hd
      split at hd
      · exact absurd ((afirst_null _).mpr ⟨_, rfl⟩) hn
      · exact hd
    obtain ⟨N, c', h1, h2, h3⟩ := hs W c old i rest r hst hd'
    exact ⟨N, c', fun n hn' => by simp only [nullableH, ht, hn, if_false]; exact h1 n hn', h2, h3⟩

theorem nullableChecked_asem {h : Handler T} {d : ADec T} (hs : h.ASem d) : (nullableCheckedH h).ASem (nullableCheckedADec d) := by
  intro W c old i rest r hst hd
  have ht := hst.item.1
  by_cases hn : i.plain.first.valueType = .null
  · have hn' := (afirst_null i).mp hn
    have hd' : r = ⟨.noError, (old.1, true), [], []⟩ := by
      obtain ⟨l, rfl⟩ := hn'; simp [nullableCheckedADec] at hd; exact hd.symm
    subst hd'
    exact Does.pure (fun n => by simp [nullableCheckedH, ht, hn]) fun _ => anull_stream hst hn'
  · have hd' : (d c.popts old.1 i).map (Res.map (·, false)) = some r := by
      unfold nullableCheckedADec at hd
      split at hd
      · exact absurd ((afirst_null _).mpr ⟨_, rfl⟩) hn
      · exact hd
    obtain ⟨q, hq, rfl⟩ := Option.map_eq_some_iff.mp hd'
    exact (hs W c old.1 i rest q hst hq).map fun n => by simp only [nullableCheckedH, ht, hn, if_false]

theorem optionalChecked_asem {h : Handler T} {d : ADec T} (hs : h.ASem d) : (optionalCheckedH h).ASem (optionalCheckedADec d) := by
  intro W c old i rest r hst hd
  obtain ⟨q, hq, rfl⟩ := Option.map_eq_some_iff.mp hd
  exact (hs W c old.1 i rest q hst hq).map fun n => rfl

theorem stdOptional_asem {h : Handler T} {d : ADec T} (hs : h.ASem d) : (stdOptionalH h).ASem (stdOptionalADec h.init d) := by
  intro W c old i rest r hst hd
  obtain ⟨q, hq, rfl⟩ := Option.map_eq_some_iff.mp hd
  exact (hs W c h.init i rest q hst hq).map fun n => rfl

theorem ptr_asem {h : Handler T} {d : ADec T} (hs : h.ASem d) : (ptrH h).ASem (ptrADec h.init d) := by
  intro W c old i rest r hst hd
  have ht := hst.item.1
  by_cases hn : i.plain.first.valueType = .null
  · have hn' := (afirst_null i).mp hn
    have hd' : r = ⟨.noError, none, [], []⟩ := by
      obtain ⟨l, rfl⟩ := hn'; simp [ptrADec] at hd; exact hd.symm
    subst hd'
    exact Does.pure (fun n => by simp [ptrH, ht, hn]) fun _ => anull_stream hst hn'
  · have hd' : (d c.popts (old.getD h.init) i).map (Res.map some) = some r := by
      unfold ptrADec at hd
      split at hd
      · exact absurd ((afirst_null _).mpr ⟨_, rfl⟩) hn
      · exact hd
    obtain ⟨q, hq, rfl⟩ := Option.map_eq_some_iff.mp hd'
    exact (hs W c _ i rest q hst hq).map fun n => by simp only [ptrH, ht, hn, ne_eq, not_false_eq_true, if_true]

/-! ### Loops -/

theorem arrayADec_cases {f : POpts → T → List AVal → Option (Res T)} {o : POpts} {old : T} {i : AItem} {r : Res T}
    (h : arrayADec f o old i = some r) :
    (i.plain.first.valueType ≠ .arrayStart ∧ r = ⟨.expectedArrayStart, old, [], []⟩) ∨
    ∃ l s vs, i = .val l (.arr s vs) ∧ f o old vs = some r := by
  unfold arrayADec at h
  split at h
  · exact Or.inr ⟨_, _, _, rfl, h⟩
  · left
    rename_i hne
    refine ⟨fun h => ?_, (Option.some.inj h).symm⟩
    obtain ⟨l, s, vs, rfl⟩ := (afirst_arr _).mp h
    exact hne _ _ _ rfl

theorem objectADec_cases {f : POpts → T → List (Bytes × AVal) → Option (Res T)} {o : POpts} {old : T} {i : AItem} {r : Res T}
    (h : objectADec f o old i = some r) :
    (i.plain.first.valueType ≠ .objectStart ∧ r = ⟨.expectedObjectStart, old, [], []⟩) ∨
    ∃ l s vs, i = .val l (.obj s vs) ∧ f o old vs = some r := by
  unfold objectADec at h
  split at h
  · exact Or.inr ⟨_, _, _, rfl, h⟩
  · left
    rename_i hne
    refine ⟨fun h => ?_, (Option.some.inj h).symm⟩
    obtain ⟨l, s, vs, rfl⟩ := (afirst_obj _).mp h
    exact hne _ _ _ rfl

theorem aarr_stream {c : Ctx} {l : Lbl} {s : Src} {vs : List AVal} {rest : List ATok} (h : c.AStream W ((AItem.val l (.arr s vs)).toks ++ rest)) :
    c.token.valueType = .arrayStart ∧ c.next.AStream W (aelemToks vs ++ aclose (some (0, s.after)) :: rest) ∧ c.Adds [] [] c.next ∧ c.next.error = .noError ∧
    (AItem.val l (.arr s vs)).last = aclose (some (0, s.after)) := by
  have h0 := h.item.1
  simp only [AItem.toks, AVal.toks, List.cons_append, List.append_assoc, List.singleton_append] at h
  obtain ⟨h1, h2⟩ := h.next' (by simp)
  refine ⟨?_, h1, h2, h1.err, ?_⟩
  · rw [h0]; rfl
  · simp only [AItem.last, AItem.toks, AVal.toks]; rw [List.getLastD_eq_getLast?, ← List.cons_append, List.getLast?_concat]; rfl

theorem aobj_stream {c : Ctx} {l : Lbl} {s : Src} {ms : List (Bytes × AVal)} {rest : List ATok} (h : c.AStream W ((AItem.val l (.obj s ms)).toks ++ rest)) :
    c.token.valueType = .objectStart ∧ c.next.AStream W (amemberToks ms ++ acloseObj (some (0, s.after)) :: rest) ∧ c.Adds [] [] c.next ∧ c.next.error = .noError ∧
    (AItem.val l (.obj s ms)).last = acloseObj (some (0, s.after)) := by
  have h0 := h.item.1
  simp only [AItem.toks, AVal.toks, List.cons_append, List.append_assoc, List.singleton_append] at h
  obtain ⟨h1, h2⟩ := h.next' (by simp)
  refine ⟨?_, h1, h2, h1.err, ?_⟩
  · rw [h0]; rfl
  · simp only [AItem.last, AItem.toks, AVal.toks]; rw [List.getLastD_eq_getLast?, ← List.cons_append, List.getLast?_concat]; rfl

/-- An element of an array, and the token behind it. -/
theorem aelem_step {h : Handler T} {d : ADec T} (hs : h.ASem d) {c : Ctx} {old : T} {i : AItem} {rest : List ATok} {r : Res T}
    (hst : c.AStream W (i.toks ++ rest)) (hne : rest ≠ []) (hd : d c.popts old i = some r) :
    ∃ N c', (∀ n, N ≤ n → h.to n old c = some (r.err, r.val, c')) ∧ c.Adds r.missing r.unassigned c' ∧
      (r.err = .noError → c'.error = .noError ∧ c'.next.AStream W rest ∧ c.Adds r.missing r.unassigned c'.next ∧ c'.next.error = .noError) := by
  obtain ⟨N, c', h1, h2, h3⟩ := hs W c old i rest r hst hd
  refine ⟨N, c', h1, h2, fun he => ?_⟩
  obtain ⟨h4, h5⟩ := (h3 he).next' hne
  exact ⟨(h3 he).err, h4, by simpa using h2.trans h5, h4.err⟩

theorem aelem_first (v : AVal) (vs : List AVal) (rest : List ATok) :
    aelemToks (v :: vs) ++ rest = (aelem v).toks ++ (aelemToks vs ++ rest) := by
  simp [aelemToks, aelem, AItem.toks]

theorem aelem_not_close {c : Ctx} {v : AVal} {rest : List ATok} (h : c.AStream W ((aelem v).toks ++ rest)) :
    c.token.valueType ≠ .arrayEnd := by
  rw [h.item.1]; exact (first_val _ _).1

theorem amember_first (n : Bytes) (v : AVal) (ms : List (Bytes × AVal)) (rest : List ATok) :
    amemberToks ((n, v) :: ms) ++ rest = (AItem.val (n, .string) v).toks ++ (amemberToks ms ++ rest) := by
  simp [amemberToks, AItem.toks]

theorem amember_not_close {c : Ctx} {l : Lbl} {v : AVal} {rest : List ATok} (h : c.AStream W ((AItem.val l v).toks ++ rest)) :
    c.token.valueType ≠ .objectEnd ∧ c.token.name.bytes = l.1 := by
  rw [h.item.1, h.item.2]; exact (first_val _ _).2

theorem vecLoop_asim {h : Handler T} {d : ADec T} (hs : h.ASem d) (m : Option (Nat × Bytes)) (rest : List ATok) (vs : List AVal) :
    ∀ (c : Ctx) (acc : List T) (r : Res (List T)), c.AStream W (aelemToks vs ++ aclose m :: rest) →
      elemsADec h.init d c.popts acc vs = some r →
      Does2 (fun f n => vecLoop h f n acc c) c r (fun c' => c'.AStream W (aclose m :: rest)) := by
  induction vs with
  | nil =>
    intro c acc r hst hd
    simp only [elemsADec, Option.some.injEq] at hd
    subst hd
    refine ⟨1, c, fun f n _ hn => ?_, Ctx.Adds.refl c, fun _ => hst⟩
    obtain ⟨n, rfl⟩ : ∃ m, n = m + 1 := ⟨n - 1, by omega⟩
    have : c.token.valueType = .arrayEnd := hst.valueType
    simp [vecLoop, this]
  | cons v vs ih =>
    intro c acc r hst hd
    rw [elemsADec] at hd
    obtain ⟨q, hq, hd⟩ := Option.bind_eq_some_iff.mp hd
    rw [aelem_first] at hst
    have hna := aelem_not_close hst
    obtain ⟨N, c1, h1, h2, h3⟩ := aelem_step hs hst (by simp) hq
    rcases andThen_cases hd with ⟨he, rfl⟩ | ⟨he, p, hp, rfl⟩
    · refine ⟨N + 1, c1, fun f n hf hn => ?_, h2, fun h => absurd h he⟩
      obtain ⟨n, rfl⟩ : ∃ m, n = m + 1 := ⟨n - 1, by omega⟩
      simp [vecLoop, hna, h1 f (by omega), he]
    · obtain ⟨_, h5, h6, h7⟩ := h3 he
      obtain ⟨N', c', h8, h9, h10⟩ := ih c1.next (acc ++ [q.val]) p h5 (by rw [h6.opts]; exact hp)
      refine ⟨N + N' + 1, c', fun f n hf hn => ?_, h6.trans h9, h10⟩
      obtain ⟨n, rfl⟩ : ∃ m, n = m + 1 := ⟨n - 1, by omega⟩
      simp [vecLoop, hna, h1 f (by omega), he, h7, h8 f n (by omega) (by omega)]

theorem vec_asem {h : Handler T} {d : ADec T} (hs : h.ASem d) : (vecH h).ASem (vecADec h.init d) := by
  intro W c old i rest r hst hd
  have ht := hst.item.1
  rcases arrayADec_cases hd with ⟨hn, rfl⟩ | ⟨l, s, vs, rfl, hf⟩
  · refine Does.pure (fun n => by simp [vecH, ht, hn]) (by simp)
  · obtain ⟨h1, h2, h3, h4, h5⟩ := aarr_stream hst
    rw [h5]
    refine ((vecLoop_asim hs _ rest vs c.next [] r h2 (by rw [h3.opts]; exact hf)).diag.after h3).congr fun n => ?_
    simp [vecH, h1, h4]

theorem oneOrMany_asem {h : Handler T} {d : ADec T} (hs : h.ASem d) : (oneOrManyH h).ASem (oneOrManyADec h.init d) := by
  intro W c old i rest r hst hd
  have ht := hst.item.1
  by_cases ha : i.plain.first.valueType = .arrayStart
  · have hd' : vecADec h.init d c.popts old i = some r := by
      obtain ⟨l, s, vs, rfl⟩ := (afirst_arr i).mp ha; exact hd
    obtain ⟨N, c', h1, h2, h3⟩ := vec_asem hs W c old i rest r hst hd'
    refine ⟨N, { c' with error := r.err }, fun n hn => ?_, ⟨h2.opts, h2.missing, h2.unassigned⟩, fun he => ?_⟩
    · simp [oneOrManyH, ht, ha, h1 n hn]
    · rw [he, Ctx.set_error (h3 he).err]; exact h3 he
  · have hd' : (d c.popts h.init i).map (Res.map fun x => old ++ [x]) = some r := by
      unfold oneOrManyADec at hd
      split at hd
      · exact absurd ((afirst_arr _).mpr ⟨_, _, _, rfl⟩) ha
      · exact hd
    obtain ⟨q, hq, rfl⟩ := Option.map_eq_some_iff.mp hd'
    obtain ⟨N, c', h1, h2, h3⟩ := hs W c h.init i rest q hst hq
    refine ⟨N, { c' with error := q.err }, fun n hn => ?_, ⟨h2.opts, h2.missing, h2.unassigned⟩, fun he => ?_⟩
    · simp [oneOrManyH, ht, ha, h1 n hn, Res.map]
    · have he : q.err = .noError := he
      rw [he, Ctx.set_error (h3 he).err]; exact h3 he

theorem arrLoop_asim {h : Handler T} {d : ADec T} (hs : h.ASem d) (m : Option (Nat × Bytes)) (rest : List ATok) (xs : List T) :
    ∀ (c : Ctx) (vs : List AVal) (r : Res (List T)), c.AStream W (aelemToks vs ++ aclose m :: rest) →
      fixedADec d c.popts xs vs = some r →
      Does (fun n => (arrLoop h n xs c).bind arrFin) c r (fun c' => c'.AStream W (aclose m :: rest)) := by
  induction xs with
  | nil =>
    intro c vs r hst hd
    cases vs with
    | nil =>
      simp only [fixedADec, Option.some.injEq] at hd
      subst hd
      have ht : c.token.valueType = .arrayEnd := hst.valueType
      refine Does.pure (fun n => ?_) fun _ => hst
      simp [arrLoop, arrFin, ht, hst.err]
    | cons v vs =>
      simp only [fixedADec, Option.some.injEq] at hd
      subst hd
      rw [aelem_first] at hst
      refine Does.pure (fun n => ?_) (by simp)
      simp [arrLoop, arrFin, aelem_not_close hst]
  | cons x xs ih =>
    intro c vs r hst hd
    cases vs with
    | nil =>
      simp only [fixedADec] at hd
      obtain ⟨q, hq, rfl⟩ := Option.map_eq_some_iff.mp hd
      obtain ⟨q', hq', hf⟩ := Option.bind_eq_some_iff.mp hq
      obtain ⟨rfl, he⟩ := failed_some hf
      obtain ⟨N, c', h1, h2, _⟩ := hs W c x .close rest q (Ctx.AStream.forget hst) hq'
      refine ⟨N, { c' with error := q.err }, fun n hn => ?_, ⟨h2.opts, h2.missing, h2.unassigned⟩, fun h => absurd h he⟩
      have he' : q.err ≠ .noError := he
      simp [arrLoop, hst.err, h1 n hn, he', arrFin, Res.map]
    | cons v vs =>
      rw [fixedADec] at hd
      obtain ⟨q, hq, hd⟩ := Option.bind_eq_some_iff.mp hd
      have he := hst.err
      rw [aelem_first] at hst
      obtain ⟨N, c1, h1, h2, h3⟩ := aelem_step hs hst (by simp) hq
      rcases andThen_cases hd with ⟨he', rfl⟩ | ⟨he', p, hp, rfl⟩
      · refine ⟨N, { c1 with error := q.err }, fun n hn => ?_, ⟨h2.opts, h2.missing, h2.unassigned⟩, fun h => absurd h he'⟩
        simp [arrLoop, he, h1 n hn, he', arrFin]
      · obtain ⟨p, hp', rfl⟩ := Option.map_eq_some_iff.mp hp
        obtain ⟨h4, h5, h6, h7⟩ := h3 he'
        obtain ⟨N', c', h8, h9, h10⟩ := ih c1.next vs p h5 (by rw [h6.opts]; exact hp')
        refine ⟨N + N', c', fun n hn => ?_, h6.trans h9, h10⟩
        have h8 := h8 n (by omega)
        dsimp only at h8
        simp only [arrLoop, he, ne_eq, not_true_eq_false, if_false, h1 n (by omega), Option.bind_eq_bind, Option.bind_some, he', Ctx.set_error h4]
        cases hl : arrLoop h n xs c1.next with
        | none => rw [hl] at h8; cases h8
        | some w =>
          obtain ⟨w1, w2, w3⟩ := w
          rw [hl] at h8
          simp only [Option.bind_some] at h8 ⊢
          rw [arrFin_cons, h8]; rfl

theorem arr_asem (N : Nat) {h : Handler T} {d : ADec T} (hs : h.ASem d) : (arrH N h).ASem (arrADec d) := by
  intro W c old i rest r hst hd
  have ht := hst.item.1
  rcases arrayADec_cases hd with ⟨hn, rfl⟩ | ⟨l, s, vs, rfl, hf⟩
  · exact Does.pure (fun n => by simp [arrH, ht, hn]) (by simp)
  · obtain ⟨h1, h2, h3, h4, h5⟩ := aarr_stream hst
    rw [h5]
    refine ((arrLoop_asim hs _ rest old c.next vs r h2 (by rw [h3.opts]; exact hf)).after h3).congr fun n => ?_
    simp only [arrH, h1, ne_eq, not_true_eq_false, if_false]
    rfl

theorem avcLoop_asim {h : Handler T} {d : ADec T} (hs : h.ASem d) (m : Option (Nat × Bytes)) (rest : List ATok) (size : Nat) (xs : List T) :
    ∀ (c : Ctx) (i : Nat) (vs : List AVal) (r : Res (List T × Nat)), c.AStream W (aelemToks vs ++ aclose m :: rest) →
      avcFixedADec d c.popts size i xs vs = some r →
      Does (fun n => (avcLoop h n size i xs c).bind avcFin) c r (fun c' => c'.AStream W (aclose m :: rest)) := by
  induction xs with
  | nil =>
    intro c i vs r hst hd
    cases vs with
    | nil =>
      simp only [avcFixedADec, Option.some.injEq] at hd
      subst hd
      have ht : c.token.valueType = .arrayEnd := hst.valueType
      refine Does.pure (fun n => ?_) fun _ => hst
      simp [avcLoop, avcFin, ht, hst.err]
    | cons v vs =>
      simp only [avcFixedADec, Option.some.injEq] at hd
      subst hd
      rw [aelem_first] at hst
      refine Does.pure (fun n => ?_) (by simp)
      simp [avcLoop, avcFin, aelem_not_close hst]
  | cons x xs ih =>
    intro c i vs r hst hd
    cases vs with
    | nil =>
      simp only [avcFixedADec, Option.some.injEq] at hd
      subst hd
      have ht : c.token.valueType = .arrayEnd := hst.valueType
      refine Does.pure (fun n => ?_) fun _ => hst
      simp [avcLoop, avcFin, ht, hst.err]
    | cons v vs =>
      rw [avcFixedADec] at hd
      obtain ⟨q, hq, hd⟩ := Option.bind_eq_some_iff.mp hd
      have he := hst.err
      rw [aelem_first] at hst
      have hnc := aelem_not_close hst
      obtain ⟨N, c1, h1, h2, h3⟩ := aelem_step hs hst (by simp) hq
      rcases andThen_cases hd with ⟨he', rfl⟩ | ⟨he', p, hp, rfl⟩
      · refine ⟨N, { c1 with error := q.err }, fun n hn => ?_, ⟨h2.opts, h2.missing, h2.unassigned⟩, fun h => absurd h he'⟩
        simp [avcLoop, he, h1 n hn, he', avcFin, hnc]
      · obtain ⟨p, hp', rfl⟩ := Option.map_eq_some_iff.mp hp
        obtain ⟨h4, h5, h6, h7⟩ := h3 he'
        obtain ⟨N', c', h8, h9, h10⟩ := ih c1.next (i + 1) vs p h5 (by rw [h6.opts]; exact hp')
        refine ⟨N + N', c', fun n hn => ?_, h6.trans h9, h10⟩
        have h8 := h8 n (by omega)
        dsimp only at h8
        simp only [avcLoop, he, hnc, ne_eq, not_true_eq_false, if_false, h1 n (by omega), Option.bind_eq_bind, Option.bind_some, he', Ctx.set_error h4]
        cases hl : avcLoop h n size (i + 1) xs c1.next with
        | none => rw [hl] at h8; cases h8
        | some w =>
          obtain ⟨w1, w2, w3, w4⟩ := w
          rw [hl] at h8
          simp only [Option.bind_some] at h8 ⊢
          rw [avcFin_cons, h8]; rfl

theorem avc_asem (count : Nat) {h : Handler T} {d : ADec T} (hs : h.ASem d) : (avcH count h).ASem (avcADec d) := by
  intro W c old i rest r hst hd
  have ht := hst.item.1
  rcases arrayADec_cases hd with ⟨hn, rfl⟩ | ⟨l, s, vs, rfl, hf⟩
  · exact Does.pure (fun n => by simp [avcH, ht, hn]) (by simp)
  · obtain ⟨h1, h2, h3, h4, h5⟩ := aarr_stream hst
    rw [h5]
    refine ((avcLoop_asim hs _ rest old.2 old.1 c.next 0 vs r h2 (by rw [h3.opts]; exact hf)).after h3).congr fun n => ?_
    simp only [avcH, h1, ne_eq, not_true_eq_false, if_false]
    rfl

/-! ### Tuples -/

def TupleH.ASem (t : TupleH Ts) (d : TupADec Ts) : Prop :=
  ∀ (W : Bytes) (c : Ctx) (old : Ts) (vs : List AVal) (m : Option (Nat × Bytes)) (rest : List ATok) (r : Res Ts), c.AStream W (aelemToks vs ++ aclose m :: rest) →
    d c.popts old vs = some r →
    Does (fun n => (t.to n old c).bind tupFin) c r (fun c' => c'.AStream W (aclose m :: rest))

theorem tupNil_asem : TupleH.nil.ASem tupNilADec := by
  intro W c old vs m rest r hst hd
  simp only [tupNilADec, Option.some.injEq] at hd
  subst hd
  cases vs with
  | nil =>
    have ht : c.token.valueType = .arrayEnd := hst.valueType
    exact Does.pure (fun n => by simp [TupleH.nil, tupFin, ht]) fun _ => hst
  | cons v vs =>
    rw [aelem_first] at hst
    exact Does.pure (fun n => by simp [TupleH.nil, tupFin, aelem_not_close hst]) (by simp)

theorem tupCons_asem {h : Handler T} {d : ADec T} {t : TupleH Ts} {td : TupADec Ts} (hs : h.ASem d) (hts : t.ASem td) :
    (TupleH.cons h t).ASem (tupConsADec d td) := by
  intro W c old vs m rest r hst hd
  cases vs with
  | nil =>
    simp only [tupConsADec] at hd
    obtain ⟨q, hq, rfl⟩ := Option.map_eq_some_iff.mp hd
    obtain ⟨q', hq', hf⟩ := Option.bind_eq_some_iff.mp hq
    obtain ⟨rfl, he⟩ := failed_some hf
    obtain ⟨N, c', h1, h2, _⟩ := hs W c old.1 .close rest q (Ctx.AStream.forget hst) hq'
    refine ⟨N, c', fun n hn => ?_, h2, fun h => absurd h he⟩
    simp [TupleH.cons, h1 n hn, he, tupFin, Res.map]
  | cons v vs =>
    simp only [tupConsADec] at hd
    obtain ⟨q, hq, hd⟩ := Option.bind_eq_some_iff.mp hd
    rw [aelem_first] at hst
    obtain ⟨N, c1, h1, h2, h3⟩ := aelem_step hs hst (by simp) hq
    rcases andThen_cases hd with ⟨he', rfl⟩ | ⟨he', p, hp, rfl⟩
    · refine ⟨N, c1, fun n hn => ?_, h2, fun h => absurd h he'⟩
      simp [TupleH.cons, h1 n hn, he', tupFin]
    · obtain ⟨p, hp', rfl⟩ := Option.map_eq_some_iff.mp hp
      obtain ⟨h4, h5, h6, h7⟩ := h3 he'
      obtain ⟨N', c', h8, h9, h10⟩ := hts W c1.next old.2 vs m rest p h5 (by rw [h6.opts]; exact hp')
      refine ⟨N + N', c', fun n hn => ?_, h6.trans h9, h10⟩
      have h8 := h8 n (by omega)
      dsimp only at h8
      simp only [TupleH.cons, h1 n (by omega), Option.bind_eq_bind, Option.bind_some, he', ne_eq, not_true_eq_false, if_false, h7]
      cases hl : t.to n old.2 c1.next with
      | none => rw [hl] at h8; cases h8
      | some w =>
        rw [hl] at h8
        simp only [Option.bind_some, Option.map_some] at h8 ⊢
        rw [tupFin_pair, h8]; rfl

theorem tuple_asem {t : TupleH Ts} {td : TupADec Ts} (hts : t.ASem td) : (tupleH t).ASem (tupleADec td) := by
  intro W c old i rest r hst hd
  have ht := hst.item.1
  rcases arrayADec_cases hd with ⟨hn, rfl⟩ | ⟨l, s, vs, rfl, hf⟩
  · exact Does.pure (fun n => by simp [tupleH, ht, hn]) (by simp)
  · obtain ⟨h1, h2, h3, h4, h5⟩ := aarr_stream hst
    rw [h5]
    refine ((hts W c.next old vs _ rest r h2 (by rw [h3.opts]; exact hf)).after h3).congr fun n => ?_
    simp only [tupleH, h1, h4, ne_eq, not_true_eq_false, if_false]
    rfl

/-! ### Sets and maps -/

theorem setLoop_asim [DecidableEq T] (ins : List T → T → List T) {h : Handler T} {d : ADec T} (hs : h.ASem d) (m : Option (Nat × Bytes)) (rest : List ATok) (vs : List AVal) :
    ∀ (c : Ctx) (acc : List T) (r : Res (List T)), c.AStream W (aelemToks vs ++ aclose m :: rest) →
      setElemsADec ins h.init d c.popts acc vs = some r →
      Does2 (fun f n => setLoop ins h f n acc c) c r (fun c' => c'.AStream W (aclose m :: rest)) := by
  induction vs with
  | nil =>
    intro c acc r hst hd
    simp only [setElemsADec, Option.some.injEq] at hd
    subst hd
    refine ⟨1, c, fun f n _ hn => ?_, Ctx.Adds.refl c, fun _ => hst⟩
    obtain ⟨n, rfl⟩ : ∃ m, n = m + 1 := ⟨n - 1, by omega⟩
    have : c.token.valueType = .arrayEnd := hst.valueType
    simp [setLoop, this]
  | cons v vs ih =>
    intro c acc r hst hd
    rw [setElemsADec] at hd
    obtain ⟨q, hq, hd⟩ := Option.bind_eq_some_iff.mp hd
    rw [aelem_first] at hst
    have hna := aelem_not_close hst
    obtain ⟨N, c1, h1, h2, h3⟩ := aelem_step hs hst (by simp) hq
    rcases andThen_cases hd with ⟨he, rfl⟩ | ⟨he, p, hp, rfl⟩
    · refine ⟨N + 1, c1, fun f n hf hn => ?_, h2, fun h => absurd h he⟩
      obtain ⟨n, rfl⟩ : ∃ m, n = m + 1 := ⟨n - 1, by omega⟩
      simp [setLoop, hna, h1 f (by omega), he]
    · split at hp
      · rename_i hin
        cases hp
        refine ⟨N + 1, c1, fun f n hf hn => ?_, by simpa using h2, fun h => by cases h⟩
        obtain ⟨n, rfl⟩ : ∃ m, n = m + 1 := ⟨n - 1, by omega⟩
        simp [setLoop, hna, h1 f (by omega), he, hin]
      · rename_i hin
        obtain ⟨_, h5, h6, h7⟩ := h3 he
        obtain ⟨N', c', h8, h9, h10⟩ := ih c1.next (ins acc q.val) p h5 (by rw [h6.opts]; exact hp)
        refine ⟨N + N' + 1, c', fun f n hf hn => ?_, h6.trans h9, h10⟩
        obtain ⟨n, rfl⟩ : ∃ m, n = m + 1 := ⟨n - 1, by omega⟩
        simp [setLoop, hna, h1 f (by omega), he, hin, h7, h8 f n (by omega) (by omega)]

theorem set_asem [DecidableEq T] (ins : List T → T → List T) {h : Handler T} {d : ADec T} (hs : h.ASem d) : (setH ins h).ASem (setADec ins h.init d) := by
  intro W c old i rest r hst hd
  have ht := hst.item.1
  rcases arrayADec_cases hd with ⟨hn, rfl⟩ | ⟨l, s, vs, rfl, hf⟩
  · exact Does.pure (fun n => by simp [setH, ht, hn]) (by simp)
  · obtain ⟨h1, h2, h3, h4, h5⟩ := aarr_stream hst
    rw [h5]
    refine ((setLoop_asim ins hs _ rest vs c.next [] r h2 (by rw [h3.opts]; exact hf)).diag.after h3).congr fun n => ?_
    simp [setH, h1, h4]

theorem mapLoop_asim (ins : List (Bytes × V) → Bytes × V → List (Bytes × V)) {h : Handler V} {d : ADec V} (hs : h.ASem d) (m : Option (Nat × Bytes)) (rest : List ATok)
    (ms : List (Bytes × AVal)) :
    ∀ (c : Ctx) (acc : List (Bytes × V)) (r : Res (List (Bytes × V))), c.AStream W (amemberToks ms ++ acloseObj m :: rest) →
      entriesADec (mapSet ins) h.init d c.popts acc ms = some r →
      Does2 (fun f n => mapLoop ins h f n .noError acc c) c r (fun c' => c'.AStream W (acloseObj m :: rest)) := by
  induction ms with
  | nil =>
    intro c acc r hst hd
    simp only [entriesADec, Option.some.injEq] at hd
    subst hd
    refine ⟨1, c, fun f n _ hn => ?_, Ctx.Adds.refl c, fun _ => hst⟩
    obtain ⟨n, rfl⟩ : ∃ m, n = m + 1 := ⟨n - 1, by omega⟩
    have : c.token.valueType = .objectEnd := hst.valueType
    simp [mapLoop, this]
  | cons m ms ih =>
    obtain ⟨n, v⟩ := m
    intro c acc r hst hd
    rw [entriesADec] at hd
    obtain ⟨q, hq, hd⟩ := Option.bind_eq_some_iff.mp hd
    rw [amember_first] at hst
    obtain ⟨hna, hnm⟩ := amember_not_close hst
    obtain ⟨N, c1, h1, h2, h3⟩ := aelem_step hs hst (by simp) hq
    rcases andThen_cases hd with ⟨he, rfl⟩ | ⟨he, p, hp, rfl⟩
    · refine ⟨N + 1, c1, fun f n hf hn => ?_, h2, fun h => absurd h he⟩
      obtain ⟨n, rfl⟩ : ∃ m, n = m + 1 := ⟨n - 1, by omega⟩
      simp [mapLoop, hna, h1 f (by omega), he, hnm]
    · obtain ⟨_, h5, h6, h7⟩ := h3 he
      obtain ⟨N', c', h8, h9, h10⟩ := ih c1.next _ p h5 (by rw [h6.opts]; exact hp)
      refine ⟨N + N' + 1, c', fun f n hf hn => ?_, h6.trans h9, h10⟩
      obtain ⟨n, rfl⟩ : ∃ m, n = m + 1 := ⟨n - 1, by omega⟩
      simp [mapLoop, hna, h1 f (by omega), he, h7, hnm, h8 f n (by omega) (by omega)]

theorem map_asem (ins : List (Bytes × V) → Bytes × V → List (Bytes × V)) {h : Handler V} {d : ADec V} (hs : h.ASem d) :
    (mapH ins h).ASem (mapADec (mapSet ins) h.init d) := by
  intro W c old i rest r hst hd
  have ht := hst.item.1
  rcases objectADec_cases hd with ⟨hn, rfl⟩ | ⟨l, s, vs, rfl, hf⟩
  · exact Does.pure (fun n => by simp [mapH, ht, hn]) (by simp)
  · obtain ⟨h1, h2, h3, h4, h5⟩ := aobj_stream hst
    rw [h5]
    refine ((mapLoop_asim ins hs _ rest vs c.next old r h2 (by rw [h3.opts]; exact hf)).diag.after h3).congr fun n => ?_
    simp [mapH, h1, h4]

end JsonStruct
