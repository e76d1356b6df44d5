import Verif.Lemmas.Source

/- Raw captures of values that remember their text. -/

set_option linter.unusedSimpArgs false

namespace JsonStruct

variable {W : Bytes}

theorem rawLoop_atoks (opn cls : Ty) (rest : List ATok) : ∀ (ts : List ATok) (c : Ctx) (L : Nat), ADelivers W c.tz (ts ++ rest) →
    Above (kindLevel opn cls) L (ts.map Prod.fst) → levelAfter (kindLevel opn cls) L (ts.map Prod.fst) = 0 →
    ∃ c', (∀ n, ts.length < n → rawLoop opn cls n L c = some (.noError, c')) ∧ c.Adds [] [] c' ∧ ADelivers W c'.tz rest ∧
      (∀ k, ts.getLast? = some k → c'.error = .noError ∧ c'.token.tok = k.1 ∧ Placed W c'.tz k ∧ Ready c'.tz c'.token)
  | [], c, L, hd, _, hl => by
    simp only [List.map_nil, levelAfter] at hl
    refine ⟨c, fun n hn => ?_, Ctx.Adds.refl c, hd, fun k hk => by cases hk⟩
    obtain ⟨n, rfl⟩ : ∃ m, n = m + 1 := ⟨n - 1, by simp at hn; omega⟩
    simp [rawLoop, hl]
  | a :: ts, c, L, hd, ha, hl => by
    obtain ⟨t', tok, h4, h5, h6, h7, h8⟩ := hd
    have hnx : c.next = { c with tz := t', token := tok, error := .noError } := by simp only [Ctx.next, h4]
    have hL : L ≠ 0 := by have := ha.1; omega
    have hty : a.1.valueType = tok.valueType := by rw [← h5]; rfl
    have ha2 := ha.2
    simp only [List.map_cons, levelAfter] at hl
    rw [hty] at hl ha2
    obtain ⟨c', g1, g2, g3, g4⟩ := rawLoop_atoks opn cls rest ts { c with tz := t', token := tok, error := .noError } _ h8 ha2 hl
    refine ⟨c', fun n hn => ?_, ⟨g2.opts, g2.missing, g2.unassigned⟩, g3, fun k hk => ?_⟩
    · obtain ⟨n, rfl⟩ : ∃ m, n = m + 1 := ⟨n - 1, by omega⟩
      simp only [rawLoop, hL, if_false, hnx, ne_eq, not_true_eq_false]
      exact g1 n (by simp only [List.length_cons] at hn; omega)
    · cases ts with
      | cons b ts => exact g4 k (by rw [← hk]; simp)
      | nil =>
        simp only [List.getLast?_singleton, Option.some.injEq] at hk
        subst hk
        have := g1 1 (by simp)
        simp only [rawLoop] at this
        rw [if_pos (by simpa [levelAfter] using hl)] at this
        simp only [Option.some.injEq, Prod.mk.injEq, true_and] at this
        subst this
        exact ⟨rfl, h5, h6, h7⟩

/-- What is between two places of the text. -/
theorem between_marks {text after : Bytes} {p q : Nat} (hp : 1 ≤ p) (hq : q ≤ W.length) (h1 : W.drop (p - 1) = text ++ after) (h2 : W.drop q = after) (hp' : p ≤ W.length) :
    between W (p - 1) q = text ∧ p - 1 + text.length = q := by
  have l1 := congrArg List.length h1
  have l2 := congrArg List.length h2
  simp only [List.length_drop, List.length_append] at l1 l2
  have : q - (p - 1) = text.length := by omega
  refine ⟨?_, by omega⟩
  rw [between, h1, this, List.take_left]

/-- Reading the tokens of an array or object. -/
theorem rawLoop_val {k : RawKind} {c : Ctx} {l : Lbl} {v : AVal} {rest : List ATok} (hst : c.AStream W ((AItem.val l v).toks ++ rest))
    {opn cls : Ty} (hk : k.brackets c.token.valueType = some (opn, cls)) :
    ∃ s c' N, ((∃ vs, v = .arr s vs ∧ opn = .arrayStart) ∨ ∃ ms, v = .obj s ms ∧ opn = .objectStart) ∧
      (∀ n, N ≤ n → rawLoop opn cls n 1 c = some (.noError, c')) ∧ c.Adds [] [] c' ∧ c'.AStream W ((AItem.val l v).last :: rest) ∧ Ready c.tz c.token ∧
      Ready c'.tz c'.token ∧ c.tz.released = [] ∧ c'.tz.released = [] ∧ Good c.tz W ∧ Good c'.tz W ∧ c'.token.valueType = cls ∧
      1 ≤ c.tz.cursor ∧ between W (c.tz.cursor - 1) c'.tz.cursor = s.text ∧ c.tz.cursor - 1 + s.text.length = c'.tz.cursor := by
  obtain ⟨hty, hkk⟩ := opens_cases hk
  have hit := hst.item.1
  have key : ∃ s inner z, ((∃ vs, v = .arr s vs ∧ opn = .arrayStart) ∨ ∃ ms, v = .obj s ms ∧ opn = .objectStart) ∧ z.valueType = cls ∧
      (AItem.val l v).toks = (⟨l.1, l.2, [bracketByte opn], opn⟩, some (1, s.text ++ s.after)) :: (inner ++ [(z, some (0, s.after))]) ∧
      Flat (kindLevel opn cls) (inner.map Prod.fst) := by
    rw [hit] at hty
    rcases hkk with ⟨rfl, rfl⟩ | ⟨rfl, rfl⟩
    · obtain ⟨l', s, vs, h⟩ := (afirst_arr _).mp hty
      cases h
      exact ⟨s, aelemToks vs, closeTok, .inl ⟨vs, rfl, rfl⟩, rfl, rfl, by rw [aelemToks_plain]; exact flat_elems arr_counts _⟩
    · obtain ⟨l', s, vs, h⟩ := (afirst_obj _).mp hty
      cases h
      exact ⟨s, amemberToks vs, closeObj, .inr ⟨vs, rfl, rfl⟩, rfl, rfl, by rw [amemberToks_plain]; exact flat_members obj_counts _⟩
  obtain ⟨s, inner, z, hv, hz, hts, hf⟩ := key
  have hlast : (AItem.val l v).last = (z, some (0, s.after)) := by
    unfold AItem.last
    rw [hts, List.getLastD_eq_getLast?, ← List.cons_append, List.getLast?_concat]; rfl
  obtain ⟨a1, a2⟩ := inner_toks (δ := kindLevel opn cls) (b := z) (by rw [hz]; rcases hkk with ⟨rfl, rfl⟩ | ⟨rfl, rfl⟩ <;> rfl) hf
  obtain ⟨h0, a, ks, h1, h2, h3, h4, h5⟩ := hst
  rw [hts, List.cons_append, List.cons.injEq] at h1
  obtain ⟨rfl, rfl⟩ := h1
  have hr : Ready c.tz c.token := h4 (by rcases hkk with ⟨rfl, rfl⟩ | ⟨rfl, rfl⟩ <;> simp [Token.opens])
  obtain ⟨c', g1, g2, g3, g4⟩ := rawLoop_atoks opn cls rest (inner ++ [(z, some (0, s.after))]) c 1 h5 (by simpa using a1) (by simpa using a2)
  obtain ⟨e1, e2, e3, e4⟩ := g4 (z, some (0, s.after)) (by simp)
  have hcur : 1 ≤ c.tz.cursor := by
    obtain ⟨b, bs, _, hb⟩ := hr.at_
    have := (hb (by show c.token.valueType.isBracket = true; rw [hty]; rcases hkk with ⟨rfl, rfl⟩ | ⟨rfl, rfl⟩ <;> rfl)).1
    exact this
  have m1 := h3.mark 1 _ rfl
  have m2 := e3.mark 0 _ rfl
  obtain ⟨b1, b2⟩ := between_marks hcur e3.good.clean.cur m1 m2 h3.good.clean.cur
  refine ⟨s, c', (inner ++ [(z, some (0, s.after))]).length + 1, hv, fun n hn => g1 n (by omega), g2, ?_, hr, e4, h3.released, e3.released, h3.good, e3.good, ?_, hcur, b1, b2⟩
  · rw [hlast]
    exact ⟨e1, _, _, rfl, e2, e3, fun _ => e4, g3⟩
  · rw [← hz, show z.valueType = c'.token.tok.valueType by rw [e2]]; rfl

theorem brackets_other {k : RawKind} {i : AItem} (h : k.brackets i.plain.first.valueType = none) :
    (∀ o old, rawADec k o old i = some ⟨k.refuse, old, [], []⟩) ∧ ∀ o old, rawRefADec k o old i = some ⟨k.refuse, old, [], []⟩ := by
  cases i with
  | close => cases k <;> exact ⟨fun _ _ => rfl, fun _ _ => rfl⟩
  | val l v =>
    cases v with
    | arr s vs =>
      have : k.brackets .arrayStart = none := h
      cases k <;> simp [RawKind.brackets] at this <;> exact ⟨fun _ _ => rfl, fun _ _ => rfl⟩
    | obj s vs =>
      have : k.brackets .objectStart = none := h
      cases k <;> simp [RawKind.brackets] at this <;> exact ⟨fun _ _ => rfl, fun _ _ => rfl⟩
    | _ => cases k <;> exact ⟨fun _ _ => rfl, fun _ _ => rfl⟩

theorem brackets_taken {k : RawKind} {l : Lbl} {v : AVal} {s : Src} {opn cls : Ty} (hk : k.brackets opn = some (opn, cls))
    (h : (∃ vs, v = .arr s vs ∧ opn = .arrayStart) ∨ ∃ ms, v = .obj s ms ∧ opn = .objectStart) :
    (∀ o old, rawADec k o old (.val l v) = some ⟨.noError, old ++ s.text, [], []⟩) ∧ ∀ o old, rawRefADec k o old (.val l v) = some ⟨.noError, s.text, [], []⟩ := by
  rcases h with ⟨vs, rfl, rfl⟩ | ⟨vs, rfl, rfl⟩ <;> cases k <;> simp [RawKind.brackets] at hk <;> exact ⟨fun _ _ => rfl, fun _ _ => rfl⟩

theorem item_brackets {k : RawKind} {i : AItem} {x : Ty × Ty} (h : k.brackets i.plain.first.valueType = some x) : ∃ l v, i = .val l v := by
  cases i with
  | val l v => exact ⟨l, v, rfl⟩
  | close =>
    have h : k.brackets .arrayEnd = some x := h
    cases k <;> simp [RawKind.brackets] at h

theorem raw_asem (k : RawKind) (addr : Nat) : (rawH k addr).ASem (rawADec k) := by
  intro W c old i rest r hst hd
  have hit := hst.item.1
  cases hk : k.brackets c.token.valueType with
  | none =>
    rw [(brackets_other (hit ▸ hk)).1] at hd
    cases hd
    refine Does.pure (fun n => by simp only [rawH, rawTo, hk]) fun h => ?_
    cases k <;> simp [RawKind.refuse] at h
  | some oc =>
    obtain ⟨opn, cls⟩ := oc
    obtain ⟨l, v, rfl⟩ := item_brackets (hit ▸ hk)
    obtain ⟨hty, hkk⟩ := opens_cases hk
    obtain ⟨s, c', N, hv, g1, g2, g3, g4, g5, g6, g7, g8, g9, g10, g11, g12, g13⟩ := rawLoop_val hst hk
    rw [(brackets_taken (hty ▸ hk) hv).1] at hd
    cases hd
    obtain ⟨stk, hstk⟩ := g4.top (by show c.token.valueType = _ ∨ c.token.valueType = _; rw [hty]; rcases hkk with ⟨rfl, rfl⟩ | ⟨rfl, rfl⟩ <;> simp)
    have hwhole : c.tz.whole = W := by simp [Tz.whole, g6, g8.bufs, g8.pending]
    have hcut : ∀ n, N ≤ n → cutTo k n old c = some (.noError, old ++ s.text, c') := by
      intro n hn
      have hcl := rawLoop_close hkk stk n [] c g4.sane (by rw [← hty]; exact hstk)
      simp only [List.count_nil, Nat.zero_add, List.nil_append] at hcl
      have hb := (brackets_cut k c.token.valueType).1.mp (by rw [hk]; rfl)
      rw [cutTo, if_pos hb, hty, ← hcl, g1 n hn, Option.map_some]
      simp only [hwhole, Tz.position, g6, g7, List.flatten_nil, List.length_nil, Nat.zero_add, g12]
    refine ⟨N, c', fun n hn => ?_, by simpa using g2, fun _ => g3⟩
    have htw := (raw_twin k addr).2 n old c c (rawLike_refl g4)
    have hc2 : (cutH k).to n old c = some (.noError, old ++ s.text, c') := hcut n hn
    rw [hc2] at htw
    rcases htw with ⟨_, h⟩ | ⟨x, y, h1, h2, h3⟩
    · cases h
    · show (rawH k addr).to n old c = _
      rw [h1]
      cases Option.some.inj h2
      obtain ⟨e, d, c2⟩ := x
      have he : e = .noError := h3.err
      obtain ⟨h5, h6⟩ := h3.ok he
      have h5 : d = old ++ s.text := h5
      have h7 : c2 = c' := rawLike_eq h6
      rw [he, h5, h7]

theorem rawRef_asem (k : RawKind) : (rawRefH k).ASem (rawRefADec k) := by
  intro W c old i rest r hst hd
  have hit := hst.item.1
  cases hk : k.brackets c.token.valueType with
  | none =>
    rw [(brackets_other (hit ▸ hk)).2] at hd
    cases hd
    refine Does.pure (fun n => by simp only [rawRefH, rawRefTo, hk]) fun h => ?_
    cases k <;> simp [RawKind.refuse] at h
  | some oc =>
    obtain ⟨opn, cls⟩ := oc
    obtain ⟨l, v, rfl⟩ := item_brackets (hit ▸ hk)
    obtain ⟨hty, hkk⟩ := opens_cases hk
    obtain ⟨s, c', N, hv, g1, g2, g3, g4, g5, g6, g7, g8, g9, g10, g11, g12, g13⟩ := rawLoop_val hst hk
    rw [(brackets_taken (hty ▸ hk) hv).2] at hd
    cases hd
    have at1 : c.token.value.loc = .input (c.tz.cursor - 1) := by
      obtain ⟨b, bs, _, hb⟩ := g4.at_
      rcases (hb (by show c.token.valueType.isBracket = true; rw [hty]; rcases hkk with ⟨rfl, rfl⟩ | ⟨rfl, rfl⟩ <;> rfl)).2.2.2 with h | h
      · exact h
      · have := g8.clean.inter; rw [h.2] at this; cases this
    have at2 : 1 ≤ c'.tz.cursor ∧ c'.token.value.bytes.length = 1 ∧ c'.token.value.loc = .input (c'.tz.cursor - 1) := by
      obtain ⟨b, bs, _, hb⟩ := g5.at_
      obtain ⟨q1, q2, q3, q4⟩ := hb (by show c'.token.valueType.isBracket = true; rw [g10]; rcases hkk with ⟨rfl, rfl⟩ | ⟨rfl, rfl⟩ <;> rfl)
      have q3' : c'.token.value.bytes = _ := q3
      refine ⟨q1, by rw [q3']; rfl, ?_⟩
      rcases q4 with h | h
      · exact h
      · have := g9.clean.inter; rw [h.2] at this; cases this
    refine ⟨N, c', fun n hn => ?_, by simpa using g2, fun _ => g3⟩
    simp only [rawRefH, rawRefTo, hk, g1 n hn, Option.bind_some, ne_eq, not_true_eq_false, if_false, at1, at2.2.2, g9.bufs, g6, g7, if_true, at2.2.1]
    have : slice W (c.tz.cursor - 1) (c'.tz.cursor - 1 + 1 - (c.tz.cursor - 1)) = s.text := by
      rw [show c'.tz.cursor - 1 + 1 = c'.tz.cursor from by omega]; exact g12
    rw [this]

end JsonStruct
