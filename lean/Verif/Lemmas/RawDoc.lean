import Verif.Lemmas.Raw
import Verif.Lemmas.Skip
import Verif.Lemmas.Doc

/- Raw capture of a value with a given text. -/

namespace JsonStruct

/-- Behind an opening bracket. -/
theorem lNext_open {o : Opts} {c c' : LC} {k : Tok} (h : lNext o c = .ok (c', k)) (hk : k.valueType = .arrayStart ∨ k.valueType = .objectStart) :
    c'.te = false ∧ c'.exp = false := by
  have hnb : ∀ ty d, ty ≠ Ty.objectStart → ty ≠ .arrayStart → getType ty d ≠ .arrayStart ∧ getType ty d ≠ .objectStart := by
    intro ty d h1 h2
    constructor
    · intro hh; have := getType_bracket (ty := ty) (b := d) (by rw [hh]; rfl); rw [hh] at this; exact h2 this.symm
    · intro hh; have := getType_bracket (ty := ty) (b := d) (by rw [hh]; rfl); rw [hh] at this; exact h1 this.symm
  have hdata : ∀ (c c' : LC) nm nty k, c.exp = false → lData o c nm nty = .ok (c', k) → (k.valueType = .arrayStart ∨ k.valueType = .objectStart) →
      c'.te = false ∧ c'.exp = false := by
    intro c c' nm nty k he h hk
    unfold lData at h
    split at h
    · cases h
    · split at h
      · cases h
      · rename_i ty d r _
        split at h
        · cases h
        · simp only [Except.ok.injEq, Prod.mk.injEq] at h
          obtain ⟨rfl, rfl⟩ := h
          refine ⟨?_, he⟩
          by_cases h1 : ty = .objectStart
          · simp [h1]
          by_cases h2 : ty = .arrayStart
          · simp [h2]
          have := hnb ty d h1 h2
          simp only at hk
          rcases hk with hk | hk
          · exact absurd hk this.1
          · exact absurd hk this.2
  have hname : ∀ (c c' : LC) k, lName o c = .ok (c', k) → (k.valueType = .arrayStart ∨ k.valueType = .objectStart) → c'.te = false ∧ c'.exp = false := by
    intro c c' k h hk
    unfold lName at h
    split at h
    · cases h
    · split at h
      · cases h
      · rename_i ty d r _
        have hdel : ty ≠ .objectStart → ty ≠ .arrayStart → lDelimiter o { c with rest := r } d (getType ty d) = .ok (c', k) → c'.te = false ∧ c'.exp = false := by
          intro h1 h2 h
          unfold lDelimiter at h
          split at h
          · cases h
          · split at h
            · cases h
            · split at h
              · cases h
              · simp only [Except.ok.injEq, Prod.mk.injEq] at h
                obtain ⟨rfl, rfl⟩ := h
                exact ⟨rfl, rfl⟩
              · split at h
                · cases h
                · exact hdata _ _ _ _ _ rfl h hk
        have hclose : (ty = .objectEnd ∨ ty = .arrayEnd) → (if (c.exp && !o.superfluousComma) = true then (Except.error Err.expectedDataToken : LRes (LC × Tok))
            else .ok ({ c with te := true, rest := r }, anonTok d ty)) = .ok (c', k) → c'.te = false ∧ c'.exp = false := by
          intro hty h
          split at h
          · cases h
          · simp only [Except.ok.injEq, Prod.mk.injEq] at h
            obtain ⟨rfl, rfl⟩ := h
            rcases hty with rfl | rfl <;> simp [anonTok] at hk
        cases ty <;> simp only at h
        case objectEnd => exact hclose (.inl rfl) h
        case arrayEnd => exact hclose (.inr rfl) h
        case objectStart =>
          simp only [Except.ok.injEq, Prod.mk.injEq] at h
          obtain ⟨rfl, rfl⟩ := h; exact ⟨rfl, rfl⟩
        case arrayStart =>
          simp only [Except.ok.injEq, Prod.mk.injEq] at h
          obtain ⟨rfl, rfl⟩ := h; exact ⟨rfl, rfl⟩
        all_goals exact hdel (by simp) (by simp) h
  have hpop : ∀ (c c' : LC) k, lPop o c = .ok (c', k) → (k.valueType = .arrayStart ∨ k.valueType = .objectStart) → c'.te = false ∧ c'.exp = false := by
    intro c c' k h hk
    unfold lPop at h
    split at h
    · cases h
    · split at h
      · split at h
        · exact hname _ _ _ h hk
        · split at h
          · cases h
          · exact hname _ _ _ h hk
      · exact hname _ _ _ h hk
  unfold lNext at h
  split at h
  · cases h
  · rename_i c1 k1 hp
    have key : ∀ (d : LC), (Except.ok (d, k1) : LRes (LC × Tok)) = .ok (c', k) → d.te = c1.te → d.exp = c1.exp → c'.te = false ∧ c'.exp = false := by
      intro d h h1 h2
      simp only [Except.ok.injEq, Prod.mk.injEq] at h
      obtain ⟨rfl, rfl⟩ := h
      rw [h1, h2]
      exact hpop _ _ _ hp hk
    split at h
    · exact key _ h rfl rfl
    · exact key _ h rfl rfl
    · split at h
      · exact key _ h rfl rfl
      · cases h
    · split at h
      · exact key _ h rfl rfl
      · cases h
    · exact key _ h rfl rfl

/-- Calls on one buffer. -/
theorem reads_good {buf : Bytes} {t t' : Tz} {k k' : Token} {ks : List Tok} (h : Reads t k ks t' k') (hg : Good t buf) (hs : t.scopes = []) :
    Good t' buf ∧ t'.scopes = [] ∧ t.keeps t' ∧
      ((k'.valueType = .arrayStart ∨ k'.valueType = .objectStart) → ks ≠ [] → t'.tokenState = .findingName ∧ t'.expecting = false) := by
  induction h with
  | nil => exact ⟨hg, hs, ⟨rfl, rfl, rfl⟩, fun _ h => absurd rfl h⟩
  | @call t t1 t2 k k1 k2 ks h hr ih =>
    have hl := nextToken_light t buf k hg (by simp [hs])
    cases hx : lNext t.opts (t.light buf) with
    | error e => rw [hx, h] at hl; exact absurd hl.1.symm hl.2
    | ok r =>
      obtain ⟨c', tk⟩ := r
      rw [hx] at hl
      obtain ⟨ta, toka, h1, h2, h3, h4, h5, h6⟩ := hl
      rw [h, Prod.mk.injEq, Prod.mk.injEq] at h1
      obtain ⟨-, rfl, rfl⟩ := h1
      obtain ⟨g1, g2, g3, g4⟩ := ih h3 (by rw [h5, hs]; rfl)
      refine ⟨g1, g2, ⟨g3.1.trans h6.1, g3.2.1.trans h6.2.1, g3.2.2.trans h6.2.2⟩, fun hty _ => ?_⟩
      cases hr with
      | nil =>
        have := lNext_open hx (by rw [← h2]; exact hty)
        rw [← h4] at this
        refine ⟨?_, this.2⟩
        rcases h3.state with h | h
        · exact h
        · have := this.1; simp [Tz.light, h] at this
      | call a b => exact g4 hty (by simp)

theorem reads_of_run {buf : Bytes} {o : Opts} {c c' : LC} {ks : List Tok} (h : Run o c ks c') :
    ∀ {t : Tz} {k : Token}, Good t buf → t.scopes = [] → t.opts = o → t.light buf = c →
      ∃ t' k', Reads t k ks t' k' ∧ Good t' buf ∧ t'.light buf = c' := by
  induction h with
  | nil => exact fun {t k} hg hs ho hc => ⟨t, k, .nil, hg, hc⟩
  | @cons c tk c1 ks c2 h hr ih =>
    intro t k hg hs ho hc
    have hl := nextToken_light t buf k hg (by simp [hs])
    rw [ho, hc, h] at hl
    obtain ⟨ta, toka, h1, h2, h3, h4, h5, h6⟩ := hl
    obtain ⟨t', k', g1, g2, g3⟩ := ih (k := toka) h3 (by rw [h5, hs]; rfl) (h6.1.trans ho) h4
    exact ⟨t', k', by rw [← h2]; exact .call h1 g1, g2, g3⟩

/-- The loop reads the tokens of a value. -/
theorem rawLoop_reads (opn cls : Ty) {t t' : Tz} {k k' : Token} {ts : List Tok} (h : Reads t k ts t' k') :
    ∀ (c : Ctx) (L : Nat), c.tz = t → c.token = k → Above (kindLevel opn cls) L ts → levelAfter (kindLevel opn cls) L ts = 0 →
      ∃ c', (∀ n, ts.length < n → rawLoop opn cls n L c = some (.noError, c')) ∧ c'.tz = t' ∧ c'.token = k' := by
  induction h with
  | nil =>
    intro c L h1 h2 _ hl
    simp only [levelAfter] at hl
    refine ⟨c, fun n hn => ?_, h1, h2⟩
    obtain ⟨n, rfl⟩ : ∃ m, n = m + 1 := ⟨n - 1, by omega⟩
    simp [rawLoop, hl]
  | @call t t1 t2 k k1 k2 ks h hr ih =>
    intro c L h1 h2 ha hl
    have hL : L ≠ 0 := by have := ha.1; omega
    have hnx : c.next = { c with tz := t1, token := k1, error := .noError } := by
      simp only [Ctx.next, h1, h2, h]
    obtain ⟨c', g1, g2, g3⟩ := ih { c with tz := t1, token := k1, error := .noError } (kindLevel opn cls L k1.valueType) rfl rfl ha.2 hl
    refine ⟨c', fun n hn => ?_, g2, g3⟩
    obtain ⟨n, rfl⟩ : ∃ m, n = m + 1 := ⟨n - 1, by omega⟩
    simp only [rawLoop, hL, if_false, hnx, ne_eq, not_true_eq_false]
    exact g1 n (by simp only [List.length_cons] at hn; omega)

/-- Capture of a value with a given text, from a state on one buffer. -/
theorem loop_text {o : Opts} (hn : o.newLines = false) {v : JVal} (hv : v.isContainer = true) {b tail : Bytes} (ht : Text (lenient o) v b) {k : RawKind} {c : Ctx} {opn cls : Ty} {rest : List Ty}
    {buf : Bytes} (hg : Good c.tz buf) (hs : c.tz.scopes = []) (ho : c.tz.opts = o) (hst : c.tz.tokenState = .findingName) (hex : c.tz.expecting = false)
    (hk : k.brackets c.token.valueType = some (opn, cls)) (hstk : c.tz.stack = opn :: rest) (h1 : 1 ≤ c.tz.cursor)
    (hop : buf[c.tz.cursor - 1]? = some (bracketByte opn)) (hb : buf.drop (c.tz.cursor - 1) = b ++ tail) :
    ∃ m c', (∀ n, m < n → rawLoop opn cls n 1 c = some (.noError, c')) ∧ Good c'.tz buf ∧ c'.tz.cursor = c.tz.cursor - 1 + b.length ∧
      c.tz.keeps c'.tz := by
  obtain ⟨hty, hkk⟩ := opens_cases hk
  have hin := inner_text o hn ht
  have hcur := hg.clean.cur
  have hlt : c.tz.cursor - 1 < buf.length := by omega
  have hdrop : buf.drop (c.tz.cursor - 1) = bracketByte opn :: buf.drop c.tz.cursor := by
    rw [List.getElem?_eq_some_iff] at hop
    obtain ⟨hl, hx⟩ := hop
    rw [List.drop_eq_getElem_cons hl, hx, show c.tz.cursor - 1 + 1 = c.tz.cursor from by omega]
  rw [hdrop] at hb
  have key : ∃ t' ks z, b = bracketByte opn :: t' ∧ z.valueType = cls ∧ Flat (kindLevel opn cls) ks ∧
      ∀ st tail, ∃ e', EOk o e' ∧ Run o ⟨false, false, opn :: st, t' ++ tail⟩ (ks ++ [z]) ⟨true, e', st, tail⟩ := by
    cases v with
    | arr vs =>
      obtain ⟨t', rfl, hr⟩ := hin
      rcases hkk with ⟨rfl, rfl⟩ | ⟨rfl, rfl⟩
      · exact ⟨t', elemToks vs, _, rfl, rfl, flat_elems arr_counts vs, hr⟩
      · rw [List.cons_append, List.cons.injEq] at hb
        exact absurd hb.1 (by decide)
    | obj ms =>
      obtain ⟨t', rfl, hr⟩ := hin
      rcases hkk with ⟨rfl, rfl⟩ | ⟨rfl, rfl⟩
      · rw [List.cons_append, List.cons.injEq] at hb
        exact absurd hb.1 (by decide)
      · exact ⟨t', memberToks ms, _, rfl, rfl, flat_members obj_counts ms, hr⟩
    | _ => simp [JVal.isContainer] at hv
  obtain ⟨t', ks, z, rfl, hz, hf, hr⟩ := key
  rw [List.cons_append, List.cons.injEq] at hb
  obtain ⟨e', _, hr⟩ := hr rest tail
  have hlight : c.tz.light buf = ⟨false, false, opn :: rest, t' ++ tail⟩ := by
    simp [Tz.light, hst, hex, hstk, hb.2]
  obtain ⟨t2, k2, g1, g2, g3⟩ := reads_of_run hr (k := c.token) hg hs ho hlight
  obtain ⟨a1, a2⟩ := inner_toks (δ := kindLevel opn cls) (b := z) (by rw [hz]; rcases hkk with ⟨rfl, rfl⟩ | ⟨rfl, rfl⟩ <;> rfl) hf
  obtain ⟨_, _, hkp, _⟩ := reads_good g1 hg hs
  obtain ⟨c', q1, q2, q3⟩ := rawLoop_reads opn cls g1 c 1 rfl rfl a1 a2
  refine ⟨(ks ++ [z]).length, c', q1, by rw [q2]; exact g2, ?_, by rw [q2]; exact hkp⟩
  · rw [q2]
    have := g2.clean.cur
    have h3 : buf.drop t2.cursor = tail := congrArg LC.rest g3
    have h4 := congrArg List.length h3
    have h5 := congrArg List.length hb.2
    simp only [List.length_drop, List.length_append, List.length_cons] at h4 h5 ⊢
    omega

end JsonStruct
