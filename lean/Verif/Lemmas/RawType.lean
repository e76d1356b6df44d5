import Verif.Lemmas.Twin
import Verif.Spec.RawType
import Verif.Props.Raw
import Verif.Lemmas.Fuel

/- Recording is looking up afterwards. -/

namespace JsonStruct

/-! ### Contexts -/

/-- A tokenizer that has just delivered a token. -/
def Ready (t : Tz) (k : Token) : Prop := Opened { tz := t, token := k }

theorem ready_next {t : Tz} {k : Token} (h1 : t.Ok) (h2 : t.parsed = none) (h3 : t.Neat) (h4 : t.copies = [])
    (he : (t.nextToken k).1 = .noError) : Ready (t.nextToken k).2.1 (t.nextToken k).2.2 := by
  have hr := nextToken_raw t k h1 h3 h2
  have hok := nextToken_ok t k h1 h2
  have hsn : Ctx.Sane { tz := (t.nextToken k).2.1, token := (t.nextToken k).2.2 } :=
    next_sane (c := { tz := t, token := k }) ⟨h1, h2⟩
  refine ⟨hsn, hr.neat, ?_, hr.at_ he, fun ht => ?_⟩
  · obtain ⟨f, hf, _⟩ := hr.moves.copies
    rw [h4] at hf; exact hf
  · have := hok.stack he
    simp only at ht ⊢
    rcases ht with ht | ht
    all_goals
      rw [ht] at this ⊢
      simp only [bracketStep, Option.some.injEq] at this
      exact ⟨_, this.symm⟩

theorem copies_next {t : Tz} {k : Token} (h1 : t.Ok) (h2 : t.parsed = none) (h3 : t.Neat) (h4 : t.copies = []) : (t.nextToken k).2.1.copies = [] := by
  obtain ⟨f, hf, _⟩ := (nextToken_raw t k h1 h3 h2).moves.copies
  rw [h4] at hf; exact hf

/-- The same tokenizer; after an error, the same but for recordings. -/
def rawLike : Likeness where
  R t k t' k' := t' = t ∧ k' = k ∧ Ready t k
  E t k t' k' := t' = t.bare ∧ k' = k
  full := False
  vals := False
  tok := by rintro t k t' k' ⟨rfl, rfl, _⟩; rfl
  err := by rintro t k t' k' ⟨rfl, rfl, _⟩; rfl
  next := by
    rintro t k t' k' ⟨rfl, rfl, h⟩ he
    exact ⟨rfl, rfl, ready_next h.sane.1 h.sane.2 h.neat h.free he⟩
  fail := by
    rintro t k t' k' ⟨rfl, rfl, h⟩
    exact ⟨(bare_of_free (copies_next h.sane.1 h.sane.2 h.neat h.free)).symm, rfl⟩
  ty := by rintro t k t' k' ⟨rfl, rfl⟩; rfl
  weak := by
    rintro t k t' k' ⟨rfl, rfl, h⟩
    exact ⟨(bare_of_free h.free).symm, rfl⟩
  all := False.elim

theorem rawLike_eq {c c' : Ctx} (h : rawLike.C c c') : c = c' := by
  obtain ⟨h1, h2, h3, _⟩ := h
  obtain ⟨⟩ := c
  obtain ⟨⟩ := c'
  simp only at h2 h3
  have := h1.error; have := h1.missing; have := h1.unassigned; have := h1.allowMissing; have := h1.allowUnassigned; have := h1.track
  simp only at *
  simp [*]

theorem rawLike_refl {c : Ctx} (h : Ready c.tz c.token) : rawLike.C c c := ⟨⟨rfl, rfl, rfl, rfl, rfl, rfl⟩, rfl, rfl, h⟩

/-! ### The loop -/

/-- A context without its recordings. -/
def Ctx.bare (c : Ctx) : Ctx := { c with tz := c.tz.bare }

theorem ctxNext_bare (c : Ctx) : c.bare.next = c.next.bare := by
  simp only [Ctx.next, Ctx.bare, nextToken_bare]

theorem rawLoop_bare (opn cls : Ty) : ∀ (n level : Nat) (c : Ctx),
    rawLoop opn cls n level c.bare = (rawLoop opn cls n level c).map fun r => (r.1, r.2.bare)
  | 0, _, _ => rfl
  | n + 1, level, c => by
    rw [rawLoop, rawLoop]
    split
    · rfl
    · rw [ctxNext_bare]
      simp only [show c.next.bare.error = c.next.error from rfl, show c.next.bare.token = c.next.token from rfl]
      split
      · rfl
      · exact rawLoop_bare opn cls n _ c.next

theorem rawLoop_steady (opn cls : Ty) : ∀ (n m level : Nat) (c : Ctx) (r : Err × Ctx), n ≤ m → rawLoop opn cls n level c = some r → rawLoop opn cls m level c = some r
  | 0, _, _, _, _, _, h => by cases h
  | n + 1, 0, _, _, _, hm, _ => by omega
  | n + 1, m + 1, level, c, r, hm, h => by
    rw [rawLoop] at h ⊢
    revert h
    split
    · exact id
    · dsimp only
      split
      · exact id
      · exact rawLoop_steady opn cls n m _ _ r (by omega)

/-- Counting the brackets of one kind is as good as matching all of them. -/
theorem rawLoop_close {opn cls : Ty} (hk : (opn = .arrayStart ∧ cls = .arrayEnd) ∨ (opn = .objectStart ∧ cls = .objectEnd)) (rest : List Ty) :
    ∀ (n : Nat) (xs : List Ty) (c : Ctx), c.Sane → c.tz.stack = xs ++ opn :: rest →
      rawLoop opn cls n (xs.count opn + 1) c = closeAll n (xs ++ [opn]) c
  | 0, _, _, _, _ => rfl
  | n + 1, xs, c, hs, hst => by
    have ho := nextToken_ok c.tz c.token hs.1 hs.2
    have hne : xs ++ [opn] ≠ [] := by simp
    rw [rawLoop, closeAll, if_neg (Nat.succ_ne_zero _), if_neg hne]
    dsimp only
    by_cases he : c.next.error = .noError
    · have hbs : bracketStep c.tz.stack c.next.token.valueType = some c.next.tz.stack := ho.stack he
      simp only [he, ne_eq, not_true_eq_false, if_false]
      rcases bracketStep_frame hst hbs with ⟨xs', h1, h2⟩ | ⟨h0, h1, h2⟩
      · rw [level_step hk h2, h2]
        exact rawLoop_close hk rest n xs' c.next (next_sane hs) h1
      · subst h0
        have hty := close_step hk h2
        rw [List.nil_append, h2, if_neg (by rw [hty]; rcases hk with ⟨rfl, rfl⟩ | ⟨rfl, rfl⟩ <;> simp), if_pos hty]
        cases n <;> simp [rawLoop, closeAll]
    · simp only [he, ne_eq, not_false_eq_true, if_true]

theorem brackets_cut (k : RawKind) (ty : Ty) :
    ((k.brackets ty).isSome = true ↔ (ty = .arrayStart ∧ k ≠ .object) ∨ (ty = .objectStart ∧ k ≠ .array)) ∧
      k.refuse = (if k = .array then .expectedArrayStart else .expectedObjectStart) := by
  cases k <;> cases ty <;> simp [RawKind.brackets, RawKind.refuse]

theorem rawTo_steady (k : RawKind) (addr n m : Nat) (old : Bytes) (c : Ctx) (r : Err × Bytes × Ctx) (hm : n ≤ m) (h : rawTo k addr n old c = some r) :
    rawTo k addr m old c = some r := by
  unfold rawTo at h ⊢
  revert h
  split
  · exact id
  · split
    · exact id
    · rename_i opn cls _ _
      intro h
      obtain ⟨x, h1, h2⟩ := Option.bind_eq_some_iff.mp h
      rw [rawLoop_steady opn cls n m _ _ x hm h1, Option.bind_some]
      exact h2

theorem copyIncluding_copies {t t' : Tz} {addr : Nat} {data : Bytes} (h : t.copyIncludingValue addr = some (data, t')) : t'.bare = t.bare := by
  unfold Tz.copyIncludingValue at h
  split at h
  all_goals first | (cases h; done) | (simp only [Option.some.injEq, Prod.mk.injEq] at h; rw [← h.2]; rfl)

/-- **The capture**: recording the bytes while they are read, and looking them up afterwards, is the same. -/
theorem raw_twin (k : RawKind) (addr : Nat) : rawLike.Two (rawH k addr) (cutH k) := by
  refine ⟨rfl, ?_⟩
  intro n old c c' hc
  obtain rfl := rawLike_eq hc
  have ho : Ready c.tz c.token := hc.2.2.2
  show Likeness.Opt rawLike.Out rawLike (rawTo k addr n old c) (cutTo k n old c)
  obtain ⟨b1, b2⟩ := brackets_cut k c.token.valueType
  cases hk : k.brackets c.token.valueType with
  | none =>
    rw [hk] at b1
    simp only [Option.isSome_none, Bool.false_eq_true, false_iff] at b1
    rw [cutTo, if_neg b1, ← b2]
    simp only [rawTo, hk]
    exact .some (hc.out _ _)
  | some oc =>
    obtain ⟨opn, cls⟩ := oc
    rw [hk] at b1
    simp only [Option.isSome_some, true_iff] at b1
    rw [cutTo, if_pos b1]
    obtain ⟨hty, hst⟩ := brackets_start hk
    obtain ⟨rest, hstk⟩ := ho.top hst
    obtain ⟨b, bs, hb, hat⟩ := ho.at_
    have hkk := (opens_cases hk).2
    have hsane : c.Sane := ho.sane
    have hbr : c.token.valueType.isBracket = true := by rw [hty]; exact (opn_bracket hkk).1
    have hfree : c.tz.copies = [] := ho.free
    obtain ⟨hrec, ent, hcopy, hid, hent⟩ := recording (addr := addr) (old := old) hsane.1 hb hat hbr hsane.2
    obtain ⟨e, data, c2, g1, g2⟩ := rawTo_spec k addr old hsane ho.neat hb hat hk (by rw [← hty]; exact hstk) (by simp [hfree])
    have hbare : Ctx.bare { c with tz := c.tz.copyFromValue c.token addr old } = c := by
      have : Tz.bare (c.tz.copyFromValue c.token addr old) = c.tz := by
        rw [hcopy, hfree, ← bare_of_free hfree]; rfl
      simp only [Ctx.bare, this]
    have hloop := rawLoop_bare opn cls n 1 { c with tz := c.tz.copyFromValue c.token addr old }
    rw [hbare] at hloop
    have hcl := rawLoop_close hkk rest n [] c hsane (by rw [← hty]; exact hstk)
    simp only [List.count_nil, Nat.zero_add, List.nil_append] at hcl
    rw [hty, ← hcl, hloop]
    have huse : rawTo k addr n old c = (rawLoop opn cls n 1 { c with tz := c.tz.copyFromValue c.token addr old }).bind fun (e, c) =>
        if k = .array ∧ e ≠ .noError then
          some (e, ((c.tz.copies.find? (fun x => x.1 == addr)).map (·.2.2)).getD old, c)
        else
          match c.tz.copyIncludingValue addr with
          | some (data, tz) => some (e, data, { c with tz := tz })
          | none => some (.ub, old, c) := by
      unfold rawTo
      rw [hk]; dsimp only
      rw [if_neg (by rw [show c.tz.recordable c.token = true from hrec]; simp)]
      rfl
    cases hl : rawLoop opn cls n 1 { c with tz := c.tz.copyFromValue c.token addr old } with
    | none => rw [huse, hl]; exact .none
    | some r =>
      obtain ⟨e1, c1⟩ := r
      rw [hl, Option.bind_some] at huse
      dsimp only at huse
      -- the result, and what is known of it
      have hres : ∀ x, rawTo k addr n old c = some x → x = (e, data, c2) := by
        intro x hx
        have h1 := rawTo_steady k addr n (n + c.left + 1) old c x (by omega) hx
        rw [g1 _ (by omega)] at h1
        exact (Option.some.inj h1).symm
      have key : ∃ d2, rawTo k addr n old c = some (e1, d2) ∧ d2.2.bare = c1.bare ∧ d2.2.Flags c1 ∧ d2.2.token = c1.token := by
        rw [huse]
        split
        · exact ⟨_, rfl, rfl, ⟨rfl, rfl, rfl, rfl, rfl, rfl⟩, rfl⟩
        · cases hcp : c1.tz.copyIncludingValue addr with
          | some p =>
            obtain ⟨dd, tz⟩ := p
            refine ⟨_, rfl, ?_, ⟨rfl, rfl, rfl, rfl, rfl, rfl⟩, rfl⟩
            simp only [Ctx.bare, copyIncluding_copies hcp]
          | none =>
            rw [hcp] at huse
            rename_i hn
            rw [if_neg hn] at huse
            have := hres _ huse
            exact absurd (congrArg Prod.fst this).symm g2.notub
      obtain ⟨⟨d2, c2'⟩, k1, k2, k3, k4⟩ := key
      have heq := hres _ k1
      simp only [Prod.mk.injEq] at heq
      obtain ⟨rfl, rfl, rfl⟩ := heq
      rw [k1, Option.map_some, Option.map_some]
      simp only at k2 k3 k4
      have hD : rawLike.D c2' c1.bare :=
        ⟨⟨k3.error, k3.missing, k3.unassigned, k3.allowMissing, k3.allowUnassigned, k3.track⟩,
          ⟨(congrArg Ctx.tz k2).symm, k4.symm⟩⟩
      refine .some ⟨rfl, hD, fun he => ?_, fun h => h.elim⟩
      have hfr : c2'.tz.copies = [] := by
        have := g2.copies (.inr he)
        rw [hfree, List.map_nil] at this
        exact List.map_eq_nil_iff.mp this
      have hc1 : c1.bare = c2' := by
        rw [← k2]
        simp only [Ctx.bare, bare_of_free hfr]
      obtain ⟨cs, hclosed⟩ := g2.closed he
      obtain ⟨bb, br, hbb, hbat⟩ := hclosed.at_
      have hty2 : c2'.token.valueType = cls := hclosed.type
      simp only [hc1]
      refine ⟨g2.data (.inr he), rawLike_refl ⟨g2.sane, g2.neat, hfr, ⟨bb, br, hbb, hbat⟩, fun ht => ?_⟩⟩
      exfalso
      simp only [hty2] at ht
      rcases hkk with ⟨_, rfl⟩ | ⟨_, rfl⟩ <;> simp at ht

/-! ### The `Ref` forms -/

variable {S : Likeness}

theorem rawLoop_alike (opn cls : Ty) : ∀ (n level : Nat) (c c' : Ctx), S.C c c' →
    Likeness.Opt (fun r r' : Err × Ctx => r.1 = r'.1 ∧ S.D r.2 r'.2 ∧ (r.1 = .noError → S.C r.2 r'.2)) S (rawLoop opn cls n level c) (rawLoop opn cls n level c')
  | 0, _, _, _, _ => .none
  | n + 1, level, c, c', hc => by
    rw [rawLoop, rawLoop]
    split
    · exact .some ⟨rfl, hc.weak, fun _ => hc⟩
    · simp only [← hc.nextError, ← hc.fail.ty]
      by_cases he : c.next.error = .noError
      · simp only [he, ne_eq, not_true_eq_false, if_false]
        exact rawLoop_alike opn cls n _ _ _ (hc.next he)
      · simp only [he, ne_eq, not_false_eq_true, if_true]
        exact .some ⟨rfl, hc.fail, fun h => absurd h he⟩

theorem rawRef_twin (k : RawKind) : rawLike.Two (rawRefH k) (rawRefH k) := by
  refine ⟨rfl, ?_⟩
  intro n old c c' hc
  obtain rfl := rawLike_eq hc
  show Likeness.Opt rawLike.Out rawLike (rawRefTo k n old c) (rawRefTo k n old c)
  unfold rawRefTo
  split
  · exact .some (hc.out _ _)
  · rename_i opn cls _
    have h := rawLoop_alike opn cls n 1 c c hc
    rcases h with ⟨h, _⟩ | ⟨x, y, h1, h2, h3, h4, h5⟩
    · rw [h]; exact .none
    · rw [h1] at h2
      obtain rfl := Option.some.inj h2
      obtain ⟨e, d⟩ := x
      rw [h1, Option.bind_some]
      dsimp only
      split
      · exact .some (h4.out (by assumption) _)
      · rename_i he
        have he : e = .noError := by simpa using he
        have hC := h5 he
        split
        · split
          · exact .some (hC.out _ _)
          · exact .some (hC.out _ _)
        · exact .some (hC.out _ _)

/-! ### Types -/

mutual
theorem RType.twin : {T : Type} → (t : RType T) → t.NoMap → rawLike.Two t.handler t.described
  | _, .lib t, h => (t.alike (S := rawLike) (.inr h) (.inr (.inl fun h => h))).two
  | _, .raw k addr, _ => raw_twin k addr
  | _, .rawRef k, _ => rawRef_twin k
  | _, .nullable t, h => nullable_twin (t.twin h)
  | _, .nullableChecked t, h => nullableChecked_twin (t.twin h)
  | _, .optional t, h => t.twin h
  | _, .optionalChecked t, h => optionalChecked_twin (t.twin h)
  | _, .stdOptional t, h => stdOptional_twin (t.twin h)
  | _, .sharedPtr t, h => ptr_twin (t.twin h)
  | _, .uniquePtr t, h => ptr_twin (t.twin h)
  | _, .silentVector t, h => vec_twin (t.twin h)
  | _, .silentUniquePtr t, h => ptr_twin (t.twin h)
  | _, .vector t, h => vec_twin (t.twin h)
  | _, .oneOrMany t, h => oneOrMany_twin (t.twin h)
  | _, .array N t, h => arr_twin N (t.twin h)
  | _, .arrayVariable N t, h => avc_twin N (t.twin h)
  | _, .tuple ts, h => tuple_twin (ts.twin h)
  | _, .set _ ins t, h => set_twin ins (t.twin h)
  | _, .struct _ s, h => ⟨rfl, struct_twin (s.twin h)⟩
theorem RTypes.twin : {Ts : Type} → (ts : RTypes Ts) → ts.NoMap → rawLike.TwoT (ts.build rawH) (ts.build fun k _ => cutH k)
  | _, .nil, _ => tupNil_twin
  | _, .cons t ts, h => tupCons_twin (t.twin h.1) (ts.twin h.2)
theorem RStruct.twin : {T : Type} → (s : RStruct T) → s.NoMap → Meta.Two rawLike (s.meta rawH) (s.meta fun k _ => cutH k)
  | _, .mk ms ss, h => .mk (ms.twin h.1) (ss.twin h.2)
theorem RMembers.twin : {T : Type} → (ms : RMembers T) → ms.NoMap → List.Forall₂ rawLike.TwoM (ms.members rawH) (ms.members fun k _ => cutH k)
  | _, .nil, _ => .nil
  | _, .cons _ t get set ms, h => .cons (memberOf_twin (t.twin h.1) _ _ get set) (ms.twin h.2)
theorem RSupers.twin : {T : Type} → (ss : RSupers T) → ss.NoMap → SupersTwo rawLike (ss.supers rawH) (ss.supers fun k _ => cutH k)
  | _, .nil, _ => .nil
  | _, .cons _ get set s ss, h => .cons ((s.twin h.1).up get set) (ss.twin h.2)
end

/-! ### Endings -/

theorem closeAll_sound : ∀ (m : Nat) (st : List Ty) (c : Ctx), c.Sane → c.left < m →
    ∃ r : Err × Ctx, (∀ n, c.left < n → closeAll n st c = some r) ∧ (r.1 = .noError → c.Acc r.2)
  | 0, _, _, _, hm => by omega
  | m + 1, st, c, hs, hm => by
    by_cases h0 : st = []
    · refine ⟨(.noError, c), fun n hn => ?_, fun _ => .refl c⟩
      obtain ⟨n, rfl⟩ : ∃ k, n = k + 1 := ⟨n - 1, by omega⟩
      rw [closeAll, if_pos h0]
    · by_cases he : c.next.error = .noError
      · have hlt := next_left hs he
        have hcall : c.Acc c.next := .call (t' := c.next.tz) (k' := c.next.token) (by rw [← he]; rfl) .refl
        cases hb : bracketStep st c.next.token.valueType with
        | none =>
          refine ⟨(.ub, c.next), fun n hn => ?_, fun h => by cases h⟩
          obtain ⟨n, rfl⟩ : ∃ k, n = k + 1 := ⟨n - 1, by omega⟩
          rw [closeAll, if_neg h0, if_neg (by simp [he]), hb]
        | some st' =>
          obtain ⟨r, h1, h2⟩ := closeAll_sound m st' c.next (next_sane hs) (by omega)
          refine ⟨r, fun n hn => ?_, fun h => hcall.trans (h2 h)⟩
          obtain ⟨n, rfl⟩ : ∃ k, n = k + 1 := ⟨n - 1, by omega⟩
          rw [closeAll, if_neg h0, if_neg (by simp [he]), hb]
          exact h1 n (by omega)
      · refine ⟨(c.next.error, c.next), fun n hn => ?_, fun h => absurd h he⟩
        obtain ⟨n, rfl⟩ : ∃ k, n = k + 1 := ⟨n - 1, by omega⟩
        rw [closeAll, if_neg h0, if_pos he]

theorem cut_sound (k : RawKind) : Handler.Sound (cutH k).to := by
  intro old c hc
  show ∃ r, (∀ n, c.left < n → cutTo k n old c = some r) ∧ _
  by_cases hb : (c.token.valueType = .arrayStart ∧ k ≠ .object) ∨ (c.token.valueType = .objectStart ∧ k ≠ .array)
  · obtain ⟨r, h1, h2⟩ := closeAll_sound (c.left + 1) [c.token.valueType] c hc (by omega)
    refine ⟨(r.1, old ++ between c.tz.whole (c.tz.position - 1) r.2.tz.position, r.2), fun n hn => ?_, h2⟩
    rw [cutTo, if_pos hb, h1 n hn]; rfl
  · refine ⟨(if k = .array then .expectedArrayStart else .expectedObjectStart, old, c), fun n _ => by rw [cutTo, if_neg hb], fun _ => .refl c⟩

theorem rawLoop_sound (opn cls : Ty) : ∀ (m level : Nat) (c : Ctx), c.Sane → c.left < m →
    ∃ r : Err × Ctx, (∀ n, c.left < n → rawLoop opn cls n level c = some r) ∧ (r.1 = .noError → c.Acc r.2)
  | 0, _, _, _, hm => by omega
  | m + 1, level, c, hs, hm => by
    by_cases h0 : level = 0
    · refine ⟨(.noError, c), fun n hn => ?_, fun _ => .refl c⟩
      obtain ⟨n, rfl⟩ : ∃ k, n = k + 1 := ⟨n - 1, by omega⟩
      rw [rawLoop, if_pos h0]
    · by_cases he : c.next.error = .noError
      · have hlt := next_left hs he
        have hcall : c.Acc c.next := .call (t' := c.next.tz) (k' := c.next.token) (by rw [← he]; rfl) .refl
        obtain ⟨r, h1, h2⟩ := rawLoop_sound opn cls m (if c.next.token.valueType = opn then level + 1 else if c.next.token.valueType = cls then level - 1 else level)
          c.next (next_sane hs) (by omega)
        refine ⟨r, fun n hn => ?_, fun h => hcall.trans (h2 h)⟩
        obtain ⟨n, rfl⟩ : ∃ k, n = k + 1 := ⟨n - 1, by omega⟩
        rw [rawLoop, if_neg h0]
        dsimp only
        rw [if_neg (by simp [he])]
        exact h1 n (by omega)
      · refine ⟨(c.next.error, c.next), fun n hn => ?_, fun h => absurd h he⟩
        obtain ⟨n, rfl⟩ : ∃ k, n = k + 1 := ⟨n - 1, by omega⟩
        rw [rawLoop, if_neg h0]
        dsimp only
        rw [if_pos he]

theorem rawRef_sound (k : RawKind) : Handler.Sound (rawRefH k).to := by
  intro old c hc
  show ∃ r, (∀ n, c.left < n → rawRefTo k n old c = some r) ∧ _
  unfold rawRefTo
  split
  · exact ⟨_, fun _ _ => rfl, fun _ => .refl c⟩
  · rename_i opn cls _
    obtain ⟨⟨e, d⟩, h1, h2⟩ := rawLoop_sound opn cls (c.left + 1) 1 c hc (by omega)
    simp only at h2
    by_cases he : e = .noError
    · have key : ∀ r : Err × Bytes × Ctx, r.2.2 = d → (r.1 = .noError → c.Acc r.2.2) := fun r hr _ => by rw [hr]; exact h2 he
      generalize hg : (match c.token.value.loc, d.token.value.loc, d.tz.bufs with
        | .input a, .input b, buf :: _ =>
          if d.tz.released.length = c.tz.released.length then
            some (Err.noError, slice buf a (b + d.token.value.bytes.length - a), d)
          else some (.ub, old, d)
        | _, _, _ => some (.ub, old, d)) = g
      have : ∃ r, g = some r ∧ r.2.2 = d := by
        rw [← hg]
        split
        · split <;> exact ⟨_, rfl, rfl⟩
        · exact ⟨_, rfl, rfl⟩
      obtain ⟨r, hr1, hr2⟩ := this
      refine ⟨r, fun n hn => ?_, key r hr2⟩
      rw [h1 n hn, Option.bind_some]
      dsimp only
      rw [if_neg (by simp [he])]
      exact hg.trans hr1
    · refine ⟨(e, old, d), fun n hn => ?_, fun h => absurd h he⟩
      rw [h1 n hn, Option.bind_some]
      dsimp only
      rw [if_pos he]

mutual
theorem RType.sound : {T : Type} → (t : RType T) → t.NoMap → Handler.Sound t.described.to
  | _, .lib t, h => t.sound h
  | _, .raw k _, _ => cut_sound k
  | _, .rawRef k, _ => rawRef_sound k
  | _, .nullable t, h => nullable_sound (t.sound h)
  | _, .nullableChecked t, h => nullableChecked_sound (t.sound h)
  | _, .optional t, h => t.sound h
  | _, .optionalChecked t, h => optionalChecked_sound (t.sound h)
  | _, .stdOptional t, h => stdOptional_sound (t.sound h)
  | _, .sharedPtr t, h => ptr_sound (t.sound h)
  | _, .uniquePtr t, h => ptr_sound (t.sound h)
  | _, .silentVector t, h => vec_sound (t.sound h)
  | _, .silentUniquePtr t, h => ptr_sound (t.sound h)
  | _, .vector t, h => vec_sound (t.sound h)
  | _, .oneOrMany t, h => oneOrMany_sound (t.sound h)
  | _, .array N t, h => arr_sound N (t.sound h)
  | _, .arrayVariable N t, h => avc_sound N (t.sound h)
  | _, .tuple ts, h => tuple_sound (ts.sound h)
  | _, .set _ ins t, h => set_sound ins (t.sound h)
  | _, .struct _ s, h => struct_sound (all_visit (P := fun m => Handler.Sound m.to) _ (s.sound h) 0 [])
theorem RTypes.sound : {Ts : Type} → (ts : RTypes Ts) → ts.NoMap → Handler.Sound (ts.build fun k _ => cutH k).to
  | _, .nil, _ => tupNil_sound
  | _, .cons t ts, h => tupCons_sound (t.sound h.1) (ts.sound h.2)
theorem RStruct.sound : {T : Type} → (s : RStruct T) → s.NoMap → (s.meta fun k _ => cutH k).All (fun m => Handler.Sound m.to)
  | _, .mk ms ss, h => .mk (ms.sound h.1) (ss.sound h.2)
theorem RMembers.sound : {T : Type} → (ms : RMembers T) → ms.NoMap → ∀ m ∈ (ms.members fun k _ => cutH k), Handler.Sound m.to
  | _, .nil, _, m, hm => by simp [RMembers.members] at hm
  | _, .cons names t get set ms, h, m, hm => by
    rw [RMembers.members] at hm
    rcases List.mem_cons.mp hm with rfl | hm
    · exact memberOf_sound (t.sound h.1) _ _ _ _
    · exact ms.sound h.2 m hm
theorem RSupers.sound : {T : Type} → (ss : RSupers T) → ss.NoMap → SupersAll (fun m => Handler.Sound m.to) (ss.supers fun k _ => cutH k)
  | _, .nil, _ => .nil
  | _, .cons _ get set s ss, h =>
    .cons (all_up (fun _ hm => memberUp_sound hm get set) _ (s.sound h.1)) (ss.sound h.2)
end

/-! ### Bounds -/

theorem rawRef_steady (k : RawKind) : Steady (rawRefH k).to := by
  intro n m hm old c
  show Upto (rawRefTo k n old c) (rawRefTo k m old c)
  unfold rawRefTo
  split
  · exact .refl _
  · exact Upto.bind (fun r hr => rawLoop_steady _ _ n m 1 c r hm hr) fun _ => .refl _

mutual
theorem RType.steady : {T : Type} → (t : RType T) → Steady (t.build rawH).to
  | _, .lib t => t.steady
  | _, .raw k addr => fun n m hm old c r h => rawTo_steady k addr n m old c r hm h
  | _, .rawRef k => rawRef_steady k
  | _, .nullable t => nullable_steady t.steady
  | _, .nullableChecked t => nullableChecked_steady t.steady
  | _, .optional t => t.steady
  | _, .optionalChecked t => optionalChecked_steady t.steady
  | _, .stdOptional t => stdOptional_steady t.steady
  | _, .sharedPtr t => ptr_steady t.steady
  | _, .uniquePtr t => ptr_steady t.steady
  | _, .silentVector t => vec_steady t.steady
  | _, .silentUniquePtr t => ptr_steady t.steady
  | _, .vector t => vec_steady t.steady
  | _, .oneOrMany t => oneOrMany_steady t.steady
  | _, .array N t => arr_steady N t.steady
  | _, .arrayVariable N t => avc_steady N t.steady
  | _, .tuple ts => tuple_steady ts.steady
  | _, .set _ ins t => set_steady ins t.steady
  | _, .map ins t => map_steady ins t.steady
  | _, .struct _ s => struct_steady (all_visit (P := fun m => Steady m.to) _ s.steady 0 [])
theorem RTypes.steady : {Ts : Type} → (ts : RTypes Ts) → Steady (ts.build rawH).to
  | _, .nil => fun _ _ _ _ _ => .refl _
  | _, .cons t ts => tupCons_steady t.steady ts.steady
theorem RStruct.steady : {T : Type} → (s : RStruct T) → (s.meta rawH).All (fun m => Steady m.to)
  | _, .mk ms ss => by rw [RStruct.meta]; exact .mk ms.steady ss.steady
theorem RMembers.steady : {T : Type} → (ms : RMembers T) → ∀ m ∈ ms.members rawH, Steady m.to
  | _, .nil, m, hm => by simp [RMembers.members] at hm
  | _, .cons names t get set ms, m, hm => by
    rw [RMembers.members] at hm
    rcases List.mem_cons.mp hm with rfl | hm
    · exact memberOf_steady t.steady _ _ _ _
    · exact ms.steady m hm
theorem RSupers.steady : {T : Type} → (ss : RSupers T) → SupersAll (fun m => Steady m.to) (ss.supers rawH)
  | _, .nil => .nil
  | _, .cons name get set s ss => by
    rw [RSupers.supers]
    exact .cons (all_up (fun m hm => memberUp_steady hm get set) _ s.steady) ss.steady
end

theorem parseTo_steady_raw (t : RType T) {n m : Nat} (hm : n ≤ m) (old : T) (c : Ctx) : Upto (parseTo t.handler n old c) (parseTo t.handler m old c) := by
  simp only [parseTo]
  exact .ite (.refl _) ((t.steady n m hm old _).map _)

end JsonStruct
