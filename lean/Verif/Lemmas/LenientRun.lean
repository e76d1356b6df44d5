import Verif.Lemmas.Lenient

/- Between two calls of the tokenizer, the bytes read are the beginning of a lenient text. -/

namespace JsonStruct

set_option linter.unusedSimpArgs false

namespace Lax

mutual
/-- The bytes in front of the content of the innermost open container. -/
inductive Ctx (o : Opts) : List Ty → Bytes → List Tok → Prop
  | root {p ks} : Stream o p ks → Ctx o [] p ks
  | arr {st nm nty p ks} : Slot o st nm nty p ks → Ctx o (.arrayStart :: st) (p ++ b!"[") (ks ++ [⟨nm, nty, b!"[", .arrayStart⟩])
  | obj {st nm nty p ks} : Slot o st nm nty p ks → Ctx o (.objectStart :: st) (p ++ b!"{") (ks ++ [⟨nm, nty, b!"{", .objectStart⟩])

/-- The bytes in front of a container. -/
inductive Slot (o : Opts) : List Ty → Bytes → Ty → Bytes → List Tok → Prop
  | root {p ks g} : Stream o p ks → Skip o.comments g → Slot o [] [] .ascii (p ++ g) ks
  | elem {st p ks b q ls g} : Ctx o (.arrayStart :: st) p ks → Elements o b q ls → Skip o.comments g →
      Slot o (.arrayStart :: st) [] .ascii (p ++ (q ++ g)) (ks ++ ls)
  | bare {st p ks b q ls g} : Ctx o (.objectStart :: st) p ks → Members o b q ls → Skip o.comments g →
      Slot o (.objectStart :: st) [] .ascii (p ++ (q ++ g)) (ks ++ ls)
  | named {st p ks b q ls g kn nty n tn w g'} : Ctx o (.objectStart :: st) p ks → Members o b q ls → Skip o.comments g →
      Name o kn nty n tn → Behind o kn w [] → Skip o.comments g' →
      Slot o (.objectStart :: st) n nty (p ++ (q ++ (g ++ tn ++ w ++ b!":" ++ g'))) (ks ++ ls)
end

/-- The content of the innermost open container, between two calls. -/
inductive In (o : Opts) : LC → Bytes → List Tok → Prop
  | root {te e r} : In o ⟨te, e, [], r⟩ [] []
  | arr {b q ls e st r} : Elements o b q ls → (b = true → e = true) → In o ⟨false, e, .arrayStart :: st, r⟩ q ls
  | arrLast {b q ls k t ls' w e st r} : Elements o b q ls → Element o k t ls' → Behind o k w [] →
      (r.head? = some RBRACK ∨ r.head? = some RBRACE) → In o ⟨false, e, .arrayStart :: st, r⟩ (q ++ t ++ w) (ls ++ ls')
  | arrDone {b q ls t ls' e st r} : Elements o b q ls → Element o .nested t ls' →
      In o ⟨true, e, .arrayStart :: st, r⟩ (q ++ t) (ls ++ ls')
  | obj {b q ls e st r} : Members o b q ls → (b = true → e = true) → In o ⟨false, e, .objectStart :: st, r⟩ q ls
  | objLast {b q ls k t ls' w e st r} : Members o b q ls → Member o k t ls' → Behind o k w [] →
      (r.head? = some RBRACK ∨ r.head? = some RBRACE) → In o ⟨false, e, .objectStart :: st, r⟩ (q ++ t ++ w) (ls ++ ls')
  | objDone {b q ls k t ls' e st r} : Members o b q ls → Member o k t ls' →
      (k = .word → r.head? ≠ some 0 ∧ r.head? ≠ some 0x2F) → In o ⟨true, e, .objectStart :: st, r⟩ (q ++ t) (ls ++ ls')

/-- `p` has been read and `ks` been returned, and the state is `c`. -/
def Inv (o : Opts) (c : LC) (p : Bytes) (ks : List Tok) : Prop :=
  ∃ p1 ks1 q ls, Ctx o c.stack p1 ks1 ∧ In o c q ls ∧ p = p1 ++ q ∧ ks = ks1 ++ ls

theorem Slot.fill {o : Opts} {st : List Ty} {nm : Bytes} {nty : Ty} {p : Bytes} {ks : List Tok} (h : Slot o st nm nty p ks)
    {t : Bytes} {ls : List Tok} (ht : Nested o nm nty t ls) (e : Bool) (r : Bytes) :
    Inv o ⟨true, e, st, r⟩ (p ++ t) (ks ++ ls) := by
  cases h with
  | root h1 h2 =>
    exact ⟨_, _, [], [], .root (h1.snoc h2 ht), .root, by simp, by simp⟩
  | elem h1 h2 h3 =>
    exact ⟨_, _, _, _, h1, .arrDone h2 (.nested h3 ht), by simp, by simp⟩
  | bare h1 h2 h3 =>
    exact ⟨_, _, _, _, h1, .objDone h2 (.bare h3 ht) (by simp), by simp, by simp⟩
  | named h1 h2 h3 h4 h5 h6 =>
    exact ⟨_, _, _, _, h1, .objDone h2 (.nested h3 h4 h5 h6 ht) (by simp), by simp, by simp⟩

theorem Slot.openArr {o : Opts} {st : List Ty} {nm : Bytes} {nty : Ty} {p : Bytes} {ks : List Tok} (h : Slot o st nm nty p ks)
    (r : Bytes) : Inv o ⟨false, false, .arrayStart :: st, r⟩ (p ++ b!"[") (ks ++ [⟨nm, nty, b!"[", .arrayStart⟩]) :=
  ⟨_, _, [], [], .arr h, .arr .nil (by simp), by simp, by simp⟩

theorem Slot.openObj {o : Opts} {st : List Ty} {nm : Bytes} {nty : Ty} {p : Bytes} {ks : List Tok} (h : Slot o st nm nty p ks)
    (r : Bytes) : Inv o ⟨false, false, .objectStart :: st, r⟩ (p ++ b!"{") (ks ++ [⟨nm, nty, b!"{", .objectStart⟩]) :=
  ⟨_, _, [], [], .obj h, .obj .nil (by simp), by simp, by simp⟩

theorem closeArr {o : Opts} {st : List Ty} {p : Bytes} {ks : List Tok} (h : Ctx o (.arrayStart :: st) p ks) {b : Bytes} {ls : List Tok}
    (hb : Items o b ls) (e : Bool) (r : Bytes) :
    Inv o ⟨true, e, st, r⟩ (p ++ b ++ b!"]") (ks ++ ls ++ [⟨[], .ascii, b!"]", .arrayEnd⟩]) := by
  cases h with
  | arr h => simpa using h.fill (.arr hb) e r

theorem closeObj {o : Opts} {st : List Ty} {p : Bytes} {ks : List Tok} (h : Ctx o (.objectStart :: st) p ks) {b : Bytes} {ls : List Tok}
    (hb : Fields o b ls) (e : Bool) (r : Bytes) :
    Inv o ⟨true, e, st, r⟩ (p ++ b ++ b!"}") (ks ++ ls) := by
  cases h with
  | obj h => simpa using h.fill (.obj hb) e r

theorem skip_head {cm : Bool} {g : Bytes} (h : Skip cm g) : g = [] ∨ ∃ c g', g = c :: g' ∧ passed c = true := by
  cases h with
  | nil => exact .inl rfl
  | byte h => exact .inr ⟨_, _, rfl, h⟩
  | comment => exact .inr ⟨_, _, rfl, by decide⟩

theorem scalar_head {k : Kind} {ty : Ty} {d t : Bytes} (h : Scalar k ty d t) :
    ∃ c t', t = c :: t' ∧ c ≠ RBRACK ∧ c ≠ RBRACE := by
  cases h with
  | str => exact ⟨_, _, rfl, by decide, by decide⟩
  | null | tru | fls => exact ⟨_, _, rfl, by decide, by decide⟩
  | num h => exact ⟨_, _, rfl, by rintro rfl; revert h; decide, by rintro rfl; revert h; decide⟩
  | word h => exact ⟨_, _, rfl, by rintro rfl; revert h; decide, by rintro rfl; revert h; decide⟩

theorem scalar_kind {k : Kind} {ty : Ty} {d t : Bytes} (h : Scalar k ty d t) : k ≠ .nested := by
  cases h <;> simp

/-- In front of a closing bracket nothing is passed over. -/
theorem skip_closing {cm : Bool} {g t r s : Bytes} (hg : Skip cm g) (hs : s = g ++ t ++ r)
    (hr : s.head? = some RBRACK ∨ s.head? = some RBRACE) : g = [] := by
  rcases skip_head hg with h | ⟨c, g', rfl, hc⟩
  · exact h
  · subst hs
    simp at hr
    exfalso
    rcases hr with rfl | rfl <;> revert hc <;> decide

/-- What `lName` goes on with when it reads a scalar. -/
theorem scalar_step (o : Opts) {e : Bool} {st : List Ty} {r0 : Bytes} {p1 : Bytes} {ks1 : List Tok} {q : Bytes} {ls : List Tok}
    {g t r d : Bytes} {ty : Ty} {k : Kind} (hr0 : r0 = g ++ t ++ r)
    (hctx : Ctx o st p1 ks1) (hin : In o ⟨false, e, st, r0⟩ q ls) (hg : Skip o.comments g) (hsc : Scalar k ty d t)
    (hw : k = .word → r.head? ≠ some 0 ∧ r.head? ≠ some 0x2F) {c' : LC} {tok : Tok}
    (h : lFin (lDelimiter o ⟨false, e, st, r⟩ d ty) = .ok (c', tok)) :
    ∃ u, r0 = u ++ c'.rest ∧ Inv o c' (p1 ++ q ++ u) (ks1 ++ ls ++ [tok]) := by
  have hnb : ty.isBracket = false := by cases hsc <;> rfl
  have hclose : ¬ (r0.head? = some RBRACK ∨ r0.head? = some RBRACE) := by
    intro hc
    have := skip_closing hg hr0 hc
    subst this
    obtain ⟨c, t', rfl, h1, h2⟩ := scalar_head hsc
    rw [hr0] at hc
    simp [h1, h2] at hc
  have hbeh : ∀ {w x y}, Blank o w → r = w ++ x ++ y → Behind o k w x := by
    intro w x y hb hx
    refine ⟨hb, fun hk => ?_⟩
    have := hw hk
    subst hx
    cases h : w ++ x with
    | nil => simp
    | cons a w => rw [h] at this; simpa using this
  unfold lDelimiter at h
  split at h
  · simp [lFin] at h
  split at h
  · simp [lFin] at h
  rename_i ct st' hst
  simp only at hst
  subst hst
  split at h
  · simp [lFin] at h
  · rename_i r2 hd
    rw [lFin_scalar (k := anonTok d ty) hnb] at h
    simp only [Except.ok.injEq, Prod.mk.injEq] at h
    obtain ⟨rfl, rfl⟩ := h
    obtain ⟨w, hw1, hw2⟩ := lDelim_inv o ct r hd
    rcases hw2 with ⟨-, h, -⟩ | ⟨rfl, -, hw2⟩
    · simp at h
    cases hin with
    | arrLast _ _ _ h => exact absurd h hclose
    | arr he hk =>
      rcases hw2 with ⟨c, x, hsep, hw2⟩ | ⟨hw2, hw3⟩
      · refine ⟨g ++ t ++ w ++ x, by simp [hr0, hw2], p1, ks1, _, _, hctx, .arr (he.snoc (.scalar hg hsc) (hbeh hw1 hw2) hsep) ?_, by simp, by simp [anonTok]⟩
        intro h
        simp at h
        exact absurd h.2 (scalar_kind hsc)
      · refine ⟨g ++ t ++ w, by simp [hr0, hw2], p1, ks1, _, _, hctx, .arrLast he (.scalar hg hsc) (hbeh (x := []) hw1 (by simpa using hw2)) (.inl hw3), by simp, by simp [anonTok]⟩
  · rename_i r2 hd
    obtain ⟨w, hw1, hw2⟩ := lDelim_inv o ct r hd
    rcases hw2 with ⟨rfl, -, hw2⟩ | ⟨-, h, -⟩
    swap
    · simp at h
    have hbw : Behind o k w [] := hbeh (x := []) hw1 (by simpa using hw2)
    split at h
    · simp [lFin] at h
    rename_i hty
    have hname : Name o k ty d t := by
      refine ⟨hsc, ?_⟩
      by_cases h1 : ty = .string
      · exact .inl h1
      · simp [h1] at hty
        exact .inr ⟨hty.2, hty.1⟩
    cases hin with
    | objLast _ _ _ h => exact absurd h hclose
    | obj he hk =>
    unfold lData at h
    split at h
    · simp [lFin] at h
    split at h
    · simp [lFin] at h
    rename_i ty2 d2 r3 hv
    obtain ⟨g', t2, hr2, hg', hv2⟩ := lValue_inv o _ hv
    simp only at hr2
    split at h
    · simp [lFin] at h
    rename_i hasc
    rcases hv2 with ⟨hb, rfl, rfl, hgt⟩ | ⟨hty2, k2, hsc2, hw22⟩
    · rw [hgt] at h
      cases ty2 with
      | arrayStart =>
        simp [lFin] at h
        obtain ⟨rfl, rfl⟩ := h
        refine ⟨g ++ t ++ w ++ b!":" ++ g' ++ b!"[", by simp [hr0, hw2, hr2, COLON, bracketOf], ?_⟩
        simpa [bracketOf] using (Slot.named hctx he hg hname hbw hg').openArr r3
      | objectStart =>
        simp [lFin] at h
        obtain ⟨rfl, rfl⟩ := h
        refine ⟨g ++ t ++ w ++ b!":" ++ g' ++ b!"{", by simp [hr0, hw2, hr2, COLON, bracketOf], ?_⟩
        simpa [bracketOf] using (Slot.named hctx he hg hname hbw hg').openObj r3
      | arrayEnd => simp [lFin] at h
      | objectEnd =>
        simp [lFin] at h
        obtain ⟨rfl, rfl⟩ := h
        refine ⟨g ++ t ++ w ++ b!":" ++ g' ++ b!"}", by simp [hr0, hw2, hr2, COLON, bracketOf], ?_⟩
        rw [show (!(Ty.objectEnd == Ty.objectStart) && !(Ty.objectEnd == Ty.arrayStart)) = true from rfl]
        simpa [bracketOf] using closeObj hctx (.noValue he hg hname hbw hg') false r3
      | _ => simp [Ty.isBracket] at hb
    · rw [lFin_scalar (by exact getType_scalar hty2)] at h
      simp only [Except.ok.injEq, Prod.mk.injEq] at h
      obtain ⟨rfl, rfl⟩ := h
      refine ⟨g ++ t ++ w ++ b!":" ++ g' ++ t2, by simp [hr0, hw2, hr2, COLON], p1, ks1,
        q ++ (g ++ t ++ w ++ b!":" ++ g' ++ t2), ls ++ [⟨d, ty, d2, getType ty2 d2⟩], hctx, ?_, ?_, ?_⟩
      · have : (!(ty2 == .objectStart || ty2 == .arrayStart)) = true := by rcases hty2 with rfl | rfl | rfl <;> rfl
        rw [this]
        refine .objDone he (.scalar hg hname hbw hg' hsc2 ?_) hw22
        intro ha
        simpa [ha] using hasc
      · simp
      · simp

/-- `lName` reads one token. -/
theorem name_step (o : Opts) {e : Bool} {st : List Ty} {r0 : Bytes} {p1 : Bytes} {ks1 : List Tok} {q : Bytes} {ls : List Tok}
    (hctx : Ctx o st p1 ks1) (hin : In o ⟨false, e, st, r0⟩ q ls) {c' : LC} {tok : Tok}
    (h : lFin (lName o ⟨false, e, st, r0⟩) = .ok (c', tok)) :
    ∃ u, r0 = u ++ c'.rest ∧ Inv o c' (p1 ++ q ++ u) (ks1 ++ ls ++ [tok]) := by
  unfold lName at h
  split at h
  · simp [lFin] at h
  split at h
  · simp [lFin] at h
  rename_i ty d r hv
  obtain ⟨g, t, hr0, hg, hv2⟩ := lValue_inv o _ hv
  simp only at hr0
  rcases hv2 with ⟨hb, rfl, rfl, hgt⟩ | ⟨hty, k, hsc, hw⟩
  · have hnil : (r0.head? = some RBRACK ∨ r0.head? = some RBRACE) → g = [] := skip_closing hg hr0
    cases ty with
    | arrayStart =>
      have hcl : ¬ (r0.head? = some RBRACK ∨ r0.head? = some RBRACE) := by
        intro hc
        have := hnil hc
        subst this
        rw [hr0] at hc
        revert hc
        simp [bracketOf, RBRACK, RBRACE]
      simp [lFin, anonTok] at h
      obtain ⟨rfl, rfl⟩ := h
      refine ⟨g ++ b!"[", by simp [hr0, bracketOf], ?_⟩
      cases hin with
      | root => cases hctx with | root hs => simpa [bracketOf] using (Slot.root hs hg).openArr r
      | arr he hk => simpa [bracketOf] using (Slot.elem hctx he hg).openArr r
      | obj he hk => simpa [bracketOf] using (Slot.bare hctx he hg).openArr r
      | arrLast _ _ _ h => exact absurd h hcl
      | objLast _ _ _ h => exact absurd h hcl
    | objectStart =>
      have hcl : ¬ (r0.head? = some RBRACK ∨ r0.head? = some RBRACE) := by
        intro hc
        have := hnil hc
        subst this
        rw [hr0] at hc
        revert hc
        simp [bracketOf, RBRACK, RBRACE]
      simp [lFin, anonTok] at h
      obtain ⟨rfl, rfl⟩ := h
      refine ⟨g ++ b!"{", by simp [hr0, bracketOf], ?_⟩
      cases hin with
      | root => cases hctx with | root hs => simpa [bracketOf] using (Slot.root hs hg).openObj r
      | arr he hk => simpa [bracketOf] using (Slot.elem hctx he hg).openObj r
      | obj he hk => simpa [bracketOf] using (Slot.bare hctx he hg).openObj r
      | arrLast _ _ _ h => exact absurd h hcl
      | objLast _ _ _ h => exact absurd h hcl
    | arrayEnd =>
      simp only at h
      split at h
      · simp [lFin] at h
      rename_i hsc
      simp only [lFin, anonTok] at h
      split at h
      swap
      · simp at h
      rename_i st'
      simp only [Except.ok.injEq, Prod.mk.injEq] at h
      obtain ⟨rfl, rfl⟩ := h
      refine ⟨g ++ b!"]", by simp [hr0, bracketOf], ?_⟩
      cases hin with
      | arr he hk =>
        have := Items.comma (o := o) he (fun h => by simpa [hk h] using hsc) hg
        simpa [bracketOf] using closeArr hctx this e r
      | arrLast h1 h2 h3 h4 =>
        rw [hnil h4]
        simpa [bracketOf] using closeArr hctx (.last h1 h2 h3) e r
    | objectEnd =>
      simp only at h
      split at h
      · simp [lFin] at h
      rename_i hsc
      simp only [lFin, anonTok] at h
      split at h
      swap
      · simp at h
      rename_i st'
      simp only [Except.ok.injEq, Prod.mk.injEq] at h
      obtain ⟨rfl, rfl⟩ := h
      refine ⟨g ++ b!"}", by simp [hr0, bracketOf], ?_⟩
      cases hin with
      | obj he hk =>
        have := Fields.comma (o := o) he (fun h => by simpa [hk h] using hsc) hg
        simpa [bracketOf] using closeObj hctx this e r
      | objLast h1 h2 h3 h4 =>
        rw [hnil h4]
        simpa [bracketOf] using closeObj hctx (.last h1 h2 h3) e r
    | _ => simp [Ty.isBracket] at hb
  · have h' : lFin (lDelimiter o ⟨false, e, st, r⟩ d (getType ty d)) = .ok (c', tok) := by
      rcases hty with rfl | rfl | rfl <;> exact h
    exact scalar_step o hr0 hctx hin hg hsc hw h'

theorem next_step (o : Opts) {c c' : LC} {p : Bytes} {ks : List Tok} {tok : Tok} (hi : Inv o c p ks)
    (h : lNext o c = .ok (c', tok)) : ∃ u, c.rest = u ++ c'.rest ∧ Inv o c' (p ++ u) (ks ++ [tok]) := by
  rw [lNext_fin] at h
  obtain ⟨te, e, st, r0⟩ := c
  obtain ⟨p1, ks1, q, ls, hctx, hin, rfl, rfl⟩ := hi
  unfold lPop at h
  split at h
  · simp [lFin] at h
  simp only at h hctx
  cases te with
  | false => exact name_step o hctx hin (by simpa using h)
  | true =>
    simp only [if_true] at h
    have hbeh : ∀ {k : Kind} {w x y : Bytes}, (k = .word → r0.head? ≠ some 0 ∧ r0.head? ≠ some 0x2F) → Blank o w → r0 = w ++ x ++ y →
        Behind o k w x := by
      intro k w x y hw hb hx
      refine ⟨hb, fun hk => ?_⟩
      have := hw hk
      subst hx
      cases h : w ++ x with
      | nil => simp
      | cons a w => rw [h] at this; simpa using this
    cases st with
    | nil =>
      cases hin with
      | root => exact name_step o hctx .root h
    | cons ct st =>
      simp only at h
      split at h
      · simp [lFin] at h
      rename_i comma r hte
      obtain ⟨w, hw1, hw2⟩ := lTokEnd_inv o r0 hte
      have fin : ∀ {q' ls'}, In o ⟨false, e || comma, ct :: st, r⟩ q' ls' → ∀ u1, r0 = u1 ++ r → q' = q ++ u1 → ls' = ls →
          ∃ u, r0 = u ++ c'.rest ∧ Inv o c' (p1 ++ q ++ u) (ks1 ++ ls ++ [tok]) := by
        rintro q' ls' hin' u1 hu1 rfl rfl
        obtain ⟨u, h1, h2⟩ := name_step o hctx hin' h
        exact ⟨u1 ++ u, by rw [hu1, h1]; simp, by simpa using h2⟩
      cases hin with
      | arrDone h1 h2 =>
        rcases hw2 with ⟨x, hsep, hw2⟩ | ⟨rfl, hw2, hw3⟩
        · exact fin (.arr (h1.snoc h2 (hbeh (by simp) hw1 hw2) hsep) (by simp +contextual)) (w ++ x) (by simp [hw2]) (by simp) rfl
        · exact fin (.arrLast h1 h2 (hbeh (x := []) (by simp) hw1 (by simpa using hw2)) hw3) w hw2 (by simp) rfl
      | objDone h1 h2 h3 =>
        rcases hw2 with ⟨x, hsep, hw2⟩ | ⟨rfl, hw2, hw3⟩
        · exact fin (.obj (h1.snoc h2 (hbeh h3 hw1 hw2) hsep) (by simp +contextual)) (w ++ x) (by simp [hw2]) (by simp) rfl
        · exact fin (.objLast h1 h2 (hbeh (x := []) h3 hw1 (by simpa using hw2)) hw3) w hw2 (by simp) rfl

theorem run_inv (o : Opts) {c c' : LC} {p : Bytes} {ks ls : List Tok} (hi : Inv o c p ks)
    (h : Run o c ls c') : ∃ u, c.rest = u ++ c'.rest ∧ Inv o c' (p ++ u) (ks ++ ls) := by
  induction h generalizing p ks with
  | nil => exact ⟨[], rfl, by simpa using hi⟩
  | cons h1 _ ih =>
    obtain ⟨u, h2, h3⟩ := next_step o hi h1
    obtain ⟨v, h4, h5⟩ := ih h3
    exact ⟨u ++ v, by rw [h2, h4]; simp, by simpa using h5⟩

/-- What has been read when no bracket is open. -/
theorem run_stream (o : Opts) {buf : Bytes} {ks : List Tok} {c' : LC}
    (h : Run o ⟨false, false, [], buf⟩ ks c') (hs : c'.stack = []) : ∃ p, buf = p ++ c'.rest ∧ Stream o p ks := by
  obtain ⟨u, h1, p1, ks1, q, ls, h2, h3, h4, h5⟩ := run_inv o (p := []) (ks := [])
    ⟨[], [], [], [], .root .nil, .root, rfl, rfl⟩ h
  obtain ⟨te, e, st, r⟩ := c'
  simp only at hs
  subst hs
  cases h3 with
  | root =>
    cases h2 with
    | root h2 =>
      simp at h4 h5
      subst h4 h5
      exact ⟨_, h1, h2⟩

theorem lPop_stack {o : Opts} {c c' : LC} {k : Tok} (h : lPop o c = .ok (c', k)) : c'.stack = c.stack := by
  have hdata : ∀ (c nm nty), lData o c nm nty = .ok (c', k) → c'.stack = c.stack := by
    intro c nm nty h
    unfold lData at h
    split at h
    · simp at h
    split at h
    · simp at h
    · split at h
      · simp at h
      · simp at h; rw [← h.1]
  have hdel : ∀ (c nm nty), lDelimiter o c nm nty = .ok (c', k) → c'.stack = c.stack := by
    intro c nm nty h
    unfold lDelimiter at h
    split at h
    · simp at h
    split at h
    · simp at h
    · split at h
      · simp at h
      · simp at h; rw [← h.1]
      · split at h
        · simp at h
        · have := hdata _ _ _ h; exact this
  have hname : ∀ c, lName o c = .ok (c', k) → c'.stack = c.stack := by
    intro c h
    unfold lName at h
    split at h
    · simp at h
    split at h
    · simp at h
    · split at h
      · split at h <;> simp at h; rw [← h.1]
      · split at h <;> simp at h; rw [← h.1]
      · simp at h; rw [← h.1]
      · simp at h; rw [← h.1]
      · have := hdel _ _ _ h; exact this
  unfold lPop at h
  split at h
  · simp at h
  split at h
  · split at h
    · have := hname _ h; exact this
    · split at h
      · simp at h
      · have := hname _ h; exact this
  · have := hname _ h; exact this

theorem run_depth {o : Opts} {c c' : LC} {ks : List Tok} (h : Run o c ks c') :
    c'.stack.length + closes ks = c.stack.length + opens ks := by
  induction h with
  | nil => rfl
  | @cons c k c1 ks c2 h1 _ ih =>
    rw [lNext_fin] at h1
    have key : c1.stack.length + closes [k] = c.stack.length + opens [k] := by
      unfold lFin at h1
      split at h1
      · simp at h1
      rename_i c0 k0 h0
      rw [← lPop_stack h0]
      split at h1
      · simp only [Except.ok.injEq, Prod.mk.injEq] at h1
        obtain ⟨rfl, rfl⟩ := h1
        simp [opens, closes, *]
      · simp only [Except.ok.injEq, Prod.mk.injEq] at h1
        obtain ⟨rfl, rfl⟩ := h1
        simp [opens, closes, *]
      · split at h1 <;> simp only [Except.ok.injEq, Prod.mk.injEq, reduceCtorEq] at h1
        obtain ⟨rfl, rfl⟩ := h1
        simp [opens, closes, *]
      · split at h1 <;> simp only [Except.ok.injEq, Prod.mk.injEq, reduceCtorEq] at h1
        obtain ⟨rfl, rfl⟩ := h1
        simp [opens, closes, *]
      · rename_i n1 n2 n3 n4
        simp only [Except.ok.injEq, Prod.mk.injEq] at h1
        obtain ⟨rfl, rfl⟩ := h1
        have m1 : ¬ k0.valueType = .objectStart := n1
        have m2 : ¬ k0.valueType = .arrayStart := n2
        have m3 : ¬ k0.valueType = .objectEnd := n3
        have m4 : ¬ k0.valueType = .arrayEnd := n4
        simp [opens, closes, m1, m2, m3, m4]
    rw [show k :: ks = [k] ++ ks from rfl]
    simp only [closes, opens, List.countP_append] at ih key ⊢
    omega

end Lax

end JsonStruct
