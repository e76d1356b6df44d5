import Verif.Lemmas.Skip
import Verif.Spec.Value

/- Scopes: what `nextToken` does to the scope counters, and that it depends on them only in refusing to pass the end
of the innermost one. -/

set_option linter.unusedSimpArgs false

namespace JsonStruct

/-- The tokenizer with other scopes. -/
def Tz.sc (t : Tz) (ss : List Scope) : Tz := { t with scopes := ss }

def PopRes.sc (p : PopRes) (ss : List Scope) : PopRes := { p with tz := p.tz.sc ss }

def Step.sc (s : Step) (ss : List Scope) : Step :=
  match s with
  | .ret e t k => .ret e (t.sc ss) k
  | .cont t k => .cont (t.sc ss) k

theorem populateEnd_sc (t : Tz) (ss : List Scope) (buf : Bytes) (ptr : Nat) (ty : Ty) :
    (t.sc ss).populateEnd buf ptr ty = (t.populateEnd buf ptr ty).sc ss := by
  cases ty <;> simp only [Tz.populateEnd, show (t.sc ss).opts = t.opts from rfl, show (t.sc ss).isEscaped = t.isEscaped from rfl,
    show (t.sc ss).cursor = t.cursor from rfl] <;> first | rfl | (split <;> rfl)

theorem populateFrom_sc (t : Tz) (ss : List Scope) (buf : Bytes) (ty : Ty) :
    (t.sc ss).populateFrom buf ty = (t.populateFrom buf ty).sc ss := by
  simp only [Tz.populateFrom, show (t.sc ss).opts = t.opts from rfl, show (t.sc ss).propState = t.propState from rfl,
    show (t.sc ss).cursor = t.cursor from rfl]
  cases t.propState with
  | noStartFound =>
    simp only
    split
    · rfl
    · split
      · rfl
      · rw [← populateEnd_sc]; rfl
  | findingEnd => simp only; rw [← populateEnd_sc]
  | foundEnd => rfl

theorem stepName_sc (t : Tz) (ss : List Scope) (buf : Bytes) (tmp : Token) : (t.sc ss).stepName buf tmp = (t.stepName buf tmp).sc ss := by
  simp only [Tz.stepName, show (t.sc ss).inter = t.inter from rfl, populateFrom_sc]
  generalize t.populateFrom buf t.inter.nameType = p
  obtain ⟨e, ptr, size, ty, t⟩ := p
  simp only [PopRes.sc, show (t.sc ss).inter = t.inter from rfl, show (t.sc ss).propState = t.propState from rfl]
  by_cases h1 : e = .needMoreData
  · simp only [h1, if_true]
    by_cases h2 : t.propState = .noStartFound
    · simp only [h2, ne_eq, not_true_eq_false, if_false]; rfl
    · simp only [h2, ne_eq, not_false_eq_true, if_true]; rfl
  · simp only [h1, if_false]
    by_cases h2 : e = .noError
    · simp only [h2, ne_eq, not_true_eq_false, if_false]
      by_cases hx : (t.expecting && !t.opts.superfluousComma) = true
      · have hx' : ((t.sc ss).expecting && !(t.sc ss).opts.superfluousComma) = true := hx
        by_cases h3 : t.inter.active = true
        · have h3' : (t.sc ss).inter.active = true := h3
          simp only [h3, h3', if_true, hx, hx']
          cases t.inter.nameType <;> rfl
        · have h3' : ¬ (t.sc ss).inter.active = true := h3
          simp only [h3, h3', if_false, hx, hx', if_true, Bool.false_eq_true]
          cases ty <;> rfl
      · have hx' : ¬ ((t.sc ss).expecting && !(t.sc ss).opts.superfluousComma) = true := hx
        by_cases h3 : t.inter.active = true
        · have h3' : (t.sc ss).inter.active = true := h3
          simp only [h3, h3', if_true, hx, hx', if_false, Bool.false_eq_true]
          cases t.inter.nameType <;> rfl
        · have h3' : ¬ (t.sc ss).inter.active = true := h3
          simp only [h3, h3', if_false, hx, hx', Bool.false_eq_true]
          cases ty <;> rfl
    · simp only [h2, ne_eq, not_false_eq_true, if_true]; rfl

theorem Step.sc_ite (c : Prop) [Decidable c] (a b : Step) (ss : List Scope) :
    (if c then a else b).sc ss = if c then a.sc ss else b.sc ss := by split <;> rfl

theorem stepDelimiter_sc (t : Tz) (ss : List Scope) (buf : Bytes) (tmp : Token) :
    (t.sc ss).stepDelimiter buf tmp = (t.stepDelimiter buf tmp).sc ss := by
  simp only [Tz.stepDelimiter, Step.sc_ite]
  rfl

theorem stepData_sc (t : Tz) (ss : List Scope) (buf : Bytes) (tmp : Token) : (t.sc ss).stepData buf tmp = (t.stepData buf tmp).sc ss := by
  simp only [Tz.stepData, show (t.sc ss).inter = t.inter from rfl, populateFrom_sc]
  generalize t.populateFrom buf t.inter.dataType = p
  obtain ⟨e, ptr, size, ty, t⟩ := p
  simp only [PopRes.sc, Step.sc_ite]
  by_cases h3 : t.inter.active = true
  · have h3' : (t.sc ss).inter.active = true := h3
    simp only [h3, h3', if_true]; rfl
  · have h3' : ¬ (t.sc ss).inter.active = true := h3
    simp only [h3, h3', if_false, Bool.false_eq_true]; rfl

theorem stepTokenEnd_sc (t : Tz) (ss : List Scope) (buf : Bytes) (tmp : Token) :
    (t.sc ss).stepTokenEnd buf tmp = (t.stepTokenEnd buf tmp).sc ss := by
  simp only [Tz.stepTokenEnd, show (t.sc ss).opts = t.opts from rfl, show (t.sc ss).stack = t.stack from rfl,
    show (t.sc ss).cursor = t.cursor from rfl]
  split <;> rfl

theorem step_sc (t : Tz) (ss : List Scope) (buf : Bytes) (tmp : Token) : (t.sc ss).step buf tmp = (t.step buf tmp).sc ss := by
  unfold Tz.step
  rw [show (t.sc ss).tokenState = t.tokenState from rfl, stepName_sc, stepDelimiter_sc, stepData_sc, stepTokenEnd_sc]
  cases t.tokenState <;> rfl

theorem populateLoop_sc (n : Nat) (t : Tz) (ss : List Scope) (buf : Bytes) (tmp : Token) :
    Tz.populateLoop n (t.sc ss) buf tmp =
      ((Tz.populateLoop n t buf tmp).1, (Tz.populateLoop n t buf tmp).2.1.sc ss, (Tz.populateLoop n t buf tmp).2.2) := by
  induction n generalizing t tmp with
  | zero => rfl
  | succ n ih =>
    simp only [Tz.populateLoop, show (t.sc ss).cursor = t.cursor from rfl, step_sc]
    split
    · cases t.step buf tmp with
      | ret e t' k => rfl
      | cont t' k => exact ih t' k
    · rfl

theorem request_sc (t : Tz) (ss : List Scope) : (t.sc ss).requestMoreData = t.requestMoreData.sc ss := by
  unfold Tz.requestMoreData
  rw [show (t.sc ss).pending = t.pending from rfl]
  cases t.pending <;> rfl

theorem release_sc (t : Tz) (ss : List Scope) : (t.sc ss).releaseFirst = t.releaseFirst.sc ss := by
  unfold Tz.releaseFirst
  rw [show (t.sc ss).bufs = t.bufs from rfl]
  cases t.bufs <;> rfl

theorem populateNext_sc (t : Tz) (ss : List Scope) (buf : Bytes) : (t.sc ss).populateNext buf =
    ((t.populateNext buf).1, (t.populateNext buf).2.1.sc ss, (t.populateNext buf).2.2) := populateLoop_sc 4 t ss buf {}

theorem pump_sc (n : Nat) (t : Tz) (ss : List Scope) :
    Tz.pump n (t.sc ss) = ((Tz.pump n t).1, (Tz.pump n t).2.1.sc ss, (Tz.pump n t).2.2) := by
  induction n generalizing t with
  | zero => rfl
  | succ n ih =>
    simp only [Tz.pump, show (t.sc ss).bufs = t.bufs from rfl]
    cases t.bufs with
    | nil => rfl
    | cons b bs =>
      simp only
      rw [populateNext_sc]
      generalize t.populateNext b = r
      dsimp only
      split
      · rw [release_sc, request_sc, ih]
      · rfl

theorem finish_sc (t : Tz) (ss : List Scope) (tok : Token) (h : t.scopes = []) : (t.sc ss).finish tok =
    ((t.finish tok).1, (t.finish tok).2.sc (if (t.finish tok).1 = .noError then handleScope ss tok.valueType else ss)) ∧
    (t.finish tok).2.scopes = [] := by
  have hh : handleScope [] tok.valueType = [] := rfl
  unfold Tz.finish
  dsimp only
  by_cases h1 : tok.valueType = .arrayStart ∨ tok.valueType = .objectStart
  · have h2 : tok.valueType ≠ .arrayEnd := by intro e; rw [e] at h1; simp at h1
    have h3 : tok.valueType ≠ .objectEnd := by intro e; rw [e] at h1; simp at h1
    simp only [if_pos h1, if_neg h2, if_neg h3, if_true, h, hh]
    exact ⟨rfl, trivial⟩
  · simp only [if_neg h1]
    by_cases h2 : tok.valueType = .arrayEnd
    · simp only [if_pos h2, show (t.sc ss).stack = t.stack from rfl]
      cases hs : t.stack with
      | nil => simp only [reduceCtorEq, if_false, h, Tz.sc, and_self]
      | cons k r => cases k <;> simp only [reduceCtorEq, if_false, if_true, h, hh, Tz.sc, and_self]
    · simp only [if_neg h2]
      by_cases h3 : tok.valueType = .objectEnd
      · simp only [if_pos h3, show (t.sc ss).stack = t.stack from rfl]
        cases hs : t.stack with
        | nil => simp only [reduceCtorEq, if_false, h, Tz.sc, and_self]
        | cons k r => cases k <;> simp only [reduceCtorEq, if_false, if_true, h, hh, Tz.sc, and_self]
      · simp only [if_neg h3, if_true, h, hh]
        exact ⟨rfl, trivial⟩

/-- `nextToken` inside a scope that has not ended is `nextToken` without scopes; the innermost counter is updated. -/
theorem nextToken_sc (t : Tz) (ss : List Scope) (next : Token) (h : t.scopes = []) (hs : (t.sc ss).ended = false)
    {t' : Tz} {tok : Token} (hn : t.nextToken next = (.noError, t', tok)) :
    (t.sc ss).nextToken next = (.noError, t'.sc (handleScope ss tok.valueType), tok) ∧ t'.scopes = [] := by
  rw [nextToken_core] at hn ⊢
  have hcore : t.core = (.noError, t', some tok) ∨ t.core = (.noError, t', none) := by
    simp only [Prod.mk.injEq] at hn
    obtain ⟨h1, h2, h3⟩ := hn
    cases hc : t.core.2.2 with
    | none => exact Or.inr (Prod.ext h1 (Prod.ext h2 hc))
    | some k => rw [hc] at h3; exact Or.inl (Prod.ext h1 (Prod.ext h2 (by rw [hc]; exact congrArg some h3)))
  rcases hcore with hcore | hcore
  rotate_left
  · exact (core_some hcore).elim
  have hne : t.ended = false := by simp [Tz.ended, h]
  have key : (t.sc ss).core = (.noError, t'.sc (handleScope ss tok.valueType), some tok) ∧ t'.scopes = [] := by
    unfold Tz.core at hcore ⊢
    rw [hs]; rw [hne] at hcore
    simp only [Bool.false_eq_true, if_false] at hcore ⊢
    unfold Tz.coreIn at hcore ⊢
    rw [show (t.sc ss).parsed = t.parsed from rfl]
    cases hp : t.parsed with
    | some ts =>
      rw [hp] at hcore
      simp only [show (t.sc ss).cursor = t.cursor from rfl] at hcore ⊢
      cases hc : ts[t.cursor]? with
      | none => rw [hc] at hcore; simp at hcore
      | some k =>
        rw [hc] at hcore
        simp only [Prod.mk.injEq, Option.some.injEq, true_and] at hcore ⊢
        obtain ⟨h1, rfl⟩ := hcore
        subst h1
        by_cases hl : t.cursor + 1 = ts.length
        · simp only [hl, if_true, h, handleScope, Tz.sc, and_self]
        · simp only [hl, if_false, h, handleScope, Tz.sc, and_self]
    | none =>
      rw [hp] at hcore
      simp only [show (t.sc ss).bufs = t.bufs from rfl, request_sc] at hcore ⊢
      have hs1 : (if t.bufs = [] then t.requestMoreData else t).scopes = [] := by
        split
        · unfold Tz.requestMoreData; split <;> exact h
        · exact h
      have e1 : (if t.bufs = [] then t.requestMoreData.sc ss else t.sc ss) = (if t.bufs = [] then t.requestMoreData else t).sc ss := by
        split <;> rfl
      rw [e1]
      generalize (if t.bufs = [] then t.requestMoreData else t) = t1 at hcore hs1 ⊢
      rw [show (t1.sc ss).bufs = t1.bufs from rfl]
      by_cases hb : t1.bufs = []
      · rw [if_pos hb] at hcore; simp at hcore
      · rw [if_neg hb] at hcore ⊢
        have e2 : (if (t1.sc ss).continueAfter = true then t1.sc ss else (t1.sc ss).resetForNewToken) =
            (if t1.continueAfter = true then t1 else t1.resetForNewToken).sc ss := by
          rw [show (t1.sc ss).continueAfter = t1.continueAfter from rfl]; split <;> rfl
        have hs2 : (if t1.continueAfter = true then t1 else t1.resetForNewToken).scopes = [] := by
          split
          · exact hs1
          · exact hs1
        rw [e2]
        generalize (if t1.continueAfter = true then t1 else t1.resetForNewToken) = t2 at hcore hs2 ⊢
        rw [show (t2.sc ss).supply = t2.supply from rfl, pump_sc]
        have hs3 : (Tz.pump t2.supply t2).2.1.scopes = [] := by
          have := pump_sc t2.supply t2 t2.scopes
          rw [show t2.sc t2.scopes = t2 from rfl] at this
          have := congrArg (·.2.1.scopes) this
          simp only [Tz.sc] at this
          rw [this, hs2]
        generalize Tz.pump t2.supply t2 = r at hcore hs3 ⊢
        obtain ⟨e, t3, k⟩ := r
        cases k with
        | none => simp only [Prod.mk.injEq, reduceCtorEq, and_false] at hcore
        | some k =>
          simp only at hcore hs3 ⊢
          obtain ⟨hf1, hf2⟩ := finish_sc { t3 with continueAfter := e == .needMoreData } ss k hs3
          change Tz.finish { t3.sc ss with continueAfter := e == .needMoreData } k = _ at hf1
          rw [hf1]
          simp only [Prod.mk.injEq, Option.some.injEq] at hcore ⊢
          obtain ⟨g1, g2, rfl⟩ := hcore
          rw [g1, g2]
          rw [g2] at hf2
          exact ⟨⟨rfl, rfl, rfl⟩, hf2⟩
  rw [key.1]
  exact ⟨rfl, key.2⟩

/-! ### How high the level rises -/

/-- The level is at most `M` behind every token. -/
def Below (δ : Nat → Ty → Nat) (M : Nat) : Nat → List Tok → Prop
  | _, [] => True
  | L, k :: ks => δ L k.valueType ≤ M ∧ Below δ M (δ L k.valueType) ks

theorem below_append {δ : Nat → Ty → Nat} {M L : Nat} {a b : List Tok} (h : Below δ M L a) (h' : Below δ M (levelAfter δ L a) b) :
    Below δ M L (a ++ b) := by
  induction a generalizing L with
  | nil => exact h'
  | cons k a ih => exact ⟨h.1, ih h.2 h'⟩

theorem below_bracket {δ : Nat → Ty → Nat} {a b : Tok} {ks : List Tok} {M L d : Nat} (hL : 1 ≤ L) (hM : L + (d + 1) ≤ M)
    (hδ : (∀ L, δ L a.valueType = L + 1 ∧ δ (L + 1) b.valueType = L) ∨ (∀ L, δ L a.valueType = L ∧ δ L b.valueType = L))
    (hf : Flat δ ks) (h : ∀ L, 1 ≤ L → L + d ≤ M → Below δ M L ks) : Below δ M L (a :: (ks ++ [b])) := by
  rcases hδ with hδ | hδ
  · refine ⟨by rw [(hδ L).1]; omega, ?_⟩
    rw [(hδ L).1]
    refine below_append (h _ (by omega) (by omega)) ?_
    rw [(hf (L + 1) (by omega)).2]
    exact ⟨by rw [(hδ L).2]; omega, trivial⟩
  · refine ⟨by rw [(hδ L).1]; omega, ?_⟩
    rw [(hδ L).1]
    refine below_append (h _ (by omega) (by omega)) ?_
    rw [(hf L (by omega)).2]
    exact ⟨by rw [(hδ L).2]; omega, trivial⟩

theorem below_scalar {δ : Nat → Ty → Nat} (hδ : Counts δ) {M L : Nat} (k : Tok) (hM : L ≤ M)
    (h : k.valueType ≠ .arrayStart ∧ k.valueType ≠ .arrayEnd ∧ k.valueType ≠ .objectStart ∧ k.valueType ≠ .objectEnd) : Below δ M L [k] :=
  ⟨by rw [hδ.scalar L _ h.1 h.2.1 h.2.2.1 h.2.2.2]; exact hM, trivial⟩

mutual
theorem below_toks {δ : Nat → Ty → Nat} (hδ : Counts δ) (M : Nat) (v : JVal) (n : Bytes) (nt : Ty) :
    ∀ L, 1 ≤ L → L + v.depth ≤ M → Below δ M L (v.toks n nt) := by
  intro L hL hM
  match v with
  | .null => exact below_scalar hδ _ (by omega) (by simp)
  | .bool true => exact below_scalar hδ _ (by omega) (by simp)
  | .bool false => exact below_scalar hδ _ (by omega) (by simp)
  | .num _ => exact below_scalar hδ _ (by omega) (by simp)
  | .str _ => exact below_scalar hδ _ (by omega) (by simp)
  | .arr vs => exact below_bracket hL hM hδ.arr (flat_elems hδ vs) (below_elems hδ M vs)
  | .obj ms => exact below_bracket hL hM hδ.obj (flat_members hδ ms) (below_members hδ M ms)
theorem below_elems {δ : Nat → Ty → Nat} (hδ : Counts δ) (M : Nat) (vs : List JVal) :
    ∀ L, 1 ≤ L → L + elemsDepth vs ≤ M → Below δ M L (elemToks vs) := by
  intro L hL hM
  match vs with
  | [] => exact trivial
  | v :: vs =>
    simp only [elemsDepth] at hM
    refine below_append (below_toks hδ M v _ _ L hL (by omega)) ?_
    rw [(flat_toks hδ v _ _ L hL).2]
    exact below_elems hδ M vs L hL (by omega)
theorem below_members {δ : Nat → Ty → Nat} (hδ : Counts δ) (M : Nat) (ms : List (Bytes × JVal)) :
    ∀ L, 1 ≤ L → L + membersDepth ms ≤ M → Below δ M L (memberToks ms) := by
  intro L hL hM
  match ms with
  | [] => exact trivial
  | (n, v) :: ms =>
    simp only [membersDepth] at hM
    refine below_append (below_toks hδ M v _ _ L hL (by omega)) ?_
    rw [(flat_toks hδ v _ _ L hL).2]
    exact below_members hδ M ms L hL (by omega)
end

/-- Below 65536 the 16 bit counter counts. -/
theorem handleType_level {ty : Ty} (hty : ty = .arrayStart ∨ ty = .objectStart) {L : Nat} (h1 : 1 ≤ L) (k : Ty)
    (h2 : kindLevel ty ty.closing L k ≤ 65535) (h3 : L ≤ 65535) :
    Scope.handleType ⟨ty, L⟩ k = ⟨ty, kindLevel ty ty.closing L k⟩ := by
  simp only [Scope.handleType, hty, if_true, kindLevel, inc16, dec16] at h2 ⊢
  split
  · rename_i h; rw [if_pos h] at h2; rw [show (L + 1) % 65536 = L + 1 by omega]
  · split
    · rw [show (L + 65535) % 65536 = L - 1 by omega]
    · rfl

/-- `goToEndOfScope` reads on to the token at which the level falls to zero. -/
theorem go_run {ty : Ty} (hty : ty = .arrayStart ∨ ty = .objectStart) (rest : List Tok) (ss : List Scope) (ts : List Tok) :
    ∀ (t : Tz) (L : Nat) (tok : Token), t.scopes = [] → ts ≠ [] → Delivers t (ts ++ rest) → Above (kindLevel ty ty.closing) L ts →
      Below (kindLevel ty ty.closing) 65535 L ts → L ≤ 65535 → levelAfter (kindLevel ty ty.closing) L ts = 0 →
      ∃ t' tok', (∀ n, ts.length < n → Tz.goToEndOfScope n (t.sc (⟨ty, L⟩ :: ss)) tok = (.noError, t'.sc (⟨ty, 0⟩ :: ss), tok')) ∧
        t'.scopes = [] ∧ some tok'.tok = ts.getLast? ∧ Delivers t' rest := by
  induction ts with
  | nil => intro t L tok _ h; exact absurd rfl h
  | cons k ts ih =>
    intro t L tok hs _ hd ha hb hL hz
    obtain ⟨t1, tok1, h1, h2, h3⟩ := hd
    obtain ⟨ha1, ha2⟩ := ha
    obtain ⟨hb1, hb2⟩ := hb
    have hv : tok1.valueType = k.valueType := by rw [← h2]; rfl
    obtain ⟨h4, h5⟩ := nextToken_sc t (⟨ty, L⟩ :: ss) tok hs (by simp [Tz.sc, Tz.ended]; omega) (h1 tok)
    rw [show handleScope (⟨ty, L⟩ :: ss) tok1.valueType = Scope.handleType ⟨ty, L⟩ tok1.valueType :: ss from rfl, hv,
      handleType_level hty ha1 _ hb1 hL] at h4
    have hstep : ∀ n, Tz.goToEndOfScope (n + 1) (t.sc (⟨ty, L⟩ :: ss)) tok =
        Tz.goToEndOfScope n (t1.sc (⟨ty, kindLevel ty ty.closing L k.valueType⟩ :: ss)) tok1 := by
      intro n
      rw [Tz.goToEndOfScope]
      rw [show (t.sc (⟨ty, L⟩ :: ss)).scopes = ⟨ty, L⟩ :: ss from rfl]
      simp only [show L ≠ 0 by omega, if_false, h4, if_true]
    by_cases hts : ts = []
    · subst hts
      refine ⟨t1, tok1, fun n hn => ?_, h5, by simp [h2], h3⟩
      obtain ⟨m, rfl⟩ : ∃ m, n = m + 1 := ⟨n - 1, by simp at hn; omega⟩
      rw [hstep m]
      simp only [levelAfter] at hz
      rw [hz]
      obtain ⟨m', rfl⟩ : ∃ m', m = m' + 1 := ⟨m - 1, by simp at hn; omega⟩
      simp only [Tz.goToEndOfScope, Tz.sc, if_true]
    · obtain ⟨t', tok', g1, g2, g3, g4⟩ := ih t1 _ tok1 h5 hts h3 ha2 hb2 hb1 hz
      refine ⟨t', tok', fun n hn => ?_, g2, ?_, g4⟩
      · obtain ⟨m, rfl⟩ : ∃ m, n = m + 1 := ⟨n - 1, by simp at hn; omega⟩
        rw [hstep m]
        exact g1 m (by simp at hn; omega)
      · rw [g3]
        cases ts with
        | nil => exact absurd rfl hts
        | cons => simp

end JsonStruct
