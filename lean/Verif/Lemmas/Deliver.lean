import Verif.Model.Struct
import Verif.Spec.Decode

/- A tokenizer that is going to deliver a known sequence of tokens; a parse context in front of it. -/

set_option linter.unusedSimpArgs false

set_option linter.unusedSectionVars false

namespace JsonStruct

/-- What holds of the tokenizer behind the tokens that `Delivers` lists. Nothing, if not said otherwise. -/
class EndCond where
  holds : Tz → Prop

instance (priority := low) noEndCond : EndCond := ⟨fun _ => True⟩

/-- The next calls of `nextToken` succeed and deliver these tokens. -/
def Delivers [e : EndCond] : Tz → List Tok → Prop
  | t, [] => e.holds t
  | t, k :: ks => ∃ t' tok, (∀ next, t.nextToken next = (.noError, t', tok)) ∧ tok.tok = k ∧ Delivers t' ks

theorem stepName_some {t t' : Tz} {buf : Bytes} {tmp : Token} (h : t.stepName buf tmp = .ret .noError t' none) : False := by
  simp only [Tz.stepName] at h
  repeat' split at h
  all_goals first | (cases h; done) | (injection h with h1 h2 h3; first | (cases h3; done) | (cases h1; done) | exact absurd h1 ‹_›)

theorem stepDelimiter_some {t t' : Tz} {buf : Bytes} {tmp : Token} (h : t.stepDelimiter buf tmp = .ret .noError t' none) : False := by
  simp only [Tz.stepDelimiter] at h
  repeat' split at h
  all_goals first | (cases h; done) | (injection h with h1 h2 h3; first | (cases h3; done) | (cases h1; done) | exact absurd h1 ‹_›)

theorem stepData_some {t t' : Tz} {buf : Bytes} {tmp : Token} (h : t.stepData buf tmp = .ret .noError t' none) : False := by
  simp only [Tz.stepData] at h
  repeat' split at h
  all_goals first | (cases h; done) | (injection h with h1 h2 h3; first | (cases h3; done) | (cases h1; done) | exact absurd h1 ‹_›)

theorem stepTokenEnd_some {t t' : Tz} {buf : Bytes} {tmp : Token} (h : t.stepTokenEnd buf tmp = .ret .noError t' none) : False := by
  simp only [Tz.stepTokenEnd] at h
  repeat' split at h
  all_goals first | (cases h; done) | (injection h with h1 h2 h3; first | (cases h3; done) | (cases h1; done) | exact absurd h1 ‹_›)

theorem populateLoop_some {n : Nat} {t t' : Tz} {buf : Bytes} {tmp : Token} (h : Tz.populateLoop n t buf tmp = (.noError, t', none)) : False := by
  induction n generalizing t tmp with
  | zero => simp [Tz.populateLoop] at h
  | succ n ih =>
    rw [Tz.populateLoop] at h
    split at h
    · split at h
      · rename_i e t1 tok hs
        simp only [Prod.mk.injEq] at h
        obtain ⟨rfl, rfl, rfl⟩ := h
        unfold Tz.step at hs
        split at hs
        · exact stepName_some hs
        · exact stepDelimiter_some hs
        · exact stepData_some hs
        · exact stepTokenEnd_some hs
      · exact ih h
    · simp at h

theorem pump_some {n : Nat} {t t' : Tz} (h : Tz.pump n t = (.noError, t', none)) : False := by
  induction n generalizing t with
  | zero => simp [Tz.pump] at h
  | succ n ih =>
    rw [Tz.pump] at h
    split at h
    · simp at h
    · simp only at h
      split at h
      · exact ih h
      · exact populateLoop_some h

/-- The innermost scope has ended. -/
def Tz.ended (t : Tz) : Bool := t.scopes.head?.any (·.depth == 0)

/-- `nextToken` without its token parameter, inside the innermost scope. -/
def Tz.coreIn (t : Tz) : Err × Tz × Option Token :=
  match t.parsed with
  | some ts =>
    match ts[t.cursor]? with
    | none => (.ub, t, none)
    | some tok =>
      let c := t.cursor + 1
      let t := if c = ts.length then { t with cursor := 0, parsed := none } else { t with cursor := c }
      (.noError, { t with scopes := handleScope t.scopes tok.valueType }, some tok)
  | none =>
    let t := if t.bufs = [] then t.requestMoreData else t
    if t.bufs = [] then (.needMoreData, t, none)
    else
      let t := if t.continueAfter then t else t.resetForNewToken
      let r := Tz.pump t.supply t
      let t := { r.2.1 with continueAfter := r.1 == .needMoreData }
      match r.2.2 with
      | none => (r.1, t, none)
      | some tok => ((t.finish tok).1, (t.finish tok).2, some tok)

/-- `nextToken` without its token parameter. -/
def Tz.core (t : Tz) : Err × Tz × Option Token := if t.ended then (.scopeHasEnded, t, none) else t.coreIn

theorem nextToken_core (t : Tz) (next : Token) : t.nextToken next = (t.core.1, t.core.2.1, t.core.2.2.getD next) := by
  unfold Tz.nextToken Tz.core
  split
  · rename_i hs; simp [Tz.ended, hs]
  · rename_i hs
    have he : t.ended = false := by
      unfold Tz.ended
      rcases h : t.scopes with _ | ⟨⟨ty, d⟩, ss⟩
      · rfl
      · cases d with
        | zero => exact absurd h (hs _ _)
        | succ d => simp
    simp only [he, Bool.false_eq_true, if_false, Tz.coreIn, Tz.nextParsed]
    cases t.parsed with
    | some ts =>
      simp only
      cases hc : ts[t.cursor]? <;> rfl
    | none =>
      simp only
      generalize (if t.bufs = [] then t.requestMoreData else t) = t1
      by_cases hb : t1.bufs = []
      · simp only [if_pos hb]; rfl
      · simp only [if_neg hb]
        generalize (if t1.continueAfter = true then t1 else t1.resetForNewToken) = t2
        generalize Tz.pump t2.supply t2 = r
        obtain ⟨e, t3, tk⟩ := r
        cases tk <;> rfl

theorem core_some {t t' : Tz} (h : t.core = (.noError, t', none)) : False := by
  unfold Tz.core Tz.coreIn at h
  split at h
  · simp at h
  · split at h
    · split at h <;> simp at h
    · generalize (if t.bufs = [] then t.requestMoreData else t) = t1 at h
      dsimp only at h
      by_cases hb : t1.bufs = []
      · rw [if_pos hb] at h; simp at h
      · rw [if_neg hb] at h
        split at h
        · rename_i hr
          simp only [Prod.mk.injEq, and_true] at h
          exact pump_some (Prod.ext h.1 (Prod.ext rfl hr))
        · simp at h

/-- A successful call does not depend on the token parameter. -/
theorem nextToken_indep {t t' : Tz} {next tok : Token} (h : t.nextToken next = (.noError, t', tok)) (next' : Token) :
    t.nextToken next' = (.noError, t', tok) := by
  rw [nextToken_core] at h ⊢
  simp only [Prod.mk.injEq] at h
  obtain ⟨h1, h2, h3⟩ := h
  cases hc : t.core.2.2 with
  | none => exact (core_some (t := t) (Prod.ext h1 (Prod.ext rfl hc))).elim
  | some tk => rw [hc] at h3; simp only [Option.getD_some] at h3 ⊢; rw [h1, h2, h3]

theorem delivers_of_collect {n : Nat} {t : Tz} {next : Token} {ks : List Tok} (h : (Tz.collect n t next).1.map Token.tok = ks) :
    Delivers t ks := by
  induction n generalizing t next ks with
  | zero => simp [Tz.collect] at h; subst h; trivial
  | succ n ih =>
    rw [Tz.collect] at h
    simp only at h
    split at h
    · rename_i he
      subst h
      exact ⟨(t.nextToken next).2.1, (t.nextToken next).2.2, fun nx => nextToken_indep (Prod.ext he rfl) nx, rfl, ih rfl⟩
    · simp at h; subst h; trivial

/-- Behind the tokens the tokenizer reports `e`. -/
def endsIn (e : Err) : EndCond := ⟨fun t => ∀ next, (t.nextToken next).1 = e⟩

theorem delivers_of_collect_end {n : Nat} {t : Tz} {next : Token} {ks : List Tok} {e : Err}
    (h : (Tz.collect n t next).1.map Token.tok = ks) (h2 : (Tz.collect n t next).2.1 = e) (he : e ≠ .noError) :
    @Delivers (endsIn e) t ks := by
  induction n generalizing t next ks with
  | zero => simp [Tz.collect] at h2; exact absurd h2.symm he
  | succ n ih =>
    rw [Tz.collect] at h h2
    simp only at h h2
    split at h
    · rename_i hn
      rw [if_pos hn] at h2
      subst h
      exact ⟨(t.nextToken next).2.1, (t.nextToken next).2.2, fun nx => nextToken_indep (Prod.ext hn rfl) nx, rfl, ih rfl h2⟩
    · rename_i hn
      rw [if_neg hn] at h2
      simp at h; subst h
      intro nx
      rw [nextToken_core] at h2 ⊢
      exact h2

theorem delivers_prefix {t : Tz} {a b : List Tok} (h : Delivers t (a ++ b)) : Delivers t a := by
  induction a generalizing t with
  | nil => trivial
  | cons k a ih => obtain ⟨t', tok, h1, h2, h3⟩ := h; exact ⟨t', tok, h1, h2, ih h3⟩

/-! ### Contexts -/

section
variable [EndCond]

/-- The three options. -/
def Ctx.popts (c : Ctx) : POpts := ⟨c.allowMissing, c.allowUnassigned, c.track⟩

/-- The current token and those to come are `ks`. -/
def Ctx.Stream (c : Ctx) (ks : List Tok) : Prop :=
  c.error = .noError ∧ ∃ k ks', ks = k :: ks' ∧ c.token.tok = k ∧ Delivers c.tz ks'

/-- `c'` differs from `c` at most in the position; `m` and `u` were added to the reports. -/
structure Ctx.Adds (c : Ctx) (m u : List Bytes) (c' : Ctx) : Prop where
  opts : c'.popts = c.popts
  missing : c'.missing = c.missing ++ m
  unassigned : c'.unassigned = c.unassigned ++ u

theorem Ctx.Adds.refl (c : Ctx) : c.Adds [] [] c := ⟨rfl, by simp, by simp⟩

theorem Ctx.Adds.trans {a b c : Ctx} {m u m' u' : List Bytes} (h : a.Adds m u b) (h' : b.Adds m' u' c) :
    a.Adds (m ++ m') (u ++ u') c :=
  ⟨h'.opts.trans h.opts, by rw [h'.missing, h.missing, List.append_assoc], by rw [h'.unassigned, h.unassigned, List.append_assoc]⟩

theorem Ctx.Stream.err {c : Ctx} {ks : List Tok} (h : c.Stream ks) : c.error = .noError := h.1

theorem Ctx.Stream.tok {c : Ctx} {k : Tok} {ks : List Tok} (h : c.Stream (k :: ks)) : c.token.tok = k := by
  obtain ⟨_, k', ks', h1, h2, _⟩ := h
  simp only [List.cons.injEq] at h1
  rw [h2, h1.1]

theorem Ctx.Stream.valueType {c : Ctx} {k : Tok} {ks : List Tok} (h : c.Stream (k :: ks)) : c.token.valueType = k.valueType := by
  rw [← h.tok]; rfl

theorem Ctx.Stream.value {c : Ctx} {k : Tok} {ks : List Tok} (h : c.Stream (k :: ks)) : c.token.value.bytes = k.value := by
  rw [← h.tok]; rfl

theorem Ctx.Stream.name {c : Ctx} {k : Tok} {ks : List Tok} (h : c.Stream (k :: ks)) : c.token.name.bytes = k.name := by
  rw [← h.tok]; rfl

theorem Ctx.Stream.next {c : Ctx} {k k' : Tok} {ks : List Tok} (h : c.Stream (k :: k' :: ks)) :
    c.next.Stream (k' :: ks) ∧ c.Adds [] [] c.next := by
  obtain ⟨_, k0, ks', h1, _, h3⟩ := h
  simp only [List.cons.injEq] at h1
  obtain ⟨rfl, rfl⟩ := h1
  obtain ⟨t', tok, h4, h5, h6⟩ := h3
  refine ⟨⟨by simp [Ctx.next, h4], _, _, rfl, by simp [Ctx.next, h4, h5], by simp [Ctx.next, h4, h6]⟩, ⟨rfl, by simp [Ctx.next], by simp [Ctx.next]⟩⟩

/-- Setting `error` to what it is. -/
theorem Ctx.set_error {c : Ctx} (h : c.error = .noError) : { c with error := Err.noError } = c := by
  cases c; simp at h; simp [h]

/-! ### Simulation -/

/-- The computation `P`, given enough fuel, ends with the outcome `r`; where it started in `c`, it ends in a context
with `post` if there was no error. -/
def Does (P : Nat → Option (Err × T × Ctx)) (c : Ctx) (r : Res T) (post : Ctx → Prop) : Prop :=
  ∃ N c', (∀ n, N ≤ n → P n = some (r.err, r.val, c')) ∧ c.Adds r.missing r.unassigned c' ∧ (r.err = .noError → post c')

/-- The handler does what the decoder says. -/
def Handler.Sem (h : Handler T) (d : Dec T) : Prop :=
  ∀ (c : Ctx) (old : T) (i : Item) (rest : List Tok) (r : Res T), c.Stream (i.toks ++ rest) → d c.popts old i = some r →
    Does (fun n => h.to n old c) c r (fun c' => c'.Stream (i.last :: rest))

end

theorem toks_ne (v : JVal) (n : Bytes) (nt : Ty) : v.toks n nt ≠ [] := by
  cases v with
  | bool b => cases b <;> simp [JVal.toks]
  | _ => simp [JVal.toks]

theorem item_first {i : Item} : ∃ ks, i.toks = i.first :: ks := by
  cases i with
  | val l v =>
    have := toks_ne v l.1 l.2
    simp only [Item.first, Item.toks]
    cases h : v.toks l.1 l.2 with
    | nil => exact absurd h this
    | cons k ks => exact ⟨ks, rfl⟩
  | close => exact ⟨[], rfl⟩

theorem item_scalar {i : Item} (h : i.isScalar = true) : i.toks = [i.first] ∧ i.last = i.first := by
  cases i with
  | val l v =>
    cases v with
    | bool b => cases b <;> exact ⟨rfl, rfl⟩
    | arr vs => simp [Item.isScalar, JVal.isContainer] at h
    | obj ms => simp [Item.isScalar, JVal.isContainer] at h
    | _ => exact ⟨rfl, rfl⟩
  | close => simp [Item.isScalar] at h

end JsonStruct
