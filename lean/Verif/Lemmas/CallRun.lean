import Verif.Lemmas.Call
import Verif.Lemmas.Writes
import Verif.Lemmas.Parse
import Verif.Lemmas.Raw
import Verif.Lemmas.Report
import Verif.Spec.Call

/-
Function calls: tables, members, the loop.
-/

set_option linter.unusedSimpArgs false

namespace JsonStruct

/-! ### Well behaved functions -/

/-- A context as it is when a function is called: no error, and a new record at the end of the list. -/
structure CallCtx.Ready (c : CallCtx) (pre : List Exec) (x : Exec) : Prop where
  error : c.pc.error = .noError
  list : c.list = pre ++ [x]
  fresh : x.error = .noError

/-- The function behaves: it does not report `MissingFunction`, the error it reports is the one in the context, it
reads on by `nextToken` only, and of the list of records it changes at most the error of its own. -/
def Fn.Behaves (f : Fn W) : Prop :=
  ∀ n w c pre x e w' c', f.call n w c = some (e, w', c') → c.Ready pre x →
    e ≠ .missingFunction ∧ c'.pc.error = e ∧ Moves c.pc c'.pc ∧ (∃ e', c'.list = pre ++ [{ x with error := e' }]) ∧
    c'.userContext = c.userContext ∧ c'.allowMissing = c.allowMissing ∧ c'.stopOnFail = c.stopOnFail

def Arg.Tame : Arg A → Prop
  | .void _ => True
  | .data h => h.Tame

theorem read_moves {a : Arg A} (ha : a.Tame) {n : Nat} {c c' : Ctx} {x : A} (h : a.read n c = some (x, c'))
    (hc : c.error = .noError) : Moves c c' ∧ c'.error ≠ .missingFunction := by
  cases a with
  | void y =>
    simp only [Arg.read, Option.map_eq_some_iff, Prod.mk.injEq] at h
    obtain ⟨d, h1, _, rfl⟩ := h
    have := skip_moves h1
    exact ⟨this, this.known (by simp [hc])⟩
  | data hd =>
    simp only [Arg.read, Option.map_eq_some_iff, Prod.mk.injEq, Prod.exists] at h
    obtain ⟨e, y, d, h1, _, rfl⟩ := h
    obtain ⟨h2, h3⟩ := ha n _ c e y d h1 (by simp [hc])
    exact ⟨h2.setError h3, h3⟩

theorem modifyLast_concat (f : α → α) (pre : List α) (x : α) : modifyLast f (pre ++ [x]) = pre ++ [f x] := by
  induction pre with
  | nil => rfl
  | cons y pre ih =>
    cases pre with
    | nil => rfl
    | cons z pre => simp only [List.cons_append] at ih ⊢; simp only [modifyLast, ih]

/-- The error context and the messages after calls of `setError`. -/
def setNotes (cfg : ErrCfg) (t : Tz) (q : Option ErrCtx × List (Option Bytes)) (es : List (Err × Bytes)) : Option ErrCtx × List (Option Bytes) :=
  es.foldl (fun q e => (q.1.bind (t.updateErrorContext cfg [] [] e.1 e.2), modifyLast (fun _ => q.1.map ErrCtx.message) q.2)) q

theorem lastSet_cons (e : Err × Bytes) (es : List (Err × Bytes)) (h : es ≠ []) : lastSet (e :: es) = lastSet es := by
  cases es with
  | nil => exact absurd rfl h
  | cons e' es => simp [lastSet, List.getLast?_cons_cons]

/-- Calls of `setError`. -/
theorem setErrors_eq (es : List (Err × Bytes)) : ∀ (c : CallCtx) (pre : List Exec) (x : Exec), c.list = pre ++ [x] →
    c.pc.error = .noError → x.error = .noError →
    es.foldl CallCtx.setError c =
      { c with
        pc := { c.pc with error := lastSet es }
        list := pre ++ [{ x with error := lastSet es }]
        report := (setNotes c.cfg c.pc.tz (c.report, c.messages) es).1
        messages := (setNotes c.cfg c.pc.tz (c.report, c.messages) es).2 } := by
  have key : ∀ (es : List (Err × Bytes)) (c : CallCtx) (pre : List Exec) (x : Exec), c.list = pre ++ [x] → es ≠ [] →
      es.foldl CallCtx.setError c =
      { c with
        pc := { c.pc with error := lastSet es }
        list := pre ++ [{ x with error := lastSet es }]
        report := (setNotes c.cfg c.pc.tz (c.report, c.messages) es).1
        messages := (setNotes c.cfg c.pc.tz (c.report, c.messages) es).2 } := by
    intro es
    induction es with
    | nil => intro c pre x _ h; exact absurd rfl h
    | cons e es ih =>
      intro c pre x hl _
      cases es with
      | nil => simp [CallCtx.setError, hl, modifyLast_concat, lastSet, setNotes]
      | cons e' es =>
        rw [List.foldl_cons, ih (c.setError e) pre { x with error := e.1 } (by simp [CallCtx.setError, hl, modifyLast_concat]) (by simp),
          lastSet_cons e (e' :: es) (by simp)]
        rfl
  intro c pre x hl he hx
  cases es with
  | nil =>
    obtain ⟨pc, ser, list, msgs, rep, cfg, uc, am, sf⟩ := c
    obtain ⟨tz, tok, err, mi, un, a, b, d⟩ := pc
    obtain ⟨n, ct, xe, xm, xu⟩ := x
    simp only at hl he hx
    subst hl he hx
    simp [lastSet, setNotes]
  | cons e es => exact key _ c pre x hl (by simp)

theorem plain_behaves {arg : Arg A} (ha : arg.Tame) (names : List Bytes) (ret : Ret R) (f : W → A → W × R) :
    (Fn.plain names arg ret f).Behaves := by
  intro n w c pre x e w' c' h hr
  simp only [Fn.plain, Option.bind_eq_bind, Option.bind_eq_some_iff, Prod.exists] at h
  obtain ⟨a, pc, h1, h⟩ := h
  obtain ⟨hm, hk⟩ := read_moves ha h1 hr.error
  by_cases he : pc.error = .noError
  · simp only [he, ne_eq, not_true_eq_false, if_false, Option.bind_eq_some_iff, Option.some.injEq, Prod.mk.injEq] at h
    obtain ⟨s, h2, rfl, rfl, rfl⟩ := h
    refine ⟨by simp, he, hm, ⟨.noError, ?_⟩, rfl, rfl, rfl⟩
    rw [hr.list]; obtain ⟨_, _, _, _, _⟩ := x; have := hr.fresh; simp only at this; subst this; rfl
  · simp only [he, ne_eq, not_false_eq_true, if_true, Option.some.injEq, Prod.mk.injEq] at h
    obtain ⟨rfl, rfl, rfl⟩ := h
    refine ⟨hk, rfl, hm, ⟨.noError, ?_⟩, rfl, rfl, rfl⟩
    rw [hr.list]; obtain ⟨_, _, _, _, _⟩ := x; have := hr.fresh; simp only at this; subst this; rfl

theorem err_behaves {arg : Arg A} (ha : arg.Tame) (names : List Bytes) (ret : Ret R) {f : W → A → W × R × List (Err × Bytes)}
    (hf : ∀ w a, Err.missingFunction ∉ (f w a).2.2.map Prod.fst) : (Fn.err names arg ret f).Behaves := by
  intro n w c pre x e w' c' h hr
  simp only [Fn.err, Option.bind_eq_bind, Option.bind_eq_some_iff, Prod.exists] at h
  obtain ⟨a, pc, h1, h⟩ := h
  obtain ⟨hm, hk⟩ := read_moves ha h1 hr.error
  by_cases he : pc.error = .noError
  · simp only [he, ne_eq, not_true_eq_false, if_false] at h
    have hes := hf w a
    generalize f w a = q at h hes
    obtain ⟨w2, y, es⟩ := q
    simp only at h hes
    rw [setErrors_eq es { c with pc := pc } pre x hr.list he hr.fresh] at h
    simp only [List.getLast?_concat, Option.bind_some] at h
    have hlast : lastSet es ≠ .missingFunction := by
      unfold lastSet
      cases hq : es.getLast? with
      | none => simp
      | some z =>
        have := List.mem_map_of_mem (f := Prod.fst) (List.mem_of_getLast? hq)
        simp only [Option.map_some, Option.getD_some, ne_eq]
        intro hz
        exact hes (hz ▸ this)
    generalize lastSet es = z at h hlast
    by_cases hz : z = .noError
    · simp only [hz, if_true, Option.bind_eq_some_iff, Option.some.injEq, Prod.mk.injEq] at h
      obtain ⟨s, h2, rfl, rfl, rfl⟩ := h
      exact ⟨by simp, rfl, hm.setError (by simp), ⟨_, rfl⟩, rfl, rfl, rfl⟩
    · simp only [hz, if_false, Option.bind_some, Option.some.injEq, Prod.mk.injEq] at h
      obtain ⟨rfl, rfl, rfl⟩ := h
      exact ⟨hlast, rfl, hm.setError hlast, ⟨_, rfl⟩, rfl, rfl, rfl⟩
  · simp only [he, ne_eq, not_false_eq_true, if_true, Option.some.injEq, Prod.mk.injEq] at h
    obtain ⟨rfl, rfl, rfl⟩ := h
    refine ⟨hk, rfl, hm, ⟨.noError, ?_⟩, rfl, rfl, rfl⟩
    rw [hr.list]; obtain ⟨_, _, _, _, _⟩ := x; have := hr.fresh; simp only at this; subst this; rfl

/-! ### Looking for a function -/

/-- The condition of `matchAndCall`. -/
def Fn.hit (primary : Bool) (name : Bytes) (f : Fn W) : Prop :=
  if primary then f.names.head? = some name else name ∈ f.names.tail

instance (primary : Bool) (name : Bytes) (f : Fn W) : Decidable (f.hit primary name) := by unfold Fn.hit; infer_instance

/-- What a search comes to. -/
def foundCall (n : Nat) (w : W) (c : CallCtx) : Option (Fn W) → Option (Err × W × CallCtx)
  | none => some (.missingFunction, w, c)
  | some f => f.call n w c

theorem callRev_eq {primary : Bool} {n : Nat} {w : W} {c : CallCtx} {pre : List Exec} {x : Exec} (hr : c.Ready pre x) (fs : List (Fn W))
    (hf : ∀ f ∈ fs, f.Behaves) :
    callRev primary n w c fs = foundCall n w c (fs.find? fun f => f.hit primary c.pc.token.name.bytes) := by
  induction fs with
  | nil => rfl
  | cons f fs ih =>
    have ih := ih (fun g hg => hf g (by simp [hg]))
    by_cases hh : f.hit primary c.pc.token.name.bytes
    · simp only [List.find?_cons, hh, decide_true, foundCall]
      have : matchAndCall f primary n w c = f.call n w c := by unfold matchAndCall; exact if_pos hh
      simp only [callRev, this]
      cases hc : f.call n w c with
      | none => rfl
      | some q =>
        obtain ⟨e, w', c'⟩ := q
        obtain ⟨h1, h2, _⟩ := hf f (by simp) n w c pre x e w' c' hc hr
        simp only [Option.bind_eq_bind, Option.bind_some, h1, h2, ne_eq, not_false_eq_true, if_true, ite_self]
        split <;> simp_all
    · simp only [List.find?_cons, hh, decide_false]
      have : matchAndCall f primary n w c = some (.missingFunction, w, c) := by unfold matchAndCall; exact if_neg hh
      simp only [callRev, this, Option.bind_eq_bind, Option.bind_some]
      simpa using ih

mutual
theorem call_eq {primary : Bool} {n : Nat} {w : W} {c : CallCtx} {pre : List Exec} {x : Exec} (hr : c.Ready pre x) :
    (T : FnTable W) → (∀ f ∈ T.order, f.Behaves) →
    T.call primary n w c = foundCall n w c (T.order.find? fun f => f.hit primary c.pc.token.name.bytes)
  | .mk fns supers, hf => by
    simp only [FnTable.order, List.mem_append] at hf
    simp only [FnTable.call, FnTable.order, List.find?_append]
    rw [callRev_eq hr fns.reverse (fun f h => hf f (.inl h))]
    cases hq : fns.reverse.find? fun f => f.hit primary c.pc.token.name.bytes with
    | none =>
      simp only [foundCall, Option.bind_eq_bind, Option.bind_some, ne_eq, not_true_eq_false, if_false, Option.none_or]
      exact callSupers_eq hr supers (fun f h => hf f (.inr h))
    | some f =>
      simp only [foundCall, Option.some_or]
      cases hc : f.call n w c with
      | none => rfl
      | some q =>
        obtain ⟨e, w', c'⟩ := q
        obtain ⟨h1, _⟩ := hf f (.inl (List.mem_of_find?_eq_some hq)) n w c pre x e w' c' hc hr
        simp only [Option.bind_eq_bind, Option.bind_some, ne_eq, h1, not_false_eq_true, if_true]
theorem callSupers_eq {primary : Bool} {n : Nat} {w : W} {c : CallCtx} {pre : List Exec} {x : Exec} (hr : c.Ready pre x) :
    (ts : List (FnTable W)) → (∀ f ∈ fnOrders ts, f.Behaves) →
    callSupers primary n w c ts = foundCall n w c ((fnOrders ts).find? fun f => f.hit primary c.pc.token.name.bytes)
  | [], _ => rfl
  | t :: ts, hf => by
    simp only [fnOrders, List.mem_append] at hf
    simp only [callSupers, fnOrders, List.find?_append]
    rw [call_eq hr t (fun f h => hf f (.inl h))]
    cases hq : t.order.find? fun f => f.hit primary c.pc.token.name.bytes with
    | none =>
      simp only [foundCall, Option.bind_eq_bind, Option.bind_some, ne_eq, not_true_eq_false, if_false, Option.none_or]
      exact callSupers_eq hr ts (fun f h => hf f (.inr h))
    | some f =>
      simp only [foundCall, Option.some_or]
      cases hc : f.call n w c with
      | none => rfl
      | some q =>
        obtain ⟨e, w', c'⟩ := q
        obtain ⟨h1, _⟩ := hf f (.inl (List.mem_of_find?_eq_some hq)) n w c pre x e w' c' hc hr
        simp only [Option.bind_eq_bind, Option.bind_some, ne_eq, h1, not_false_eq_true, if_true]
end

/-- The function called is the one registered. -/
theorem find_eq {n : Nat} {w : W} {c : CallCtx} {pre : List Exec} {x : Exec} (hr : c.Ready pre x) (T : FnTable W)
    (hf : ∀ f ∈ T.order, f.Behaves) : T.find n w c = foundCall n w c (T.lookup c.pc.token.name.bytes) := by
  simp only [FnTable.find, FnTable.lookup]
  rw [call_eq hr T hf]
  have e1 : ∀ name : Bytes, (fun f : Fn W => decide (f.hit true name)) = fun f => decide (f.names.head? = some name) := by
    intro name; funext f; simp [Fn.hit]
  have e2 : ∀ name : Bytes, (fun f : Fn W => decide (f.hit false name)) = fun f => decide (name ∈ f.names.tail) := by
    intro name; funext f; simp [Fn.hit]
  rw [e1]
  cases hq : T.order.find? fun f => decide (f.names.head? = some c.pc.token.name.bytes) with
  | none =>
    simp only [foundCall, Option.bind_eq_bind, Option.bind_some, if_true, Option.none_or]
    rw [call_eq hr T hf, e2]
    rfl
  | some f =>
    simp only [foundCall, Option.some_or]
    cases hc : f.call n w c with
    | none => rfl
    | some q =>
      obtain ⟨e, w', c'⟩ := q
      obtain ⟨h1, _⟩ := hf f (List.mem_of_find?_eq_some hq) n w c pre x e w' c' hc hr
      simp only [Option.bind_eq_bind, Option.bind_some, ne_eq, h1, if_false]

/-! ### The error context -/

/-- The tokenizer reads at most `M` bytes, and its position is inside of the data. -/
structure Tz.Sound (t : Tz) (M : Nat) : Prop where
  ok : t.Ok
  neat : t.Neat
  parsed : t.parsed = none
  size : t.whole.length ≤ M

theorem sound_scopes {t : Tz} {M : Nat} (s : List Scope) (h : t.Sound M) : Tz.Sound { t with scopes := s } M :=
  ⟨⟨h.ok.cur, h.ok.cur0, h.ok.fe, h.ok.pe, h.ok.ds⟩,
    ⟨h.neat.idle, fun hc => ⟨h.neat.idle, (h.neat.cont hc).name, (h.neat.cont hc).data⟩⟩, h.parsed, h.size⟩

theorem sound_next {t : Tz} {M : Nat} (h : t.Sound M) (next : Token) : (t.nextToken next).2.1.Sound M := by
  have h1 := nextToken_ok t next h.ok h.parsed
  have h2 := nextToken_raw t next h.ok h.neat h.parsed
  exact ⟨h1.inv, h2.neat, h1.parsed, by rw [h2.moves.whole]; exact h.size⟩

theorem sound_reach {t t' : Tz} {M : Nat} (h : t.Sound M) (hr : Reach t t') : t'.Sound M := by
  induction hr with
  | refl => exact h
  | step next _ ih => exact sound_next ih next

theorem sound_go {M : Nat} (n : Nat) : ∀ (t : Tz) (tok : Token), t.Sound M → (Tz.goToEndOfScope n t tok).2.1.Sound M := by
  induction n with
  | zero => intro t tok h; exact h
  | succ n ih =>
    intro t tok h
    unfold Tz.goToEndOfScope
    split
    · exact h
    · split
      · exact h
      · dsimp only
        split
        · exact ih _ _ (sound_next h tok)
        · exact sound_next h tok

/-- Within the data an error context can be written. -/
theorem update_sound {t : Tz} {M : Nat} (h : t.Sound M) (cfg : ErrCfg) (hM : M + cfg.rangeContext < 2 ^ 63) (e : Err) (msg : Bytes) (x : ErrCtx) :
    ∃ x', t.updateErrorContext cfg [] [] e msg x = some x' ∧ x'.error = e ∧ x'.custom = msg := by
  unfold Tz.updateErrorContext
  rw [h.parsed]
  cases hb : t.bufs with
  | nil => exact ⟨_, rfl, rfl, rfl⟩
  | cons b rest =>
    have hs : b.length ≤ M := by
      have := h.size
      simp only [Tz.whole, hb, List.flatten_cons, List.length_append] at this
      omega
    obtain ⟨x', ranges, shown, h1, h2, h3, h4, h5, h6, _⟩ := reportAt_ok cfg b t.cursor { x with error := e, custom := msg }
      (h.ok.cur b rest hb) (by omega)
    exact ⟨x', h1, h5, h6⟩

theorem message_head (x : ErrCtx) : ∃ lines, x.message = headLine x.error x.custom ++ lines := by
  refine ⟨messageLines x 0 x.lines, ?_⟩
  unfold ErrCtx.message headLine
  have h1 : (if x.error ≠ .userDefinedErrors then b!" " ++ errorString x.error else []) =
      (if x.error = .userDefinedErrors then [] else b!" " ++ errorString x.error) := by split <;> simp_all
  have h2 : (if x.custom.length ≠ 0 then b!" " ++ x.custom else []) = (if x.custom = [] then [] else b!" " ++ x.custom) := by
    cases x.custom <;> simp
  rw [h1, h2]

/-- The error context after calls of `setError`. -/
theorem setNotes_some {t : Tz} {M : Nat} (h : t.Sound M) (cfg : ErrCfg) (hM : M + cfg.rangeContext < 2 ^ 63) (es : List (Err × Bytes)) :
    ∀ (x : ErrCtx) (pre : List (Option Bytes)) (m : Option Bytes), ∃ x' m', setNotes cfg t (some x, pre ++ [m]) es = (some x', pre ++ [m']) ∧
      (es = [] → x' = x ∧ m' = m) ∧ ∀ s, es.getLast? = some s → x'.error = s.1 ∧ x'.custom = s.2 := by
  induction es with
  | nil => intro x pre m; exact ⟨x, m, rfl, fun _ => ⟨rfl, rfl⟩, by simp⟩
  | cons e es ih =>
    intro x pre m
    obtain ⟨x1, h1, h2, h3⟩ := update_sound h cfg hM e.1 e.2 x
    obtain ⟨x', m', g1, g2, g3⟩ := ih x1 pre (some x.message)
    refine ⟨x', m', ?_, by simp, fun s hs => ?_⟩
    · rw [← g1]
      simp only [setNotes, List.foldl_cons, Option.bind_some, h1, modifyLast_concat, Option.map_some]
    · cases es with
      | nil =>
        simp only [List.getLast?_singleton, Option.some.injEq] at hs
        obtain ⟨rfl, _⟩ := g2 rfl
        exact ⟨hs ▸ h2, hs ▸ h3⟩
      | cons e' es => rw [List.getLast?_cons_cons] at hs; exact g3 s hs

/-! ### One member -/

/-- The context with which a function is called. -/
def CallCtx.entered (c : CallCtx) : CallCtx :=
  { c with
    pc := { c.pc with tz := c.pc.tz.pushScope c.pc.token.valueType }
    list := c.list ++ [{ name := c.pc.token.name.bytes, context := c.userContext }]
    messages := c.messages ++ [some []] }

/-- The error that can end the loop. -/
def shownErr (allow : Bool) (e : Err) : Err := if e = .missingFunction ∧ allow = true then .noError else e

/-- The context behind the member. -/
def CallCtx.behind (c : CallCtx) (e : Err) (pre : List Exec) (x : Exec) (t : Tz) (tok : Token) : CallCtx :=
  { c with
    pc := { c.pc with tz := t, token := tok, error := e, missing := [], unassigned := [] }
    list := pre ++ [{ x with error := e, missing := c.pc.missing, unassigned := c.pc.unassigned }]
    messages := ({ c with pc := { c.pc with error := e } } : CallCtx).addError.messages
    report := ({ c with pc := { c.pc with error := e } } : CallCtx).addError.report }

/-- What the loop does once the function has been called. -/
theorem callMember_eq {T : FnTable W} {w w' : W} {c c2 : CallCtx} {e : Err} {rest : List Tok} {k : Tok} {pre : List Exec} {x : Exec}
    (hl : c2.list = pre ++ [x]) (hx1 : x.missing = []) (hx2 : x.unassigned = []) (he : e = c2.pc.error ∨ c2.pc.error = .noError)
    (hi : EndsBefore (k :: rest) c2.pc.tz c2.pc.token) :
    ∃ t tok N, t.scopes = [] ∧ Delivers t (k :: rest) ∧ (∀ M, c2.pc.tz.Sound M → t.Sound M) ∧
      (∀ n, N ≤ n → T.find n w c.entered = some (e, w', c2) → callMember T n w c = some
        (if c2.stopOnFail = true ∧ shownErr c2.allowMissing e ≠ .noError then (some (shownErr c2.allowMissing e), w', c2.behind e pre x t tok)
        else (none, w', (c2.behind e pre x t tok).next))) ∧
      (∀ n r, T.find n w c.entered = some (e, w', c2) → callMember T n w c = some r → r =
        (if c2.stopOnFail = true ∧ shownErr c2.allowMissing e ≠ .noError then (some (shownErr c2.allowMissing e), w', c2.behind e pre x t tok)
        else (none, w', (c2.behind e pre x t tok).next))) := by
  -- the context before the end of the scope is looked for
  let d : Ctx := { c2.pc with error := e, missing := [], unassigned := [] }
  obtain ⟨t, ty, tok, N, h1, h2, h3, h4⟩ := ends_goToEnd (c := d) hi
  obtain ⟨t1, tok1, g1, g2, g3⟩ := h2
  refine ⟨t, tok, N, h1, ⟨t1, tok1, g1, g2, g3⟩, fun M hM => ?_, ?_⟩
  · have hg := h3 N (Nat.le_refl _)
    simp only [Ctx.goToEnd] at hg
    split at hg
    · simp at hg
    · simp only [Option.some.injEq, Ctx.mk.injEq] at hg
      have := sound_go N d.tz d.token hM
      rw [hg.1] at this
      have h4 := sound_scopes t.scopes this
      rw [show ({ t.sc [{ type := ty, depth := 0 }] with scopes := t.scopes } : Tz) = t from rfl] at h4
      exact h4
  have key : ∀ n, T.find n w c.entered = some (e, w', c2) → callMember T n w c = (d.goToEnd n).bind fun pc =>
      pc.tz.popScope.bind fun tz =>
        let c3 : CallCtx := { c2 with
          pc := { pc with tz := tz }
          list := pre ++ [{ x with error := e, missing := c2.pc.missing, unassigned := c2.pc.unassigned }]
          messages := ({ c2 with pc := { c2.pc with error := e } } : CallCtx).addError.messages
          report := ({ c2 with pc := { c2.pc with error := e } } : CallCtx).addError.report }
        if c2.stopOnFail = true ∧ shownErr c2.allowMissing e ≠ .noError then some (some (shownErr c2.allowMissing e), w', c3)
        else if c3.pc.next.error ≠ .noError then some (some c3.pc.next.error, w', c3.next)
        else some (none, w', c3.next) := by
    intro n hf
    simp only [CallCtx.entered] at hf
    simp only [callMember]
    rw [hf]
    simp only [Option.bind_eq_bind, Option.bind_some]
    have hadd : ({ c2 with pc := { c2.pc with error := e } } : CallCtx).addError =
        { c2 with
          pc := d, list := pre ++ [{ x with error := e, missing := c2.pc.missing, unassigned := c2.pc.unassigned }]
          messages := ({ c2 with pc := { c2.pc with error := e } } : CallCtx).addError.messages
          report := ({ c2 with pc := { c2.pc with error := e } } : CallCtx).addError.report } := by
      simp only [CallCtx.addError, hl, modifyLast_concat, List.getLast?_concat, Option.getD_some, hx1, hx2, d]
      by_cases hm : c2.pc.missing = [] <;> by_cases hu : c2.pc.unassigned = [] <;> simp [hm, hu]
    by_cases hne : e = .noError
    · have : c2.pc.error = .noError := by rcases he with h | h <;> simp_all
      have hc2 : ({ c2 with pc := { c2.pc with error := e } } : CallCtx) = c2 := by rw [hne, ← this]
      rw [hc2] at hadd
      simp only [hne, ne_eq, not_true_eq_false, if_false]
      rw [hadd, hne]
      rw [hne] at hc2
      rw [hc2]
      rfl
    · simp only [hne, ne_eq, not_false_eq_true, if_true, he]
      rw [hadd]
      rfl
  have fin : ({ d with tz := t.sc [⟨ty, 0⟩], token := tok } : Ctx).tz.popScope = some t := by
    simp only [Tz.popScope, Tz.sc, ← h1]
  have hnext : ∀ c : Ctx, c.tz = t → c.next.error = .noError := by
    rintro c rfl
    simp only [Ctx.next, g1]
  have main : ∀ n, T.find n w c.entered = some (e, w', c2) → d.goToEnd n = some { d with tz := t.sc [⟨ty, 0⟩], token := tok } →
      callMember T n w c = some
        (if c2.stopOnFail = true ∧ shownErr c2.allowMissing e ≠ .noError then (some (shownErr c2.allowMissing e), w', c2.behind e pre x t tok)
        else (none, w', (c2.behind e pre x t tok).next)) := by
    intro n hf hg
    rw [key n hf, hg]
    simp only [Option.bind_some, fin]
    by_cases hs : c2.stopOnFail = true ∧ shownErr c2.allowMissing e ≠ .noError
    · rw [if_pos hs, if_pos hs]; rfl
    · rw [if_neg hs, if_neg hs, if_neg (by simp [hnext])]
      rfl
  refine ⟨fun n hn hf => main n hf (h3 n hn), fun n r hf hr => ?_⟩
  cases hg : d.goToEnd n with
  | none => rw [key n hf, hg] at hr; simp at hr
  | some q =>
    rw [h4 n q hg] at hg
    rw [main n hf hg] at hr
    simpa using hr.symm

/-! ### The loop -/

/-- The token of the bracket closing an object. -/
def objEndTok : Tok := ⟨[], .ascii, b!"}", .objectEnd⟩

/-- The context is in front of the members `ms`, nothing has been reported. -/
structure CallCtx.At (c : CallCtx) (ms : List (Bytes × JVal)) : Prop where
  stream : c.pc.Stream (memberToks ms ++ [objEndTok])
  scopes : c.pc.tz.scopes = []
  missing : c.pc.missing = []
  unassigned : c.pc.unassigned = []

theorem entered_ready {c : CallCtx} (h : c.pc.error = .noError) :
    c.entered.Ready c.list { name := c.pc.token.name.bytes, context := c.userContext } := ⟨h, rfl, rfl⟩

theorem at_cons {c : CallCtx} {name : Bytes} {v : JVal} {ms : List (Bytes × JVal)} (h : c.At ((name, v) :: ms))
    (hd : v.depth ≤ 65535) :
    c.pc.token.name.bytes = name ∧ c.pc.token.valueType ≠ .objectEnd ∧ c.pc.error = .noError ∧
    InScope (memberToks ms ++ [objEndTok]) c.entered.pc.tz ∧ c.entered.pc.Stream (v.toks name .string) := by
  have hst : c.pc.Stream (v.toks name .string ++ (memberToks ms ++ [objEndTok])) := by
    have := h.stream; simpa [memberToks] using this
  obtain ⟨h1, h2⟩ := inside_push h.scopes hst hd
  obtain ⟨he, k, ks, hk, htok, _⟩ := hst
  have hkk : k.name = name ∧ k.valueType ≠ .objectEnd := by
    cases v with
    | bool b => cases b <;> (simp only [JVal.toks, List.cons_append, List.cons.injEq] at hk; rw [← hk.1]; simp)
    | _ => simp only [JVal.toks, List.cons_append, List.cons.injEq] at hk; rw [← hk.1]; simp
  refine ⟨?_, ?_, he, h1, h2⟩
  · rw [← hkk.1, ← htok]; rfl
  · have : c.pc.token.valueType = k.valueType := by rw [← htok]; rfl
    rw [this]; exact hkk.2

theorem at_nil {c : CallCtx} (h : c.At []) : c.pc.token.valueType = .objectEnd := by
  have := h.stream.tok
  rw [show c.pc.token.valueType = c.pc.token.tok.valueType from rfl, this]; rfl

/-- Behind a member the next one follows. -/
theorem behind_at {c : CallCtx} {e : Err} {pre : List Exec} {x : Exec} {t : Tz} {tok : Token} {ms : List (Bytes × JVal)}
    (hs : t.scopes = []) (hd : Delivers t (memberToks ms ++ [objEndTok])) :
    CallCtx.At (c.behind e pre x t tok).next ms := by
  obtain ⟨k, ks, hk⟩ : ∃ k ks, memberToks ms ++ [objEndTok] = k :: ks := by
    cases hh : memberToks ms ++ [objEndTok] with
    | nil => simp at hh
    | cons k ks => exact ⟨k, ks, rfl⟩
  rw [hk] at hd
  obtain ⟨t1, tok1, g1, g2, g3⟩ := hd
  have e1 : (c.behind e pre x t tok).pc.next = { (c.behind e pre x t tok).pc with tz := t1, token := tok1, error := .noError } := by
    simp only [Ctx.next, CallCtx.behind, g1]
  have hs1 : t1.scopes = [] := (nextToken_sc t [] {} hs (by simp [Tz.ended, Tz.sc]) (g1 {})).2
  refine ⟨?_, ?_, rfl, rfl⟩
  · rw [hk]; simp only [CallCtx.next, e1]; exact ⟨rfl, k, ks, rfl, g2, g3⟩
  · simp only [CallCtx.next, e1]; exact hs1

theorem lookup_mem {T : FnTable W} {name : Bytes} {f : Fn W} (h : T.lookup name = some f) : f ∈ T.order := by
  simp only [FnTable.lookup, Option.or_eq_some_iff] at h
  rcases h with h | ⟨_, h⟩ <;> exact List.mem_of_find?_eq_some h

/-- What is known when the function has been looked for, called or not. -/
theorem find_facts {T : FnTable W} (hT : ∀ f ∈ T.order, f.Behaves) {n : Nat} {w w' : W} {c c2 : CallCtx} {e : Err}
    (hc : c.pc.error = .noError) (h : T.find n w c.entered = some (e, w', c2)) :
    (e = c2.pc.error ∨ c2.pc.error = .noError) ∧ Moves c.entered.pc c2.pc ∧
    (∃ e', c2.list = c.list ++ [{ name := c.pc.token.name.bytes, context := c.userContext, error := e' }]) ∧
    c2.userContext = c.userContext ∧ c2.allowMissing = c.allowMissing ∧ c2.stopOnFail = c.stopOnFail ∧
    ((T.lookup c.pc.token.name.bytes = none ∧ e = .missingFunction ∧ w' = w) ∨
      ∃ f, T.lookup c.pc.token.name.bytes = some f ∧ f.call n w c.entered = some (e, w', c2) ∧ e ≠ .missingFunction) := by
  rw [find_eq (entered_ready hc) T hT] at h
  rw [show c.entered.pc.token.name.bytes = c.pc.token.name.bytes from rfl] at h
  cases hl : T.lookup c.pc.token.name.bytes with
  | none =>
    rw [hl] at h
    simp only [foundCall, Option.some.injEq, Prod.mk.injEq] at h
    obtain ⟨rfl, rfl, rfl⟩ := h
    exact ⟨.inr hc, .refl _, ⟨.noError, rfl⟩, rfl, rfl, rfl, .inl ⟨rfl, rfl, rfl⟩⟩
  | some f =>
    rw [hl] at h
    simp only [foundCall] at h
    obtain ⟨h1, h2, h3, h4, h5, h6, h7⟩ := hT f (lookup_mem hl) _ _ _ _ _ _ _ _ h (entered_ready hc)
    exact ⟨.inl h2.symm, h3, h4, h5, h6, h7, .inr ⟨f, rfl, h, h1⟩⟩

/-- The loop calls the registered functions, one after the other. -/
theorem callLoop_called {T : FnTable W} (hT : ∀ f ∈ T.order, f.Behaves) {F : Nat} (n : Nat) :
    ∀ (ms : List (Bytes × JVal)) (w w' : W) (c c' : CallCtx) (e : Err), c.At ms → (∀ m ∈ ms, m.2.depth ≤ 65535) →
      callLoop T F n w c = some (e, w', c') →
      ∃ done left rs, ms = done ++ left ∧ c'.list = c.list ++ rs ∧ Called T F c.userContext done w rs w' ∧
        (e = .noError → left = []) ∧
        (e ≠ .noError → c.stopOnFail = true ∧ ¬ (e = .missingFunction ∧ c.allowMissing = true) ∧ rs.getLast?.map Exec.error = some e) := by
  induction n with
  | zero => intro ms w w' c c' e _ _ h; simp [callLoop] at h
  | succ n ih =>
    intro ms w w' c c' e hat hdep h
    cases ms with
    | nil =>
      simp only [callLoop, at_nil hat, if_true, Option.some.injEq, Prod.mk.injEq] at h
      obtain ⟨rfl, rfl, rfl⟩ := h
      exact ⟨[], [], [], rfl, by simp, .nil _, fun _ => rfl, by simp⟩
    | cons m ms =>
      obtain ⟨name, v⟩ := m
      obtain ⟨a1, a2, a3, a4, a5⟩ := at_cons hat (hdep (name, v) (by simp))
      simp only [callLoop, a2, if_false, Option.bind_eq_bind, Option.bind_eq_some_iff, Prod.exists] at h
      obtain ⟨stop, w1, c1, hm, h⟩ := h
      -- the search
      have hm' := hm
      simp only [callMember, Option.bind_eq_bind, Option.bind_eq_some_iff, Prod.exists] at hm'
      obtain ⟨e1, w2, c2, hf, _⟩ := hm'
      change T.find F w c.entered = some (e1, w2, c2) at hf
      obtain ⟨f1, f2, ⟨e', f3⟩, f4, f5, f6, f7⟩ := find_facts hT a3 hf
      obtain ⟨k, ks, hk⟩ : ∃ k ks, memberToks ms ++ [objEndTok] = k :: ks := by
        cases hh : memberToks ms ++ [objEndTok] with
        | nil => simp at hh
        | cons k ks => exact ⟨k, ks, rfl⟩
      have hin := inside_reach a4 f2.reach
      rw [hk] at hin
      obtain ⟨t, tok, N, t1, t2, _, _, t3⟩ := callMember_eq (T := T) (w := w) (w' := w2) (c := c) (e := e1) f3 rfl rfl f1 (inside_end hin _)
      have := t3 F _ hf hm
      rw [f5, f6] at this
      rw [← hk] at t2
      -- the record of this member
      let r : Exec := { name := name, context := c.userContext, error := e1, missing := c2.pc.missing, unassigned := c2.pc.unassigned }
      have step : ∀ ms' w' rs, Called T F c.userContext ms' w2 rs w' → Called T F c.userContext ((name, v) :: ms') w (r :: rs) w' := by
        intro ms' w' rs hc
        rcases f7 with ⟨g1, g2, g3⟩ | ⟨f, g1, g2, g3⟩
        · rw [a1] at g1
          rw [g3] at hc
          exact .unknown g1 ⟨rfl, rfl, g2⟩ hc
        · rw [a1] at g1
          exact .call g1 g2 a5 ⟨rfl, rfl, g3⟩ hc
      by_cases hs : c.stopOnFail = true ∧ shownErr c.allowMissing e1 ≠ .noError
      · rw [if_pos hs] at this
        simp only [Prod.mk.injEq] at this
        obtain ⟨rfl, rfl, rfl⟩ := this
        simp only [Option.some.injEq, Prod.mk.injEq] at h
        obtain ⟨rfl, rfl, rfl⟩ := h
        have hne : ¬ (e1 = .missingFunction ∧ c.allowMissing = true) := by
          intro hh; simp [shownErr, hh] at hs
        have hsh : shownErr c.allowMissing e1 = e1 := by simp [shownErr, hne]
        rw [hsh] at hs ⊢
        refine ⟨[(name, v)], ms, [r], rfl, ?_, step _ _ _ (.nil _), fun h => absurd h hs.2, fun _ => ⟨hs.1, hne, rfl⟩⟩
        simp only [CallCtx.behind, a1, r]
      · rw [if_neg hs] at this
        simp only [Prod.mk.injEq] at this
        obtain ⟨rfl, rfl, rfl⟩ := this
        obtain ⟨done, left, rs, i1, i2, i3, i4, i5⟩ := ih ms _ _ _ _ _ (behind_at t1 t2) (fun m hm => hdep m (by simp [hm])) h
        refine ⟨(name, v) :: done, left, r :: rs, by simp [i1], ?_, step _ _ _ ?_, i4, fun h => ?_⟩
        · rw [i2]; simp [CallCtx.next, CallCtx.behind, a1, r]
        · rw [show ((c2.behind e1 _ _ t tok).next : CallCtx).userContext = c2.userContext from rfl, f4] at i3; exact i3
        · obtain ⟨j1, j2, j3⟩ := i5 h
          refine ⟨?_, ?_, ?_⟩
          · rw [← f6]; exact j1
          · rw [← f5]; exact j2
          · cases rs with
            | nil => simp at j3
            | cons r' rs => simpa [List.getLast?_cons_cons] using j3

/-! ### Functions described by their types -/

mutual
theorem table_order : (T : CTable W) → T.table.order = T.order.map CFn.fn
  | .mk fns supers => by
    simp only [CTable.table, FnTable.order, CTable.order, List.map_append, List.map_reverse, tables_order supers]
theorem tables_order : (ts : List (CTable W)) → fnOrders (tablesOf ts) = (orders ts).map CFn.fn
  | [] => rfl
  | t :: ts => by simp only [tablesOf, fnOrders, orders, List.map_append, table_order t, tables_order ts]
end

theorem fn_names (f : CFn W) : f.fn.names = f.names := by cases f <;> rfl

theorem table_lookup (T : CTable W) (name : Bytes) : T.table.lookup name = (T.lookup name).map CFn.fn := by
  simp only [FnTable.lookup, CTable.lookup, table_order, List.find?_map]
  have e1 : ((fun f : Fn W => decide (f.names.head? = some name)) ∘ CFn.fn) = fun f => decide (f.names.head? = some name) := by
    funext f; simp [fn_names]
  have e2 : ((fun f : Fn W => decide (name ∈ f.names.tail)) ∘ CFn.fn) = fun f => decide (name ∈ f.names.tail) := by
    funext f; simp [fn_names]
  rw [e1, e2]
  cases List.find? (fun f => decide (f.names.head? = some name)) T.order <;> simp

theorem arg_tame (a : CArg A) : a.arg.Tame := by
  cases a with
  | void => trivial
  | data t => exact t.tame

theorem cfn_behaves {f : CFn W} (h : f.Proper) : f.fn.Behaves := by
  cases f with
  | plain names arg ret f => exact plain_behaves (arg_tame arg) _ _ _
  | err names arg ret f => exact err_behaves (arg_tame arg) _ _ (fun w a => (h w a).2)

theorem ctable_behaves {T : CTable W} (h : T.Proper) : ∀ f ∈ T.table.order, f.Behaves := by
  intro f hf
  rw [table_order] at hf
  obtain ⟨g, hg, rfl⟩ := List.mem_map.mp hf
  exact cfn_behaves (h g hg).1

/-- Reading the argument. -/
theorem read_sem (a : CArg A) {c : Ctx} {l : Lbl} {v : JVal} {r : Res A} (hst : c.Stream (v.toks l.1 l.2))
    (h : a.dec c.popts l v = some r) :
    ∃ N c', (∀ n, N ≤ n → a.arg.read n c = some (r.val, c')) ∧ c'.error = r.err ∧ c.Adds r.missing r.unassigned c' := by
  have hst' : c.Stream ((Item.val l v).toks ++ []) := by simpa [Item.toks] using hst
  cases a with
  | void x =>
    simp only [CArg.dec, Option.some.injEq] at h
    subst h
    obtain ⟨N, c', h1, h2, h3⟩ := skip_value c l v [] hst'
    exact ⟨N, c', fun n hn => by simp [CArg.arg, Arg.read, h1 n hn], h3.err, h2⟩
  | data t =>
    obtain ⟨N, c', h1, h2, _⟩ := t.sem c t.init _ [] r hst' h
    refine ⟨N, { c' with error := r.err }, fun n hn => ?_, rfl, ⟨h2.opts, h2.missing, h2.unassigned⟩⟩
    have h1 : t.handler.to n t.handler.init c = some (r.err, r.val, c') := h1 n hn
    simp [CArg.arg, Arg.read, h1]

/-- Writing what is returned. -/
theorem ret_sem (r : Option (CType R)) {x : R} (hv : retValid r x) {s : Ser} (hs : s.opt.convertAscii = true) :
    (retOf r).write x s = some (s.writeAll (elemToks (encRet r x).toList)).2 := by
  cases r with
  | none => simp [retOf, Ret.write, encRet, elemToks, Ser.writeAll]
  | some t =>
    obtain ⟨k, h1, _, _⟩ := t.writes x (hv t rfl) {} s (.inl rfl) hs
    simp only [retOf, Option.map_some, Ret.write, h1, encRet, Option.bind_some]
    cases hx : t.enc x with
    | none => simp [encToks, elemToks]
    | some j =>
      simp only [encToks, Option.toList_some, elemToks, List.append_nil]
      rw [writeAll_names hs (.inl rfl) (.inr rfl)]

/-- Calling a function does what its description says. -/
theorem fn_sem {f : CFn W} (hf : f.Proper) {c : CallCtx} {pre : List Exec} {x : Exec} (hr : c.Ready pre x) {l : Lbl} {v : JVal}
    (hst : c.pc.Stream (v.toks l.1 l.2)) (hm : c.pc.missing = []) (hu : c.pc.unassigned = []) (hs : c.ser.opt.convertAscii = true)
    {w : W} {o : Outcome W} (h : f.outcome c.pc.popts l v w = some o) :
    ∃ N c2, (∀ n, N ≤ n → f.fn.call n w c = some (o.err, o.state, c2)) ∧ c2.pc.missing = o.missing ∧
      c2.pc.unassigned = o.unassigned ∧ c2.ser = (c.ser.writeAll (elemToks o.result.toList)).2 ∧ c2.pc.popts = c.pc.popts ∧
      (c2.report, c2.messages) = setNotes c.cfg c2.pc.tz (c.report, c.messages) o.sets ∧ c2.cfg = c.cfg ∧
      (o.sets ≠ [] → o.err = lastSet o.sets) := by
  cases f with
  | plain names arg ret f =>
    simp only [CFn.outcome, Option.bind_eq_bind, Option.bind_eq_some_iff] at h
    obtain ⟨r, h1, h⟩ := h
    obtain ⟨N, c', g1, g2, g3⟩ := read_sem arg hst h1
    by_cases he : r.err = .noError
    · simp only [he, ne_eq, not_true_eq_false, if_false, Option.some.injEq] at h
      subst h
      refine ⟨N, { c with pc := c', ser := _ }, fun n hn => ?_, by simp [g3.missing, hm], by simp [g3.unassigned, hu], rfl, g3.opts,
        rfl, rfl, fun hh => absurd rfl hh⟩
      simp only [CFn.fn, Fn.plain, g1 n hn, g2, he, Option.bind_eq_bind, Option.bind_some, ne_eq, not_true_eq_false, if_false,
        ret_sem ret (hf w r.val) hs]
    · simp only [he, ne_eq, not_false_eq_true, if_true, Option.some.injEq] at h
      subst h
      refine ⟨N, { c with pc := c' }, fun n hn => ?_, by simp [g3.missing, hm], by simp [g3.unassigned, hu], rfl, g3.opts,
        rfl, rfl, fun hh => absurd rfl hh⟩
      simp only [CFn.fn, Fn.plain, g1 n hn, g2, he, Option.bind_eq_bind, Option.bind_some, ne_eq, not_false_eq_true, if_true]
  | err names arg ret f =>
    simp only [CFn.outcome, Option.bind_eq_bind, Option.bind_eq_some_iff] at h
    obtain ⟨r, h1, h⟩ := h
    obtain ⟨N, c', g1, g2, g3⟩ := read_sem arg hst h1
    by_cases he : r.err = .noError
    · simp only [he, ne_eq, not_true_eq_false, if_false, Option.some.injEq] at h
      have hval := (hf w r.val).1
      have hcall : ∀ n, N ≤ n → (Fn.err names arg.arg (retOf ret) f).call n w c =
          let e := lastSet (f w r.val).2.2
          ((if e = .noError then (retOf ret).write (f w r.val).2.1 c.ser else some c.ser).map fun s =>
            (e, (f w r.val).1,
              { c with
                pc := { c' with error := e }, ser := s, list := pre ++ [{ x with error := e }]
                report := (setNotes c.cfg c'.tz (c.report, c.messages) (f w r.val).2.2).1
                messages := (setNotes c.cfg c'.tz (c.report, c.messages) (f w r.val).2.2).2 })) := by
        intro n hn
        simp only [Fn.err, g1 n hn, g2, he, Option.bind_eq_bind, Option.bind_some, ne_eq, not_true_eq_false, if_false]
        rw [setErrors_eq _ { c with pc := c' } pre x hr.list (g2.trans he) hr.fresh]
        simp only [List.getLast?_concat, Option.bind_some, hr.fresh]
        by_cases hz : lastSet (f w r.val).2.2 = .noError
        · simp only [hz, if_true]
          cases (retOf ret).write (f w r.val).2.1 c.ser <;> simp
        · simp only [hz, if_false, Option.bind_some, Option.map_some]
      rw [ret_sem ret hval hs] at hcall
      subst h
      refine ⟨N, { c with
          pc := { c' with error := lastSet (f w r.val).2.2 }
          ser := if lastSet (f w r.val).2.2 = .noError then (c.ser.writeAll (elemToks (encRet ret (f w r.val).2.1).toList)).2 else c.ser
          list := pre ++ [{ x with error := lastSet (f w r.val).2.2 }]
          report := (setNotes c.cfg c'.tz (c.report, c.messages) (f w r.val).2.2).1
          messages := (setNotes c.cfg c'.tz (c.report, c.messages) (f w r.val).2.2).2 }, fun n hn => ?_, ?_, ?_, ?_, ?_, rfl, rfl,
            fun _ => rfl⟩
      rotate_left
      · simp [g3.missing, hm]
      · simp [g3.unassigned, hu]
      · dsimp only; split <;> simp [elemToks, Ser.writeAll]
      · exact g3.opts
      · refine (hcall n hn).trans ?_
        dsimp only
        split <;> rfl
    · simp only [he, ne_eq, not_false_eq_true, if_true, Option.some.injEq] at h
      subst h
      refine ⟨N, { c with pc := c' }, fun n hn => ?_, by simp [g3.missing, hm], by simp [g3.unassigned, hu], rfl, g3.opts,
        rfl, rfl, fun hh => absurd rfl hh⟩
      simp only [CFn.fn, Fn.err, g1 n hn, g2, he, Option.bind_eq_bind, Option.bind_some, ne_eq, not_false_eq_true, if_true]

theorem elemToks_append (a b : List JVal) : elemToks (a ++ b) = elemToks a ++ elemToks b := by
  induction a with
  | nil => rfl
  | cons v a ih => simp [elemToks, ih]

/-- The messages and the error context behind a member. -/
theorem member_notes {c c2 : CallCtx} {o : Outcome W} {M : Nat} {x : ErrCtx} {pre : List (Option Bytes)}
    (h : (c2.report, c2.messages) = setNotes c.cfg c2.pc.tz (some x, pre ++ [some []]) o.sets) (hcfg : c2.cfg = c.cfg)
    (hset : o.sets ≠ [] → o.err = lastSet o.sets) (hs : c2.pc.tz.Sound M) (hM : M + c.cfg.rangeContext < 2 ^ 63)
    (hx : x.error = .noError) (l : List Exec) (e : Exec) (t : Tz) (tok : Token) :
    ∃ x' m, (c2.behind o.err l e t tok).report = some x' ∧ (c2.behind o.err l e t tok).messages = pre ++ [m] ∧
      x'.custom = o.keeps x.custom ∧ (o.err = .noError → o.sets = [] → m = some []) ∧
      (o.err ≠ .noError → ∃ lines, m = some (o.heading x.custom ++ lines)) := by
  obtain ⟨x1, m1, h1, h2, h3⟩ := setNotes_some hs c.cfg hM o.sets x pre (some [])
  rw [h1] at h
  simp only [Prod.mk.injEq] at h
  obtain ⟨hr, hm⟩ := h
  have hk : x1.custom = o.keeps x.custom := by
    unfold Outcome.keeps
    cases hq : o.sets.getLast? with
    | none => rw [(h2 (List.getLast?_eq_none_iff.mp hq)).1]; rfl
    | some s => exact (h3 s hq).2
  by_cases he : o.err = .noError
  · refine ⟨x1, m1, ?_, ?_, hk, fun _ hh => (h2 hh).2, fun hh => absurd he hh⟩
    · simp [CallCtx.behind, CallCtx.addError, he, hr]
    · simp [CallCtx.behind, CallCtx.addError, he, hm]
  · obtain ⟨x2, g1, g2, g3⟩ := update_sound hs c.cfg hM o.err [] x1
    have hn : ({ c2 with pc := { c2.pc with error := o.err } } : CallCtx).noted = some (if x1.custom = [] then x2 else x1) := by
      simp only [CallCtx.noted, hr, Option.bind_some, hcfg]
      split
      · exact g1
      · rfl
    refine ⟨if x1.custom = [] then x2 else x1, some (if x1.custom = [] then x2 else x1).message, ?_, ?_, ?_, fun hh => absurd hh he,
      fun _ => ?_⟩
    · simp [CallCtx.behind, CallCtx.addError, he, hn]
    · simp only [CallCtx.behind, CallCtx.addError, ne_eq, he, not_false_eq_true, if_true]
      rw [hn, hm, modifyLast_concat]; rfl
    · split
      · rename_i hc; rw [g3, ← hk, hc]
      · exact hk
    · obtain ⟨lines, hl⟩ := message_head (if x1.custom = [] then x2 else x1)
      refine ⟨lines, ?_⟩
      rw [hl]
      congr 2
      unfold Outcome.heading
      cases hq : o.sets.getLast? with
      | none =>
        obtain ⟨rfl, _⟩ := h2 (List.getLast?_eq_none_iff.mp hq)
        dsimp only
        split
        · rw [g2, g3]
        · rw [hx]
      | some s =>
        obtain ⟨k1, k2⟩ := h3 s hq
        have k3 : o.err = s.1 := by
          rw [hset (fun hh => by rw [hh] at hq; simp at hq), lastSet, hq]; rfl
        dsimp only
        split
        · rename_i hc; rw [g2, g3, k3, ← k2, hc]
        · rw [k1, k2]

/-- A token has been read: the error context is cleared, but for the text. -/
theorem next_report {c : CallCtx} {x : ErrCtx} (h : c.report = some x) (hp : c.pc.tz.parsed = none) (hn : c.next.pc.error = .noError) :
    c.next.report = some x.clear := by
  have hr : (c.pc.tz.nextToken c.pc.token).1 = .noError := hn
  simp only [CallCtx.next, h, Option.bind_some, Tz.nextTokenErr, hr, hp]
  simp

/-- The loop does what the description of the table says. -/
theorem callLoop_calls {T : CTable W} (hT : T.Proper) (ms : List (Bytes × JVal)) :
    ∀ (w w' : W) (c : CallCtx) (e : Err) (rs : List Exec) (js : List JVal), c.At ms → (∀ m ∈ ms, m.2.depth ≤ 65535) →
      c.ser.opt.convertAscii = true → T.calls c.pc.popts c.userContext c.allowMissing c.stopOnFail ms w = some (e, w', rs, js) →
      ∃ N c', (∀ F n, N ≤ F → N ≤ n → callLoop T.table F n w c = some (e, w', c')) ∧ c'.list = c.list ++ rs ∧
        c'.ser = (c.ser.writeAll (elemToks js)).2 ∧
        ∀ M x, c.pc.tz.Sound M → M + c.cfg.rangeContext < 2 ^ 63 → c.report = some x → x.error = .noError →
          ∃ os msgs, T.outcomes c.pc.popts c.allowMissing c.stopOnFail ms w = some os ∧ c'.messages = c.messages ++ msgs ∧
            Messages x.custom os msgs := by
  induction ms with
  | nil =>
    intro w w' c e rs js hat _ _ h
    simp only [CTable.calls, Option.some.injEq, Prod.mk.injEq] at h
    obtain ⟨rfl, rfl, rfl, rfl⟩ := h
    refine ⟨1, c, fun F n _ hn => ?_, by simp, by simp [elemToks, Ser.writeAll], fun M x _ _ _ _ => ⟨[], [], rfl, by simp, .nil _⟩⟩
    obtain ⟨n, rfl⟩ : ∃ k, n = k + 1 := ⟨n - 1, by omega⟩
    simp only [callLoop, at_nil hat, if_true]
  | cons m ms ih =>
    obtain ⟨name, v⟩ := m
    intro w w' c e rs js hat hdep hconv h
    obtain ⟨a1, a2, a3, a4, a5⟩ := at_cons hat (hdep (name, v) (by simp))
    simp only [CTable.calls, Option.bind_eq_bind, Option.bind_eq_some_iff] at h
    obtain ⟨o, ho, h⟩ := h
    -- the call
    have hfind : ∃ N c2, (∀ n, N ≤ n → T.table.find n w c.entered = some (o.err, o.state, c2)) ∧ c2.pc.missing = o.missing ∧
        c2.pc.unassigned = o.unassigned ∧ c2.ser = (c.ser.writeAll (elemToks o.result.toList)).2 ∧ c2.pc.popts = c.pc.popts ∧
        (c2.report, c2.messages) = setNotes c.cfg c2.pc.tz (c.report, c.messages ++ [some []]) o.sets ∧ c2.cfg = c.cfg ∧
        (o.sets ≠ [] → o.err = lastSet o.sets) := by
      simp only [find_eq (entered_ready a3) T.table (ctable_behaves hT), table_lookup]
      rw [show c.entered.pc.token.name.bytes = name from a1]
      simp only [CTable.member] at ho
      cases hl : T.lookup name with
      | none =>
        rw [hl] at ho
        simp only [Option.some.injEq] at ho
        subst ho
        exact ⟨0, c.entered, fun n _ => rfl, hat.missing, hat.unassigned, by simp [elemToks, Ser.writeAll]; rfl, rfl, rfl, rfl,
          fun hh => absurd rfl hh⟩
      | some f =>
        rw [hl] at ho
        have hmem : f ∈ T.order := by
          simp only [CTable.lookup, Option.or_eq_some_iff] at hl
          rcases hl with h | ⟨_, h⟩ <;> exact List.mem_of_find?_eq_some h
        exact fn_sem (c := c.entered) (hT f hmem).1 (entered_ready a3) (l := (name, .string)) a5 hat.missing hat.unassigned hconv ho
    obtain ⟨N1, c2, b1, b2, b3, b4, b5, b6, b7, b8⟩ := hfind
    obtain ⟨f1, f2, ⟨e', f3⟩, f4, f5, f6, f7⟩ := find_facts (ctable_behaves hT) a3 (b1 N1 (Nat.le_refl _))
    obtain ⟨k, ks, hk⟩ : ∃ k ks, memberToks ms ++ [objEndTok] = k :: ks := by
      cases hh : memberToks ms ++ [objEndTok] with
      | nil => simp at hh
      | cons k ks => exact ⟨k, ks, rfl⟩
    have hin := inside_reach a4 f2.reach
    rw [hk] at hin
    obtain ⟨t, tok, N2, t1, t2, tM, t3, _⟩ := callMember_eq (T := T.table) (w := w) (w' := o.state) (c := c) (e := o.err) f3 rfl rfl f1 (inside_end hin _)
    rw [← hk] at t2
    rw [f5, f6] at t3
    have hsound : ∀ M, c.pc.tz.Sound M → c2.pc.tz.Sound M := fun M h => sound_reach (sound_scopes _ h) f2.reach
    have hcond : (c.stopOnFail = true ∧ shownErr c.allowMissing o.err ≠ .noError) ↔
        (c.stopOnFail = true ∧ o.err ≠ .noError ∧ ¬ (o.err = .missingFunction ∧ c.allowMissing = true)) := by
      simp only [shownErr]
      by_cases hq : o.err = .missingFunction ∧ c.allowMissing = true
      · simp [hq]
      · simp [hq]
    by_cases hs : c.stopOnFail = true ∧ shownErr c.allowMissing o.err ≠ .noError
    · rw [if_pos (hcond.mp hs)] at h
      simp only [Option.some.injEq, Prod.mk.injEq] at h
      obtain ⟨rfl, rfl, rfl, rfl⟩ := h
      have hsh : shownErr c.allowMissing o.err = o.err := by simp only [shownErr]; rw [if_neg (hcond.mp hs).2.2]
      refine ⟨max (max N1 N2) 1, c2.behind o.err c.list { name := c.pc.token.name.bytes, context := c.userContext, error := e' } t tok, fun F n hF hn => ?_, ?_, b4, fun M x hS hM hrep hxe => ?_⟩
      · obtain ⟨n, rfl⟩ : ∃ k, n = k + 1 := ⟨n - 1, by omega⟩
        simp only [callLoop, a2, if_false]
        rw [t3 F (by omega) (b1 F (by omega)), if_pos hs, hsh]
        rfl
      · simp only [CallCtx.behind, b2, b3, a1]
      · rw [hrep] at b6
        obtain ⟨x', m, m1, m2, m3, m4, m5⟩ := member_notes b6 b7 b8 (hsound M hS) hM hxe c.list
          { name := c.pc.token.name.bytes, context := c.userContext, error := e' } t tok
        refine ⟨[o], [m], ?_, m2, .cons m4 m5 (.nil _)⟩
        simp only [CTable.outcomes, ho, Option.bind_eq_bind, Option.bind_some, if_pos (hcond.mp hs)]
    · rw [if_neg (fun hh => hs (hcond.mpr hh))] at h
      simp only [Option.bind_eq_bind, Option.bind_eq_some_iff, Prod.exists, Option.some.injEq, Prod.mk.injEq] at h
      obtain ⟨e2, w2, rs2, js2, h, rfl, rfl, rfl, rfl⟩ := h
      have hat2 := behind_at (c := c2) (e := o.err) (pre := c.list)
        (x := { name := c.pc.token.name.bytes, context := c.userContext, error := e' }) (tok := tok) t1 t2
      have hw := writeAll_conv (ks := elemToks o.result.toList) hconv
      rw [← b4] at hw
      obtain ⟨N3, c', i1, i2, i3, i4⟩ := ih _ _ _ e2 rs2 js2 hat2 (fun m hm => hdep m (by simp [hm])) hw (by
        rw [← h]
        simp only [CallCtx.behind, CallCtx.next, Ctx.next, f4, f5, f6, ← b5]
        rfl)
      refine ⟨max (max N1 N2) (N3 + 1), c', fun F n hF hn => ?_, ?_, ?_, fun M x hS hM hrep hxe => ?_⟩
      · obtain ⟨n, rfl⟩ : ∃ k, n = k + 1 := ⟨n - 1, by omega⟩
        simp only [callLoop, a2, if_false]
        rw [t3 F (by omega) (b1 F (by omega)), if_neg hs]
        exact i1 F n (by omega) (by omega)
      · rw [i2]; simp [CallCtx.next, CallCtx.behind, b2, b3, a1]
      · rw [i3, elemToks_append, writeAll_snd_append, ← b4]; rfl
      · rw [hrep] at b6
        obtain ⟨x', m, m1, m2, m3, m4, m5⟩ := member_notes b6 b7 b8 (hsound M hS) hM hxe c.list
          { name := c.pc.token.name.bytes, context := c.userContext, error := e' } t tok
        have hS2 : t.Sound M := tM M (hsound M hS)
        obtain ⟨os, msgs, j1, j2, j3⟩ := i4 M x'.clear (sound_next hS2 _) (by
            rw [show (c2.behind o.err c.list _ t tok).next.cfg = c2.cfg from rfl, b7]; exact hM)
          (next_report m1 hS2.parsed hat2.stream.1) rfl
        refine ⟨o :: os, m :: msgs, ?_, ?_, .cons m4 m5 ?_⟩
        · simp only [CTable.outcomes, ho, Option.bind_eq_bind, Option.bind_some, if_neg (fun hh => hs (hcond.mpr hh))]
          rw [← b5, ← f5, ← f6]
          exact congrArg (fun q => Option.bind q fun os => some (o :: os)) j1
        · rw [j2, show (c2.behind o.err c.list _ t tok).next.messages = _ from m2]; simp
        · rw [← m3]; exact j3

/-! ### The whole call -/

/-- A text whose root is an object: the loop starts in front of its members. -/
theorem start_at {o : Opts} (hn : o.newLines = false) (p : POpts) {ms : List (Bytes × JVal)} {text : Bytes}
    (h : Doc (lenient o) (.obj ms) text) {c : CallCtx} (hc : c.pc = Ctx.onText o p text) :
    c.next.pc.error = .noError ∧ c.next.pc.token.valueType = .objectStart ∧ c.next.next.pc.error = .noError ∧
    ∀ s, CallCtx.At { c.next.next with ser := s } ms := by
  simp only [CallCtx.next]
  have hd := delivers_doc hn rfl h
  simp only [JVal.docToks, JVal.toks] at hd
  obtain ⟨t1, tok1, h1, h2, h3⟩ := hd
  obtain ⟨k, ks, hk⟩ : ∃ k ks, memberToks ms ++ [objEndTok] = k :: ks := by
    cases hh : memberToks ms ++ [objEndTok] with
    | nil => simp at hh
    | cons k ks => exact ⟨k, ks, rfl⟩
  change Delivers t1 (memberToks ms ++ [objEndTok]) at h3
  rw [hk] at h3
  obtain ⟨t2, tok2, g1, g2, g3⟩ := h3
  have hs1 : t1.scopes = [] := (nextToken_sc ((Tz.new o).addData text) [] {} rfl (by simp [Tz.ended, Tz.sc]) (h1 {})).2
  have hs2 : t2.scopes = [] := (nextToken_sc t1 [] {} hs1 (by simp [Tz.ended, Tz.sc]) (g1 {})).2
  have e1 : c.pc.next = { Ctx.onText o p text with tz := t1, token := tok1, error := .noError } := by
    rw [hc]; simp only [Ctx.next, Ctx.onText, h1]
  have e2 : c.pc.next.next = { Ctx.onText o p text with tz := t2, token := tok2, error := .noError } := by
    rw [e1]; simp only [Ctx.next, Ctx.onText, g1]
  refine ⟨by rw [e1], ?_, by rw [e2], fun s => ⟨?_, ?_, ?_, ?_⟩⟩
  · rw [e1]; rw [show tok1.valueType = tok1.tok.valueType from rfl, h2]
  · simp only [e2, hk]; exact ⟨rfl, k, ks, rfl, g2, g3⟩
  · simp only [e2]; exact hs2
  · simp only [e2]; rfl
  · simp only [e2]; rfl

end JsonStruct
