import Verif.Props.Call
import Verif.Props.CallReport
import Verif.Spec.CallContext

/-
C31 for functions that are given the whole context, and C73 for the report of a run as it is written.
-/

namespace JsonStruct

def CtxUse.isError : CtxUse → Bool
  | .error _ => true
  | .write _ => false

theorem uses_foldl (uses : List CtxUse) : ∀ (c : CallCtx) (before : List Exec) (x : Exec), c.list = before ++ [x] →
    ∃ (e : Err) (s : Ser) (ms : List (Option Bytes)) (r : Option ErrCtx),
      uses.foldl CtxUse.run c =
        { c with
          pc := { c.pc with error := (if uses.any CtxUse.isError then e else c.pc.error) }
          ser := s
          list := before ++ [{ x with error := (if uses.any CtxUse.isError then e else x.error) }]
          messages := ms
          report := r } ∧
      (uses.any CtxUse.isError = true → ∃ t, CtxUse.error (e, t) ∈ uses) := by
  induction uses with
  | nil => intro c pre x hl; exact ⟨.noError, c.ser, c.messages, c.report, by simp [← hl], by simp⟩
  | cons u us ih =>
    intro c pre x hl
    cases u with
    | error e =>
      obtain ⟨e', s, ms, r, h, hm⟩ := ih (c.setError e) pre { x with error := e.1 } (by simp [CallCtx.setError, hl, modifyLast_concat])
      by_cases hany : us.any CtxUse.isError = true
      · refine ⟨e', s, ms, r, ?_, fun _ => ?_⟩
        · simp only [List.foldl_cons, CtxUse.run, h, hany, List.any_cons, CtxUse.isError, Bool.true_or, if_true]
          rfl
        · obtain ⟨t, ht⟩ := hm hany
          exact ⟨t, by simp [ht]⟩
      · refine ⟨e.1, s, ms, r, ?_, fun _ => ⟨e.2, by simp⟩⟩
        simp only [List.foldl_cons, CtxUse.run, h, hany, List.any_cons, CtxUse.isError, Bool.true_or, if_true]
        rfl
    | write k =>
      obtain ⟨e', s, ms, r, h, hm⟩ := ih { c with ser := (c.ser.write k).2 } pre x hl
      refine ⟨e', s, ms, r, ?_, fun ha => ?_⟩
      · simp only [List.foldl_cons, CtxUse.run, h, List.any_cons, CtxUse.isError, Bool.false_or]
      · obtain ⟨t, ht⟩ := hm (by simpa [CtxUse.isError] using ha)
        exact ⟨t, by simp [ht]⟩

/-- **C31** Functions that are given the `CallFunctionContext` behave too (`Fn.Behaves`), if they use it to report errors, with or without
an argument of any type of `Model/Types.lean`, and to write to the results. So `C31_calls_each_member_partial` holds of them. -/
theorem C31_context_functions_behave {W A R : Type} (names : List Bytes) (arg : CArg A) (ret : Ret R) (f : W → A → CallCtx → W × R × CallCtx)
    (hf : UsesContext f) : (Fn.ctx names arg.arg ret f).Behaves := by
  intro n w c pre x e w' c' h hr
  simp only [Fn.ctx, Option.bind_eq_bind, Option.bind_eq_some_iff, Prod.exists] at h
  obtain ⟨a, pc, h1, h⟩ := h
  obtain ⟨hm, hk⟩ := read_moves (arg_tame arg) h1 hr.error
  by_cases he : pc.error = .noError
  · simp only [he, ne_eq, not_true_eq_false, if_false] at h
    obtain ⟨uses, hu, hno⟩ := hf w a { c with pc := pc }
    generalize f w a { c with pc := pc } = q at h hu
    obtain ⟨w2, y, c2⟩ := q
    simp only at h hu
    obtain ⟨e', s, ms, r, g1, g2⟩ := uses_foldl uses { c with pc := pc } pre x hr.list
    simp only [he, hr.fresh] at g1
    obtain ⟨z, hz, hzm⟩ : ∃ z, (if uses.any CtxUse.isError then e' else Err.noError) = z ∧ z ≠ .missingFunction := by
      refine ⟨_, rfl, ?_⟩
      split
      · rename_i ha
        obtain ⟨t, ht⟩ := g2 ha
        rintro rfl
        exact hno t ht
      · simp
    rw [hz] at g1
    rw [g1] at hu
    subst hu
    simp only [List.getLast?_concat, Option.bind_some] at h
    by_cases hz0 : z = .noError
    · simp only [hz0, if_true, Option.bind_eq_some_iff, Option.some.injEq, Prod.mk.injEq] at h
      obtain ⟨s', h2, rfl, rfl, rfl⟩ := h
      exact ⟨by simp, rfl, hm.setError (by simp), ⟨_, rfl⟩, rfl, rfl, rfl⟩
    · simp only [hz0, if_false, Option.some.injEq, Prod.mk.injEq] at h
      obtain ⟨rfl, rfl, rfl⟩ := h
      exact ⟨hzm, rfl, hm.setError hzm, ⟨_, rfl⟩, rfl, rfl, rfl⟩
  · simp only [he, ne_eq, not_false_eq_true, if_true, Option.some.injEq, Prod.mk.injEq] at h
    obtain ⟨rfl, rfl, rfl⟩ := h
    refine ⟨hk, rfl, hm, ⟨.noError, ?_⟩, rfl, rfl, rfl⟩
    rw [hr.list]; obtain ⟨_, _, _, _, _⟩ := x; have := hr.fresh; simp only at this; subst this; rfl

/-- A function that fails if there is something among the results already, and writes two numbers of its own otherwise. -/
def busy (w : Nat) (a : Bytes) (c : CallCtx) : Nat × Unit × CallCtx :=
  if c.list.length > 1 then (w, (), c.setError (.keyNotFound, a))
  else (w + 1, (), { c with ser := (((c.ser.write { value := b!"1", valueType := .number }).2).write { value := b!"2", valueType := .number }).2 })

theorem busy_uses : UsesContext busy := by
  intro w a c
  simp only [busy]
  split
  · exact ⟨[.error (.keyNotFound, a)], rfl, by simp⟩
  · exact ⟨[.write { value := b!"1", valueType := .number }, .write { value := b!"2", valueType := .number }], rfl, by simp⟩

/-- The hypothesis is met, and the model runs the function: twice called, the second call failed. -/
example : (Fn.ctx [b!"busy"] (CArg.data (.string .scalar)).arg (retOf (none : Option (CType Unit))) busy).Behaves ∧
    ((callFunctions (.mk [Fn.ctx [b!"busy"] (CArg.data (.string .scalar)).arg (retOf (none : Option (CType Unit))) busy] []) 60 0
      (CallCtx.onString (Ctx.onText {} {} b!"{\"busy\":\"x\",\"busy\":\"y\"}") (userOpts false 0 0))).map
      fun r => (r.1, r.2.1, r.2.2.list.map Exec.error, r.2.2.results)) = some (.noError, 1, [.noError, .keyNotFound], b!"[1,2]") :=
  ⟨C31_context_functions_behave _ _ _ _ busy_uses, by decide +kernel⟩

/-! ### The report of a run -/

theorem member_earnest {T : CTable W} (hT : T.Earnest) (p : POpts) (name : Bytes) (v : JVal) (w : W) (o : Outcome W)
    (h : T.member p name v w = some o) : ∀ s ∈ o.sets, s.1 ≠ .noError := by
  simp only [CTable.member] at h
  cases hl : T.lookup name with
  | none =>
    rw [hl] at h
    simp only [Option.some.injEq] at h
    subst h; simp
  | some f =>
    rw [hl] at h
    have hmem : f ∈ T.order := by
      simp only [CTable.lookup, Option.or_eq_some_iff] at hl
      rcases hl with h | ⟨_, h⟩ <;> exact List.mem_of_find?_eq_some h
    cases f with
    | plain names arg ret f =>
      simp only [CFn.outcome, Option.bind_eq_bind, Option.bind_eq_some_iff] at h
      obtain ⟨r, -, h⟩ := h
      split at h <;> (simp only [Option.some.injEq] at h; subst h; simp)
    | err names arg ret f =>
      simp only [CFn.outcome, Option.bind_eq_bind, Option.bind_eq_some_iff] at h
      obtain ⟨r, -, h⟩ := h
      split at h
      · simp only [Option.some.injEq] at h; subst h; simp
      · simp only [Option.some.injEq] at h
        subst h
        exact fun s hs => hT _ hmem _ _ s hs

theorem messages_some {kept : Bytes} {os : List (Outcome W)} {msgs : List (Option Bytes)} (h : Messages kept os msgs)
    (hq : ∀ o ∈ os, o.err = .noError → o.sets = []) :
    ∃ texts : List Bytes, msgs = texts.map some ∧ List.Forall₂ (fun o m => (o.err = .noError → m = []) ∧
      ∀ s, o.sets.getLast? = some s → o.err ≠ .noError → ∃ lines, m = headLine s.1 s.2 ++ lines) os texts := by
  induction h with
  | nil => exact ⟨[], rfl, .nil⟩
  | @cons kept o os m ms ok failed rest ih =>
    obtain ⟨texts, rfl, h2⟩ := ih fun o ho => hq o (by simp [ho])
    by_cases he : o.err = .noError
    · exact ⟨[] :: texts, by simp [ok he (hq o (by simp) he)], .cons ⟨fun _ => rfl, fun _ _ h => absurd he h⟩ h2⟩
    · obtain ⟨lines, rfl⟩ := failed he
      refine ⟨(o.heading kept ++ lines) :: texts, rfl, .cons ⟨fun h => absurd h he, fun s hs _ => ⟨lines, ?_⟩⟩ h2⟩
      simp only [Outcome.heading, hs]

/-- **C73** (the report of a run). The functions do not take back errors. Then after a run in a new context the records have their
messages, and what `serializeStruct` makes of them is JSON for the array of one object for each member that was considered, in order:
with the name of the member, the error, and the message, which is empty (and left out) for the calls that succeeded and begins with the
error and the text that the function set last, if it set one. -/
theorem C73_written_report (T : CTable W) (hT : T.Proper) (hE : T.Earnest) (o : Opts) (hn : o.newLines = false) (p : POpts)
    (ms : List (Bytes × JVal)) (text : Bytes) (hdoc : Doc (lenient o) (.obj ms) text) (hdepth : ∀ m ∈ ms, m.2.depth ≤ 65535)
    (so : SerOpts) (hso : so.convertAscii = true) (ctx : Bytes) (allow stop : Bool) (hsize : text.length + 38 < 2 ^ 63)
    (w w' : W) (e : Err) (rs : List Exec) (js : List JVal) (h : T.calls p ctx allow stop ms w = some (e, w', rs, js))
    (m : Simd) (pretty : Bool) (shift : Nat) :
    ∃ N c' os texts report, (∀ F, N ≤ F → callFunctions T.table F w { CallCtx.onString (Ctx.onText o p text) so with
        userContext := ctx, allowMissing := allow, stopOnFail := stop } = some (e, w', c')) ∧
      T.outcomes p allow stop ms w = some os ∧
      List.Forall₂ (fun o m => (o.err = .noError → m = []) ∧
        ∀ s, o.sets.getLast? = some s → o.err ≠ .noError → ∃ lines, m = headLine s.1 s.2 ++ lines) os texts ∧
      c'.executions = some (rs.zip texts) ∧ rs.length = texts.length ∧
      serializeStruct (vecH (execH m)) (rs.zip texts) (userOpts pretty shift 0) = some report ∧
      Doc rfcBytes (.arr ((rs.zip texts).map fun r => r.1.val m r.2)) report := by
  obtain ⟨N, c', os, msgs, h1, h2, h3, h4, h5, h6⟩ := C73_messages_partial T hT o hn p ms text hdoc hdepth
    { CallCtx.onString (Ctx.onText o p text) so with userContext := ctx, allowMissing := allow, stopOnFail := stop } rfl hso hsize {} rfl
    w w' e rs js h
  have hq : ∀ o ∈ os, o.err = .noError → o.sets = [] := by
    refine outcomes_mem T p _ _ (fun o => o.err = .noError → o.sets = []) (fun name v w o ho he => ?_) ms _ _ h3
    by_contra hs
    obtain ⟨s, hs'⟩ : ∃ s, o.sets.getLast? = some s := ⟨_, List.getLast?_eq_some_getLast hs⟩
    exact member_earnest hE p name v w o ho s (List.mem_of_getLast? hs') (((member_sets p name v w o ho).1 s hs') ▸ he)
  obtain ⟨texts, g1, g2⟩ := messages_some h6 hq
  obtain ⟨report, r1, r2⟩ := C73_report m (rs.zip texts) pretty shift
  have hl : c'.list = rs := by simpa [CallCtx.onString] using h2
  have hm : c'.messages = texts.map some := by simpa [CallCtx.onString, g1] using h5
  have hlen : rs.length = texts.length := by
    have e1 := congrArg List.length h4
    have e2 := g2.length_eq
    simp only [List.length_map] at e1
    omega
  refine ⟨N, c', os, texts, report, h1, h3, g2, ?_, hlen, r1, r2⟩
  have hid : ∀ l : List Bytes, (l.map some).mapM id = some l := by
    intro l
    induction l with
    | nil => rfl
    | cons a l ih => simp [List.mapM_cons, ih]
  simp only [CallCtx.executions, hm, hl, hid, Option.map_some]

/-- The hypotheses are met by the functions and the members of the examples for C31. -/
example : exFns.Proper ∧ exFns.Earnest ∧ (∃ text, Doc (lenient {}) (.obj exMembers) text ∧ text.length + 38 < 2 ^ 63) ∧
    (exFns.calls {} [] false false exMembers []).isSome := by
  refine ⟨exFns_proper, ?_, ?_, rfl⟩
  · intro f hf
    simp only [exFns, CTable.order, orders, List.reverse_cons, List.reverse_nil, List.nil_append, List.cons_append, List.append_nil,
      List.mem_cons, List.not_mem_nil, or_false] at hf
    rcases hf with rfl | rfl | rfl | rfl <;> simp
  · obtain ⟨⟨text, h1, hlen⟩, _⟩ : (∃ text, Doc (lenient {}) (.obj exMembers) text ∧ text.length < 1000) ∧ ∀ m ∈ exMembers, m.2.depth ≤ 65535 :=
      exMembers_text {}
    exact ⟨text, h1, by omega⟩

end JsonStruct
