import Verif.Model.CallReport
import Verif.Props.Call
import Verif.Lemmas.CutFeed

/-
C73: what is recorded of calls of functions for a person to read: the messages, and the report as JSON.
-/

namespace JsonStruct

/-! ### The messages -/

theorem outcomes_records (T : CTable W) (p : POpts) (ctx : Bytes) (allow stop : Bool) (ms : List (Bytes × JVal)) :
    ∀ (w w' : W) (e : Err) (rs : List Exec) (js : List JVal) (os : List (Outcome W)), T.calls p ctx allow stop ms w = some (e, w', rs, js) →
      T.outcomes p allow stop ms w = some os → os.map Outcome.err = rs.map Exec.error := by
  induction ms with
  | nil =>
    intro w w' e rs js os h1 h2
    simp only [CTable.calls, Option.some.injEq, Prod.mk.injEq] at h1
    simp only [CTable.outcomes, Option.some.injEq] at h2
    rw [← h2, ← h1.2.2.1]; rfl
  | cons m ms ih =>
    obtain ⟨name, v⟩ := m
    intro w w' e rs js os h1 h2
    simp only [CTable.calls, Option.bind_eq_bind, Option.bind_eq_some_iff] at h1
    simp only [CTable.outcomes, Option.bind_eq_bind, Option.bind_eq_some_iff] at h2
    obtain ⟨o, ho, h1⟩ := h1
    obtain ⟨o', ho', h2⟩ := h2
    rw [ho] at ho'
    obtain rfl := Option.some.inj ho'
    split at h1
    · rename_i hs
      rw [if_pos hs] at h2
      simp only [Option.some.injEq, Prod.mk.injEq] at h1 h2
      rw [← h2, ← h1.2.2.1]; rfl
    · rename_i hs
      rw [if_neg hs] at h2
      simp only [Option.bind_eq_some_iff, Prod.exists, Option.some.injEq, Prod.mk.injEq] at h1 h2
      obtain ⟨e2, w2, rs2, js2, h1, -, -, rfl, -⟩ := h1
      obtain ⟨os2, h2, rfl⟩ := h2
      simp [ih _ _ _ _ _ _ h1 h2]

/-- **C73** (part). The functions are described by the types of argument and result; `CTable.outcomes` says what comes of
each member. There is one message for each record. It is empty for a call that succeeded. For a call that failed it begins
with the line `Outcome.heading` tells: the error set by the function and the text set with it; or the error, if the
function set none. In the latter case there is a flaw: if any earlier call on the same context had set a text, this text is
told, with `NoError` (`C73_false_text_of_another_call`).
Missing: the lines behind the first one (they are those of C32), calls that set an error and then `NoError`, and what
C31_calls_exact_partial misses. -/
theorem C73_messages_partial (T : CTable W) (hT : T.Proper) (o : Opts) (hn : o.newLines = false) (p : POpts)
    (ms : List (Bytes × JVal)) (text : Bytes) (hdoc : Doc (lenient o) (.obj ms) text) (hdepth : ∀ m ∈ ms, m.2.depth ≤ 65535)
    (c : CallCtx) (hc : c.pc = Ctx.onText o p text) (hs : c.ser.opt.convertAscii = true)
    (hsize : text.length + c.cfg.rangeContext < 2 ^ 63) (x : ErrCtx) (hx : c.report = some x)
    (w w' : W) (e : Err) (rs : List Exec) (js : List JVal)
    (h : T.calls p c.userContext c.allowMissing c.stopOnFail ms w = some (e, w', rs, js)) :
    ∃ N c' os msgs, (∀ F, N ≤ F → callFunctions T.table F w c = some (e, w', c')) ∧ c'.list = c.list ++ rs ∧
      T.outcomes p c.allowMissing c.stopOnFail ms w = some os ∧ os.map Outcome.err = rs.map Exec.error ∧
      c'.messages = c.messages ++ msgs ∧ Messages x.custom os msgs := by
  obtain ⟨h1, h2, h3, h4⟩ := start_at hn p hdoc hc
  have hp : c.next.next.pc.popts = p := by simp only [CallCtx.next]; rw [hc]; rfl
  let s := (c.ser.write { value := b!"[", valueType := .arrayStart }).2
  obtain ⟨N, c', g1, g2, _, g4⟩ := callLoop_calls hT ms w w' { c.next.next with ser := s } e rs js (h4 s) hdepth (write_conv hs)
    (by dsimp only; rw [hp]; exact h)
  have hS : c.pc.tz.Sound text.length := by
    rw [hc]
    refine ⟨ok_new o [text] [], ?_, rfl, ?_⟩
    · exact ⟨fun _ => ⟨rfl, rfl⟩, fun h => absurd h (by simp [Ctx.onText, Tz.new, Tz.addData])⟩
    · simp [Ctx.onText, Tz.whole, Tz.new, Tz.addData]
  have hS1 : c.next.pc.tz.Sound text.length := sound_next hS _
  have hS2 : c.next.next.pc.tz.Sound text.length := sound_next hS1 _
  have r1 := next_report hx hS.parsed h1
  have r2 := next_report r1 hS1.parsed h3
  obtain ⟨os, msgs, k1, k2, k3⟩ := g4 text.length x.clear.clear hS2 hsize r2 rfl
  dsimp only at k1
  rw [hp] at k1
  refine ⟨N, { c' with ser := (c'.ser.write { value := b!"]", valueType := .arrayEnd }).2 }, os, msgs, fun F hF => ?_, g2, k1,
    outcomes_records T p _ _ _ ms _ _ _ _ _ _ h k1, k2, k3⟩
  simp only [callFunctions, h1, h2, h3, ne_eq, not_true_eq_false, if_false]
  exact congrArg (fun q => Option.bind q fun r : Err × W × CallCtx =>
    some (r.1, r.2.1, { r.2.2 with ser := (r.2.2.ser.write { value := b!"]", valueType := .arrayEnd }).2 })) (g1 F F hF hF)

/-- What a call that sets errors ends with. -/
theorem outcomes_mem (T : CTable W) (p : POpts) (allow stop : Bool) (P : Outcome W → Prop) (hP : ∀ name v w o, T.member p name v w = some o → P o)
    (ms : List (Bytes × JVal)) : ∀ (w : W) (os : List (Outcome W)), T.outcomes p allow stop ms w = some os → ∀ o ∈ os, P o := by
  induction ms with
  | nil =>
    intro w os h
    simp only [CTable.outcomes, Option.some.injEq] at h
    subst h; simp
  | cons m ms ih =>
    obtain ⟨name, v⟩ := m
    intro w os h
    simp only [CTable.outcomes, Option.bind_eq_bind, Option.bind_eq_some_iff] at h
    obtain ⟨o, ho, h⟩ := h
    split at h
    · simp only [Option.some.injEq] at h
      subst h
      simpa using hP _ _ _ _ ho
    · simp only [Option.bind_eq_some_iff, Option.some.injEq] at h
      obtain ⟨os2, h, rfl⟩ := h
      intro o' ho'
      rcases List.mem_cons.mp ho' with rfl | h'
      · exact hP _ _ _ _ ho
      · exact ih _ _ h _ h'

theorem member_sets {T : CTable W} (p : POpts) (name : Bytes) (v : JVal) (w : W) (o : Outcome W) (h : T.member p name v w = some o) :
    (∀ s, o.sets.getLast? = some s → o.err = s.1) ∧ (T.Quiet → ∀ s, o.sets.getLast? = some s → s.2 = []) := by
  simp only [CTable.member] at h
  cases hl : T.lookup name with
  | none =>
    rw [hl] at h
    simp only [Option.some.injEq] at h
    subst h; simp
  | some f =>
    rw [hl] at h
    have hmem : f ∈ T.order := by
      simp only [CTable.lookup, Option.or_eq_some_iff] at hl
      rcases hl with h | ⟨_, h⟩ <;> exact List.mem_of_find?_eq_some h
    cases f with
    | plain names arg ret f =>
      simp only [CFn.outcome, Option.bind_eq_bind, Option.bind_eq_some_iff] at h
      obtain ⟨r, -, h⟩ := h
      split at h <;> (simp only [Option.some.injEq] at h; subst h; simp)
    | err names arg ret f =>
      simp only [CFn.outcome, Option.bind_eq_bind, Option.bind_eq_some_iff] at h
      obtain ⟨r, -, h⟩ := h
      split at h
      · simp only [Option.some.injEq] at h; subst h; simp
      · simp only [Option.some.injEq] at h
        subst h
        refine ⟨fun s hs => ?_, fun hq s hs => hq _ hmem _ _ s (List.mem_of_getLast? hs)⟩
        dsimp only at hs ⊢
        simp [lastSet, hs]

/-- No text was set: every message tells the error of its own call. -/
theorem messages_quiet {kept : Bytes} {os : List (Outcome W)} {msgs : List (Option Bytes)} (h : Messages kept os msgs) (hk : kept = [])
    (hq : ∀ o ∈ os, ∀ s, o.sets.getLast? = some s → s.2 = [] ∧ o.err = s.1) :
    List.Forall₂ (fun o m => o.err ≠ .noError → ∃ lines, m = some (headLine o.err [] ++ lines)) os msgs := by
  induction h with
  | nil => exact .nil
  | @cons kept o os m ms ok failed rest ih =>
    have hlast := hq o (by simp)
    refine .cons (fun he => ?_) (ih ?_ fun o ho => hq o (by simp [ho]))
    · obtain ⟨lines, hl⟩ := failed he
      refine ⟨lines, ?_⟩
      rw [hl]
      unfold Outcome.heading
      cases hs : o.sets.getLast? with
      | none => simp [hk]
      | some s => simp [hlast s hs]
    · unfold Outcome.keeps
      cases hs : o.sets.getLast? with
      | none => exact hk
      | some s => exact (hlast s hs).1

theorem messages_set {kept : Bytes} {os : List (Outcome W)} {msgs : List (Option Bytes)} (h : Messages kept os msgs) :
    List.Forall₂ (fun o m => ∀ s, o.sets.getLast? = some s → o.err ≠ .noError → ∃ lines, m = some (headLine s.1 s.2 ++ lines)) os msgs := by
  induction h with
  | nil => exact .nil
  | cons ok failed rest ih =>
    refine .cons (fun s hs he => ?_) ih
    obtain ⟨lines, hl⟩ := failed he
    refine ⟨lines, ?_⟩
    rw [hl]
    simp only [Outcome.heading, hs]

/-- **C73** (part): in a context in which no text was set before, and if the functions set errors without a text only, the
message of each call that failed begins with the name of the error that is in its record. -/
theorem C73_own_error_partial (T : CTable W) (hT : T.Proper) (hq : T.Quiet) (o : Opts) (hn : o.newLines = false) (p : POpts)
    (ms : List (Bytes × JVal)) (text : Bytes) (hdoc : Doc (lenient o) (.obj ms) text) (hdepth : ∀ m ∈ ms, m.2.depth ≤ 65535)
    (c : CallCtx) (hc : c.pc = Ctx.onText o p text) (hs : c.ser.opt.convertAscii = true)
    (hsize : text.length + c.cfg.rangeContext < 2 ^ 63) (x : ErrCtx) (hx : c.report = some x) (hk : x.custom = [])
    (w w' : W) (e : Err) (rs : List Exec) (js : List JVal)
    (h : T.calls p c.userContext c.allowMissing c.stopOnFail ms w = some (e, w', rs, js)) :
    ∃ N c' msgs, (∀ F, N ≤ F → callFunctions T.table F w c = some (e, w', c')) ∧ c'.list = c.list ++ rs ∧ c'.messages = c.messages ++ msgs ∧
      List.Forall₂ (fun r m => r.error ≠ .noError → ∃ lines, m = some (headLine r.error [] ++ lines)) rs msgs := by
  obtain ⟨N, c', os, msgs, h1, h2, h3, h4, h5, h6⟩ := C73_messages_partial T hT o hn p ms text hdoc hdepth c hc hs hsize x hx w w' e rs js h
  refine ⟨N, c', msgs, h1, h2, h5, ?_⟩
  have hm := messages_quiet h6 hk (fun o ho s hs => ⟨?_, ?_⟩)
  · rw [← List.forall₂_map_left_iff (f := Outcome.err) (R := fun e m => e ≠ .noError → ∃ lines, m = some (headLine e [] ++ lines)), h4,
      List.forall₂_map_left_iff] at hm
    exact hm
  · exact outcomes_mem T p _ _ (fun o => ∀ s, o.sets.getLast? = some s → s.2 = []) (fun name v w o ho => (member_sets p name v w o ho).2 hq) ms _ _ h3 o ho s hs
  · exact outcomes_mem T p _ _ (fun o => ∀ s, o.sets.getLast? = some s → o.err = s.1) (fun name v w o ho => (member_sets p name v w o ho).1) ms _ _ h3 o ho s hs

/-- **C73** (part): whatever happened before, if a function failed by setting an error, the message begins with the error and
the text it set last. -/
theorem C73_own_text (T : CTable W) (hT : T.Proper) (o : Opts) (hn : o.newLines = false) (p : POpts)
    (ms : List (Bytes × JVal)) (text : Bytes) (hdoc : Doc (lenient o) (.obj ms) text) (hdepth : ∀ m ∈ ms, m.2.depth ≤ 65535)
    (c : CallCtx) (hc : c.pc = Ctx.onText o p text) (hs : c.ser.opt.convertAscii = true)
    (hsize : text.length + c.cfg.rangeContext < 2 ^ 63) (x : ErrCtx) (hx : c.report = some x)
    (w w' : W) (e : Err) (rs : List Exec) (js : List JVal)
    (h : T.calls p c.userContext c.allowMissing c.stopOnFail ms w = some (e, w', rs, js)) :
    ∃ N c' os msgs, (∀ F, N ≤ F → callFunctions T.table F w c = some (e, w', c')) ∧
      T.outcomes p c.allowMissing c.stopOnFail ms w = some os ∧ c'.messages = c.messages ++ msgs ∧
      List.Forall₂ (fun o m => ∀ s, o.sets.getLast? = some s → o.err ≠ .noError → ∃ lines, m = some (headLine s.1 s.2 ++ lines)) os msgs := by
  obtain ⟨N, c', os, msgs, h1, h2, h3, h4, h5, h6⟩ := C73_messages_partial T hT o hn p ms text hdoc hdepth c hc hs hsize x hx w w' e rs js h
  exact ⟨N, c', os, msgs, h1, h3, h5, messages_set h6⟩

/-- The functions of the example, their texts dropped. -/
def quietFns : CTable (List Bytes) :=
  .mk [.plain [b!"push", b!"add"] (.data (.string .scalar)) (some .bool) fun w x => (x :: w, true),
       .err (R := Unit) [b!"fail"] (.void ()) none fun w _ => (w, (), [(.userDefinedErrors, []), (.keyNotFound, [])])] []

theorem quietFns_ok : quietFns.Proper ∧ quietFns.Quiet := by
  constructor
  · intro f hf
    simp only [quietFns, CTable.order, orders, List.reverse_cons, List.reverse_nil, List.nil_append, List.cons_append, List.append_nil,
      List.mem_cons, List.not_mem_nil, or_false] at hf
    rcases hf with rfl | rfl <;>
      (refine ⟨?_, ?_⟩ <;> simp only [CFn.Proper, CFn.Lawful, retValid] <;> intros <;> (try simp_all) <;> (try subst_vars) <;>
        simp [CType.Valid, CType.Lawful])
  · intro f hf
    simp only [quietFns, CTable.order, orders, List.reverse_cons, List.reverse_nil, List.nil_append, List.cons_append, List.append_nil,
      List.mem_cons, List.not_mem_nil, or_false] at hf
    rcases hf with rfl | rfl <;> simp

/-- The hypotheses are met, with functions that set errors and others that are not known. -/
example : ∃ text N c' msgs, Doc (lenient {}) (.obj exMembers) text ∧
    (∀ F, N ≤ F → ∃ e w', callFunctions quietFns.table F [] (CallCtx.onString (Ctx.onText {} {} text) (userOpts false 2 0)) = some (e, w', c')) ∧
    c'.messages = msgs ∧ c'.list.map Exec.error = [.noError, .missingFunction, .keyNotFound, .missingFunction, .keyNotFound, .noError] ∧
    ∀ r ∈ c'.list.zip msgs, r.1.error ≠ .noError → ∃ lines, r.2 = some (headLine r.1.error [] ++ lines) := by
  obtain ⟨⟨text, h1, hlen⟩, h2⟩ : (∃ text, Doc (lenient {}) (.obj exMembers) text ∧ text.length < 1000) ∧ ∀ m ∈ exMembers, m.2.depth ≤ 65535 :=
    exMembers_text {}
  obtain ⟨N, c', msgs, g1, g2, g3, g4⟩ := C73_own_error_partial quietFns quietFns_ok.1 quietFns_ok.2 {} rfl {} exMembers text h1 h2
    (CallCtx.onString (Ctx.onText {} {} text) (userOpts false 2 0)) rfl rfl (by simp [CallCtx.onString]; omega) {} rfl rfl [] _ _ _ _ rfl
  refine ⟨text, N, c', msgs, h1, fun F hF => ⟨_, _, g1 F hF⟩, by simpa [CallCtx.onString] using g3, ?_, ?_⟩
  · rw [g2]; rfl
  · rw [g2]
    exact fun r hr => (List.forall₂_iff_zip.mp g4).2 hr

/-- The model run on a text: the first lines of the messages. -/
theorem C73_false_text_of_another_call : (callFunctions exFns.table 60 []
      (CallCtx.onString (Ctx.onText {} {} b!"{\"nope\":1,\"fail\":true,\"add\":\"x\",\"nope\":2}") (userOpts false 2 0))).map
      (fun r => (r.2.2.list.map fun x => (x.name, x.error), r.2.2.messages.map fun m => m.map fun m => m.takeWhile (· ≠ 10))) =
    some ([(b!"nope", .missingFunction), (b!"fail", .userDefinedErrors), (b!"add", .noError), (b!"nope", .missingFunction)],
      [some b!"Error MissingFunction:", some b!"Error no:", some [], some b!"Error NoError no:"]) := by
  decide +kernel

/-! ### The report as JSON -/

theorem errorString_plain (e : Err) : (errorName e).flatMap escapeByte = errorName e := by cases e <;> decide

theorem serializeMembers_sem {v : T} {ms : List (Member T)} {es : List (Option JVal)}
    (h : List.Forall₂ (fun m e => FromSem (m.from_ v) fun n => encToks n e) ms es) :
    MembersSem (serializeMembers v ms) (List.zipWith (fun m e => (e.map (m.names.headD [], ·)).toList) ms es).flatten := by
  induction h with
  | nil => exact membersSem_nil
  | cons h _ ih => exact membersSem_append (membersSem_one (.inr rfl) h) ih

theorem errorH_sem (e : Err) : FromSem (errorH.from_ e) fun n => encToks n (some (.str (reportName e))) :=
  fromSem_put fun n => by simp [encToks, JVal.toks, errorName, reportName]

theorem vec_some (m : Simd) (l : List Bytes) : l.filterMap (fun n => (CType.string m).enc n) = l.map fun n => .str (escapesOut m n) := by
  simp [CType.enc]

theorem execH_sem (m : Simd) (r : Exec × Bytes) : FromSem ((execH m).from_ r) fun n => encToks n (some (r.1.val m r.2)) := by
  have hs := fun v : Bytes => (CType.string m).writes v trivial
  have hq := fun v : Bytes => (CType.silentString m).writes v trivial
  have hv := fun v : List Bytes => (CType.silentVector (.string m)).writes v (fun x _ => ⟨trivial, rfl⟩)
  have hm := serializeMembers_sem (v := r) (ms := execMembers m)
    (.cons (hs r.1.name) (.cons (hq r.1.context) (.cons (errorH_sem r.1.error) (.cons (hq r.2) (.cons (hv r.1.missing)
      (.cons (hv r.1.unassigned) (.cons (hv []) .nil)))))))
  have := putObject_sem hm
  have he : (Exec.val m r.1 r.2) = .obj (List.zipWith (fun (m : Member (Exec × Bytes)) (e : Option JVal) => (e.map (m.names.headD [], ·)).toList) (execMembers m)
      [(CType.string m).enc r.1.name, (CType.silentString m).enc r.1.context, some (.str (reportName r.1.error)), (CType.silentString m).enc r.2,
       (CType.silentVector (.string m)).enc r.1.missing, (CType.silentVector (.string m)).enc r.1.unassigned,
       (CType.silentVector (.string m)).enc []]).flatten := by
    obtain ⟨⟨name, ctx, err, mi, un⟩, msg⟩ := r
    simp only [Exec.val, execMembers, Member.of, CType.enc, noted]
    cases ctx <;> cases msg <;> cases mi <;> cases un <;> simp
  rw [he]
  intro k s hn hc
  obtain ⟨k', h1, h2⟩ := this k s hn hc
  refine ⟨k', ?_, h2⟩
  rw [← h1]
  simp only [execH, structH, structFrom, Meta.serialize, serializeSupers]
  congr 1
  funext a
  simp

/-- The rows of a report are of good shape, and nested three deep at most. -/
theorem exec_good (m : Simd) (x : Exec) (msg : Bytes) : (x.val m msg).Good ∧ (x.val m msg).depth ≤ 2 := by
  have hs : ∀ v, (JVal.str (escapesOut m v)).Good := fun v => good_str (by rw [escapesOut_eq]; exact quotable_flatMap v)
  have ha : ∀ l : List Bytes, (JVal.arr (l.map fun n => .str (escapesOut m n))).Good := fun l => good_arr fun v hv => by
    obtain ⟨n, -, rfl⟩ := List.mem_map.mp hv; exact hs n
  have hd : ∀ l : List Bytes, elemsDepth (l.map fun n => .str (escapesOut m n)) = 0 := by
    intro l; induction l with
    | nil => rfl
    | cons a l ih => simp [elemsDepth, JVal.depth, ih]
  have he : (JVal.str (reportName x.error)).Good := good_str (by
    rw [show reportName x.error = errorName x.error from rfl, ← errorString_plain]; exact quotable_flatMap _)
  have hq : Quotable b!"name" ∧ Quotable b!"context" ∧ Quotable b!"error" ∧ Quotable b!"error_string" ∧ Quotable b!"missing_members" ∧
      Quotable b!"unassigned_required_members" := by
    have hq : ∀ s : Bytes, s.flatMap escapeByte = s → Quotable s := fun s h => h ▸ quotable_flatMap s
    exact ⟨hq _ (by decide), hq _ (by decide), hq _ (by decide), hq _ (by decide), hq _ (by decide), hq _ (by decide)⟩
  constructor
  · refine good_obj fun v hv => ?_
    simp only [List.mem_append, noted, List.mem_singleton, decide_eq_true_eq] at hv
    rcases hv with ((((rfl | h) | rfl) | h) | h) | h
    · exact ⟨hq.1, by simp, hs _⟩
    · split at h
      · rw [List.mem_singleton.mp h]; exact ⟨hq.2.1, by simp, hs _⟩
      · simp at h
    · exact ⟨hq.2.2.1, by simp, he⟩
    · split at h
      · rw [List.mem_singleton.mp h]; exact ⟨hq.2.2.2.1, by simp, hs _⟩
      · simp at h
    · split at h
      · rw [List.mem_singleton.mp h]; exact ⟨hq.2.2.2.2.1, by simp, ha _⟩
      · simp at h
    · split at h
      · rw [List.mem_singleton.mp h]; exact ⟨hq.2.2.2.2.2, by simp, ha _⟩
      · simp at h
  · simp only [Exec.val, noted]
    repeat' split
    all_goals simp [JVal.depth, membersDepth, hd]

/-- **C73** (the report). What `serializeStruct` returns for a list of records is JSON for the array of one object each, in
order: with the name of the function, the context and the message if they are not empty, the name of the error, and the
names of the members that were missing or not assigned, if any. -/
theorem C73_report (m : Simd) (rows : List (Exec × Bytes)) (pretty : Bool) (shift : Nat) :
    ∃ text, serializeStruct (vecH (execH m)) rows (userOpts pretty shift 0) = some text ∧
      Doc rfcBytes (.arr (rows.map fun r => r.1.val m r.2)) text := by
  have hj : (rows.filterMap fun r => some (r.1.val m r.2)) = rows.map fun r => r.1.val m r.2 := by simp
  have hw : FromSem ((vecH (execH m)).from_ rows) fun n => encToks n (some (.arr (rows.map fun r => r.1.val m r.2))) := by
    rw [← hj]
    exact putArray_sem (putElems_sem fun r _ => execH_sem m r)
  obtain ⟨k, h1, _, _⟩ := hw {} (Ser.onString (userOpts pretty shift 0) (startString []).length) (.inl rfl) rfl
  have hd : elemsDepth (rows.map fun r => r.1.val m r.2) ≤ 2 := by
    clear hj hw h1
    induction rows with
    | nil => simp [elemsDepth]
    | cons r rows ih => simp only [List.map_cons, elemsDepth]; exact Nat.max_le.mpr ⟨(exec_good m r.1 r.2).2, ih⟩
  have hg : (JVal.arr (rows.map fun r => r.1.val m r.2)).Good := good_arr fun v hv => by
    obtain ⟨r, -, rfl⟩ := List.mem_map.mp hv; exact (exec_good m r.1 r.2).1
  refine ⟨_, by simp only [serializeStruct, serializeWith, h1, Option.map_some]; rfl, ?_⟩
  have := written_text _ hg pretty shift 0 (by simp only [JVal.depth]; omega) []
  simp only [encToks]
  rw [writeAll_names (a := .string) (b := .ascii) rfl (.inl rfl) (.inr rfl)]
  exact this

/-- The records of calls on a text, with their messages. -/
theorem exReport : ((callFunctions exFns.table 30 []
      { CallCtx.onString (Ctx.onText {} {} b!"{\"add\":\"u\",\"nope\":1}") (userOpts false 2 0) with userContext := b!"me" }).bind
      fun r => r.2.2.executions) =
    some [({ name := b!"add", context := b!"me" }, []),
      ({ name := b!"nope", context := b!"me", error := .missingFunction },
        b!"Error MissingFunction:\n{\"add\":\"u\",\"nope\":1}\n                   ^\n")] := by
  decide +kernel

/-- The report, as JSON. -/
example : serializeStruct (vecH (execH .scalar)) [({ name := b!"add", context := b!"me" }, []), ({ name := b!"nope", error := .missingFunction }, b!"a\nb")]
      (userOpts false 0 0) =
    some b!"[{\"name\":\"add\",\"context\":\"me\",\"error\":\"NoError\"},{\"name\":\"nope\",\"error\":\"MissingFunction\",\"error_string\":\"a\\nb\"}]" := by
  decide +kernel

/-- An `Error` in a struct is written, but it is not read: the variable keeps what it held. -/
theorem C73_false_errors_are_not_read :
    let h := structH Err.noError (.mk [.of [b!"e"] false errorH id fun v _ => v] [])
    serializeStruct h .keyNotFound (userOpts false 0 0) = some b!"{\"e\":\"KeyNotFound\"}" ∧
    (parseTo h 20 .noError (Ctx.onText {} {} b!"{\"e\":\"KeyNotFound\"}")).map (fun r => (r.1, r.2.1)) = some (.noError, .noError) := by
  decide +kernel

end JsonStruct
