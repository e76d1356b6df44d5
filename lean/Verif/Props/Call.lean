import Verif.Lemmas.CallRun
import Verif.Lemmas.RoundTrip
import Verif.Props.Scope
import Verif.Props.Struct

/-
C31: calling functions from a JSON object. C55: the JSON written for what they return.
-/

namespace JsonStruct

/-! ### Whatever the functions do -/

/-- **C31** (part). The functions may be any that behave (`Fn.Behaves`; functions of the library's own making do, see
`C31_functions_behave`). If `callFunctions` on the text of an object ends, then for its members, in order, the functions
registered under their names have been called, once each, with the value of the member; there is one record for each
member, with its name and the error the function reported, which is `MissingFunction` for names not registered. Whatever
a function reports and however much of the value it has read, the next member comes next; unless `stop_execute_on_fail`
is set and the last call failed: the error of this call is returned then.
Missing: values nested more than 65535 deep, and functions that report `MissingFunction` themselves; it is false of
both, see below. -/
theorem C31_calls_each_member_partial (T : FnTable W) (hT : ∀ f ∈ T.order, f.Behaves) (o : Opts) (hn : o.newLines = false) (p : POpts)
    (ms : List (Bytes × JVal)) (text : Bytes) (hdoc : Doc (lenient o) (.obj ms) text) (hdepth : ∀ m ∈ ms, m.2.depth ≤ 65535)
    (c : CallCtx) (hc : c.pc = Ctx.onText o p text) (w w' : W) (F : Nat) (e : Err) (c' : CallCtx)
    (h : callFunctions T F w c = some (e, w', c')) :
    ∃ done left rs, ms = done ++ left ∧ Called T F c.userContext done w rs w' ∧ c'.list = c.list ++ rs ∧
      (e = .noError → left = []) ∧
      (e ≠ .noError → c.stopOnFail = true ∧ ¬ (e = .missingFunction ∧ c.allowMissing = true) ∧ rs.getLast?.map Exec.error = some e) := by
  obtain ⟨h1, h2, h3, h4⟩ := start_at hn p hdoc hc
  simp only [callFunctions, h1, h2, h3, ne_eq, not_true_eq_false, if_false, Option.bind_eq_bind, Option.bind_eq_some_iff, Prod.exists,
    Option.some.injEq, Prod.mk.injEq] at h
  obtain ⟨e1, w1, c1, h5, rfl, rfl, rfl⟩ := h
  obtain ⟨done, left, rs, g1, g2, g3, g4, g5⟩ := callLoop_called hT F ms w w1 _ c1 e1 (h4 _) hdepth h5
  exact ⟨done, left, rs, g1, g3, g2, g4, g5⟩

/-- Functions with or without an argument of any type of `Model/Types.lean`, returning anything, behave if they set no
`MissingFunction`. -/
theorem C31_functions_behave {W A R : Type} (names : List Bytes) (arg : CArg A) (ret : Ret R) :
    (∀ f : W → A → W × R, (Fn.plain names arg.arg ret f).Behaves) ∧
    (∀ f : W → A → W × R × List (Err × Bytes), (∀ w a, Err.missingFunction ∉ (f w a).2.2.map Prod.fst) → (Fn.err names arg.arg ret f).Behaves) :=
  ⟨fun f => plain_behaves (arg_tame arg) names ret f, fun _ hf => err_behaves (arg_tame arg) names ret hf⟩

/-! ### Exactly what happens -/

/-- **C31** (part) and **C55**. The functions are described by the types of argument and result (`CFn`); what is to happen
is said by `CTable.calls` (Spec/Call.lean), from the members alone. `callFunctions` ends; it returns the error, leaves the
container and the records this says, and the serializer has been given the values returned, as one array.
Missing: as above, and members whose value is of a shape that the type of the argument reads beyond or stops within
without an error (`CType.dec` says nothing of them). -/
theorem C31_calls_exact_partial (T : CTable W) (hT : T.Proper) (o : Opts) (hn : o.newLines = false) (p : POpts)
    (ms : List (Bytes × JVal)) (text : Bytes) (hdoc : Doc (lenient o) (.obj ms) text) (hdepth : ∀ m ∈ ms, m.2.depth ≤ 65535)
    (c : CallCtx) (hc : c.pc = Ctx.onText o p text) (hs : c.ser.opt.convertAscii = true)
    (w w' : W) (e : Err) (rs : List Exec) (js : List JVal)
    (h : T.calls p c.userContext c.allowMissing c.stopOnFail ms w = some (e, w', rs, js)) :
    ∃ N c', (∀ F, N ≤ F → callFunctions T.table F w c = some (e, w', c')) ∧ c'.list = c.list ++ rs ∧
      c'.ser = (c.ser.writeAll (JVal.arr js).docToks).2 := by
  obtain ⟨h1, h2, h3, h4⟩ := start_at hn p hdoc hc
  have hp : c.next.next.pc.popts = p := by simp only [CallCtx.next]; rw [hc]; rfl
  let s := (c.ser.write { value := b!"[", valueType := .arrayStart }).2
  obtain ⟨N, c', g1, g2, g3, _⟩ := callLoop_calls hT ms w w' { c.next.next with ser := s } e rs js (h4 s) hdepth (write_conv hs)
    (by dsimp only; rw [hp]; exact h)
  refine ⟨N, { c' with ser := (c'.ser.write { value := b!"]", valueType := .arrayEnd }).2 }, fun F hF => ?_, g2, ?_⟩
  · simp only [callFunctions, h1, h2, h3, ne_eq, not_true_eq_false, if_false]
    exact congrArg (fun q => Option.bind q fun r : Err × W × CallCtx =>
      some (r.1, r.2.1, { r.2.2 with ser := (r.2.2.ser.write { value := b!"]", valueType := .arrayEnd }).2 })) (g1 F F hF hF)
  · dsimp only
    rw [g3]
    simp only [JVal.docToks, JVal.toks, Ser.writeAll, writeAll_snd_append, s]
    rw [← write_names (a := .string) (b := .ascii) hs (.inl rfl) (.inr rfl),
      ← write_names (a := .string) (b := .ascii) (writeAll_conv (write_conv hs)) (.inl rfl) (.inr rfl)]

/-- What is returned are values of good shape. -/
theorem calls_good {T : CTable W} (hT : T.Proper) {p : POpts} {ctx : Bytes} {allow stop : Bool} (ms : List (Bytes × JVal)) :
    ∀ {w w' : W} {e : Err} {rs : List Exec} {js : List JVal}, T.calls p ctx allow stop ms w = some (e, w', rs, js) → ∀ j ∈ js, j.Good := by
  have hret : ∀ {R : Type} (r : Option (CType R)) (x : R), retValid r x → (∀ t, r = some t → t.Lawful) → ∀ j, encRet r x = some j → j.Good := by
    intro R r x hv hl j hj
    cases r with
    | none => simp [encRet] at hj
    | some t => exact t.good (hl t rfl) x (hv t rfl) j hj
  have hout : ∀ (f : CFn W), f.Proper → f.Lawful → ∀ p l v w o, f.outcome p l v w = some o → ∀ j, o.result = some j → j.Good := by
    intro f hp hl p l v w o h j hj
    cases f with
    | plain names arg ret f =>
      simp only [CFn.outcome, Option.bind_eq_bind, Option.bind_eq_some_iff] at h
      obtain ⟨r, _, h⟩ := h
      split at h
      · simp only [Option.some.injEq] at h; subst h; simp at hj
      · simp only [Option.some.injEq] at h; subst h; exact hret ret _ (hp w r.val) hl j hj
    | err names arg ret f =>
      simp only [CFn.outcome, Option.bind_eq_bind, Option.bind_eq_some_iff] at h
      obtain ⟨r, _, h⟩ := h
      split at h
      · simp only [Option.some.injEq] at h; subst h; simp at hj
      · simp only [Option.some.injEq] at h
        subst h
        dsimp only at hj
        split at hj
        · exact hret ret _ (hp w r.val).1 hl j hj
        · simp at hj
  induction ms with
  | nil =>
    intro w w' e rs js h
    simp only [CTable.calls, Option.some.injEq, Prod.mk.injEq] at h
    obtain ⟨rfl, rfl, rfl, rfl⟩ := h
    simp
  | cons m ms ih =>
    obtain ⟨name, v⟩ := m
    intro w w' e rs js h
    simp only [CTable.calls, Option.bind_eq_bind, Option.bind_eq_some_iff] at h
    obtain ⟨o, ho, h⟩ := h
    have hor : ∀ j ∈ o.result.toList, j.Good := by
      intro j hj
      simp only [Option.mem_toList] at hj
      simp only [CTable.member] at ho
      cases hl : T.lookup name with
      | none => rw [hl] at ho; simp only [Option.some.injEq] at ho; subst ho; simp at hj
      | some f =>
        rw [hl] at ho
        have hmem : f ∈ T.order := by
          simp only [CTable.lookup, Option.or_eq_some_iff] at hl
          rcases hl with h | ⟨_, h⟩ <;> exact List.mem_of_find?_eq_some h
        exact hout f (hT f hmem).1 (hT f hmem).2 _ _ _ _ _ ho j hj
    split at h
    · simp only [Option.some.injEq, Prod.mk.injEq] at h
      obtain ⟨rfl, rfl, rfl, rfl⟩ := h
      exact hor
    · simp only [Option.bind_eq_bind, Option.bind_eq_some_iff, Prod.exists, Option.some.injEq, Prod.mk.injEq] at h
      obtain ⟨e2, w2, rs2, js2, h, rfl, rfl, rfl, rfl⟩ := h
      intro j hj
      rcases List.mem_append.mp hj with hj | hj
      · exact hor j hj
      · exact ih h j hj

/-- **C55** (part). With a `DefaultCallFunctionContext`, the string of results is the text of one JSON array: of the values
returned by the functions called, in the order of the members. Functions that return nothing, were not found, could not
read their argument or set an error contribute nothing.
Missing: as for C31; and results nested more than 254 deep. -/
theorem C55_results_partial (T : CTable W) (hT : T.Proper) (o : Opts) (hn : o.newLines = false) (p : POpts)
    (ms : List (Bytes × JVal)) (text : Bytes) (hdoc : Doc (lenient o) (.obj ms) text) (hdepth : ∀ m ∈ ms, m.2.depth ≤ 65535)
    (pretty : Bool) (shift : Nat) (ctx : Bytes) (allow stop : Bool) (w w' : W) (e : Err) (rs : List Exec) (js : List JVal)
    (h : T.calls p ctx allow stop ms w = some (e, w', rs, js)) (hd : (JVal.arr js).depth ≤ 255) :
    ∃ N c', (∀ F, N ≤ F → callFunctions T.table F w { CallCtx.onString (Ctx.onText o p text) (userOpts pretty shift 0) with
        userContext := ctx, allowMissing := allow, stopOnFail := stop } = some (e, w', c')) ∧
      c'.list = rs ∧ Doc rfcBytes (.arr js) c'.results := by
  obtain ⟨N, c', h1, h2, h3⟩ := C31_calls_exact_partial T hT o hn p ms text hdoc hdepth
    { CallCtx.onString (Ctx.onText o p text) (userOpts pretty shift 0) with userContext := ctx, allowMissing := allow, stopOnFail := stop }
    rfl rfl w w' e rs js h
  refine ⟨N, c', h1, h2, ?_⟩
  have := written_text (.arr js) (good_arr (calls_good hT ms h)) pretty shift 0 (by omega) []
  simp only [CallCtx.results, h3]
  exact this

/-! ### An example -/

/-- A class keeping a list of strings: `bool push(std::string)`, with the alias `add`; `void clear()`; and
`std::string fail(bool, CallFunctionErrorContext &)`, which sets an error. Its super class has `std::string get()`, with
the alias `value`. -/
def exFns : CTable (List Bytes) :=
  .mk [.plain [b!"push", b!"add"] (.data (.string .scalar)) (some .bool) fun w x => (x :: w, true),
       .plain (R := Unit) [b!"clear"] (.void ()) none fun _ _ => ([], ()),
       .err [b!"fail"] (.data .bool) (some (.string .scalar)) fun w _ => (w, b!"x", [(.userDefinedErrors, b!"no")])]
    [.mk [.plain [b!"get", b!"value"] (.void ()) (some (.string .scalar)) fun w _ => (w, w.headD [])] []]

theorem exFns_proper : exFns.Proper := by
  intro f hf
  simp only [exFns, CTable.order, orders, List.reverse_cons, List.reverse_nil, List.nil_append, List.cons_append, List.append_nil,
    List.mem_cons, List.not_mem_nil, or_false] at hf
  rcases hf with rfl | rfl | rfl | rfl <;>
    (refine ⟨?_, ?_⟩ <;> simp only [CFn.Proper, CFn.Lawful, retValid] <;> intros <;> (try simp_all) <;> (try subst_vars) <;>
      simp [CType.Valid, CType.Lawful])

/-- `{"add":"u","nope":[1,{}],"fail":7,"value":{"a":[]},"fail":true,"push":2}`. -/
def exMembers : List (Bytes × JVal) :=
  [(b!"add", .str b!"u"), (b!"nope", .arr [.num b!"1", .obj []]), (b!"fail", .num b!"7"), (b!"value", .obj [(b!"a", .arr [])]),
   (b!"fail", .bool true), (b!"push", .num b!"2")]

/-- What is to happen. -/
theorem exCalls : exFns.calls {} b!"me" false false exMembers [] = some (.noError, [b!"2", b!"u"],
    [⟨b!"add", b!"me", .noError, [], []⟩, ⟨b!"nope", b!"me", .missingFunction, [], []⟩, ⟨b!"fail", b!"me", .failedToParseBoolean, [], []⟩,
     ⟨b!"value", b!"me", .noError, [], []⟩, ⟨b!"fail", b!"me", .userDefinedErrors, [], []⟩, ⟨b!"push", b!"me", .noError, [], []⟩],
    [.bool true, .str b!"u", .bool true]) := by
  rfl

/-- There is a text of the object, and its values are not deep. -/
theorem exMembers_text (o : Opts) : (∃ text, Doc (lenient o) (.obj exMembers) text ∧ text.length < 1000) ∧ ∀ m ∈ exMembers, m.2.depth ≤ 65535 := by
  have hg : (JVal.obj exMembers).Good := by
    have hq : ∀ s : Bytes, s.all (fun b => decide (b ≠ 34 ∧ b ≠ 92)) = true → Quotable s := by
      intro s hs
      induction s with
      | nil => exact .nil
      | cons b s ih =>
        simp only [List.all_cons, Bool.and_eq_true, decide_eq_true_eq] at hs
        exact .plain hs.1.1 hs.1.2 (ih hs.2)
    refine good_obj fun m hm => ?_
    simp only [exMembers, List.mem_cons, List.not_mem_nil, or_false] at hm
    have hnum : ∀ n : Bytes, n = b!"1" ∨ n = b!"2" ∨ n = b!"7" → (JVal.num n).Good := by
      rintro n (rfl | rfl | rfl)
      · exact good_int (I := i32) (v := 1) (by decide) (by decide) rfl
      · exact good_int (I := i32) (v := 2) (by decide) (by decide) rfl
      · exact good_int (I := i32) (v := 7) (by decide) (by decide) rfl
    rcases hm with rfl | rfl | rfl | rfl | rfl | rfl
    · exact ⟨hq _ (by decide), by decide, good_str (hq _ (by decide))⟩
    · refine ⟨hq _ (by decide), by decide, good_arr fun v hv => ?_⟩
      simp only [List.mem_cons, List.not_mem_nil, or_false] at hv
      rcases hv with rfl | rfl
      · exact hnum _ (.inl rfl)
      · exact good_obj (by simp)
    · exact ⟨hq _ (by decide), by decide, hnum _ (.inr (.inr rfl))⟩
    · refine ⟨hq _ (by decide), by decide, good_obj fun v hv => ?_⟩
      simp only [List.mem_cons, List.not_mem_nil, or_false] at hv
      subst hv
      exact ⟨hq _ (by decide), by decide, good_arr (by simp)⟩
    · exact ⟨hq _ (by decide), by decide, trivial, trivial⟩
    · exact ⟨hq _ (by decide), by decide, hnum _ (.inr (.inl rfl))⟩
  refine ⟨⟨_, doc_mono (rfcBytes_le o) (written_text _ hg false 2 0 (by decide) []), by decide +kernel⟩, by decide⟩

/-- The hypotheses of the theorems above are met. -/
example : ∃ text e w' rs js, Doc (lenient {}) (.obj exMembers) text ∧ (∀ m ∈ exMembers, m.2.depth ≤ 65535) ∧
    exFns.calls {} b!"me" false false exMembers [] = some (e, w', rs, js) ∧ (JVal.arr js).depth ≤ 255 ∧
    ∃ N c', (∀ F, N ≤ F → callFunctions exFns.table F [] { CallCtx.onString (Ctx.onText {} {} text) (userOpts false 2 0) with
        userContext := b!"me" } = some (e, w', c')) ∧ c'.list = rs ∧ Doc rfcBytes (.arr js) c'.results :=
  let ⟨⟨text, h1, _⟩, h2⟩ := exMembers_text {}
  ⟨text, _, _, _, _, h1, h2, exCalls, by decide,
    C55_results_partial exFns exFns_proper {} rfl {} exMembers text h1 h2 false 2 b!"me" false false _ _ _ _ _ exCalls (by decide)⟩

/-- The model run on a text. -/
example : (callFunctions exFns.table 60 []
      (CallCtx.onString (Ctx.onText {} {} b!"{\"add\":\"u\",\"nope\":[1,{}],\"fail\":7,\"value\":{\"a\":[]}}") (userOpts false 2 0))).map
      (fun r => (r.1, r.2.1, r.2.2.list.map fun x => (x.name, x.error))) =
    some (.noError, [b!"u"], [(b!"add", .noError), (b!"nope", .missingFunction), (b!"fail", .failedToParseBoolean), (b!"value", .noError)]) := by
  decide +kernel

/-! ### Where it is false -/

/-- A class with a function `f` that sets `MissingFunction`, whose super class has a function `f` too. Each call is
noted in the container. -/
def twiceFns : CTable (List Bytes) :=
  .mk [.err (R := Unit) [b!"f"] (.void ()) none fun w _ => (w ++ [b!"derived"], (), [(.missingFunction, [])])]
    [.mk [.plain (R := Unit) [b!"f"] (.data .bool) none fun w _ => (w ++ [b!"base"], ())] []]

/-- **C31** is false of functions that set `MissingFunction`: for the one member `f` two functions are called, and the
record says nothing of the error of the first. -/
theorem C31_false_called_twice :
    (callFunctions twiceFns.table 60 [] (CallCtx.onString (Ctx.onText {} {} b!"{\"f\":true}") (userOpts false 2 0))).map
      (fun r => (r.1, r.2.1, r.2.2.list.map fun x => (x.name, x.error))) =
    some (.noError, [b!"derived", b!"base"], [(b!"f", .noError)]) := by
  decide +kernel

/-- `goToEndOfScope` leaves a scope whose counter has wrapped. -/
theorem go_wraps_on (m : Nat) : ∀ (k : Nat) (t : Tz) (tok : Token) (rest : List Tok), t.scopes = [] →
    k + m = 65536 → 1 ≤ k → Delivers t (List.replicate m ⟨[], .ascii, b!"[", .arrayStart⟩ ++ rest) →
    ∃ t' tok', (∀ i, m < i → Tz.goToEndOfScope i (t.sc [⟨.arrayStart, k % 65536⟩]) tok = (.noError, t'.sc [⟨.arrayStart, 0⟩], tok')) ∧
      t'.scopes = [] ∧ Delivers t' rest := by
  induction m with
  | zero =>
    intro k t tok rest hs hk _ hd
    refine ⟨t, tok, fun i hi => ?_, hs, hd⟩
    obtain ⟨i, rfl⟩ : ∃ j, i = j + 1 := ⟨i - 1, by omega⟩
    rw [show k % 65536 = 0 by omega]
    simp [Tz.goToEndOfScope, Tz.sc]
  | succ m ih =>
    intro k t tok rest hs hk hk1 hd
    obtain ⟨t1, tok1, h1, h2, h3⟩ := hd
    have hv : tok1.valueType = .arrayStart := by
      rw [show tok1.valueType = tok1.tok.valueType from rfl, h2]
    have hk' : k % 65536 = k := by omega
    obtain ⟨h4, h5⟩ := nextToken_sc t [⟨.arrayStart, k % 65536⟩] tok hs (by rw [hk']; simp [Tz.sc, Tz.ended]; omega) (h1 tok)
    obtain ⟨t', tok', g1, g2, g3⟩ := ih (k + 1) t1 tok1 rest h5 (by omega) (by omega) h3
    refine ⟨t', tok', fun i hi => ?_, g2, g3⟩
    obtain ⟨i, rfl⟩ : ∃ j, i = j + 1 := ⟨i - 1, by omega⟩
    rw [Tz.goToEndOfScope, show (t.sc [⟨.arrayStart, k % 65536⟩]).scopes = [⟨.arrayStart, k % 65536⟩] from rfl]
    simp only [hk', show k ≠ 0 by omega, if_false]
    rw [hk'] at h4
    have : handleScope [⟨Ty.arrayStart, k⟩] tok1.valueType = [⟨.arrayStart, (k + 1) % 65536⟩] := by
      simp [handleScope, Scope.handleType, hv, inc16]
    rw [h4, if_pos rfl, this]
    exact g1 i (by omega)

/-- A table without functions only adds records. -/
theorem empty_member {n : Nat} {w w' : W} {c c' : CallCtx} {s : Option Err} (h : callMember (.mk [] []) n w c = some (s, w', c')) :
    c'.list.length = c.list.length + 1 := by
  have hf : FnTable.find (.mk [] []) n w c.entered = some (.missingFunction, w, c.entered) := rfl
  have hml : ∀ (f : Exec → Exec) (l : List Exec), (modifyLast f l).length = l.length := by
    intro f l
    induction l with
    | nil => rfl
    | cons x l ih =>
      cases l with
      | nil => rfl
      | cons y l => simp only [modifyLast, List.length_cons] at ih ⊢; omega
  simp only [CallCtx.entered] at hf
  simp only [callMember] at h
  rw [hf] at h
  simp only [Option.bind_eq_bind, Option.bind_some, ne_eq, reduceCtorEq, not_false_eq_true, if_true] at h
  split at h
  · simp only [Option.bind_some, Option.bind_eq_some_iff] at h
    obtain ⟨pc, _, tz, _, h⟩ := h
    repeat' split at h
    all_goals
      simp only [Option.some.injEq, Prod.mk.injEq] at h
      obtain ⟨_, _, rfl⟩ := h
      simp [CallCtx.next, CallCtx.addError, hml]
  · simp at h

theorem empty_loop {F : Nat} (n : Nat) : ∀ {w w' : W} {c c' : CallCtx} {e : Err}, callLoop (.mk [] []) F n w c = some (e, w', c') →
    c.list.length ≤ c'.list.length ∧ (c.pc.token.valueType ≠ .objectEnd → c.list.length < c'.list.length) := by
  induction n with
  | zero => intro w w' c c' e h; simp [callLoop] at h
  | succ n ih =>
    intro w w' c c' e h
    by_cases ht : c.pc.token.valueType = .objectEnd
    · simp only [callLoop, ht, if_true, Option.some.injEq, Prod.mk.injEq] at h
      obtain ⟨_, _, rfl⟩ := h
      simp [ht]
    · simp only [callLoop, ht, if_false, Option.bind_eq_bind, Option.bind_eq_some_iff, Prod.exists] at h
      obtain ⟨s, w1, c1, h1, h⟩ := h
      have := empty_member h1
      cases s with
      | some e' =>
        simp only [Option.some.injEq, Prod.mk.injEq] at h
        obtain ⟨_, _, rfl⟩ := h
        omega
      | none =>
        have := (ih h).1
        omega

/-- **C31** is false of values nested deeper: an array of more than 65536 levels as the value of the only member. Its end
is not found, and the rest of it is taken for further members. If `callFunctions` ends at all, there is more than one
record. (There are no functions.) -/
theorem C31_false_at_depth_65536 (d : Nat) (name text : Bytes) (o : Opts) (hn : o.newLines = false) (p : POpts)
    (hdoc : Doc (lenient o) (.obj [(name, deep (65536 + d))]) text) (c : CallCtx) (hc : c.pc = Ctx.onText o p text)
    (hl : c.list = []) (hstop : c.stopOnFail = false) (w w' : W) (F : Nat) (e : Err) (c' : CallCtx)
    (h : callFunctions (.mk [] []) F w c = some (e, w', c')) : 2 ≤ c'.list.length := by
  obtain ⟨h1, h2, h3, h4⟩ := start_at hn p hdoc hc
  simp only [callFunctions, h1, h2, h3, ne_eq, not_true_eq_false, if_false, Option.bind_eq_bind, Option.bind_eq_some_iff, Prod.exists,
    Option.some.injEq, Prod.mk.injEq] at h
  obtain ⟨e1, w1, c1, h5, rfl, rfl, rfl⟩ := h
  generalize (c.next.next.ser.write { value := b!"[", valueType := .arrayStart }).2 = s at h5
  have hat := h4 s
  generalize hC : ({ c.next.next with ser := s } : CallCtx) = C at hat h5
  have hCl : C.list = [] := by rw [← hC]; exact hl
  have hCs : C.stopOnFail = false := by rw [← hC]; exact hstop
  -- the tokens of the value
  obtain ⟨r, hr⟩ := deep_toks 65535 d
  have htoks : memberToks [(name, deep (65536 + d))] ++ [objEndTok] = ⟨name, .string, b!"[", .arrayStart⟩ ::
      (List.replicate 65535 ⟨[], .ascii, b!"[", .arrayStart⟩ ++ (⟨[], .ascii, b!"[", .arrayStart⟩ :: (r ++ [⟨[], .ascii, b!"]", .arrayEnd⟩] ++ [objEndTok]))) := by
    rw [show 65536 + d = (65535 + d) + 1 by omega]
    simp only [memberToks, deep, JVal.toks, elemToks, hr, List.append_nil, List.cons_append, List.append_assoc, List.replicate_succ' (n := 65535),
      List.nil_append]
  obtain ⟨g1, k, ks, g2, g3, g4⟩ := hat.stream
  rw [htoks] at g2
  simp only [List.cons.injEq] at g2
  obtain ⟨rfl, rfl⟩ := g2
  have hv : C.pc.token.valueType = .arrayStart := by rw [show C.pc.token.valueType = C.pc.token.tok.valueType from rfl, g3]
  obtain ⟨t', tok', w1', w2', w3'⟩ := go_wraps_on 65535 1 C.pc.tz C.pc.token _ hat.scopes (by omega) (by omega) g4
  have hends : EndsBefore (⟨[], .ascii, b!"[", .arrayStart⟩ :: (r ++ [⟨[], .ascii, b!"]", .arrayEnd⟩] ++ [objEndTok])) C.entered.pc.tz C.entered.pc.token := by
    refine ⟨t', .arrayStart, tok', 65536, w2', w3', fun n hn => ?_⟩
    rw [show C.entered.pc.tz = C.pc.tz.sc [⟨.arrayStart, 1 % 65536⟩] by
      simp only [CallCtx.entered, hv, Tz.pushScope, Tz.sc, hat.scopes]; rfl]
    exact w1' n (by omega)
  obtain ⟨t, tok, N, t1, t2, _, _, t4⟩ := callMember_eq (T := .mk [] []) (w := w) (w' := w) (c := C) (c2 := C.entered) (e := .missingFunction)
    (pre := C.list) (x := { name := C.pc.token.name.bytes, context := C.userContext }) rfl rfl rfl (.inr g1) hends
  cases F with
  | zero => simp [callLoop] at h5
  | succ n =>
    simp only [callLoop, hv, reduceCtorEq, if_false, Option.bind_eq_bind, Option.bind_eq_some_iff, Prod.exists] at h5
    obtain ⟨s1, w2, c2, hm, h5⟩ := h5
    have := t4 (n + 1) _ rfl hm
    rw [show C.entered.stopOnFail = false from hCs] at this
    simp only [Bool.false_eq_true, false_and, if_false, Prod.mk.injEq] at this
    obtain ⟨rfl, rfl, rfl⟩ := this
    obtain ⟨t5, tok5, q1, q2, q3⟩ := t2
    have := (empty_loop n h5).2 (by
      simp only [CallCtx.next, Ctx.next, CallCtx.behind, q1]
      rw [show tok5.valueType = tok5.tok.valueType from rfl, q2]
      simp)
    simp only [CallCtx.next, CallCtx.behind, hCl, List.nil_append, List.length_cons, List.length_nil] at this
    dsimp only
    omega

/-- There are such texts. -/
example : ∃ text, Doc (lenient {}) (.obj [(b!"f", deep (65536 + 7))]) text := by
  have ht : ∀ d, ∃ b, Text rfc (deep d) b := by
    intro d
    induction d with
    | zero => exact ⟨_, .arrEmpty (w := []) (by simp [rfc, Ws])⟩
    | succ d ih =>
      obtain ⟨b, hb⟩ := ih
      exact ⟨_, .arr (.one (w := []) (w' := []) (by simp [rfc, Ws]) hb (by simp [rfc, Ws]))⟩
  obtain ⟨b, hb⟩ := ht (65536 + 7)
  have : Text rfc (.obj [(b!"f", deep (65536 + 7))]) _ := .obj (.one (w1 := []) (w2 := []) (w3 := []) (w4 := []) (by simp [rfc, Ws])
    (.plain (c := 102) (by decide) (by decide) (by decide) .nil) (by simp [rfc, Ws]) (by simp [rfc, Ws]) hb (by simp [rfc, Ws]))
  exact ⟨_, doc_mono (rfc_le {}) ⟨[], _, [], by simp [rfc, Ws], this, by simp [rfc, Ws], rfl⟩⟩

end JsonStruct
