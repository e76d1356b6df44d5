import Verif.Lemmas.Own
import Verif.Props.Beginning
import Verif.Props.Layout
import Verif.Props.Strict

/-
C88: type handlers that users write themselves are on a par with the library's. A handler is any program that looks at the token, fetches the next one,
calls the handlers of other types and loops over the tokens (Model/Own); `t.PassesOn` says of a type that none of the handlers in it hides an error (Spec/Own).
-/

namespace JsonStruct

theorem own_parseTo_sound (t : OType T) (ht : t.NoMap) (hp : t.PassesOn) (old : T) (c : Ctx) (hc : c.Sane) :
    ∃ r, (∀ n, c.left < n → parseTo t.handler n old c = some r) ∧ (r.1 = .noError → c.next.error = .noError ∧ c.next.Acc r.2.2) := by
  simp only [parseTo]
  by_cases hne : c.next.error = .noError
  · have hlt := next_left hc hne
    obtain ⟨r, g1, g2⟩ := sound_map (t.sound ht hp) (old := old) (next_sane hc) (fun r => (r.1, r.2.1, { r.2.2 with error := r.1 }))
      fun r he => ⟨he, rfl, rfl⟩
    exact ⟨r, fun n hn => by rw [if_neg (by simp [hne])]; exact g1 n (by omega), fun h => ⟨hne, g2 h⟩⟩
  · exact ⟨(c.next.error, old, c.next), fun n _ => by rw [if_pos hne], fun h => absurd h hne⟩

theorem own_text_sound (t : OType T) (ht : t.NoMap) (hp : t.PassesOn) (o : Opts) (p : POpts) (text : Bytes) (old : T) :
    ∃ r, ∀ n, text.length < n → parseTo t.handler n old (Ctx.onText o p text) = some r := by
  have hs : (Ctx.onText o p text).Sane := ⟨ok_start o [text], rfl⟩
  obtain ⟨r, g1, _⟩ := own_parseTo_sound t ht hp old _ hs
  refine ⟨r, fun n hn => g1 n ?_⟩
  simpa [Ctx.left, Ctx.onText, Tz.addData, Tz.new, Tz.avail, Tz.pend] using hn

theorem own_parseTo_follow {S : Follow} (t : OType T) (ht : t.NoMap) (hp : t.PassesOn) (n : Nat) (old : T) (c c' : Ctx) (hc : S.C c c') :
    S.Out (parseTo t.handler n old c) (parseTo t.handler n old c') := by
  simp only [parseTo]
  exact enter_follow (f := fun c => (t.handler.to n old c).map fun r => (r.1, r.2.1, { r.2.2 with error := r.1 })) hc fun hn =>
    (t.follow ht hp n old _ _ hn).mapSet id

/-! ### Handlers in the repository -/

/-- The handler in examples/01 hides no error, for any array size and any type of elements that has the property. -/
theorem moduleList_passesOn (N : Nat) (t : OType M) (ht : t.PassesOn) : (moduleList N t).PassesOn := by
  have hend : ∀ e (v : List M × Nat) tok, (moduleListTo.moduleListEnd e v tok).PassesOn ∧
      (e ≠ .noError → ∃ e', e' ≠ .noError ∧ (moduleListTo.moduleListEnd e v tok).Fails e') := by
    intro e v tok
    unfold moduleListTo.moduleListEnd
    split
    · exact ⟨trivial, fun _ => ⟨_, by decide, rfl⟩⟩
    · exact ⟨trivial, fun h => ⟨_, h, rfl⟩⟩
  intro old tok
  unfold moduleListTo
  split
  · trivial
  · refine fun e tok => ?_
    split
    · exact hend e old tok
    · beta_reduce
      split
      · exact ⟨trivial, fun h => ⟨_, h, rfl⟩⟩
      · rename_i he
        refine ⟨⟨fun s tok => ?_, fun e s tok => ?_⟩, fun h => absurd h he⟩
        · beta_reduce
          split
          · trivial
          · refine ⟨ht, fun e v tok => ?_⟩
            simp only [OProg.PassesOn, OProg.Fails]
            split
            · exact ⟨trivial, fun _ => rfl⟩
            · rename_i he
              refine ⟨?_, fun h => absurd h he⟩
              split
              · refine fun e tok => ?_
                beta_reduce
                split
                · exact ⟨trivial, fun _ => ⟨_, by decide, rfl⟩⟩
                · exact ⟨trivial, fun h => ⟨_, h, rfl⟩⟩
              · trivial
        · beta_reduce
          split
          · exact ⟨trivial, fun _ => rfl⟩
          · rename_i he
            exact ⟨(hend e _ tok).1, fun h => absurd h he⟩

theorem moduleList_noMap (N : Nat) (t : OType M) (ht : t.NoMap) : (moduleList N t).NoMap := by
  have hend : ∀ e (v : List M × Nat) tok, (moduleListTo.moduleListEnd e v tok).NoMap := by
    intro e v tok
    unfold moduleListTo.moduleListEnd
    split <;> trivial
  intro old tok
  unfold moduleListTo
  split
  · trivial
  · refine fun e tok => ?_
    split
    · exact hend e old tok
    · beta_reduce
      split
      · trivial
      · refine ⟨fun s tok => ?_, fun e s tok => ?_⟩
        · beta_reduce
          split
          · trivial
          · refine ⟨ht, fun e v tok => ?_⟩
            simp only [OProg.NoMap]
            split
            · trivial
            · split
              · refine fun e tok => ?_
                beta_reduce
                split <;> trivial
              · trivial
        · beta_reduce
          split
          · trivial
          · exact hend e _ tok

/-- So does the one in examples/08 and 09. -/
theorem vec3_passesOn (t : OType M) (ht : t.PassesOn) : (vec3 t).PassesOn := fun _ _ => ⟨ht, fun _ _ _ => ⟨trivial, fun _ => rfl⟩⟩
theorem vec3_noMap (t : OType M) (ht : t.NoMap) : (vec3 t).NoMap := fun _ _ => ⟨ht, fun _ _ _ => trivial⟩
/-- And the one in the README. -/
theorem readmeUint_passesOn : readmeUint.PassesOn := fun _ _ => trivial
theorem readmeUint_noMap : readmeUint.NoMap := fun _ _ => trivial

/-- A struct with members of three types with handlers of their own, one of them within another: `struct { uint32_t a; ModuleList vec; std::optional<Vec3<int>> d; }`, where the
modules of the list are `std::vector<Vec3<int>>`, and there is room for two of them. -/
def exOwn : OType (Int × (List (List (List Int)) × Nat) × Option (List Int)) :=
  .struct (0, ([[], []], 0), none) (.mk
    (.cons [b!"a"] readmeUint (·.1) (fun x t => (x, t.2.1, t.2.2))
    (.cons [b!"vec"] (moduleList 2 (.vector (vec3 (.lib (.int i32))))) (·.2.1) (fun x t => (t.1, x, t.2.2))
    (.cons [b!"d"] (.stdOptional (vec3 (.lib (.int i32)))) (·.2.2) (fun x t => (t.1, t.2.1, x)) .nil))) .nil)

theorem exOwn_passesOn : exOwn.PassesOn :=
  ⟨⟨readmeUint_passesOn, moduleList_passesOn _ _ (vec3_passesOn _ trivial), vec3_passesOn _ trivial, trivial⟩, trivial⟩

theorem exOwn_noMap : exOwn.NoMap :=
  ⟨⟨readmeUint_noMap, moduleList_noMap _ _ (vec3_noMap _ trivial), vec3_noMap _ trivial, trivial⟩, trivial⟩

set_option synthInstance.maxSize 1000 in
/-- Reading ends with the value, or with an error of one of these handlers; one array too many is an error, too. -/
example :
    (parseTo exOwn.handler 60 (0, ([[], []], 0), none) (Ctx.onText {} {} b!"{\"vec\":[[[1,2,3],[4,5,6]]],\"a\":7,\"d\":[8,9,10]}")).map (fun r => (r.1, r.2.1)) =
      some (.noError, 7, ([[[1, 2, 3], [4, 5, 6]], []], 1), some [8, 9, 10]) ∧
    (parseTo exOwn.handler 60 (0, ([[], []], 0), none) (Ctx.onText {} {} b!"{\"vec\":[[[1,2]]],\"a\":7}")).map (·.1) = some .failedToParseInt ∧
    (parseTo exOwn.handler 60 (0, ([[], []], 0), none) (Ctx.onText {} {} b!"{\"vec\":[[],[],[]],\"a\":7}")).map (·.1) = some .expectedArrayEnd := by
  decide +kernel

/-! ### Reading ends -/

/-- **C88**, `_partial`: no maps (C57 is false for them). A tokenizer that was used in any way; a type with any handlers of users that hide no error. `parseTo` ends: there is
one outcome, reached with any bound on its loops above the number of bytes handed over. -/
theorem C88_ends_partial (t : OType T) (ht : t.NoMap) (hp : t.PassesOn) (o : Opts) (script : List (List Bytes)) (ops : List Op)
    (hv : ∀ op ∈ ops, op.valid) (p : POpts) (old : T) :
    let w := World.run o script ops
    ∃ r, ∀ n, w.supplied < n → parseTo t.handler n old (w.ctx p) = some r := by
  intro w
  obtain ⟨hs, hl⟩ := world_sane o script ops hv p
  obtain ⟨r, g1, _⟩ := own_parseTo_sound t ht hp old _ hs
  exact ⟨r, fun n hn => g1 n (Nat.lt_of_le_of_lt hl hn)⟩

/-- A handler with a loop that does not look at errors: it takes all tokens up to one that is a closing bracket. -/
def hideInLoop : OType Nat :=
  .own false 0 (fun _ _ => .each 0 (fun s tok => .ret .noError (decide (tok.valueType ≠ .arrayEnd), s + 1)) fun _ s _ => .ret .noError s) fun _ _ _ => none

/-! ### Success is success -/

/-- **C88**, `_partial`: no maps (C56 is false for them). If `parseTo` returns `NoError`, then its first call of `nextToken`, and every call after it up to the state in which
the tokenizer was left, returned `NoError`. -/
theorem C88_success_partial (t : OType T) (ht : t.NoMap) (hp : t.PassesOn) (o : Opts) (script : List (List Bytes)) (ops : List Op)
    (hv : ∀ op ∈ ops, op.valid) (p : POpts) (old : T) (n : Nat) (v : T) (c' : Ctx) :
    let w := World.run o script ops
    w.supplied < n → parseTo t.handler n old (w.ctx p) = some (.noError, v, c') →
    ∃ tz k, w.tz.nextToken w.tok = (.noError, tz, k) ∧ Accepted tz k c'.tz c'.token := by
  intro w hn h
  obtain ⟨hs, hl⟩ := world_sane o script ops hv p
  obtain ⟨r, g1, g2⟩ := own_parseTo_sound t ht hp old _ hs
  have := g1 n (Nat.lt_of_le_of_lt hl hn)
  rw [show parseTo t.handler n old _ = _ from h] at this
  cases this
  obtain ⟨a, b⟩ := g2 rfl
  exact ⟨_, _, show w.tz.nextToken w.tok = (.noError, (Ctx.next (w.ctx p)).tz, (Ctx.next (w.ctx p)).token) by rw [← a]; rfl, b⟩

set_option synthInstance.maxSize 1000 in
/-- The hypotheses are met: handlers of users in a struct, and data in two buffers. -/
example : (∀ op ∈ [Op.addData b!"{\"a\":1,\"ve", .addData b!"c\":[[[1,2,34]]]}"], op.valid) ∧
    (parseTo exOwn.handler 60 (0, ([[], []], 0), none) ((World.run {} [] [.addData b!"{\"a\":1,\"ve", .addData b!"c\":[[[1,2,34]]]}"]).ctx {})).map (fun r => (r.1, r.2.1)) =
      some (.noError, 1, ([[[1, 2, 34]], []], 1), none) :=
  ⟨by simp [Op.valid], by decide +kernel⟩

/-- It is false of a handler that hides an error: the text breaks off, and reading it is a success. `t.PassesOn` is false of the handler. -/
theorem C88_false_hidden :
    (parseTo hideInLoop.handler 10 0 (Ctx.onText {} {} b!"[1,")).map (fun r => (r.1, r.2.1)) = some (.noError, 2) ∧
    (tokenize {} b!"[1,").2 = .needMoreData ∧ ¬hideInLoop.PassesOn := by
  refine ⟨by decide +kernel, by decide +kernel, fun h => ?_⟩
  have := ((h 0 {}).2 .needMoreData 0 {}).2 (by decide)
  exact absurd (show Err.noError = .needMoreData from this) (by decide)

/-! ### What was read stays read, and the tokens are all that matters -/

/-- **C88**, `_partial`: no maps (C78 has a condition on them). What is read with success from the beginning of a text is read from the whole text, whatever follows. -/
theorem C88_values_stay_partial (t : OType T) (ht : t.NoMap) (hp : t.PassesOn) (o : Opts) (p : POpts) (beginning more : Bytes) (old : T) {r : Res T}
    (h : Parses t.handler o p old beginning r) (he : r.err = .noError) : Parses t.handler o p old (beginning ++ more) r := by
  obtain ⟨N, c, h1, h2, h3, h4⟩ := h
  rw [he] at h1
  obtain ⟨x, hx⟩ := own_text_sound t ht hp o p (beginning ++ more) old
  obtain ⟨c', g, hf, -⟩ := own_parseTo_follow (S := followText o beginning more) t ht hp (max N ((beginning ++ more).length + 1)) old (Ctx.onText o p beginning)
    (Ctx.onText o p (beginning ++ more)) ⟨⟨rfl, rfl, rfl, rfl, rfl, rfl⟩, samePlace_start o beginning more _⟩ r.val c (h1 _ (Nat.le_max_left _ _))
  have hx' := hx _ (Nat.lt_of_lt_of_le (Nat.lt_succ_self _) (Nat.le_max_right N _))
  rw [g] at hx'
  cases hx'
  refine ⟨(beginning ++ more).length + 1, c', fun n hn => by rw [he]; exact hx n hn, ?_, ?_, ?_⟩
  · rw [← hf.missing, h2]
  · rw [← hf.unassigned, h3]
  · rw [← hf.error, h4]

/-- A value read from a text. -/
theorem own_reads (t : OType T) (ht : t.NoMap) (hp : t.PassesOn) {o : Opts} {p : POpts} {text : Bytes} {old : T} {n : Nat} (hn : text.length < n) {e : Err} {v : T} {c : Ctx}
    (h : parseTo t.handler n old (Ctx.onText o p text) = some (e, v, c)) (he : c.error = e) : Parses t.handler o p old text ⟨e, v, c.missing, c.unassigned⟩ := by
  obtain ⟨r, hr⟩ := own_text_sound t ht hp o p text old
  have := hr n hn
  rw [h] at this
  cases this
  exact ⟨text.length + 1, c, fun n hn => hr n hn, rfl, rfl, he⟩

set_option synthInstance.maxSize 1000 in
/-- `{"a":1}` and anything behind it. -/
example (more : Bytes) : Parses exOwn.handler {} {} (0, ([[], []], 0), none) (b!"{\"a\":1}" ++ more) ⟨.noError, (1, ([[], []], 0), none), [], [b!"vec"]⟩ := by
  refine C88_values_stay_partial exOwn exOwn_noMap exOwn_passesOn {} {} _ more _ ?_ rfl
  have h : ((parseTo exOwn.handler 8 (0, ([[], []], 0), none) (Ctx.onText {} {} b!"{\"a\":1}")).map fun r => (r.1, r.2.1, r.2.2.missing, r.2.2.unassigned, r.2.2.error)) =
    some (.noError, (1, ([[], []], 0), none), [], [b!"vec"], .noError) := by decide +kernel
  rw [Option.map_eq_some_iff] at h
  obtain ⟨⟨e, v, c⟩, h1, h2⟩ := h
  simp only [Prod.mk.injEq] at h2
  obtain ⟨rfl, rfl, h3, h4, h5⟩ := h2
  have := own_reads exOwn exOwn_noMap exOwn_passesOn (by decide) h1 h5
  rwa [h3, h4] at this

/-- **C88**, for two tokenizers all of whose calls give the same answers: `parseTo` has the same outcome, for every type and any handlers of users, whether they hide errors
or not. -/
theorem C88_all_calls (t : OType T) (c c' : Ctx) (hs : c.SameSettings c') (ha : AlikeForever c.tz c.token c'.tz c'.token) (n : Nat) (old : T) :
    outcome (parseTo t.handler n old c) = outcome (parseTo t.handler n old c') := by
  have h1 : Likeness.Opt simForever.Out simForever (parseTo t.handler n old c) (parseTo t.handler n old c') := by
    simp only [parseTo]
    exact enter_alike (f := fun c => (t.handler.to n old c).map fun r => (r.1, r.2.1, { r.2.2 with error := r.1 }))
      (show simForever.C c c' from ⟨hs.flags, ha⟩) fun hn => (t.alike trivial trivial n old _ _ hn).map fun _ _ h => h.setErr id
  rcases h1 with ⟨e, e'⟩ | ⟨x, y, e, e', ho⟩
  · rw [e, e']
  · rw [e, e']
    simp only [outcome, Option.map_some, ho.err, ho.after.1.missing, ho.after.1.unassigned, ho.vals trivial]

/-- **C88**. Two inputs, each in any number of buffers, that give the same tokens and have nothing wrong but that they end: every type, with any handlers of users, is read in the same way. -/
theorem C88_same_tokens_no_error (t : OType T) (o o' : Opts) (p : POpts) (bs bs' : List Bytes)
    (h : tokenizeBufs o bs = tokenizeBufs o' bs') (he : (tokenizeBufs o bs).2 = .needMoreData) (n : Nat) (old : T) :
    outcome (parseTo t.handler n old (Ctx.onBuffers o p bs [])) = outcome (parseTo t.handler n old (Ctx.onBuffers o' p bs' [])) :=
  C88_all_calls t _ _ (onBuffers_same o o' p bs bs' [] [])
    (forever_of_alike (onBuffers_plain o p bs [] (by simp)) (onBuffers_plain o' p bs' [] (by simp)) (texts_alike o o' p bs bs' h) _ he) n old

/-- So the white space in a JSON text does not matter. -/
theorem C88_white_space (t : OType T) (o o' : Opts) (hn : o.newLines = false) (hn' : o'.newLines = false) (p : POpts) (v : JVal)
    (hv : v.isContainer = true) (x x' : Bytes) (hx : Doc rfc v x) (hx' : Doc rfc v x') (n : Nat) (old : T) :
    outcome (parseTo t.handler n old (Ctx.onText o p x)) = outcome (parseTo t.handler n old (Ctx.onText o' p x')) := by
  have h1 := C02_document_tokenized o hn v x hv hx
  have h2 := C02_document_tokenized o' hn' v x' hv hx'
  rw [onText_buffers, onText_buffers]
  exact C88_same_tokens_no_error t o o' p [x] [x'] (h1.trans h2.symm) (congrArg Prod.snd h1) n old

/-- **C88**, `_partial`: no maps. Two inputs that give the same tokens up to the same error, whatever it is: what is read with success from one is read from the other. -/
theorem C88_same_tokens_partial (t : OType T) (ht : t.NoMap) (hp : t.PassesOn) (o o' : Opts) (p : POpts) (bs bs' : List Bytes)
    (h : tokenizeBufs o bs = tokenizeBufs o' bs') (n : Nat) (old v : T) (m u : List Bytes) :
    outcome (parseTo t.handler n old (Ctx.onBuffers o p bs [])) = some (.noError, v, m, u) ↔
      outcome (parseTo t.handler n old (Ctx.onBuffers o' p bs' [])) = some (.noError, v, m, u) := by
  have one : ∀ o o' bs bs', tokenizeBufs o bs = tokenizeBufs o' bs' → outcome (parseTo t.handler n old (Ctx.onBuffers o p bs [])) = some (.noError, v, m, u) →
      outcome (parseTo t.handler n old (Ctx.onBuffers o' p bs' [])) = some (.noError, v, m, u) := by
    intro o o' bs bs' h h1
    rw [outcome, Option.map_eq_some_iff] at h1
    obtain ⟨⟨e, w, d⟩, h2, h3⟩ := h1
    simp only [Prod.mk.injEq] at h3
    obtain ⟨rfl, rfl, rfl, rfl⟩ := h3
    obtain ⟨d', g1, g2, -⟩ := own_parseTo_follow (S := followAlike) t ht hp n old (Ctx.onBuffers o p bs []) (Ctx.onBuffers o' p bs' [])
      ⟨(onBuffers_same o o' p bs bs' [] []).flags, texts_alike o o' p bs bs' h⟩ w d h2
    simp only [outcome, g1, Option.map_some, g2.missing, g2.unassigned]
  exact ⟨one o o' bs bs' h, one o' o bs' bs h.symm⟩

/-- A text in one buffer and in three; and two that are wrong at the same place. -/
example : tokenizeBufs {} [b!"{\"a\":1,\"vec\":[[[1,2,34]]]}"] = tokenizeBufs {} [b!"{\"a\":1,\"ve", b!"c\":[[[1,2,3", b!"4]]]}"] ∧
    (tokenizeBufs {} [b!"{\"a\":1,\"vec\":[[[1,2,34]]]}"]).2 = .needMoreData ∧
    tokenizeBufs {} [b!"{\"a\":1}}"] = tokenizeBufs {} [b!" {\"a\": 1", b!"} }"] := by
  decide +kernel

/-! ### Strict options -/

/-- **C88**, the options of the context (C87): every type, maps included, with any handlers of users that hide no error. -/
theorem C88_strict (t : OType T) (ht : t.PassesOn) (p : POpts) (n : Nat) (old : T) (c : Ctx) (hc : c.Permits) :
    (∀ e v d, parseTo t.handler n old c = some (e, v, d) →
      c.missing <+: d.missing ∧ c.unassigned <+: d.unassigned ∧
      (¬ Offends p c d → parseTo t.handler n old (c.withOpts p) = some (e, v, c.since p d)) ∧
      (Offends p c d → ∃ e' v' d', parseTo t.handler n old (c.withOpts p) = some (e', v', d') ∧ StrictErr p e')) ∧
    (∀ v d', parseTo t.handler n old (c.withOpts p) = some (.noError, v, d') →
      ∃ d, parseTo t.handler n old c = some (.noError, v, d) ∧ ¬ Offends p c d ∧ d' = c.since p d) := by
  have hself : c.since p c = c.withOpts p := by
    simp only [Ctx.since, ite_self]
    rfl
  have key : TwoRuns p c (parseTo t.handler) := by
    intro n old c hc
    unfold parseTo
    exact enter_two_runs hc fun d hd => (t.runs ht n old d hd).stored
  replace key := key n old c hc
  rw [hself] at key
  refine ⟨fun e v d h => ⟨(key.grows _ h).missing, (key.grows _ h).unassigned, fun ho => ?_, fun ho => ?_⟩, fun v d' h => ?_⟩
  · rcases key.split with ⟨h1, _⟩ | ⟨_, _, _, h3⟩
    · rw [h1, h]; rfl
    · exact absurd (h3 _ h) ho
  · rcases key.split with ⟨_, h2⟩ | ⟨⟨e', v', d'⟩, h1, h2, _⟩
    · exact absurd ho (h2 _ h)
    · exact ⟨e', v', d', h1, h2⟩
  · rcases key.split with ⟨h1, h2⟩ | ⟨⟨e', v', d''⟩, h1, h2, _⟩
    · rw [h1, Option.map_eq_some_iff] at h
      obtain ⟨⟨e, v1, d⟩, h3, h4⟩ := h
      simp only [RunEnd.put, Prod.mk.injEq] at h4
      obtain ⟨rfl, rfl, rfl⟩ := h4
      exact ⟨d, h3, h2 _ h3, rfl⟩
    · rw [h1] at h
      simp only [Option.some.injEq, Prod.mk.injEq] at h
      exact absurd h.1 (strictErr_ne h2)

/-- A list of structs, read by the handler of examples/01: `[{"c":3,"x":1,"u":null},{"b":1}]`. -/
def exOwnList : OType (List (Int × Int × Int) × Nat) := moduleList 3 (.lib (.struct (0, 0, 0) exS))

set_option synthInstance.maxSize 1000 in
/-- The options are offended one by one. -/
example : exOwnList.PassesOn ∧
    outcome (parseTo exOwnList.handler 40 ([(0, 0, 0), (0, 0, 0), (0, 0, 0)], 0) (Ctx.onText {} {} b!"[{\"c\":3,\"x\":1,\"u\":null},{\"b\":1}]")) =
      some (.noError, ([(1, 0, 3), (0, 1, 0), (0, 0, 0)], 2), [b!"u"], [b!"b", b!"a"]) ∧
    outcome (parseTo exOwnList.handler 40 ([(0, 0, 0), (0, 0, 0), (0, 0, 0)], 0) (Ctx.onText {} ⟨false, true, true⟩ b!"[{\"c\":3,\"x\":1,\"u\":null},{\"b\":1}]")) =
      some (.missingPropertyMember, ([(1, 0, 3), (0, 0, 0), (0, 0, 0)], 0), [b!"u"], []) ∧
    outcome (parseTo exOwnList.handler 40 ([(0, 0, 0), (0, 0, 0), (0, 0, 0)], 0) (Ctx.onText {} ⟨true, false, true⟩ b!"[{\"c\":3,\"x\":1,\"u\":null},{\"b\":1}]")) =
      some (.unassignedRequiredMember, ([(1, 0, 3), (0, 0, 0), (0, 0, 0)], 0), [b!"u"], [b!"b"]) :=
  ⟨moduleList_passesOn _ _ trivial, by decide +kernel, by decide +kernel, by decide +kernel⟩

/-- A handler that calls that of a struct and does not look at the error. -/
def hideInCall : OType (Int × Int × Int) :=
  .own false (0, 0, 0) (fun old _ => .call (.lib (.struct (0, 0, 0) exS)) old fun _ v _ => .ret .noError v) fun _ _ _ => none

set_option synthInstance.maxSize 1000 in
/-- It is false of a handler that hides an error: an unknown member is refused by the options, and reading is a success. -/
theorem C88_false_strict :
    outcome (parseTo hideInCall.handler 40 (0, 0, 0) (Ctx.onText {} {} b!"{\"u\":1,\"a\":2,\"b\":3}")) = some (.noError, (2, 3, 0), [b!"u"], []) ∧
    outcome (parseTo hideInCall.handler 40 (0, 0, 0) (Ctx.onText {} ⟨false, true, true⟩ b!"{\"u\":1,\"a\":2,\"b\":3}")) = some (.noError, (0, 0, 0), [b!"u"], []) := by
  decide +kernel

/-! ### The example's number of elements -/

set_option synthInstance.maxSize 1000 in
/-- The handler in examples/01 stores the number of elements where it finds the closing bracket within its loop: not if there are as many as there is room for. Two
elements are read, and the number is what it was before. -/
theorem C88_module_list_full :
    outcome (parseTo (moduleList 2 (.lib (.int i32))).handler 40 ([0, 0], 0) (Ctx.onText {} {} b!"[5,6]")) = some (.noError, ([5, 6], 0), [], []) ∧
    outcome (parseTo (moduleList 3 (.lib (.int i32))).handler 40 ([0, 0, 0], 0) (Ctx.onText {} {} b!"[5,6]")) = some (.noError, ([5, 6, 0], 2), [], []) := by
  decide +kernel

end JsonStruct
