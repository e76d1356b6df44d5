import Verif.Lemmas.MapLast
import Verif.Props.MapWhole

/-
C27, C96: the defect of `setValue` shows only in what is done with the map afterwards: what it is written as, and read as a whole, is
right.
-/

namespace JsonStruct

/-- **C27**, what the map is written as and read as a whole, where only the last call may be affected by the defect of `setValue`. In
particular one call on a map that was read is always right. -/
theorem C27_last_call_partial {o : Opts} (hn : o.newLines = false) (p : POpts) (ms : List (Bytes × JVal)) {text : Bytes}
    (hd : Doc (lenient o) (.obj ms) text) (old : JMap) (as : List SetOp) (hs : SafeButLast as ms) :
    ∃ m N m', Parses jmapH o p old text ⟨.noError, m, [], []⟩ ∧ (∀ n, N ≤ n → JMap.setAll n as m = some m') ∧
      (∀ (T : Type) (t : CType T) (c : Ctx) (x : T) (r : Res T), c.tz.scopes = [] →
        t.dec ⟨c.allowMissing, c.allowUnassigned, c.track⟩ x (JVal.obj (setMembers as ms)).root = some r → m'.CastsAll t.handler c x r) ∧
      ((JVal.obj (setMembers as ms)).Good → (JVal.obj (setMembers as ms)).depth ≤ 255 → ∀ (pretty : Bool) (shift : Nat),
        ∃ text', serializeStruct jmapH m' (userOpts pretty shift 0) = some text' ∧ Doc rfcBytes (.obj (setMembers as ms)) text') := by
  have hm : (jmapOf ([], .ascii) (.obj ms)).Whole ms := ⟨mirrors_new [] (.inr rfl) ms, rfl⟩
  obtain ⟨N, m', h1, h2⟩ := hm.setAll_tokens hs
  exact ⟨_, N, m', parse_doc jmap_sem hn p rfl hd (jmapDec_value _ _ _ rfl), h1, fun T t c x r hsc hr => casts_whole h2 rfl t c x r hsc hr,
    fun hg hd pretty shift => tokens_written h2 hg hd pretty shift⟩

/-- **C96** where the last call may be affected by the defect of `setValue`: the map is written and read into the struct again. -/
theorem C96_last_partial (init : T) (s : CStruct T) (hl : (CType.struct init s).Lawful) (v : T) (hv : (CType.struct init s).Valid v)
    (hd : (JVal.obj (s.enc v)).depth ≤ 255) (es : List (Edit T)) (hm : ∀ e ∈ es, e.member ∈ s.entries)
    (hs : SafeButLast (es.map Edit.op) (s.enc v)) (pretty pretty' : Bool) (shift shift' : Nat)
    {o o' : Opts} (ho : o.newLines = false) (ho' : o'.newLines = false) (p p' : POpts) (hp : p'.allowUnassigned = true)
    (oldMap : JMap) (old : T) (hold : (CType.struct init s).Fresh old) :
    ∃ text m N m' text' un,
      serializeStruct (CType.struct init s).handler v (userOpts pretty shift 0) = some text ∧
      Parses jmapH o p oldMap text ⟨.noError, m, [], []⟩ ∧
      (∀ n, N ≤ n → JMap.setAll n (es.map Edit.op) m = some m') ∧
      serializeStruct jmapH m' (userOpts pretty' shift' 0) = some text' ∧
      Parses (CType.struct init s).handler o' p' old text' ⟨.noError, edited v es, [], un⟩ := by
  obtain ⟨text, h1, h2⟩ := serialized (CType.struct init s) hl v hv rfl pretty shift 0 (by omega)
  obtain ⟨m, N, m', k1, k2, -, k3⟩ := C27_last_call_partial ho p (s.enc v) (doc_mono (rfcBytes_le o) h2) oldMap _ hs
  obtain ⟨gs, g1, g2, g3, g4, g5⟩ := edited_parts hl hv hd hm (safeButLast_ok hs)
  rw [g2] at k3
  obtain ⟨text', w1, w2⟩ := k3 g4 g5 pretty' shift'
  obtain ⟨un, hdec⟩ := edited_dec hl hv hd hm (safeButLast_ok hs) hp hold
  rw [g2] at hdec
  exact ⟨text, m, N, m', text', _, h1, k1, k2, w1, parse_doc (CType.struct init s).sem ho' p' rfl (doc_mono (rfcBytes_le o') w2) hdec⟩

/-- **C96** for one call: any declared member of any struct can be set once by way of a map. -/
theorem C96_one_call (init : T) (s : CStruct T) (hl : (CType.struct init s).Lawful) (v : T) (hv : (CType.struct init s).Valid v)
    (hd : (JVal.obj (s.enc v)).depth ≤ 255) (e : Edit T) (hm : e.member ∈ s.entries) (he : e.op.Ok) (pretty pretty' : Bool) (shift shift' : Nat)
    {o o' : Opts} (ho : o.newLines = false) (ho' : o'.newLines = false) (p p' : POpts) (hp : p'.allowUnassigned = true)
    (oldMap : JMap) (old : T) (hold : (CType.struct init s).Fresh old) :
    ∃ text m N m' text' un,
      serializeStruct (CType.struct init s).handler v (userOpts pretty shift 0) = some text ∧
      Parses jmapH o p oldMap text ⟨.noError, m, [], []⟩ ∧
      (∀ n, N ≤ n → m.setValue e.member.type.handler n (e.member.names.headD []) e.x = some m') ∧
      serializeStruct jmapH m' (userOpts pretty' shift' 0) = some text' ∧
      Parses (CType.struct init s).handler o' p' old text' ⟨.noError, e.member.set e.x v, [], un⟩ := by
  obtain ⟨text, m, N, m', text', un, h1, h2, h3, h4, h5⟩ := C96_last_partial init s hl v hv hd [e] (by simpa using hm) he pretty pretty' shift shift'
    ho ho' p p' hp oldMap old hold
  refine ⟨text, m, N, m', text', un, h1, h2, fun n hn => ?_, h4, h5⟩
  have := h3 n hn
  simp only [List.map_cons, List.map_nil, JMap.setAll, Edit.op] at this
  simpa using this

/-- The first call of `C96_false_scalars`, alone: `a` is set to 5 in front of the array `b`. -/
example : (CType.int i32).Valid 5 ∧ SetOp.Ok ⟨.int i32, b!"a", 5, .num b!"5"⟩ ∧
    ((jmapOf ([], .ascii) (.obj [(b!"a", .num b!"1"), (b!"b", .arr [.num b!"2"])])).setValue (CType.int i32).handler 50 b!"a" 5).bind
      (fun m => serializeStruct jmapH m (userOpts false 0 0)) = some b!"{\"b\":[2],\"a\":5}" := by
  have h1 : (CType.int i32).Valid 5 := ⟨by simp [IntTy.Supported, i32], by simp [IntTy.InRange, IntTy.min, IntTy.max, i32]⟩
  exact ⟨h1, ⟨trivial, h1, rfl, by decide, by quotable, by decide +kernel⟩, by decide +kernel⟩

end JsonStruct
