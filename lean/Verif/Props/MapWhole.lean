import Verif.Lemmas.MapWhole
import Verif.Props.FirstChild
import Verif.Props.Edit

/-
C27, C96: a map in which members were set, read as a whole.
-/

namespace JsonStruct

theorem casts_whole {m : JMap} {v : JVal} (hm : m.tokens = v.docToks) (hv : v.isContainer = true) (t : CType T) (c : Ctx) (x : T) (r : Res T)
    (hsc : c.tz.scopes = []) (hr : t.dec ⟨c.allowMissing, c.allowUnassigned, c.track⟩ x (.val ([], .ascii) v) = some r) :
    m.CastsAll t.handler c x r := by
  obtain ⟨k, ks, hks⟩ : ∃ k ks, v.toks [] .ascii = k :: ks := by
    cases v with
    | arr vs => exact ⟨_, _, rfl⟩
    | obj ms => exact ⟨_, _, rfl⟩
    | _ => simp [JVal.isContainer] at hv
  have hdel : Delivers (c.tz.resetTokens ((v.toks [] .ascii).map Tok.token) 0) (k :: ks) :=
    hks ▸ delivers_resetTokens c.tz hsc (v.toks [] .ascii) 0 (Nat.zero_le _)
  obtain ⟨g1, g2, g3, g4⟩ := next_stream (c := { c with tz := c.tz.resetTokens ((v.toks [] .ascii).map Tok.token) 0 }) hdel
  obtain ⟨N, c', e1, e2, _⟩ := t.sem ({ c with tz := c.tz.resetTokens ((v.toks [] .ascii).map Tok.token) 0 }).next x (.val ([], .ascii) v) [] r
    (by rw [← hks] at g1; simpa only [Item.toks, List.append_nil] using g1) (by rw [g2]; exact hr)
  refine ⟨N, c', fun n hn => ?_, ?_, ?_⟩
  · rw [JMap.castAll, hm]
    exact e1 n hn
  · rw [e2.missing, g3]
  · rw [e2.unassigned, g4]

/-- **C27**, the whole map: a map is read from a text of an object, and members are set, any number of times. `castToType` of the map as a whole
then makes of it what is made of a text of the object with those members. -/
theorem C27_whole_map_partial {o : Opts} (hn : o.newLines = false) (p : POpts) (ms : List (Bytes × JVal)) {text : Bytes}
    (hd : Doc (lenient o) (.obj ms) text) (old : JMap) (as : List SetOp) (hs : Safe as ms) :
    ∃ m N m', Parses jmapH o p old text ⟨.noError, m, [], []⟩ ∧ (∀ n, N ≤ n → JMap.setAll n as m = some m') ∧
      ∀ (T : Type) (t : CType T) (c : Ctx) (x : T) (r : Res T), c.tz.scopes = [] →
        t.dec ⟨c.allowMissing, c.allowUnassigned, c.track⟩ x (JVal.obj (setMembers as ms)).root = some r → m'.CastsAll t.handler c x r := by
  have hm : (jmapOf ([], .ascii) (.obj ms)).Whole ms := ⟨mirrors_new [] (.inr rfl) ms, rfl⟩
  obtain ⟨N, m', h1, h2⟩ := hm.setAll hs
  exact ⟨_, N, m', parse_doc jmap_sem hn p rfl hd (jmapDec_value _ _ _ rfl), h1, fun T t c x r hsc hr => casts_whole h2.2 rfl t c x r hsc hr⟩

/-- **C96** without a second text: the edited map is cast to the struct as a whole. No error is reported, and a fresh variable becomes the struct
with the members assigned to. -/
theorem C96_cast_partial (init : T) (s : CStruct T) (hl : (CType.struct init s).Lawful) (v : T) (hv : (CType.struct init s).Valid v)
    (hd : (JVal.obj (s.enc v)).depth ≤ 255) (es : List (Edit T)) (hm : ∀ e ∈ es, e.member ∈ s.entries)
    (hs : Safe (es.map Edit.op) (s.enc v)) (pretty : Bool) (shift : Nat) {o : Opts} (ho : o.newLines = false) (p : POpts) (oldMap : JMap) :
    ∃ text m N m',
      serializeStruct (CType.struct init s).handler v (userOpts pretty shift 0) = some text ∧
      Parses jmapH o p oldMap text ⟨.noError, m, [], []⟩ ∧
      (∀ n, N ≤ n → JMap.setAll n (es.map Edit.op) m = some m') ∧
      ∀ c : Ctx, c.tz.scopes = [] → c.allowUnassigned = true → ∀ old, (CType.struct init s).Fresh old →
        ∃ un, m'.CastsAll (CType.struct init s).handler c old ⟨.noError, edited v es, [], un⟩ := by
  obtain ⟨text, h1, h2⟩ := serialized (CType.struct init s) hl v hv rfl pretty shift 0 (by omega)
  obtain ⟨m, N, m', k1, k2, k3⟩ := C27_whole_map_partial ho p (s.enc v) (doc_mono (rfcBytes_le o) h2) oldMap _ hs
  refine ⟨text, m, N, m', h1, k1, k2, fun c hc hu old hold => ?_⟩
  obtain ⟨un, hun⟩ := edited_dec hl hv hd hm (safe_ok hs) (p' := ⟨c.allowMissing, c.allowUnassigned, c.track⟩) hu hold
  exact ⟨un, k3 _ _ c old _ hc hun⟩

/-- The map of `exEdits`, cast to the struct. -/
example : ((JMap.setAll 50 (exEdits.map Edit.op) (jmapOf ([], .ascii) (.obj [(b!"b", .arr [.num b!"2"]), (b!"a", .num b!"1")]))).bind fun m =>
      m.castAll (CType.struct ([], none, 0) exEditedStruct).handler 50 { tz := Tz.new {} } ([], none, 0)).map (fun r => (r.1, r.2.1)) =
    some (.noError, ([9, 8], some true, 6)) := by decide +kernel

end JsonStruct
