import Verif.Lemmas.Doc
import Verif.Spec.Prefix

/- The light machine on beginnings of documents, and on what may go wrong there. -/

namespace JsonStruct

set_option linter.unusedSimpArgs false

/-- The flag for a comma in front, as the tokenizer keeps it: in arrays it is only set behind
containers. -/
def commaFlag (st : List Ty) (l : Option JVal) : Bool :=
  match l with
  | none => false
  | some v => (st.head? == some .objectStart) || v.isContainer

theorem commaFlag_none (st : List Ty) : commaFlag st none = false := rfl

theorem Run.then {o : Opts} {c c1 c1' c2 : LC} {ks ls : List Tok} (h : Run o c ks c1) (hs : Sim o c1 c1') (hl : ls ≠ [])
    (h' : Run o c1' ls c2) : Run o c (ks ++ ls) c2 := by
  cases ls with
  | nil => exact absurd rfl hl
  | cons l ls => exact h.append (Run.sim hs h')

theorem toks_ne_nil (v : JVal) (n : Bytes) (ty : Ty) : v.toks n ty ≠ [] := by
  cases v with
  | bool b => cases b <;> simp [JVal.toks]
  | _ => simp [JVal.toks]

theorem lPop_named (o : Opts) (hn : o.newLines = false) {n : Bytes} (hs : StrBody n) {e : Bool} {st : List Ty} {w1 w2 w3 r : Bytes}
    (hw1 : GapO o.comments w1) (hw2 : GapO o.comments w2) (hw3 : GapO o.comments w3) {x : Byte} :
    lNext o ⟨false, e, .objectStart :: st, w1 ++ (QUOTE :: (n ++ QUOTE :: (w2 ++ COLON :: (w3 ++ x :: r))))⟩ =
      lFin (match lValue o (x :: r) with
      | .error e => .error e
      | .ok (ty, d, r) =>
        if getType ty d = .ascii ∧ o.ascii = false then .error .illegalDataValue
        else .ok (⟨!(ty == .objectStart || ty == .arrayStart), false, .objectStart :: st, r⟩, ⟨n, .string, d, getType ty d⟩)) := by
  rw [lNext_fin]
  congr 1
  unfold lPop lName
  rw [lValue_gap o hn w1 _ hw1, lValue_str o hs]
  simp only [isEmpty_app, Bool.false_eq_true, if_false]
  unfold lDelimiter
  simp only [isEmpty_app, Bool.false_eq_true, if_false]
  rw [lDelim_gap o hn _ w2 _ hw2]
  have : lDelim o .objectStart (COLON :: (w3 ++ x :: r)) 0 = .ok (true, w3 ++ x :: r) := by
    simp [lDelim, show (COLON == SLASH) = false from rfl]
  rw [this]
  simp only [getType, ne_eq, reduceCtorEq, not_false_eq_true, if_true, not_true_eq_false, false_and, if_false]
  unfold lData
  simp only [isEmpty_app, Bool.false_eq_true, if_false]
  rw [lValue_gap o hn w3 _ hw3]
  cases lValue o (x :: r) <;> rfl

theorem run_prefix (o : Opts) (hn : o.newLines = false) {st : List Ty} {l : Option JVal} {p : Bytes} {ks : List Tok}
    (h : Prefix (lenient o) st l p ks) (tail : Bytes) :
    ∃ c', Run o ⟨false, false, [], p ++ tail⟩ ks c' ∧ Sim o c' ⟨false, commaFlag st l, st, tail⟩ := by
  induction h generalizing tail with
  | rootArr hw =>
    refine ⟨_, .cons ?_ .nil, rfl⟩
    simpa [commaFlag_none] using (next_open o hn (st := []) (e := false) (r := tail) hw).1
  | rootObj hw =>
    refine ⟨_, .cons ?_ .nil, rfl⟩
    simpa [commaFlag_none] using (next_open o hn (st := []) (e := false) (r := tail) hw).2
  | @arrArr st l p ks w _ hw ih =>
    obtain ⟨c', h1, h2⟩ := ih (w ++ b!"[" ++ tail)
    refine ⟨_, Run.then (by simpa using h1) h2 (by simp) (.cons ?_ .nil), rfl⟩
    simpa [commaFlag_none] using (next_open o hn (r := tail) hw).1
  | @arrObj st l p ks w _ hw ih =>
    obtain ⟨c', h1, h2⟩ := ih (w ++ b!"{" ++ tail)
    refine ⟨_, Run.then (by simpa using h1) h2 (by simp) (.cons ?_ .nil), rfl⟩
    simpa [commaFlag_none] using (next_open o hn (r := tail) hw).2
  | @objArr st l p ks w1 n w2 w3 _ hw1 hs hw2 hw3 ih =>
    obtain ⟨c', h1, h2⟩ := ih (w1 ++ b!"\"" ++ n ++ b!"\"" ++ w2 ++ b!":" ++ w3 ++ b!"[" ++ tail)
    refine ⟨_, Run.then (by simpa using h1) h2 (by simp) (.cons (c1 := ⟨false, false, .arrayStart :: .objectStart :: st, tail⟩) ?_ .nil), rfl⟩
    have := lPop_named o hn hs (e := commaFlag (.objectStart :: st) l) (st := st) (x := LBRACK) (r := tail) hw1 hw2 hw3
    simp only [lValue_open] at this
    simpa [lFin, getType, commaFlag_none] using this
  | @objObj st l p ks w1 n w2 w3 _ hw1 hs hw2 hw3 ih =>
    obtain ⟨c', h1, h2⟩ := ih (w1 ++ b!"\"" ++ n ++ b!"\"" ++ w2 ++ b!":" ++ w3 ++ b!"{" ++ tail)
    refine ⟨_, Run.then (by simpa using h1) h2 (by simp) (.cons (c1 := ⟨false, false, .objectStart :: .objectStart :: st, tail⟩) ?_ .nil), rfl⟩
    have := lPop_named o hn hs (e := commaFlag (.objectStart :: st) l) (st := st) (x := LBRACE) (r := tail) hw1 hw2 hw3
    simp only [lValue_open] at this
    simpa [lFin, getType, commaFlag_none] using this
  | @elem st l p ks w v t w' _ hw ht hw' ih =>
    obtain ⟨c', h1, h2⟩ := ih (w ++ t ++ w' ++ b!"," ++ tail)
    obtain ⟨c2, h3, h4⟩ := (run_elem o hn ht (inner_text o hn ht) (e := commaFlag (.arrayStart :: st) l) (st := st) (r := tail) hw hw').1
    exact ⟨c2, Run.then (by simpa using h1) h2 (toks_ne_nil _ _ _) (by simpa using h3), h4⟩
  | @member st l p ks w1 n w2 w3 v t w' _ hw1 hs hw2 hw3 ht hw' ih =>
    obtain ⟨c', h1, h2⟩ := ih (w1 ++ b!"\"" ++ n ++ b!"\"" ++ w2 ++ b!":" ++ w3 ++ t ++ w' ++ b!"," ++ tail)
    obtain ⟨e', -, h3⟩ := run_member o hn ht hs (inner_text o hn ht) (e := commaFlag (.objectStart :: st) l) (st := st) (r := tail) (p := COMMA) hw1 hw2 hw3 hw' (.inl rfl)
    exact ⟨_, Run.then (by simpa using h1) h2 (toks_ne_nil _ _ _) (by simpa using h3), sim_comma o hn hw'.1⟩

theorem prefix_mono {d d' : Dialect} (h : d.Le d') {st : List Ty} {l : Option JVal} {p : Bytes} {ks : List Tok}
    (hp : Prefix d st l p ks) : Prefix d' st l p ks := by
  induction hp with
  | rootArr hw => exact .rootArr (h.gap _ hw)
  | rootObj hw => exact .rootObj (h.gap _ hw)
  | arrArr _ hw ih => exact .arrArr ih (h.gap _ hw)
  | arrObj _ hw ih => exact .arrObj ih (h.gap _ hw)
  | objArr _ h1 h2 h3 h4 ih => exact .objArr ih (h.gap _ h1) (h.str _ h2) (h.gap _ h3) (h.gap _ h4)
  | objObj _ h1 h2 h3 h4 ih => exact .objObj ih (h.gap _ h1) (h.str _ h2) (h.gap _ h3) (h.gap _ h4)
  | elem _ h1 h2 h3 ih => exact .elem ih (h.gap _ h1) (text_mono h h2) (h.after _ _ h3)
  | member _ h1 h2 h3 h4 h5 h6 ih =>
    exact .member ih (h.gap _ h1) (h.str _ h2) (h.gap _ h3) (h.gap _ h4) (text_mono h h5) (h.after _ _ h6)

/-- What is reported at a prefix is reported for the whole text. -/
theorem prefix_error (o : Opts) (hn : o.newLines = false) {st : List Ty} {l : Option JVal} {p : Bytes} {ks : List Tok}
    (h : Prefix (lenient o) st l p ks) (tail : Bytes) (e : Err) (ls : List Tok) (c : LC)
    (hr : Run o ⟨false, commaFlag st l, st, tail⟩ ls c) (he : lNext o c = .error e)
    (hstop : (tokenizeAll o [p ++ tail]).2.1 ≠ .noError) : tokenize o (p ++ tail) = (ks ++ ls, e) := by
  obtain ⟨c', h1, h2⟩ := run_prefix o hn h tail
  cases ls with
  | nil =>
    cases hr
    rw [List.append_nil]
    exact tokenize_run o h1 (h2.trans he) hstop
  | cons k ls => exact tokenize_run o (h1.then h2 (by simp) hr) he hstop

end JsonStruct
