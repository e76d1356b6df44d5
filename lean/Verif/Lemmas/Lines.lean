import Verif.Spec.Lines
import Verif.Lemmas.LenientDoc
import Verif.Lemmas.RoundTrip

/- Texts with line breaks as separators are lenient texts, and what the serializer writes is such a text. -/

namespace JsonStruct

open Lax Lines

/-! ### They are lenient texts -/

theorem skip_of_space {o : Opts} {w : Bytes} {cm : Bool} (hc : cm = true → o.comments = true) (h : Space cm w) : Skip o.comments w := by
  have hws : ∀ w, Ws w → Skip o.comments w := by
    intro w h
    induction w with
    | nil => exact .nil
    | cons c w ih =>
      have h1 := h c (by simp)
      refine .byte (by simp [passed, h1]) (fun _ hs => ?_) (ih fun x hx => h x (by simp [hx]))
      subst hs; simp [isWs] at h1
  cases cm with
  | false => exact hws w h
  | true =>
    replace h : Gap w := h
    induction h with
    | nil => exact .nil
    | @ws c w h1 h2 ih =>
      refine .byte (by simp [passed, h1]) (fun _ hs => ?_) ih
      subst hs; simp [isWs] at h1
    | comment h1 h2 ih => exact .comment (hc rfl) h1 ih

theorem blank_of_blanks (o : Opts) {w : Bytes} (h : Blanks w) : Blank o w := by
  induction w with
  | nil => exact .nil
  | cons c w ih =>
    have h1 := h c (by simp)
    exact .byte (by simp [blank, h1.1]) (fun _ => h1.2) (ih fun x hx => h x (by simp [hx]))

theorem blanks_head {w x : Bytes} (h : Blanks w) (y : Byte) (hy : isWs y = false) (hx : x.head? ≠ some y) : (w ++ x).head? ≠ some y := by
  cases w with
  | nil => exact hx
  | cons c w =>
    have := (h c (by simp)).1
    simp only [List.cons_append, List.head?_cons, ne_eq, Option.some.injEq]
    rintro rfl
    simp [hy] at this

theorem sep_of_break {o : Opts} (hn : o.newLines = true) {cm : Bool} (hc : cm = true → o.comments = true) {x : Bytes} (h : Break cm x) : Sep o false x := by
  cases h with
  | plain => exact .line hn
  | comment h1 h2 => exact .comment hn (hc h1) h2

theorem break_head {cm : Bool} {x : Bytes} (h : Break cm x) : x.head? ≠ some 0 := by cases h <;> simp

/-- The dialects whose strings and numbers are accepted. -/
structure TameText (d : Dialect) : Prop where
  str : ∀ s, d.str s → Quoted s
  num : ∀ s, d.num s → ∃ c t, s = c :: t ∧ (isDigit c || c == 0x2B || c == 0x2D) = true ∧ ∀ x ∈ t, numByte x = true

def kindOf : JVal → Kind
  | .null | .bool _ => .word
  | .arr _ | .obj _ => .nested
  | _ => .plain

/-- What is needed of a value's text. -/
def Fit (o : Opts) (v : JVal) (t : Bytes) : Prop :=
  (∃ ty d, v.isContainer = false ∧ ty ≠ .ascii ∧ Scalar (kindOf v) ty d t ∧ ∀ n nt, v.toks n nt = [⟨n, nt, d, ty⟩]) ∨
  (kindOf v = .nested ∧ ∀ n nt, Nested o n nt t (v.toks n nt))

theorem fit_element {o : Opts} {v : JVal} {t g : Bytes} (h : Fit o v t) (hg : Skip o.comments g) :
    Element o (kindOf v) (g ++ t) (v.toks [] .ascii) := by
  rcases h with ⟨ty, d, -, -, h1, h2⟩ | ⟨h1, h2⟩
  · rw [h2]; exact .scalar hg h1
  · rw [h1]; exact .nested hg (h2 _ _)

theorem fit_member {o : Opts} {v : JVal} {t g g' w n : Bytes} (h : Fit o v t) (hg : Skip o.comments g) (hg' : Skip o.comments g')
    (hq : Quoted n) (hw : Blanks w) : Lax.Member o (kindOf v) (g ++ b!"\"" ++ n ++ b!"\"" ++ w ++ b!":" ++ g' ++ t) (v.toks n .string) := by
  have hname : Name o .plain .string n (0x22 :: (n ++ b!"\"")) := ⟨.str hq, .inl rfl⟩
  have hb : Behind o .plain w [] := ⟨blank_of_blanks o hw, by simp⟩
  have he : g ++ b!"\"" ++ n ++ b!"\"" ++ w ++ b!":" ++ g' ++ t = g ++ (0x22 :: (n ++ b!"\"")) ++ w ++ b!":" ++ g' ++ t := by simp
  rw [he]
  rcases h with ⟨ty, d, -, h0, h1, h2⟩ | ⟨h1, h2⟩
  · rw [h2]; exact .scalar hg hname hb hg' h1 (fun h => absurd h h0)
  · rw [h1]; exact .nested hg hname hb hg' (h2 _ _)

theorem behind_comma {o : Opts} {w : Bytes} (k : Kind) (h : Blanks w) : Behind o k w b!"," :=
  ⟨blank_of_blanks o h, fun _ => ⟨blanks_head h 0 (by decide) (by decide), blanks_head h 0x2F (by decide) (by decide)⟩⟩

theorem behind_nil {o : Opts} {w : Bytes} (k : Kind) (h : Blanks w) : Behind o k w [] :=
  ⟨blank_of_blanks o h, fun _ => ⟨blanks_head h 0 (by decide) (by simp), blanks_head h 0x2F (by decide) (by simp)⟩⟩

theorem behind_break {o : Opts} {cm : Bool} {v : JVal} {w x : Bytes} (h : Blanks w) (hx : Break cm x) (ha : NoComment v (w ++ x)) : Behind o (kindOf v) w x :=
  ⟨blank_of_blanks o h, fun hk => ⟨blanks_head h 0 (by decide) (break_head hx), by
    cases v <;> simp only [kindOf, reduceCtorEq] at hk <;> exact ha rfl⟩⟩

theorem lines_fit (o : Opts) (hn : o.newLines = true) {cm : Bool} (hc : cm = true → o.comments = true) {d : Dialect} (hd : TameText d) {v : JVal} {t : Bytes}
    (h : LText d cm v t) : Fit o v t := by
  refine LText.rec (d := d) (cm := cm) (motive_1 := fun v t _ => Fit o v t)
    (motive_2 := fun vs ts _ => ∀ b p ks, Elements o b p ks → (vs = [] → b = false) → Items o (p ++ ts) (ks ++ elemToks vs))
    (motive_3 := fun ms ts _ => ∀ b p ks, Members o b p ks → (ms = [] → b = false) →
      Fields o (p ++ ts) (ks ++ memberToks ms ++ [⟨[], .ascii, b!"}", .objectEnd⟩]))
    ?_ ?_ ?_ ?_ ?_ ?_ ?_ ?_ ?_ ?_ ?_ ?_ ?_ ?_ ?_ h
  · exact .inl ⟨.null, _, rfl, by decide, .null, fun _ _ => rfl⟩
  · exact .inl ⟨.bool, _, rfl, by decide, .tru, fun _ _ => rfl⟩
  · exact .inl ⟨.bool, _, rfl, by decide, .fls, fun _ _ => rfl⟩
  · intro n hnum
    obtain ⟨c, s, rfl, h1, h2⟩ := hd.num n hnum
    exact .inl ⟨.number, _, rfl, by decide, .num h1 h2, fun _ _ => rfl⟩
  · intro s hs
    exact .inl ⟨.string, _, rfl, by decide, .str (hd.str s hs), fun _ _ => rfl⟩
  · intro vs t _ ih
    refine .inr ⟨rfl, fun n nt => ?_⟩
    have := ih false [] [] .nil (fun _ => rfl)
    rw [JVal.toks]
    exact .arr (by simpa using this)
  · intro ms t _ ih
    refine .inr ⟨rfl, fun n nt => ?_⟩
    have := ih false [] [] .nil (fun _ => rfl)
    rw [JVal.toks]
    exact .obj (by simpa using this)
  · intro w hw b p ks hp hb
    rw [elemToks, List.append_nil]
    exact .comma hp (by simp [hb]) (skip_of_space hc hw)
  · intro w v t w' hw _ hw' ih b p ks hp _
    have := Items.last hp (fit_element ih (skip_of_space hc hw)) (behind_nil (kindOf v) hw')
    simpa [elemToks] using this
  · intro w v t w' v' vs ts hw _ hw' _ ih ih' b p ks hp _
    have h1 := Elements.snoc hp (fit_element ih (skip_of_space hc hw)) (behind_comma (kindOf v) hw') .comma
    have := ih' _ _ _ h1 (by simp)
    rw [show elemToks (v :: v' :: vs) = v.toks [] .ascii ++ elemToks (v' :: vs) from rfl]
    simpa using this
  · intro w v t w' x vs ts hw _ hw' hx ha _ ih ih' b p ks hp _
    have h1 := Elements.snoc hp (fit_element ih (skip_of_space hc hw)) (behind_break hw' hx ha) (sep_of_break hn hc hx)
    have := ih' _ _ _ h1 (by simp)
    rw [show elemToks (v :: vs) = v.toks [] .ascii ++ elemToks vs from rfl]
    simpa using this
  · intro w hw b p ks hp hb
    rw [memberToks, List.append_nil]
    exact .comma hp (by simp [hb]) (skip_of_space hc hw)
  · intro n w1 w2 w3 v t w' h1 hs h2 h3 _ h4 ih b p ks hp _
    have := Fields.last hp (fit_member ih (skip_of_space hc h1) (skip_of_space hc h3) (hd.str _ hs) h2) (behind_nil (kindOf v) h4)
    simpa [memberToks] using this
  · intro n w1 w2 w3 v t w' m ms ts h1 hs h2 h3 _ h4 _ ih ih' b p ks hp _
    have hm := Members.snoc hp (fit_member ih (skip_of_space hc h1) (skip_of_space hc h3) (hd.str _ hs) h2) (behind_comma (kindOf v) h4) .comma
    have := ih' _ _ _ hm (by simp)
    rw [show memberToks ((n, v) :: m :: ms) = v.toks n .string ++ memberToks (m :: ms) from rfl]
    simpa using this
  · intro n w1 w2 w3 v t w' x ms ts h1 hs h2 h3 _ h4 hx ha _ ih ih' b p ks hp _
    have hm := Members.snoc hp (fit_member ih (skip_of_space hc h1) (skip_of_space hc h3) (hd.str _ hs) h2) (behind_break h4 hx ha) (sep_of_break hn hc hx)
    have := ih' _ _ _ hm (by simp)
    rw [show memberToks ((n, v) :: ms) = v.toks n .string ++ memberToks ms from rfl]
    simpa using this

/-- A gap with nothing behind it. -/
theorem lStart_gap_end (o : Opts) {g : Bytes} (hg : Skip o.comments g) : lStart o g 0 = .error .needMoreData := by
  induction hg with
  | nil => rfl
  | @byte c w h1 h2 h3 ih =>
    rw [← ih, lStart]
    obtain ⟨a1, a2, a3, a4, a5, a6, a7, a8⟩ := passed_facts c h1
    have : ¬ ((o.comments && c == SLASH && w.head? == some SLASH) = true) := by
      simp only [Bool.and_eq_true, beq_iff_eq]
      rintro ⟨⟨b1, b2⟩, b3⟩
      exact h2 b1 b2 b3
    simp [this, a1, a2, a3, a4, a5, a6, a7, a8]
  | @comment body w h1 h2 h3 ih =>
    rw [← ih, lStart]
    cases hn : o.newLines with
    | false =>
      simp only [h1, Bool.true_and, List.head?_cons, List.tail_cons, commentEnd_body h2,
        show ((47 : Byte) == SLASH) = true from rfl, show (some (47 : Byte) == some SLASH) = true from rfl, if_true]
      have := lStart_skip o (47 :: (body ++ [10])) w
      simpa using this
    | true =>
      simp only [h1, Bool.true_and, List.head?_cons, List.tail_cons, commentEnd_line h2,
        show ((47 : Byte) == SLASH) = true from rfl, show (some (47 : Byte) == some SLASH) = true from rfl, if_true]
      have := lStart_skip o (47 :: body) (10 :: w)
      rw [lStart_lf] at this
      simpa using this

theorem lNext_gap_end (o : Opts) {w : Bytes} {te e : Bool} (hw : Skip o.comments w) :
    lNext o ⟨te, e, [], w⟩ = .error .needMoreData := by
  rw [lNext_fin]
  have hl : lName o ⟨false, e, [], w⟩ = .error .needMoreData := by
    have : lValue o w = .error .needMoreData := by
      unfold lValue; rw [lStart_gap_end o hw]
    unfold lName; simp only [this]; split <;> rfl
  unfold lPop
  cases te <;> simp only [hl, Bool.false_eq_true, if_true, ite_self] <;> rfl

theorem quoted_of_strBody {s : Bytes} (h : StrBody s) : Quoted s := by
  induction h with
  | nil => exact .nil
  | plain h1 h2 _ ih => exact .plain h1 h2 ih
  | esc _ ih => exact .esc ih

theorem lax_of_numTxt {s : Bytes} (h : NumTxt s) : ∃ c t, s = c :: t ∧ (isDigit c || c == 0x2B || c == 0x2D) = true ∧ ∀ x ∈ t, numByte x = true := by
  obtain ⟨c, t, rfl, h1, -, h3⟩ := h
  refine ⟨c, t, rfl, ?_, fun x hx => ?_⟩
  · exact forall_byte (p := fun c => has c (flPlusMinus ||| flDigits) = true → (isDigit c || c == 0x2B || c == 0x2D) = true) (by decide +kernel) c h1
  · exact forall_byte (p := fun x => numberStop x = false → numByte x = true) (by decide +kernel) x (h3 x hx)

theorem tame_rfc : TameText rfc := ⟨fun _ h => quoted_of_strBody (strBody_of_json h), fun _ h => lax_of_numTxt (numTxt_of_json h)⟩

theorem tame_rfcBytes : TameText rfcBytes := ⟨fun _ h => quoted_of_strBody (strBody_of_quotable h), fun _ h => lax_of_numTxt (numTxt_of_json h)⟩

theorem tokenize_lines (o : Opts) (hn : o.newLines = true) {cm : Bool} (hc : cm = true → o.comments = true) {d : Dialect} (hd : TameText d)
    {v : JVal} {t : Bytes} (hv : v.isContainer = true) (h : LDoc d cm v t) : tokenize o t = (v.docToks, .needMoreData) := by
  obtain ⟨w, b, w', h1, h2, h3, rfl⟩ := h
  have hf : Nested o [] .ascii b v.docToks := by
    rcases lines_fit o hn hc hd h2 with ⟨_, _, h, _⟩ | ⟨_, h⟩
    · rw [hv] at h; cases h
    · exact h _ _
  have hs : Stream o (w ++ b) v.docToks := by
    have := Stream.snoc .nil (skip_of_space hc h1) hf
    simpa using this
  obtain ⟨c1, g1, g2, g3⟩ := stream_run o hs w'
  obtain ⟨te, e, st, r⟩ := c1
  simp only at g2 g3
  subst g2 g3
  exact tokenize_run o g1 (lNext_gap_end o (skip_of_space hc h3)) (tokenize_stops o _)

theorem delivers_lines {o : Opts} (hn : o.newLines = true) {cm : Bool} (hc : cm = true → o.comments = true) {d : Dialect} (hd : TameText d)
    {v : JVal} {t : Bytes} (hv : v.isContainer = true) (h : LDoc d cm v t) : Delivers ((Tz.new o).addData t) v.docToks := by
  have := tokenize_lines o hn hc hd hv h
  simp only [tokenize, Prod.mk.injEq] at this
  exact delivers_of_collect this.1

/-! ### The serializer writes them -/

/-- White space behind the last value: it has a line break in it or it has not. -/
theorem ws_split {w : Bytes} (h : Ws w) : Blanks w ∨ ∃ a b, w = a ++ b!"\n" ++ b ∧ Blanks a ∧ Ws b := by
  induction w with
  | nil => exact .inl (by simp [Blanks])
  | cons c w ih =>
    have h1 := h c (by simp)
    have h2 : Ws w := fun x hx => h x (by simp [hx])
    by_cases hc : c = 0x0A
    · exact .inr ⟨[], w, by simp [hc], by simp [Blanks], h2⟩
    · rcases ih h2 with ih | ⟨a, b, rfl, ha, hb⟩
      · exact .inl (by intro x hx; rcases List.mem_cons.1 hx with rfl | hx <;> [exact ⟨h1, hc⟩; exact ih x hx])
      · exact .inr ⟨c :: a, b, by simp, by intro x hx; rcases List.mem_cons.1 hx with rfl | hx <;> [exact ⟨h1, hc⟩; exact ha x hx], hb⟩

theorem space_of_ws {cm : Bool} {w : Bytes} (h : Ws w) : Space cm w := by
  cases cm with
  | false => exact h
  | true => exact gap_of_ws h

theorem blanks_nil : Blanks [] := by simp [Blanks]

theorem noComment_line (v : JVal) {w : Bytes} (h : Blanks w) : NoComment v (w ++ b!"\n") := fun _ => blanks_head h 0x2F (by decide) (by decide)

theorem elems_one {d : Dialect} {cm : Bool} {v : JVal} {t w w' : Bytes} (hw : Ws w) (ht : LText d cm v t) (hw' : Ws w') :
    LElems d cm [v] (w ++ t ++ w') := by
  rcases ws_split hw' with h | ⟨a, b, rfl, ha, hb⟩
  · exact .last (space_of_ws hw) ht h
  · have := LElems.line (space_of_ws hw) ht ha .plain (noComment_line v ha) (.nil (cm := cm) (space_of_ws hb))
    simpa using this

theorem members_one {d : Dialect} {cm : Bool} {n : Bytes} {v : JVal} {t w1 w3 w' : Bytes} (h1 : Ws w1) (hs : d.str n) (h3 : Ws w3)
    (ht : LText d cm v t) (hw' : Ws w') :
    LMembers d cm [(n, v)] (w1 ++ b!"\"" ++ n ++ b!"\"" ++ [] ++ b!":" ++ w3 ++ t ++ w') := by
  rcases ws_split hw' with h | ⟨a, b, rfl, ha, hb⟩
  · exact .last (space_of_ws h1) hs blanks_nil (space_of_ws h3) ht h
  · have := LMembers.line (space_of_ws h1) hs blanks_nil (space_of_ws h3) ht ha .plain (noComment_line v ha) (.nil (cm := cm) (space_of_ws hb))
    simpa using this

/-- What writing the tokens of `v` amounts to. -/
structure LWritten (d : Dialect) (cm : Bool) (v : JVal) (s : SerSt) (n : Bytes) (nt : Ty) : Prop where
  text : ∃ t, s.texts (v.toks n nt) = s.front false ++ (nameText s.opt n ++ t) ∧ LText d cm v t
  after : s.after (v.toks n nt) = { opt := s.opt, first := false, tokenStart := false }

theorem scalar_lwritten {d : Dialect} {cm : Bool} {v : JVal} {s : SerSt} {n : Bytes} {nt : Ty} (h : s.opt.Std Ws) (hn : NameTy nt)
    (val : Bytes) (ty : Ty) (h1 : ty.isStart = false) (h2 : ty.isEnd = false) (hk : v.toks n nt = [⟨n, nt, val, ty⟩])
    (ht : LText d cm v (typedText true ty val)) : LWritten d cm v s n nt := by
  refine ⟨⟨_, ?_, ht⟩, ?_⟩
  · rw [hk]
    have hp : s.pre ty = s := by simp [SerSt.pre, h2]
    simp only [SerSt.texts, SerSt.text, hp, h2, List.append_nil]
    rw [body_text s h _ hn]
  · rw [hk]; simp only [SerSt.after, next_scalar s h1 h2]

/-- The elements of an array, with the white space behind the last one. -/
def ElemsLWritten (d : Dialect) (cm : Bool) (vs : List JVal) (s : SerSt) : Prop :=
  s.after (elemToks vs) = { opt := s.opt, first := false, tokenStart := vs.isEmpty && s.tokenStart } ∧
  (vs = [] ∨ ∀ w, Ws w → ∃ ts, s.texts (elemToks vs) ++ w = (if s.tokenStart then [] else [COMMA]) ++ ts ∧ LElems d cm vs ts)

def MembersLWritten (d : Dialect) (cm : Bool) (ms : List (Bytes × JVal)) (s : SerSt) : Prop :=
  s.after (memberToks ms) = { opt := s.opt, first := false, tokenStart := ms.isEmpty && s.tokenStart } ∧
  (ms = [] ∨ ∀ w, Ws w → ∃ ts, s.texts (memberToks ms) ++ w = (if s.tokenStart then [] else [COMMA]) ++ ts ∧ LMembers d cm ms ts)

theorem container_lwritten {d : Dialect} {cm : Bool} {v : JVal} {s : SerSt} {n : Bytes} {nt : Ty} (h : s.opt.Std Ws) (hn : NameTy nt)
    {inner : List Tok} {op cl : Byte} {opTy clTy : Ty} (ho : (op, cl, opTy, clTy) = (LBRACK, RBRACK, .arrayStart, .arrayEnd) ∨
      (op, cl, opTy, clTy) = (LBRACE, RBRACE, .objectStart, .objectEnd)) (hdep : s.opt.depth + 1 < 256)
    (hk : v.toks n nt = ⟨n, nt, [op], opTy⟩ :: (inner ++ [⟨[], .ascii, [cl], clTy⟩]))
    (hin : let s' : SerSt := { opt := s.opt.setDepth (s.opt.depth + 1), first := false, tokenStart := true }
      (∃ b, s'.after inner = { opt := s'.opt, first := false, tokenStart := b }) ∧
      ∀ w, Ws w → LText d cm v (op :: (s'.texts inner ++ w ++ [cl]))) : LWritten d cm v s n nt := by
  have hop : opTy.isStart = true ∧ opTy.isEnd = false ∧ (opTy = .arrayStart ∨ opTy = .objectStart) ∧
      (clTy = .arrayEnd ∨ clTy = .objectEnd) ∧ clTy.isEnd = true ∧ typedText true opTy [op] = [op] ∧ typedText true clTy [cl] = [cl] := by
    rcases ho with ho | ho <;> (simp only [Prod.mk.injEq] at ho; obtain ⟨rfl, rfl, rfl, rfl⟩ := ho; decide)
  obtain ⟨o1, o2, o3, o4, o5, o6, o7⟩ := hop
  obtain ⟨⟨b, ha⟩, ht⟩ := hin
  have hpre : s.pre opTy = s := by simp [SerSt.pre, o2]
  have hdd : (s.opt.setDepth (s.opt.depth + 1)).depth = s.opt.depth + 1 := by
    simp only [SerOpts.setDepth]; omega
  have hback : (s.opt.setDepth (s.opt.depth + 1)).setDepth ((s.opt.setDepth (s.opt.depth + 1)).depth - 1) = s.opt := by
    rw [hdd, Nat.add_sub_cancel]
    exact h.norm
  have hpe : ∀ b : Bool, SerSt.pre { opt := s.opt.setDepth (s.opt.depth + 1), first := false, tokenStart := b } clTy =
      { opt := s.opt, first := false, tokenStart := b } := by
    intro b; unfold SerSt.pre; rw [if_pos o5]; simp only; rw [hback]
  obtain ⟨w, hw, hfr⟩ := front_text { opt := s.opt, first := false, tokenStart := b } h true
  simp only [Bool.not_true, Bool.and_false, Bool.false_eq_true, if_false, List.nil_append] at hfr
  refine ⟨⟨_, ?_, ht w hw⟩, ?_⟩
  · rw [hk]
    simp only [SerSt.texts, SerSt.text, hpre, o2, next_start s o3, texts_append, ha, hpe]
    rw [body_text s h _ hn, o5, hfr, body_text ⟨s.opt, false, b⟩ h ⟨[], .ascii, [cl], clTy⟩ (.inr rfl)]
    simp only [o6, o7]
    simp [nameText]
  · rw [hk]
    simp only [SerSt.after, after_append, next_start s o3, ha, next_end _ o4, hback]

mutual
theorem lwritten (d : Dialect) (cm : Bool) (v : JVal) (s : SerSt) (n : Bytes) (nt : Ty) (h : s.opt.Std Ws) (hn : NameTy nt)
    (hdep : s.opt.depth + v.depth < 256) (hwf : v.WF d) (hnm : v.Named) : LWritten d cm v s n nt := by
  match v with
  | .null => exact scalar_lwritten h hn b!"null" .null rfl rfl rfl .null
  | .bool true => exact scalar_lwritten h hn b!"true" .bool rfl rfl rfl .tru
  | .bool false => exact scalar_lwritten h hn b!"false" .bool rfl rfl rfl .fls
  | .num x =>
    rw [JVal.WF] at hwf
    exact scalar_lwritten h hn x .number rfl rfl rfl (.num hwf)
  | .str x =>
    rw [JVal.WF] at hwf
    exact scalar_lwritten h hn x .string rfl rfl rfl (.str hwf)
  | .arr vs =>
    rw [JVal.WF] at hwf; rw [JVal.Named] at hnm; rw [JVal.depth] at hdep
    have := elemsLWritten d cm vs { opt := s.opt.setDepth (s.opt.depth + 1), first := false, tokenStart := true }
      (std_setDepth h _ (by omega)) rfl (by simp only [SerOpts.setDepth]; omega) hwf hnm
    obtain ⟨h1, h3⟩ := this
    refine container_lwritten h hn (inner := elemToks vs) (.inl rfl) (by omega) (by rw [JVal.toks]) ⟨⟨_, h1⟩, ?_⟩
    intro w hw
    rcases h3 with rfl | h3
    · exact .arr (.nil (space_of_ws hw))
    · obtain ⟨ts, h4, h5⟩ := h3 w hw
      rw [h4]; exact .arr h5
  | .obj ms =>
    rw [JVal.WF] at hwf; rw [JVal.Named] at hnm; rw [JVal.depth] at hdep
    have := membersLWritten d cm ms { opt := s.opt.setDepth (s.opt.depth + 1), first := false, tokenStart := true }
      (std_setDepth h _ (by omega)) rfl (by simp only [SerOpts.setDepth]; omega) hwf hnm
    obtain ⟨h1, h3⟩ := this
    refine container_lwritten h hn (inner := memberToks ms) (.inr rfl) (by omega) (by rw [JVal.toks]) ⟨⟨_, h1⟩, ?_⟩
    intro w hw
    rcases h3 with rfl | h3
    · exact .obj (.nil (space_of_ws hw))
    · obtain ⟨ts, h4, h5⟩ := h3 w hw
      rw [h4]; exact .obj h5

theorem elemsLWritten (d : Dialect) (cm : Bool) (vs : List JVal) (s : SerSt) (h : s.opt.Std Ws) (hf : s.first = false)
    (hdep : s.opt.depth + elemsDepth vs < 256) (hwf : elemsWF d vs) (hnm : elemsNamed vs) : ElemsLWritten d cm vs s := by
  match vs with
  | [] => exact ⟨by simp [elemToks, SerSt.after, ← hf], .inl rfl⟩
  | v :: vs =>
    rw [elemsWF] at hwf; rw [elemsNamed] at hnm; rw [elemsDepth] at hdep
    obtain ⟨⟨t, ht1, ht2⟩, ha⟩ := lwritten d cm v s [] .ascii h (.inr rfl) (by omega) hwf.1 hnm.1
    obtain ⟨i1, i3⟩ := elemsLWritten d cm vs { opt := s.opt, first := false, tokenStart := false } h rfl (by simp only; omega) hwf.2 hnm.2
    refine ⟨?_, .inr ?_⟩
    · rw [elemToks, after_append, ha, i1]; simp
    · intro w hw
      obtain ⟨w0, hw0, hfr⟩ := front_text s h false
      rw [elemToks, texts_append, ha, ht1, hfr]
      simp only [nameText, List.isEmpty_nil, if_true, List.nil_append, Bool.not_false, Bool.and_true]
      have hcomma : (if (!s.tokenStart) = true then [COMMA] else []) = (if s.tokenStart = true then [] else [COMMA]) := by
        cases s.tokenStart <;> rfl
      rw [hcomma]
      match vs, i3 with
      | [], _ => exact ⟨w0 ++ t ++ w, by simp [elemToks, SerSt.texts], elems_one hw0 ht2 hw⟩
      | v' :: vs, i3 =>
        obtain ⟨ts, h4, h5⟩ := (i3.resolve_left (by simp)) w hw
        simp only [Bool.false_eq_true, if_false] at h4
        refine ⟨w0 ++ t ++ [] ++ b!"," ++ ts, ?_, .comma (space_of_ws hw0) ht2 blanks_nil h5⟩
        rw [List.append_assoc, h4]; simp

theorem membersLWritten (d : Dialect) (cm : Bool) (ms : List (Bytes × JVal)) (s : SerSt) (h : s.opt.Std Ws) (hf : s.first = false)
    (hdep : s.opt.depth + membersDepth ms < 256) (hwf : membersWF d ms) (hnm : membersNamed ms) : MembersLWritten d cm ms s := by
  match ms with
  | [] => exact ⟨by simp [memberToks, SerSt.after, ← hf], .inl rfl⟩
  | (n, v) :: ms =>
    rw [membersWF] at hwf; rw [membersNamed] at hnm; rw [membersDepth] at hdep
    obtain ⟨⟨t, ht1, ht2⟩, ha⟩ := lwritten d cm v s n .string h (.inl rfl) (by omega) hwf.2.1 hnm.2.1
    obtain ⟨i1, i3⟩ := membersLWritten d cm ms { opt := s.opt, first := false, tokenStart := false } h rfl (by simp only; omega) hwf.2.2 hnm.2.2
    refine ⟨?_, .inr ?_⟩
    · rw [memberToks, after_append, ha, i1]; simp
    · intro w hw
      obtain ⟨w0, hw0, hfr⟩ := front_text s h false
      rw [memberToks, texts_append, ha, ht1, hfr]
      have hne : n.isEmpty = false := by
        have := hnm.1; cases n with | nil => exact absurd rfl this | cons => rfl
      obtain ⟨w3, hw3, hcol⟩ : ∃ w3, Ws w3 ∧ (if s.opt.pretty = true then b!": " else b!":") = COLON :: w3 := by
        cases hp : s.opt.pretty with
        | true => exact ⟨[SPACE], h.colon hp, rfl⟩
        | false => exact ⟨[], h.nil, rfl⟩
      simp only [nameText, hne, Bool.not_false, Bool.and_true, hcol]
      have hcomma : (if (!s.tokenStart) = true then [COMMA] else []) = (if s.tokenStart = true then [] else [COMMA]) := by
        cases s.tokenStart <;> rfl
      rw [hcomma]
      match ms, i3 with
      | [], _ => exact ⟨_, by simp [memberToks, SerSt.texts, QUOTE, COLON], members_one hw0 hwf.1 hw3 ht2 hw⟩
      | m :: ms, i3 =>
        obtain ⟨ts, h4, h5⟩ := (i3.resolve_left (by simp)) w hw
        simp only [Bool.false_eq_true, if_false] at h4
        refine ⟨_, ?_, .comma (space_of_ws hw0) hwf.1 blanks_nil (space_of_ws hw3) ht2 blanks_nil h5⟩
        rw [List.append_assoc, h4]; simp [QUOTE, COLON, COMMA]
end

/-- The text of any value, as `written_text`. -/
theorem lwritten_text (cm : Bool) (v : JVal) (hg : v.Good) (pretty : Bool) (shift depth : Nat) (hdep : depth + v.depth ≤ 255) (json : Bytes) :
    LDoc rfcBytes cm v (((Ser.onString (userOpts pretty shift depth) (startString json).length).writeAll v.docToks).2.flush (startString json)) := by
  rw [C48_flush_is_exact (userOpts pretty shift depth) json v.docToks 1]
  have hdd : (userOpts pretty shift depth).depth = depth := by simp [userOpts, SerOpts.setDepth]; omega
  have hf := (written Ws rfcBytes wide_rfcBytes v { opt := userOpts pretty shift depth } [] .ascii
    (std_ws pretty shift depth (by omega)) (.inr rfl) (by simp only [hdd]; omega) hg.1 hg.2).fits
  obtain ⟨⟨t, ht1, ht2⟩, ha⟩ := lwritten rfcBytes cm v { opt := userOpts pretty shift depth } [] .ascii
    (std_ws pretty shift depth (by omega)) (.inr rfl) (by simp only [hdd]; omega) hg.1 hg.2
  have hgd := fresh_good (userOpts pretty shift depth) 1 (fun _ => some 1) (fun n => ⟨1, rfl, by decide⟩)
  obtain ⟨r1, r2⟩ := writeAll_wrote (Ser.fresh (userOpts pretty shift depth) 1 (fun _ => some 1)) v.docToks hgd hf
  have hout := r2.out
  obtain ⟨w, hw, hfr⟩ := front_text { opt := userOpts pretty shift depth } (std_ws pretty shift depth (by omega)) false
  rw [hout]
  refine ⟨w, t, [], space_of_ws hw, ht2, space_of_ws ws_nil, ?_⟩
  have : (SerSt.mk (userOpts pretty shift depth) true true).texts v.docToks = _ := ht1
  rw [fresh_st, this, hfr]
  simp [nameText]; rfl

/-- What the serializer writes is read with any options. -/
theorem delivers_written (o : Opts) {v : JVal} (hv : v.isContainer = true) {t : Bytes} (h : Doc rfcBytes v t) (h' : LDoc rfcBytes false v t) :
    Delivers ((Tz.new o).addData t) v.docToks := by
  cases hn : o.newLines with
  | false => exact delivers_doc hn hv (doc_mono (rfcBytes_le o) h)
  | true => exact delivers_lines hn (by simp) tame_rfcBytes hv h'

end JsonStruct
