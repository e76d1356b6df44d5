import Verif.Lemmas.SourceStruct
import Verif.Lemmas.Parse
import Verif.Lemmas.CutFeed

/- From texts to streams of tokens that know where they stand. -/

set_option linter.unusedSimpArgs false
set_option linter.unusedVariables false

namespace JsonStruct

variable {W : Bytes}

/-- What the place of a token says about what is left of the text. -/
structure Stands (rest : Bytes) (a : ATok) : Prop where
  behind : ∀ m, a.2 = some (0, m) → rest = m
  front : ∀ m, a.2 = some (1, m) → m = bracketByte a.1.valueType :: rest ∧ a.1.valueType.isBracket = true
  le : ∀ k m, a.2 = some (k, m) → k ≤ 1

theorem stands_none (rest : Bytes) (k : Tok) : Stands rest (k, none) := by
  constructor <;> intros <;> simp_all
theorem stands_behind (rest : Bytes) (k : Tok) : Stands rest (k, some (0, rest)) := by
  constructor <;> intros <;> simp_all; omega
theorem stands_front (rest : Bytes) {k : Tok} (h : k.valueType.isBracket = true) : Stands rest (k, some (1, bracketByte k.valueType :: rest)) := by
  constructor <;> intros <;> simp_all

/-- As `Run`. -/
inductive ARun (o : Opts) : LC → List ATok → LC → Prop
  | nil {c} : ARun o c [] c
  | cons {c a c1 ks c2} : lNext o c = .ok (c1, a.1) → Stands c1.rest a → ARun o c1 ks c2 → ARun o c (a :: ks) c2

theorem ARun.append {o : Opts} {c c1 c2 : LC} {ks ls : List ATok} (h : ARun o c ks c1) (h' : ARun o c1 ls c2) : ARun o c (ks ++ ls) c2 := by
  induction h with
  | nil => exact h'
  | cons h1 hm _ ih => exact .cons h1 hm (ih h')

theorem ARun.sim {o : Opts} {c c' c2 : LC} {ks : List ATok} (hne : ks ≠ []) (hs : Sim o c c') (h : ARun o c' ks c2) : ARun o c ks c2 := by
  cases h with
  | nil => exact absurd rfl hne
  | cons h1 hm h2 => exact .cons (hs.trans h1) hm h2

theorem ARun.one {o : Opts} {c c1 : LC} {a : ATok} (h : lNext o c = .ok (c1, a.1)) (hm : Stands c1.rest a) : ARun o c [a] c1 := .cons h hm .nil

theorem run_none {o : Opts} {c c' : LC} {ks : List Tok} (h : Run o c ks c') : ARun o c (ks.map (·, none)) c' := by
  induction h with
  | nil => exact .nil
  | cons h1 _ ih => exact .cons h1 (stands_none _ _) ih

/-- The texts of the elements and members are texts of their values. -/
theorem laid_text {d : Dialect} {a : AVal} {t r : Bytes} (h : Laid d a t r) : Text d a.plain t := by
  refine Laid.rec (d := d) (motive_1 := fun a t r _ => Text d a.plain t) (motive_2 := fun vs t r _ => TextElems d (plainElems vs) t)
    (motive_3 := fun ms t r _ => TextMembers d (plainMembers ms) t) ?_ ?_ ?_ ?_ ?_ ?_ ?_ ?_ ?_ ?_ ?_ ?_ ?_ ?_ ?_ h
  · exact .null
  · exact .tru
  · exact .fls
  · exact fun hn => .num hn
  · exact fun hs => .str hs
  · exact fun hw => .arrEmpty hw
  · exact fun _ ih => .arr ih
  · exact fun hw => .objEmpty hw
  · exact fun _ ih => .obj ih
  · exact fun h1 _ h3 ih => .one h1 ih h3
  · exact fun h1 _ h3 _ ih ih2 => .cons h1 ih h3 ih2
  · exact fun h0 h1 _ h3 h4 ih => .trail h0 h1 ih h3 h4
  · exact fun h1 h2 h3 h4 _ h5 ih => .one h1 h2 h3 h4 ih h5
  · exact fun h1 h2 h3 h4 _ h5 _ ih ih2 => .cons h1 h2 h3 h4 ih h5 ih2
  · exact fun h0 h1 h2 h3 h4 _ h5 h6 ih => .trail h0 h1 h2 h3 h4 ih h5 h6

theorem laid_mono {d d' : Dialect} (h : d.Le d') {a : AVal} {t r : Bytes} (ht : Laid d a t r) : Laid d' a t r := by
  refine Laid.rec (d := d) (motive_1 := fun a t r _ => Laid d' a t r) (motive_2 := fun vs t r _ => LaidElems d' vs t r)
    (motive_3 := fun ms t r _ => LaidMembers d' ms t r) ?_ ?_ ?_ ?_ ?_ ?_ ?_ ?_ ?_ ?_ ?_ ?_ ?_ ?_ ?_ ht
  · exact .null
  · exact .tru
  · exact .fls
  · exact fun hn => .num (h.num _ hn)
  · exact fun hs => .str (h.str _ hs)
  · exact fun hw => .arrEmpty (h.gap _ hw)
  · exact fun _ ih => .arr ih
  · exact fun hw => .objEmpty (h.gap _ hw)
  · exact fun _ ih => .obj ih
  · exact fun h1 _ h3 ih => .one (h.gap _ h1) ih (h.after _ _ h3)
  · exact fun h1 _ h3 _ ih ih2 => .cons (h.gap _ h1) ih (h.after _ _ h3) ih2
  · exact fun h0 h1 _ h3 h4 ih => .trail (h.trailArr _ h0) (h.gap _ h1) ih (h.after _ _ h3) (h.gap _ h4)
  · exact fun h1 h2 h3 h4 _ h5 ih => .one (h.gap _ h1) (h.str _ h2) (h.gap _ h3) (h.gap _ h4) ih (h.after _ _ h5)
  · exact fun h1 h2 h3 h4 _ h5 _ ih ih2 => .cons (h.gap _ h1) (h.str _ h2) (h.gap _ h3) (h.gap _ h4) ih (h.after _ _ h5) ih2
  · exact fun h0 h1 h2 h3 h4 _ h5 h6 ih => .trail (h.trailObj h0) (h.gap _ h1) (h.str _ h2) (h.gap _ h3) (h.gap _ h4) ih (h.after _ _ h5) (h.gap _ h6)

/-- Every text can be remembered. -/
theorem laid_exists {d : Dialect} {v : JVal} {t : Bytes} (h : Text d v t) : ∀ r, ∃ a, a.plain = v ∧ Laid d a t r := by
  refine Text.rec (d := d) (motive_1 := fun v t _ => ∀ r, ∃ a : AVal, a.plain = v ∧ Laid d a t r)
    (motive_2 := fun vs t _ => ∀ r, ∃ as, plainElems as = vs ∧ LaidElems d as t r)
    (motive_3 := fun ms t _ => ∀ r, ∃ as, plainMembers as = ms ∧ LaidMembers d as t r) ?_ ?_ ?_ ?_ ?_ ?_ ?_ ?_ ?_ ?_ ?_ ?_ ?_ ?_ ?_ h
  · exact fun r => ⟨.null, rfl, .null⟩
  · exact fun r => ⟨.bool true, rfl, .tru⟩
  · exact fun r => ⟨.bool false, rfl, .fls⟩
  · exact fun {n} hn r => ⟨.num n, rfl, .num hn⟩
  · exact fun {s} hs r => ⟨.str s, rfl, .str hs⟩
  · exact fun hw r => ⟨_, rfl, .arrEmpty hw⟩
  · rintro vs t _ ih r
    obtain ⟨as, rfl, h⟩ := ih (b!"]" ++ r)
    exact ⟨_, rfl, .arr h⟩
  · exact fun hw r => ⟨_, rfl, .objEmpty hw⟩
  · rintro vs t _ ih r
    obtain ⟨as, rfl, h⟩ := ih (b!"}" ++ r)
    exact ⟨_, rfl, .obj h⟩
  · rintro v t w w' h1 _ h3 ih r
    obtain ⟨a, rfl, h⟩ := ih (w' ++ r)
    exact ⟨[a], rfl, .one h1 h h3⟩
  · rintro v t w w' vs ts h1 _ h3 _ ih ih2 r
    obtain ⟨a, rfl, h⟩ := ih (w' ++ b!"," ++ ts ++ r)
    obtain ⟨as, rfl, h'⟩ := ih2 r
    exact ⟨a :: as, rfl, .cons h1 h h3 h'⟩
  · rintro v t w w' w'' h0 h1 _ h3 h4 ih r
    obtain ⟨a, rfl, h⟩ := ih (w' ++ b!"," ++ w'' ++ r)
    exact ⟨[a], rfl, .trail h0 h1 h h3 h4⟩
  · rintro n v t w1 w2 w3 w4 h1 h2 h3 h4 _ h5 ih r
    obtain ⟨a, rfl, h⟩ := ih (w4 ++ r)
    exact ⟨[(n, a)], rfl, .one h1 h2 h3 h4 h h5⟩
  · rintro n v t w1 w2 w3 w4 ms ts h1 h2 h3 h4 _ h5 _ ih ih2 r
    obtain ⟨a, rfl, h⟩ := ih (w4 ++ b!"," ++ ts ++ r)
    obtain ⟨as, rfl, h'⟩ := ih2 r
    exact ⟨(n, a) :: as, rfl, .cons h1 h2 h3 h4 h h5 h'⟩
  · rintro n v t w1 w2 w3 w4 w5 h0 h1 h2 h3 h4 _ h5 h6 ih r
    obtain ⟨a, rfl, h⟩ := ih (w4 ++ b!"," ++ w5 ++ r)
    exact ⟨[(n, a)], rfl, .trail h0 h1 h2 h3 h4 h h5 h6⟩

/-! ### Texts run through -/

/-- As `Inner`, with what follows. -/
def AInner (o : Opts) (a : AVal) (t r : Bytes) : Prop :=
  match a with
  | .arr s vs => s = ⟨t, r⟩ ∧ ∃ t', t = LBRACK :: t' ∧ ∀ st, ∃ e', EOk o e' ∧ ARun o ⟨false, false, .arrayStart :: st, t' ++ r⟩
      (aelemToks vs ++ [aclose (some (0, r))]) ⟨true, e', st, r⟩
  | .obj s ms => s = ⟨t, r⟩ ∧ ∃ t', t = LBRACE :: t' ∧ ∀ st, ∃ e', EOk o e' ∧ ARun o ⟨false, false, .objectStart :: st, t' ++ r⟩
      (amemberToks ms ++ [acloseObj (some (0, r))]) ⟨true, e', st, r⟩
  | _ => True

theorem arun_container (o : Opts) (hn : o.newLines = false) {a : AVal} {t tail : Bytes} (h : AInner o a t tail)
    (hv : a.plain.isContainer = true) {e : Bool} {st : List Ty} {w : Bytes} (hw : GapO o.comments w) :
    ∃ e', EOk o e' ∧ ARun o ⟨false, e, st, w ++ (t ++ tail)⟩ (a.toks [] .ascii) ⟨true, e', st, tail⟩ := by
  cases a with
  | arr s vs =>
    obtain ⟨rfl, t', rfl, hr⟩ := h
    rw [AVal.toks]
    obtain ⟨e', h1, h2⟩ := hr st
    exact ⟨e', h1, .cons (next_open o hn hw).1 (stands_front (k := ⟨[], .ascii, b!"[", .arrayStart⟩) _ rfl) h2⟩
  | obj s ms =>
    obtain ⟨rfl, t', rfl, hr⟩ := h
    rw [AVal.toks]
    obtain ⟨e', h1, h2⟩ := hr st
    exact ⟨e', h1, .cons (next_open o hn hw).2 (stands_front (k := ⟨[], .ascii, b!"{", .objectStart⟩) _ rfl) h2⟩
  | null | bool | num | str => simp [AVal.plain, JVal.isContainer] at hv

theorem scalar_toks {a : AVal} (hv : a.plain.isContainer = false) (n : Bytes) (nt : Ty) : a.toks n nt = (a.plain.toks n nt).map (·, none) := by
  cases a with
  | bool b => cases b <;> rfl
  | arr | obj => simp [AVal.plain, JVal.isContainer] at hv
  | _ => rfl

theorem arun_elem (o : Opts) (hn : o.newLines = false) {a : AVal} {t : Bytes} {e : Bool} {st : List Ty} {w w' r : Bytes} {p : Byte}
    (ht : Text (lenient o) a.plain t) (h : AInner o a t (w' ++ p :: r)) (hw : GapO o.comments w) (hw' : (lenient o).after a.plain w') :
    (p = COMMA → ∃ c', ARun o ⟨false, e, .arrayStart :: st, w ++ (t ++ (w' ++ p :: r))⟩ (a.toks [] .ascii) c' ∧
      Sim o c' ⟨false, a.plain.isContainer, .arrayStart :: st, r⟩) ∧
    (p = RBRACK → ∃ c' e', EOk o e' ∧ ARun o ⟨false, e, .arrayStart :: st, w ++ (t ++ (w' ++ p :: r))⟩ (a.toks [] .ascii) c' ∧
      Sim o c' ⟨false, e', .arrayStart :: st, RBRACK :: r⟩) := by
  by_cases hv : a.plain.isContainer = true
  · obtain ⟨e1, h1, h2⟩ := arun_container o hn h hv (e := e) (st := .arrayStart :: st) hw
    exact ⟨fun hp => ⟨_, h2, by rw [hv, hp]; exact sim_comma o hn hw'.1⟩, fun hp => ⟨_, _, h1, h2, by rw [hp]; exact sim_end o hn hw'.1 (.inl rfl)⟩⟩
  · have hv : a.plain.isContainer = false := by simpa using hv
    obtain ⟨⟨c1, h1, h2⟩, c2, e2, h3, h4, h5⟩ := run_elem o hn ht (inner_text o hn ht) (e := e) (st := st) (r := r) hw hw'
    rw [scalar_toks hv]
    exact ⟨fun hp => ⟨c1, by rw [hp]; exact run_none h1, h2⟩, fun hp => ⟨c2, e2, h3, by rw [hp]; exact run_none h4, h5⟩⟩

theorem arun_member (o : Opts) (hn : o.newLines = false) {n : Bytes} {a : AVal} {t : Bytes} {e : Bool} {st : List Ty} {w1 w2 w3 w' r : Bytes} {p : Byte}
    (ht : Text (lenient o) a.plain t) (hs : StrBody n) (h : AInner o a t (w' ++ p :: r))
    (hw1 : GapO o.comments w1) (hw2 : GapO o.comments w2) (hw3 : GapO o.comments w3)
    (hw' : (lenient o).after a.plain w') (hp : p = COMMA ∨ p = RBRACE) :
    ∃ e', EOk o e' ∧ ARun o ⟨false, e, .objectStart :: st, w1 ++ (QUOTE :: (n ++ QUOTE :: (w2 ++ COLON :: (w3 ++ (t ++ (w' ++ p :: r))))))⟩
      (a.toks n .string) ⟨true, e', .objectStart :: st, w' ++ p :: r⟩ := by
  by_cases hv : a.plain.isContainer = true
  · have hpop : lNext o ⟨false, e, .objectStart :: st, w1 ++ (QUOTE :: (n ++ QUOTE :: (w2 ++ COLON :: (w3 ++ (t ++ (w' ++ p :: r))))))⟩ =
        lFin (lData o ⟨false, false, .objectStart :: st, w3 ++ (t ++ (w' ++ p :: r))⟩ n .string) := by
      rw [lNext_fin]
      congr 1
      unfold lPop lName
      rw [lValue_gap o hn w1 _ hw1, lValue_str o hs]
      simp only [isEmpty_app, Bool.false_eq_true, if_false]
      unfold lDelimiter
      simp only [isEmpty_app, Bool.false_eq_true, if_false]
      rw [lDelim_gap o hn _ w2 _ hw2]
      have : lDelim o .objectStart (COLON :: (w3 ++ (t ++ (w' ++ p :: r)))) 0 = .ok (true, w3 ++ (t ++ (w' ++ p :: r))) := by
        simp [lDelim, show (COLON == SLASH) = false from rfl]
      rw [this]
      simp [getType]
    have hne : (w3 ++ (t ++ (w' ++ p :: r))).isEmpty = false := by
      rw [← List.append_assoc, ← List.append_assoc]; exact isEmpty_app
    have hdata : lData o ⟨false, false, .objectStart :: st, w3 ++ (t ++ (w' ++ p :: r))⟩ n .string =
        match lValue o (t ++ (w' ++ p :: r)) with
        | .error e => .error e
        | .ok (ty, d, r) =>
          if getType ty d = .ascii ∧ o.ascii = false then .error .illegalDataValue
          else .ok (⟨!(ty == .objectStart || ty == .arrayStart), false, .objectStart :: st, r⟩, ⟨n, .string, d, getType ty d⟩) := by
      unfold lData
      simp only [hne, Bool.false_eq_true, if_false]
      rw [lValue_gap o hn w3 _ hw3]
      cases lValue o (t ++ (w' ++ p :: r)) <;> rfl
    cases a with
    | arr s vs =>
      obtain ⟨rfl, t', rfl, hr⟩ := h
      rw [AVal.toks]
      obtain ⟨e', h1, h2⟩ := hr (.objectStart :: st)
      refine ⟨e', h1, .cons ?_ (stands_front (k := ⟨n, .string, b!"[", .arrayStart⟩) _ rfl) h2⟩
      rw [hpop, hdata]
      simp only [List.cons_append, lValue_open]
      simp [getType, lFin]
    | obj s ms =>
      obtain ⟨rfl, t', rfl, hr⟩ := h
      rw [AVal.toks]
      obtain ⟨e', h1, h2⟩ := hr (.objectStart :: st)
      refine ⟨e', h1, .cons ?_ (stands_front (k := ⟨n, .string, b!"{", .objectStart⟩) _ rfl) h2⟩
      rw [hpop, hdata]
      simp only [List.cons_append, lValue_open]
      simp [getType, lFin]
    | null | bool | num | str => simp [AVal.plain, JVal.isContainer] at hv
  · have hv : a.plain.isContainer = false := by simpa using hv
    obtain ⟨e', h1, h2⟩ := run_member o hn ht hs (inner_text o hn ht) (e := e) (st := st) (r := r) hw1 hw2 hw3 hw' hp
    rw [scalar_toks hv]
    exact ⟨e', h1, run_none h2⟩

theorem laid_inner (o : Opts) (hn : o.newLines = false) {a : AVal} {t r : Bytes} (h : Laid (lenient o) a t r) : AInner o a t r := by
  refine Laid.rec (d := lenient o) (motive_1 := fun a t r _ => AInner o a t r)
    (motive_2 := fun vs t r _ => ∀ tail, r = RBRACK :: tail → ∀ e st, ∃ e', EOk o e' ∧ ARun o ⟨false, e, .arrayStart :: st, t ++ RBRACK :: tail⟩
      (aelemToks vs ++ [aclose (some (0, tail))]) ⟨true, e', st, tail⟩)
    (motive_3 := fun ms t r _ => ∀ tail, r = RBRACE :: tail → ∀ e st, ∃ e', EOk o e' ∧ ARun o ⟨false, e, .objectStart :: st, t ++ RBRACE :: tail⟩
      (amemberToks ms ++ [acloseObj (some (0, tail))]) ⟨true, e', st, tail⟩)
    trivial trivial trivial (fun _ => trivial) (fun _ => trivial) ?_ ?_ ?_ ?_ ?_ ?_ ?_ ?_ ?_ ?_ h
  · intro w tail hw
    refine ⟨rfl, w ++ b!"]", by simp, fun st => ⟨false, eok_false o, ?_⟩⟩
    rw [aelemToks]
    refine .one (a := aclose (some (0, tail))) ?_ (stands_behind _ _)
    rw [show w ++ b!"]" ++ tail = w ++ RBRACK :: tail by simp [RBRACK]]
    exact (next_close o hn (eok_false o) (st := st) (r := tail) hw).1
  · intro vs t tail _ ih
    exact ⟨rfl, t ++ b!"]", by simp, fun st => by simpa using ih tail rfl false st⟩
  · intro w tail hw
    refine ⟨rfl, w ++ b!"}", by simp, fun st => ⟨false, eok_false o, ?_⟩⟩
    rw [amemberToks]
    refine .one (a := acloseObj (some (0, tail))) ?_ (stands_behind _ _)
    rw [show w ++ b!"}" ++ tail = w ++ RBRACE :: tail by simp [RBRACE]]
    exact (next_close o hn (eok_false o) (st := st) (r := tail) hw).2
  · intro vs t tail _ ih
    exact ⟨rfl, t ++ b!"}", by simp, fun st => by simpa using ih tail rfl false st⟩
  · rintro v t w w' r hw ht hw' ih tail rfl e st
    obtain ⟨c', e', he', h1, h2⟩ := (arun_elem o hn (laid_text ht) ih (e := e) (st := st) hw hw').2 rfl
    rw [aelemToks, aelemToks, List.append_nil]
    refine ⟨e', he', ARun.append (by simpa using h1) ?_⟩
    exact ARun.sim (by simp) h2 (.one (a := aclose (some (0, tail))) (next_close o hn he' (w := []) (gapO_nil _)).1 (stands_behind _ _))
  · rintro v t w w' vs ts r hw ht hw' hts ih ihs tail rfl e st
    obtain ⟨c', h1, h2⟩ := (arun_elem o hn (laid_text ht) (r := ts ++ RBRACK :: tail) (p := COMMA) (by simpa using ih) (e := e) (st := st) hw hw').1 rfl
    rw [aelemToks, List.append_assoc (AVal.toks _ _ _)]
    obtain ⟨e', he', this⟩ := ihs tail rfl v.plain.isContainer st
    exact ⟨e', he', ARun.append (by simpa using h1) (ARun.sim (by simp) h2 this)⟩
  · rintro v t w w' w'' r htr hw ht hw' hw'' ih tail rfl e st
    obtain ⟨c', h1, h2⟩ := (arun_elem o hn (laid_text ht) (r := w'' ++ RBRACK :: tail) (p := COMMA) (by simpa using ih) (e := e) (st := st) hw hw').1 rfl
    rw [aelemToks, aelemToks, List.append_nil]
    have he : EOk o v.plain.isContainer := by
      intro hc
      rcases htr with h | h
      · exact h
      · rw [hc] at h; simp at h
    refine ⟨v.plain.isContainer, he, ARun.append (by simpa using h1) ?_⟩
    exact ARun.sim (by simp) h2 (.one (a := aclose (some (0, tail))) (next_close o hn he hw'').1 (stands_behind _ _))
  · rintro n v t w1 w2 w3 w4 r hw1 hs hw2 hw3 ht hw4 ih tail rfl e st
    obtain ⟨e', he', h1⟩ := arun_member o hn (laid_text ht) hs ih (e := e) (st := st) hw1 hw2 hw3 hw4 (.inr rfl)
    rw [amemberToks, amemberToks, List.append_nil]
    refine ⟨e', he', ARun.append (by simpa using h1) ?_⟩
    exact ARun.sim (by simp) (sim_end o hn hw4.1 (.inr rfl)) (.one (a := acloseObj (some (0, tail))) (next_close o hn he' (w := []) (gapO_nil _)).2 (stands_behind _ _))
  · rintro n v t w1 w2 w3 w4 ms ts r hw1 hs hw2 hw3 ht hw4 hts ih ihs tail rfl e st
    obtain ⟨e1, he1, h1⟩ := arun_member o hn (laid_text ht) hs (r := ts ++ RBRACE :: tail) (p := COMMA) (by simpa using ih) (e := e) (st := st) hw1 hw2 hw3 hw4 (.inl rfl)
    rw [amemberToks, List.append_assoc (AVal.toks _ _ _)]
    obtain ⟨e', he', this⟩ := ihs tail rfl true st
    exact ⟨e', he', ARun.append (by simpa using h1) (ARun.sim (by simp) (sim_comma o hn hw4.1) this)⟩
  · rintro n v t w1 w2 w3 w4 w5 r htr hw1 hs hw2 hw3 ht hw4 hw5 ih tail rfl e st
    obtain ⟨e1, he1, h1⟩ := arun_member o hn (laid_text ht) hs (r := w5 ++ RBRACE :: tail) (p := COMMA) (by simpa using ih) (e := e) (st := st) hw1 hw2 hw3 hw4 (.inl rfl)
    rw [amemberToks, amemberToks, List.append_nil]
    refine ⟨true, fun _ => htr, ARun.append (by simpa using h1) ?_⟩
    exact ARun.sim (by simp) (sim_comma o hn hw4.1) (.one (a := acloseObj (some (0, tail))) (next_close o hn (fun _ => htr) hw5).2 (stands_behind _ _))

/-! ### Calls -/

theorem adelivers_run {o : Opts} {c c' : LC} {ks : List ATok} (h : ARun o c ks c') : ∀ {t : Tz}, Good t W → t.scopes = [] → t.opts = o → t.light W = c →
    t.Ok → t.Neat → t.copies = [] → t.released = [] → ADelivers W t ks := by
  induction h with
  | nil => intros; trivial
  | @cons c a c1 ks c2 h hm _ ih =>
    intro t hg hs ho hc hok hnt hcp hrl
    have hl := nextToken_light t W {} hg (by simp [hs])
    rw [ho, hc, h] at hl
    obtain ⟨t', tok, h1, h2, h3, h4, h5, h6⟩ := hl
    have hr : Ready t' tok := by
      have := ready_next (k := {}) hok hg.parsed hnt hcp (by rw [h1])
      rw [h1] at this; exact this
    have hrest : W.drop t'.cursor = c1.rest := congrArg LC.rest h4
    have hty : a.1.valueType = tok.valueType := by rw [← h2]; rfl
    refine ⟨t', tok, nextToken_indep h1, h2, ⟨h3, h6.2.1.trans hrl, fun k m hk => ?_⟩, hr,
      ih h3 (by rw [h5, hs]; rfl) (h6.1.trans ho) h4 hr.sane.1 hr.neat hr.free (h6.2.1.trans hrl)⟩
    have hle := hm.le k m hk
    rcases Nat.le_one_iff_eq_zero_or_eq_one.mp hle with rfl | rfl
    · rw [← hm.behind m hk]; exact hrest
    · obtain ⟨rfl, hb⟩ := hm.front m hk
      obtain ⟨b, bs, hbb, hat⟩ := hr.at_
      have hbb : t'.bufs = b :: bs := hbb
      rw [h3.bufs] at hbb
      cases hbb
      obtain ⟨q1, q2, _⟩ := hat (by show tok.valueType.isBracket = true; rw [← hty]; exact hb)
      simp only at q1 q2
      rw [List.getElem?_eq_some_iff] at q2
      obtain ⟨ql, qx⟩ := q2
      rw [List.drop_eq_getElem_cons ql, qx, show t'.cursor - 1 + 1 = t'.cursor from by omega, hrest, hty]

theorem adelivers_doc {o : Opts} (hn : o.newLines = false) {a : AVal} {t : Bytes} (hv : a.plain.isContainer = true)
    (h : LaidDoc (lenient o) a t) : ADelivers t ((Tz.new o).addData t) (a.toks [] .ascii) := by
  obtain ⟨w, b, w', h1, h2, h3, rfl⟩ := h
  obtain ⟨e', _, hr⟩ := arun_container o hn (laid_inner o hn h2) hv (e := false) (st := []) h1
  rw [← List.append_assoc] at hr
  refine adelivers_run hr (t := (Tz.new o).addData (w ++ b ++ w')) ?_ rfl rfl rfl ?_ ⟨fun _ => ⟨rfl, rfl⟩, fun h => by simp [Tz.new, Tz.addData] at h⟩ rfl rfl
  · exact ⟨rfl, rfl, ⟨rfl, rfl, Nat.zero_le _⟩, by simp [Tz.new, Tz.addData], rfl, .inl rfl⟩
  · exact ok_new o [w ++ b ++ w'] []

/-- Parsing a document does what the decoder says about the value with its text. -/
theorem parse_laid {h : Handler T} {d : ADec T} (hs : h.ASem d) {o : Opts} (hn : o.newLines = false) (p : POpts) {a : AVal} {t : Bytes}
    (hv : a.plain.isContainer = true) (hd : LaidDoc (lenient o) a t) {old : T} {r : Res T}
    (hr : d p old (.val ([], .ascii) a) = some r) : Parses h o p old t r := by
  have hdel := adelivers_doc hn hv hd
  obtain ⟨ks, hk⟩ := aitem_first (.val ([], .ascii) a)
  have hk' : a.toks [] .ascii = (AItem.val ([], .ascii) a).first :: ks := hk
  rw [hk'] at hdel
  obtain ⟨t', tok, h1, h2, h3, h4, h5⟩ := hdel
  have hnext : (Ctx.onText o p t).next = { Ctx.onText o p t with tz := t', token := tok, error := .noError } := by
    simp only [Ctx.next, show (Ctx.onText o p t).tz = (Tz.new o).addData t from rfl, h1]
  have hst : (Ctx.onText o p t).next.AStream t ((AItem.val ([], .ascii) a).toks ++ []) := by
    rw [hnext, List.append_nil, hk]
    exact ⟨rfl, _, _, rfl, h2, h3, fun _ => h4, h5⟩
  obtain ⟨N, c', g1, g2, _⟩ := hs t _ old _ _ r hst (by rw [hnext]; exact hr)
  dsimp only at g1
  refine ⟨N, { c' with error := r.err }, fun n hn => ?_, ?_, ?_, rfl⟩
  · simp only [parseTo]
    rw [g1 n hn, if_neg (by rw [hnext]; simp)]
    rfl
  · have := g2.missing; rw [hnext] at this; simpa [Ctx.onText] using this
  · have := g2.unassigned; rw [hnext] at this; simpa [Ctx.onText] using this

end JsonStruct
