import Verif.Model.Serializer
import Verif.Lemmas.Doc
import Verif.Spec.Value

/- What `Serializer::write` appends, independently of the buffers. -/

set_option linter.unusedSimpArgs false

namespace JsonStruct

/-- Every call of the callback installs a buffer that is not empty. -/
def Ser.Supplied (s : Ser) : Prop := ∀ n, ∃ k, s.supply n = some k ∧ 0 < k

/-- No buffer is overrun, and replaced buffers are full. -/
structure Ser.Good (s : Ser) : Prop where
  supplied : s.Supplied
  cur : s.buf.data.length ≤ s.buf.size
  full : ∀ b ∈ s.done, b.data.length = b.size

def Ser.sizes (s : Ser) : List Nat := (s.done ++ [s.buf]).map (·.size)

/-- The buffers of `s'` came from those of `s` by calls of the callback. -/
def Asked (s s' : Ser) : Prop :=
  ∀ P : List Nat → Nat → Prop, (∀ l r, P l r → P (l ++ [(s.supply r).getD 0]) (r + 1)) →
    P s.sizes s.requests → P s'.sizes s'.requests

/-- `s'` is `s` with the bytes `d` appended to the output. -/
structure Wrote (s : Ser) (d : Bytes) (s' : Ser) : Prop where
  out : s'.out = s.out ++ d
  good : s'.Good
  opt : s'.opt = s.opt
  first : s'.first = s.first
  start : s'.tokenStart = s.tokenStart
  supply : s'.supply = s.supply
  asked : Asked s s'

theorem Wrote.refl (s : Ser) (h : s.Good) : Wrote s [] s :=
  ⟨by simp, h, rfl, rfl, rfl, rfl, fun _ _ hP => hP⟩

theorem Asked.trans {a b c : Ser} (h : Asked a b) (hs : b.supply = a.supply) (h' : Asked b c) : Asked a c := by
  intro P hP h0
  exact h' P (by rw [hs]; exact hP) (h P hP h0)

theorem Wrote.trans {a b c : Ser} {d e : Bytes} (h : Wrote a d b) (h' : Wrote b e c) : Wrote a (d ++ e) c :=
  ⟨by rw [h'.out, h.out, List.append_assoc], h'.good, by rw [h'.opt, h.opt], by rw [h'.first, h.first],
    by rw [h'.start, h.start], by rw [h'.supply, h.supply], h.asked.trans h.supply h'.asked⟩

theorem markFull_wrote (s : Ser) (h : s.Good) (hf : s.buf.free = 0) :
    Wrote s [] s.markFull ∧ 0 < s.markFull.buf.free := by
  obtain ⟨k, hk, hp⟩ := h.supplied s.requests
  have hfull : s.buf.data.length = s.buf.size := by
    have := h.cur; unfold OutBuf.free at hf; omega
  refine ⟨⟨?_, ⟨h.supplied, ?_, ?_⟩, rfl, rfl, rfl, rfl, ?_⟩, ?_⟩
  · simp [Ser.out, Ser.markFull, hk]
  · simp [Ser.markFull, hk]
  · intro b hb
    simp only [Ser.markFull, List.mem_append, List.mem_singleton] at hb
    rcases hb with hb | rfl
    · exact h.full b hb
    · exact hfull
  · intro P hP h0
    have := hP _ _ h0
    simpa [Ser.sizes, Ser.markFull, hk] using this
  · simpa [Ser.markFull, hk, OutBuf.free] using hp

theorem append_wrote (s : Ser) (d : Bytes) (h : s.Good) (hd : d.length ≤ s.buf.free) :
    ∃ b, s.buf.append d = some b ∧ Wrote s d { s with buf := b } := by
  have hc := h.cur
  unfold OutBuf.free at hd
  refine ⟨{ s.buf with data := s.buf.data ++ d }, ?_, ?_⟩
  · unfold OutBuf.append; rw [if_pos (by omega)]
  · refine ⟨by simp [Ser.out], ⟨h.supplied, by simp; omega, h.full⟩, rfl, rfl, rfl, rfl, fun P _ h0 => by simpa [Ser.sizes] using h0⟩

theorem writeLoop_wrote (n : Nat) (s : Ser) (d : Bytes) (h : s.Good) (hn : d.length ≤ n) :
    (s.writeLoop n d).1 = .ok ∧ Wrote s d (s.writeLoop n d).2 := by
  induction n generalizing s d with
  | zero =>
    have : d = [] := List.length_eq_zero_iff.mp (by omega)
    subst this; exact ⟨rfl, Wrote.refl s h⟩
  | succ n ih =>
    cases d with
    | nil => exact ⟨rfl, Wrote.refl s h⟩
    | cons c d =>
      simp only [Ser.writeLoop]
      generalize hs' : (if s.buf.free = 0 then s.markFull else s) = s'
      have h' : Wrote s [] s' ∧ 0 < s'.buf.free := by
        rw [← hs']; split
        · rename_i hf; exact markFull_wrote s h hf
        · rename_i hf; exact ⟨Wrote.refl s h, Nat.pos_of_ne_zero hf⟩
      rw [if_neg (by omega)]
      obtain ⟨b, hb, hw⟩ := append_wrote s' ((c :: d).take (min (c :: d).length s'.buf.free)) h'.1.good (by simp; omega)
      simp only [hb]
      have := ih { s' with buf := b } ((c :: d).drop (min (c :: d).length s'.buf.free)) hw.good (by simp only [List.length_drop, List.length_cons] at *; omega)
      refine ⟨this.1, ?_⟩
      have hh := (h'.1.trans hw).trans this.2
      rwa [List.nil_append, List.take_append_drop] at hh

theorem writeBytes_wrote (s : Ser) (d : Bytes) (h : s.Good) :
    (s.writeBytes d).1 = .ok ∧ Wrote s d (s.writeBytes d).2 :=
  writeLoop_wrote d.length s d h (Nat.le_refl _)

theorem writeLit_wrote (s : Ser) (d : Bytes) (h : s.Good) :
    (s.writeLit d).1 = .ok ∧ Wrote s d (s.writeLit d).2 := by
  unfold Ser.writeLit
  split
  · exact writeBytes_wrote s d h
  · obtain ⟨b, hb, hw⟩ := append_wrote s d h (by omega)
    rw [hb]; exact ⟨rfl, hw⟩

theorem andThen_wrote {s : Ser} {d e : Bytes} {r : WRes × Ser} {f : Ser → WRes × Ser}
    (h : r.1 = .ok ∧ Wrote s d r.2) (hf : ∀ s', Wrote s d s' → (f s').1 = .ok ∧ Wrote s' e (f s').2) :
    (WRes.andThen r f).1 = .ok ∧ Wrote s (d ++ e) (WRes.andThen r f).2 := by
  obtain ⟨e1, s1⟩ := r
  obtain ⟨h1, h2⟩ := h
  simp only at h1 h2; subst h1
  simp only [WRes.andThen]
  exact ⟨(hf s1 h2).1, h2.trans (hf s1 h2).2⟩

/-- The text of a name or a value. -/
def typedText (conv : Bool) (ty : Ty) (data : Bytes) : Bytes :=
  match ty with
  | .string => QUOTE :: (data ++ [QUOTE])
  | .ascii => if conv then QUOTE :: (data ++ [QUOTE]) else data
  | .null => b!"null"
  | _ => data

theorem writeAsString_wrote (s : Ser) (d : Bytes) (h : s.Good) :
    (s.writeAsString d).1 = .ok ∧ Wrote s (QUOTE :: (d ++ [QUOTE])) (s.writeAsString d).2 := by
  have := andThen_wrote (writeLit_wrote s [QUOTE] h) (f := fun s => WRes.andThen (s.writeBytes d) fun s => s.writeLit [QUOTE])
    (e := d ++ [QUOTE])
    (fun s' hs' => andThen_wrote (writeBytes_wrote s' d hs'.good) (fun s'' hs'' => writeLit_wrote s'' [QUOTE] hs''.good))
  exact this

theorem writeTyped_wrote (s : Ser) (ty : Ty) (d : Bytes) (h : s.Good) :
    (s.writeTyped ty d).1 = .ok ∧ Wrote s (typedText s.opt.convertAscii ty d) (s.writeTyped ty d).2 := by
  unfold Ser.writeTyped typedText
  cases ty <;> simp only
  case string => exact writeAsString_wrote s d h
  case ascii =>
    split
    · exact writeAsString_wrote s d h
    · exact writeBytes_wrote s d h
  all_goals exact writeBytes_wrote s _ h

/-- The serializer without its buffers. -/
structure SerSt where
  opt : SerOpts
  first : Bool := true
  tokenStart : Bool := true

def Ser.st (s : Ser) : SerSt := { opt := s.opt, first := s.first, tokenStart := s.tokenStart }

def Ty.isEnd (ty : Ty) : Bool := ty = .objectEnd ∨ ty = .arrayEnd
def Ty.isStart (ty : Ty) : Bool := ty = .objectStart ∨ ty = .arrayStart

/-- The shortcut text, if any. -/
def SerSt.short (s : SerSt) (isEnd : Bool) : Option Bytes :=
  if s.opt.shift = 2 ∧ s.first = false then
    if !s.tokenStart && !isEnd && s.opt.tokenDelim.isEmpty then begining s.opt.depth
    else if !s.tokenStart && !isEnd then beginingComma s.opt.depth
    else begining s.opt.depth
  else none

/-- What precedes a token; `s` already has the depth of the token. -/
def SerSt.front (s : SerSt) (isEnd : Bool) : Bytes :=
  match s.short isEnd with
  | some l => l
  | none =>
    (if !s.tokenStart && !isEnd && !s.opt.tokenDelim.isEmpty then [COMMA] else []) ++
    ((if s.first then [] else s.opt.post) ++ s.opt.pre)

/-- Name and value. -/
def SerSt.body (s : SerSt) (tok : Tok) : Bytes :=
  (if tok.name.isEmpty then [] else typedText s.opt.convertAscii tok.nameType tok.name ++ (if s.opt.pretty then b!": " else b!":")) ++
  typedText s.opt.convertAscii tok.valueType tok.value

/-- The depth for the token itself. -/
def SerSt.pre (s : SerSt) (ty : Ty) : SerSt :=
  if ty.isEnd then { s with opt := s.opt.setDepth (s.opt.depth - 1) } else s

/-- The state behind the token. -/
def SerSt.post (s : SerSt) (ty : Ty) : SerSt :=
  { opt := if ty.isStart then s.opt.setDepth (s.opt.depth + 1) else s.opt, first := false, tokenStart := ty.isStart }

/-- All that `write` appends for a token. -/
def SerSt.text (s : SerSt) (tok : Tok) : Bytes :=
  (s.pre tok.valueType).front tok.valueType.isEnd ++ (s.pre tok.valueType).body tok

def SerSt.next (s : SerSt) (ty : Ty) : SerSt := (s.pre ty).post ty

theorem shortcut_eq (s : Ser) (isEnd : Bool) :
    s.shortcut isEnd = match s.st.short isEnd with
      | some l => ((s.writeLit l).1 == .ok, (s.writeLit l).1, (s.writeLit l).2)
      | none => (false, .ok, s) := by
  by_cases hc : s.opt.shift = 2 ∧ s.first = false
  · have : s.st.short isEnd = if !s.tokenStart && !isEnd && s.opt.tokenDelim.isEmpty then begining s.opt.depth
        else if !s.tokenStart && !isEnd then beginingComma s.opt.depth else begining s.opt.depth := if_pos hc
    rw [this, Ser.shortcut, if_pos hc]
    generalize (if !s.tokenStart && !isEnd && s.opt.tokenDelim.isEmpty then begining s.opt.depth
        else if !s.tokenStart && !isEnd then beginingComma s.opt.depth else begining s.opt.depth) = l
    cases l <;> rfl
  · have : s.st.short isEnd = none := if_neg hc
    rw [this, Ser.shortcut, if_neg hc]

theorem shortcut_wrote (s : Ser) (isEnd : Bool) (h : s.Good) :
    (s.shortcut isEnd).2.1 = .ok ∧
    match s.st.short isEnd with
    | some l => (s.shortcut isEnd).1 = true ∧ Wrote s l (s.shortcut isEnd).2.2
    | none => (s.shortcut isEnd).1 = false ∧ (s.shortcut isEnd).2.2 = s := by
  rw [shortcut_eq]
  cases s.st.short isEnd with
  | none => simp
  | some l =>
    have := writeLit_wrote s l h
    exact ⟨this.1, by simp [this.1], this.2⟩

theorem isEmpty_nil_or {α : Type} (l : List α) : l.isEmpty = true → l = [] := by cases l <;> simp

theorem front_wrote (s : Ser) (isEnd : Bool) (h : s.Good) :
    (s.front isEnd).1 = .ok ∧
    Wrote { s with first := false } ((if !s.tokenStart && !isEnd && !s.opt.tokenDelim.isEmpty then [COMMA] else []) ++
      ((if s.first then [] else s.opt.post) ++ s.opt.pre)) { (s.front isEnd).2 with first := false } ∧
    (s.front isEnd).2.first = false := by
  have hset : ∀ {a b : Ser} {d : Bytes}, Wrote a d b → Wrote { a with first := false } d { b with first := false } := by
    intro a b d h
    exact ⟨h.out, ⟨h.good.1, h.good.2, h.good.3⟩, h.opt, rfl, h.start, h.supply, fun P hP h0 => h.asked P hP h0⟩
  unfold Ser.front
  have h1 : (if !s.tokenStart && !isEnd && !s.opt.tokenDelim.isEmpty then s.writeLit [COMMA] else (WRes.ok, s)).1 = .ok ∧
      Wrote s (if !s.tokenStart && !isEnd && !s.opt.tokenDelim.isEmpty then [COMMA] else [])
        (if !s.tokenStart && !isEnd && !s.opt.tokenDelim.isEmpty then s.writeLit [COMMA] else (WRes.ok, s)).2 := by
    split
    · exact writeLit_wrote s _ h
    · exact ⟨rfl, Wrote.refl s h⟩
  generalize (if !s.tokenStart && !isEnd && !s.opt.tokenDelim.isEmpty then s.writeLit [COMMA] else (WRes.ok, s)) = r1 at *
  generalize (if !s.tokenStart && !isEnd && !s.opt.tokenDelim.isEmpty then [COMMA] else []) = d1 at *
  obtain ⟨e1, s1⟩ := r1
  simp only at h1
  obtain ⟨rfl, w1⟩ := h1
  simp only [WRes.andThen]
  have h2 : (if s1.first then (WRes.ok, { s1 with first := false }) else if s1.opt.post.isEmpty then (.ok, s1) else s1.writeBytes s1.opt.post).1 = .ok ∧
      Wrote { s1 with first := false } (if s1.first then [] else s1.opt.post)
        { (if s1.first then (WRes.ok, { s1 with first := false }) else if s1.opt.post.isEmpty then (.ok, s1) else s1.writeBytes s1.opt.post).2 with first := false } ∧
      (if s1.first then (WRes.ok, { s1 with first := false }) else if s1.opt.post.isEmpty then (.ok, s1) else s1.writeBytes s1.opt.post).2.first = false ∧
      (if s1.first then (WRes.ok, { s1 with first := false }) else if s1.opt.post.isEmpty then (.ok, s1) else s1.writeBytes s1.opt.post).2.Good := by
    split
    · have hg : Ser.Good { s1 with first := false } := ⟨w1.good.1, w1.good.2, w1.good.3⟩
      exact ⟨rfl, Wrote.refl _ hg, rfl, hg⟩
    · rename_i hf
      split
      · rename_i he
        rw [isEmpty_nil_or _ he]
        exact ⟨rfl, hset (Wrote.refl _ w1.good), by simpa using hf, w1.good⟩
      · have := writeBytes_wrote s1 s1.opt.post w1.good
        exact ⟨this.1, hset this.2, by rw [this.2.first]; simpa using hf, this.2.good⟩
  have e1 : s.opt.post = s1.opt.post := by rw [w1.opt]
  have e2 : s.opt.pre = s1.opt.pre := by rw [w1.opt]
  rw [← w1.first, e1, e2]
  generalize (if s1.first then (WRes.ok, { s1 with first := false }) else if s1.opt.post.isEmpty then (.ok, s1) else s1.writeBytes s1.opt.post) = r2 at *
  generalize (if s1.first then [] else s1.opt.post) = d2 at *
  obtain ⟨e2, s2⟩ := r2
  simp only at h2
  obtain ⟨rfl, w2, f2, g2⟩ := h2
  simp only
  have ho : s2.opt = s1.opt := w2.opt
  rw [ho]
  split
  · rename_i he
    rw [isEmpty_nil_or _ he, List.append_nil]
    exact ⟨rfl, (hset w1).trans w2, f2⟩
  · have := writeBytes_wrote s2 s1.opt.pre g2
    exact ⟨this.1, (hset w1).trans (w2.trans (hset this.2)), by rw [this.2.first]; exact f2⟩

theorem body_wrote (s : Ser) (tok : Tok) (h : s.Good) :
    (s.body tok).1 = .ok ∧ (s.body tok).2.out = s.out ++ s.st.body tok ∧ (s.body tok).2.Good ∧
    (s.body tok).2.st = { s.st.post tok.valueType with first := s.first } ∧ (s.body tok).2.supply = s.supply ∧
    ∃ s', Wrote s (s.st.body tok) s' ∧ s'.done = (s.body tok).2.done ∧ s'.buf = (s.body tok).2.buf ∧ s'.requests = (s.body tok).2.requests := by
  unfold Ser.body
  have h1 : (if tok.name.isEmpty then (WRes.ok, s)
     else WRes.andThen (s.writeTyped tok.nameType tok.name) fun s => s.writeLit (if s.opt.pretty then b!": " else b!":")).1 = .ok ∧
     Wrote s (if tok.name.isEmpty then [] else typedText s.opt.convertAscii tok.nameType tok.name ++ (if s.opt.pretty then b!": " else b!":"))
      (if tok.name.isEmpty then (WRes.ok, s)
     else WRes.andThen (s.writeTyped tok.nameType tok.name) fun s => s.writeLit (if s.opt.pretty then b!": " else b!":")).2 := by
    split
    · exact ⟨rfl, Wrote.refl s h⟩
    · refine andThen_wrote (writeTyped_wrote s _ _ h) (fun s' hs' => ?_)
      rw [← hs'.opt]; exact writeLit_wrote s' _ hs'.good
  generalize (if tok.name.isEmpty then (WRes.ok, s)
     else WRes.andThen (s.writeTyped tok.nameType tok.name) fun s => s.writeLit (if s.opt.pretty then b!": " else b!":")) = r1 at *
  obtain ⟨e1, s1⟩ := r1
  simp only at h1
  obtain ⟨rfl, w1⟩ := h1
  simp only [WRes.andThen]
  have h2 := writeTyped_wrote s1 tok.valueType tok.value w1.good
  generalize s1.writeTyped tok.valueType tok.value = r2 at *
  obtain ⟨e2, s2⟩ := r2
  simp only at h2
  obtain ⟨rfl, w2⟩ := h2
  simp only
  have w := w1.trans w2
  rw [w1.opt] at w
  refine ⟨trivial, ?_, ⟨w2.good.1, w2.good.2, w2.good.3⟩, ?_, w.supply, s2, w, rfl, rfl, rfl⟩
  · exact w.out
  · simp only [Ser.st, SerSt.post, Ty.isStart, w.opt, w.first, decide_eq_true_eq]

/-- `s'` is `s` after the tokens `ks` were written, with the text `d`. -/
structure WroteToks (s : Ser) (st' : SerSt) (d : Bytes) (s' : Ser) : Prop where
  out : s'.out = s.out ++ d
  good : s'.Good
  st : s'.st = st'
  supply : s'.supply = s.supply
  asked : Asked s s'

theorem write_wrote (s : Ser) (tok : Tok) (h : s.Good) (hd : tok.valueType.isEnd = true → s.opt.depth ≠ 0) :
    (s.write tok).1 = .ok ∧ WroteToks s (s.st.next tok.valueType) (s.st.text tok) (s.write tok).2 := by
  unfold Ser.write
  have hE : (decide (tok.valueType = .objectEnd ∨ tok.valueType = .arrayEnd)) = tok.valueType.isEnd := rfl
  simp only [hE]
  have hc : (tok.valueType.isEnd && s.opt.depth == 0) = false := by
    cases hh : tok.valueType.isEnd with
    | false => simp
    | true => simpa using hd hh
  rw [if_neg (by simp [hc])]
  generalize hs0 : (if tok.valueType.isEnd = true then { s with opt := s.opt.setDepth (s.opt.depth - 1) } else s) = s0
  have h0 : s0.Good ∧ s0.st = s.st.pre tok.valueType ∧ s0.out = s.out ∧ s0.supply = s.supply ∧ s0.done = s.done ∧ s0.buf = s.buf ∧
      s0.requests = s.requests := by
    rw [← hs0]; unfold SerSt.pre
    split <;> exact ⟨⟨h.1, h.2, h.3⟩, rfl, rfl, rfl, rfl, rfl, rfl⟩
  obtain ⟨g0, st0, o0, su0, d0, b0, r0⟩ := h0
  have hsh := shortcut_wrote s0 tok.valueType.isEnd g0
  have hfr := front_wrote s0 tok.valueType.isEnd g0
  rw [if_neg (by rw [hsh.1]; simp)]
  have key : ∀ s1 : Ser, s1.first = false → s1.Good → s1.st = { s0.st with first := false } → s1.supply = s0.supply →
      (∃ w, Wrote { s0 with first := false } (s0.st.front tok.valueType.isEnd) w ∧ w.done = s1.done ∧ w.buf = s1.buf ∧ w.requests = s1.requests) →
      (s1.body tok).1 = .ok ∧ WroteToks s (s.st.next tok.valueType) (s.st.text tok) (s1.body tok).2 := by
    intro s1 f1 g1 st1 su1 ⟨w, hw, wd, wb, wr⟩
    obtain ⟨hb1, hb2, hb3, hb4, hb5, s2, hb6, hb7, hb8, hb9⟩ := body_wrote s1 tok g1
    have hbody : s1.st.body tok = (s.st.pre tok.valueType).body tok := by rw [st1, ← st0]; rfl
    refine ⟨hb1, ?_, hb3, ?_, by rw [hb5, su1, su0], ?_⟩
    · rw [hb2, hbody]
      have : s1.out = s.out ++ (s.st.pre tok.valueType).front tok.valueType.isEnd := by
        have := hw.out
        rw [st0] at this
        rw [← o0]
        simpa [Ser.out, wd, wb] using this
      rw [this, List.append_assoc]; rfl
    · rw [hb4, st1, st0, f1]; rfl
    · intro P hP h0
      have h1 := hw.asked P (by simpa [su0] using hP) (by simpa [Ser.sizes, d0, b0, r0] using h0)
      have h2 := hb6.asked P (by rw [su1, su0]; exact hP) (by simpa [Ser.sizes, wd, wb, wr] using h1)
      simpa [Ser.sizes, hb7, hb8, hb9] using h2
  cases hsl : s0.st.short tok.valueType.isEnd with
  | some l =>
    rw [hsl] at hsh
    simp only at hsh
    obtain ⟨_, hs1, hs2⟩ := hsh
    rw [hs1]
    simp only [if_true, WRes.andThen]
    have hf : s0.first = false := by
      unfold SerSt.short at hsl
      split at hsl
      · rename_i hh; exact hh.2
      · simp at hsl
    have e0 : ({ s0 with first := false } : Ser) = s0 := by rw [← hf]
    refine key _ (by rw [hs2.first, hf]) hs2.good ?_ hs2.supply ⟨_, ?_, rfl, rfl, rfl⟩
    · simp [Ser.st, hs2.opt, hs2.first, hs2.start, hf]
    · rw [e0]; simp only [SerSt.front, hsl]; exact hs2
  | none =>
    rw [hsl] at hsh
    simp only at hsh
    obtain ⟨_, hs1, hs2⟩ := hsh
    rw [hs1, hs2]
    simp only [Bool.false_eq_true, if_false]
    obtain ⟨hf1, hf2, hf3⟩ := hfr
    generalize s0.front tok.valueType.isEnd = r at *
    obtain ⟨e, s1⟩ := r
    simp only at hf1 hf2 hf3
    subst hf1
    simp only [WRes.andThen]
    have e1 : ({ s1 with first := false } : Ser) = s1 := by rw [← hf3]
    rw [e1] at hf2
    refine key s1 hf3 hf2.good ?_ hf2.supply ⟨s1, ?_, rfl, rfl, rfl⟩
    · have h1 := hf2.opt
      have h2 := hf2.start
      simp only at h1 h2
      simp [Ser.st, h1, h2, hf3]
    · simp only [SerSt.front, hsl]; exact hf2

/-! ### Sequences of tokens -/

def SerSt.texts : SerSt → List Tok → Bytes
  | _, [] => []
  | s, k :: ks => s.text k ++ SerSt.texts (s.next k.valueType) ks

def SerSt.after : SerSt → List Tok → SerSt
  | s, [] => s
  | s, k :: ks => SerSt.after (s.next k.valueType) ks

/-- No closing bracket comes at depth 0. -/
def SerSt.Fits : SerSt → List Tok → Prop
  | _, [] => True
  | s, k :: ks => (k.valueType.isEnd = true → s.opt.depth ≠ 0) ∧ SerSt.Fits (s.next k.valueType) ks

theorem texts_append (s : SerSt) (a b : List Tok) : s.texts (a ++ b) = s.texts a ++ (s.after a).texts b := by
  induction a generalizing s with
  | nil => rfl
  | cons k a ih => simp only [List.cons_append, SerSt.texts, SerSt.after, ih, List.append_assoc]

theorem after_append (s : SerSt) (a b : List Tok) : s.after (a ++ b) = (s.after a).after b := by
  induction a generalizing s with
  | nil => rfl
  | cons k a ih => simp only [List.cons_append, SerSt.after, ih]

theorem fits_append (s : SerSt) (a b : List Tok) : s.Fits (a ++ b) ↔ s.Fits a ∧ (s.after a).Fits b := by
  induction a generalizing s with
  | nil => simp [SerSt.Fits, SerSt.after]
  | cons k a ih => simp only [List.cons_append, SerSt.Fits, SerSt.after, ih, and_assoc]

theorem WroteToks.trans {a b c : Ser} {d e : Bytes} {s1 s2 : SerSt} (h : WroteToks a s1 d b) (h' : WroteToks b s2 e c) :
    WroteToks a s2 (d ++ e) c :=
  ⟨by rw [h'.out, h.out, List.append_assoc], h'.good, h'.st, by rw [h'.supply, h.supply], h.asked.trans h.supply h'.asked⟩

theorem writeAll_append (s : Ser) (a b : List Tok) :
    s.writeAll (a ++ b) = ((s.writeAll a).1 && ((s.writeAll a).2.writeAll b).1, ((s.writeAll a).2.writeAll b).2) := by
  induction a generalizing s with
  | nil => simp [Ser.writeAll]
  | cons k a ih => simp only [List.cons_append, Ser.writeAll, ih, Bool.and_assoc]

theorem writeAll_wrote (s : Ser) (ks : List Tok) (h : s.Good) (hf : s.st.Fits ks) :
    (s.writeAll ks).1 = true ∧ WroteToks s (s.st.after ks) (s.st.texts ks) (s.writeAll ks).2 := by
  induction ks generalizing s with
  | nil => exact ⟨rfl, by simp [Ser.writeAll, SerSt.texts], h, rfl, rfl, fun _ _ hP => hP⟩
  | cons k ks ih =>
    obtain ⟨h1, h2⟩ := write_wrote s k h hf.1
    obtain ⟨h3, h4⟩ := ih (s.write k).2 h2.good (by rw [h2.st]; exact hf.2)
    simp only [Ser.writeAll]
    refine ⟨by simp [h1, h3], ?_⟩
    have := h2.trans h4
    rwa [h2.st] at this

theorem ws_replicate (n : Nat) : Ws (List.replicate n SPACE) := by
  intro c hc; rw [List.mem_replicate] at hc; rw [hc.2]; decide

theorem ws_append {a b : Bytes} (ha : Ws a) (hb : Ws b) : Ws (a ++ b) := by
  intro c hc; rcases List.mem_append.mp hc with h | h
  · exact ha c h
  · exact hb c h

theorem ws_nil : Ws [] := by intro c hc; simp at hc

/-- Options under which the output is JSON: a comma between tokens, names in quotes, and gaps in the class `C`. -/
structure SerOpts.Std (C : Bytes → Prop) (o : SerOpts) : Prop where
  delim : o.tokenDelim = [COMMA]
  conv : o.convertAscii = true
  norm : o.setDepth o.depth = o
  lt : o.depth < 256
  nil : C []
  fr : ∀ n, C (o.setDepth n).pre ∧ C (o.post ++ (o.setDepth n).pre)
  lit : o.shift = 2 → ∀ n, (∀ l, begining n = some l → C l) ∧ (∀ l, beginingComma n = some l → ∃ w, l = COMMA :: w ∧ C w)
  colon : o.pretty = true → C [SPACE]

theorem std_setDepth {C : Bytes → Prop} {o : SerOpts} (h : o.Std C) (n : Nat) (hn : n < 256) : (o.setDepth n).Std C := by
  refine ⟨h.delim, h.conv, ?_, ?_, h.nil, ?_, h.lit, h.colon⟩
  · simp only [SerOpts.setDepth, Nat.mod_eq_of_lt hn]
  · simp only [SerOpts.setDepth]; omega
  · exact h.fr

theorem begining_ws {n : Nat} {l : Bytes} (h : begining n = some l) : Ws l := by
  unfold begining at h
  split at h <;> simp only [Option.some.injEq, reduceCtorEq] at h
  all_goals (rw [← h]; intro c hc; simp at hc; rcases hc with rfl | rfl <;> decide)

theorem beginingComma_ws {n : Nat} {l : Bytes} (h : beginingComma n = some l) : ∃ w, l = COMMA :: w ∧ Ws w := by
  unfold beginingComma at h
  split at h <;> simp only [Option.some.injEq, reduceCtorEq] at h
  all_goals
    rw [← h]
    refine ⟨_, rfl, ?_⟩
    intro c hc; simp at hc; rcases hc with rfl | rfl <;> decide

/-- Options set by the user: style, shift size, initial depth. -/
theorem std_ws (pretty : Bool) (shift depth : Nat) (hd : depth < 256) :
    (((SerOpts.new pretty).setShiftSize shift).setDepth depth).Std Ws := by
  refine ⟨rfl, rfl, ?_, ?_, ws_nil, ?_, fun _ n => ⟨fun l => begining_ws, fun l => beginingComma_ws⟩, ?_⟩
  · simp only [SerOpts.setDepth, Nat.mod_eq_of_lt hd]
  · simp only [SerOpts.setDepth]; omega
  · intro n
    have hp : Ws ((((SerOpts.new pretty).setShiftSize shift).setDepth depth).setDepth n).pre := by
      cases pretty
      · exact ws_nil
      · exact ws_replicate _
    refine ⟨hp, ws_append ?_ hp⟩
    cases pretty
    · exact ws_nil
    · intro c hc
      have : c = LF := by simpa [SerOpts.new, SerOpts.setShiftSize, SerOpts.setDepth] using hc
      rw [this]; decide
  · intro _ c hc; simp at hc; rw [hc]; decide

/-- Compact style, with any shift size but 2, writes no gaps at all. -/
theorem std_compact (shift depth : Nat) (hs : shift % 256 ≠ 2) (hd : depth < 256) :
    (((SerOpts.new false).setShiftSize shift).setDepth depth).Std (· = []) := by
  refine ⟨rfl, rfl, ?_, ?_, rfl, ?_, fun h => absurd h hs, ?_⟩
  · simp only [SerOpts.setDepth, Nat.mod_eq_of_lt hd]
  · simp only [SerOpts.setDepth]; omega
  · intro n; simp [SerOpts.setDepth, SerOpts.new, SerOpts.setShiftSize]
  · simp [SerOpts.setDepth, SerOpts.new, SerOpts.setShiftSize]

/-- A token is preceded by a comma, unless it is the first or closes something, and a gap. -/
theorem front_text {C : Bytes → Prop} (s : SerSt) (h : s.opt.Std C) (isEnd : Bool) :
    ∃ w, C w ∧ s.front isEnd = (if !s.tokenStart && !isEnd then [COMMA] else []) ++ w := by
  unfold SerSt.front
  have hd : s.opt.tokenDelim.isEmpty = false := by rw [h.delim]; rfl
  cases hs : s.short isEnd with
  | none =>
    simp only [hd, Bool.not_false, Bool.and_true]
    refine ⟨_, ?_, rfl⟩
    have := h.fr s.opt.depth
    rw [h.norm] at this
    split
    · exact this.1
    · exact this.2
  | some l =>
    simp only
    unfold SerSt.short at hs
    split at hs
    · rename_i h2
      have hl := h.lit h2.1 s.opt.depth
      simp only [hd, Bool.and_false, Bool.false_eq_true, if_false] at hs
      split at hs
      · rename_i hc
        obtain ⟨w, rfl, hw⟩ := hl.2 _ hs
        exact ⟨w, hw, by rw [if_pos hc]; rfl⟩
      · rename_i hc
        exact ⟨l, hl.1 _ hs, by rw [if_neg hc]; rfl⟩
    · simp at hs

/-- A scalar token. -/
theorem next_scalar (s : SerSt) {ty : Ty} (h1 : ty.isStart = false) (h2 : ty.isEnd = false) :
    s.next ty = { opt := s.opt, first := false, tokenStart := false } := by
  simp [SerSt.next, SerSt.pre, SerSt.post, h1, h2]

theorem next_start (s : SerSt) {ty : Ty} (h : ty = .arrayStart ∨ ty = .objectStart) :
    s.next ty = { opt := s.opt.setDepth (s.opt.depth + 1), first := false, tokenStart := true } := by
  rcases h with rfl | rfl <;> rfl

theorem next_end (s : SerSt) {ty : Ty} (h : ty = .arrayEnd ∨ ty = .objectEnd) :
    s.next ty = { opt := s.opt.setDepth (s.opt.depth - 1), first := false, tokenStart := false } := by
  rcases h with rfl | rfl <;> rfl

/-- The dialects whose gaps include the class `C`. -/
structure Dialect.Wide (C : Bytes → Prop) (d : Dialect) : Prop where
  gap : ∀ w, C w → d.gap w
  after : ∀ v w, C w → d.after v w

theorem wide_rfc : rfc.Wide Ws := ⟨fun _ h => h, fun _ _ h => h⟩

/-- RFC 8259 without any white space between tokens. -/
def rfcTight : Dialect := { rfc with gap := (· = []), after := fun _ w => w = [] }

theorem wide_tight : rfcTight.Wide (· = []) := ⟨fun _ h => h, fun _ _ h => h⟩

/-- The name part of a token. -/
def nameText (o : SerOpts) (n : Bytes) : Bytes :=
  if n.isEmpty then [] else QUOTE :: (n ++ [QUOTE]) ++ (if o.pretty then b!": " else b!":")

/-- What writing the tokens of `v` amounts to. -/
structure Written (d : Dialect) (v : JVal) (s : SerSt) (n : Bytes) (nt : Ty) : Prop where
  text : ∃ t, s.texts (v.toks n nt) = s.front false ++ (nameText s.opt n ++ t) ∧ Text d v t
  after : s.after (v.toks n nt) = { opt := s.opt, first := false, tokenStart := false }
  fits : s.Fits (v.toks n nt)

def NameTy (nt : Ty) : Prop := nt = .string ∨ nt = .ascii

theorem body_text {C : Bytes → Prop} (s : SerSt) (h : s.opt.Std C) (k : Tok) (hn : NameTy k.nameType) :
    s.body k = nameText s.opt k.name ++ typedText true k.valueType k.value := by
  unfold SerSt.body nameText
  rw [h.conv]
  rcases hn with hn | hn <;> simp [hn, typedText]

theorem scalar_written {C : Bytes → Prop} {d : Dialect} {v : JVal} {s : SerSt} {n : Bytes} {nt : Ty} (h : s.opt.Std C) (hn : NameTy nt)
    (val : Bytes) (ty : Ty) (h1 : ty.isStart = false) (h2 : ty.isEnd = false) (hk : v.toks n nt = [⟨n, nt, val, ty⟩])
    (ht : Text d v (typedText true ty val)) : Written d v s n nt := by
  refine ⟨⟨_, ?_, ht⟩, ?_, ?_⟩
  · rw [hk]
    have hp : s.pre ty = s := by simp [SerSt.pre, h2]
    simp only [SerSt.texts, SerSt.text, hp, h2, List.append_nil]
    rw [body_text s h _ hn]
  · rw [hk]; simp only [SerSt.after, next_scalar s h1 h2]
  · rw [hk]; simp [SerSt.Fits, h2]

/-- The elements of an array, with the white space behind the last one. -/
def ElemsWritten (C : Bytes → Prop) (d : Dialect) (vs : List JVal) (s : SerSt) : Prop :=
  s.after (elemToks vs) = { opt := s.opt, first := false, tokenStart := vs.isEmpty && s.tokenStart } ∧ s.Fits (elemToks vs) ∧
  (vs = [] ∨ ∀ w, C w → ∃ ts, s.texts (elemToks vs) ++ w = (if s.tokenStart then [] else [COMMA]) ++ ts ∧ TextElems d vs ts)

def MembersWritten (C : Bytes → Prop) (d : Dialect) (ms : List (Bytes × JVal)) (s : SerSt) : Prop :=
  s.after (memberToks ms) = { opt := s.opt, first := false, tokenStart := ms.isEmpty && s.tokenStart } ∧ s.Fits (memberToks ms) ∧
  (ms = [] ∨ ∀ w, C w → ∃ ts, s.texts (memberToks ms) ++ w = (if s.tokenStart then [] else [COMMA]) ++ ts ∧ TextMembers d ms ts)

theorem container_written {C : Bytes → Prop} {d : Dialect} {v : JVal} {s : SerSt} {n : Bytes} {nt : Ty} (hd : d.Wide C) (h : s.opt.Std C) (hn : NameTy nt)
    {inner : List Tok} {op cl : Byte} {opTy clTy : Ty} (ho : (op, cl, opTy, clTy) = (LBRACK, RBRACK, .arrayStart, .arrayEnd) ∨
      (op, cl, opTy, clTy) = (LBRACE, RBRACE, .objectStart, .objectEnd)) (hdep : s.opt.depth + 1 < 256)
    (hk : v.toks n nt = ⟨n, nt, [op], opTy⟩ :: (inner ++ [⟨[], .ascii, [cl], clTy⟩]))
    (hin : let s' : SerSt := { opt := s.opt.setDepth (s.opt.depth + 1), first := false, tokenStart := true }
      (∃ b, s'.after inner = { opt := s'.opt, first := false, tokenStart := b }) ∧ s'.Fits inner ∧
      ∀ w, C w → Text d v (op :: (s'.texts inner ++ w ++ [cl]))) : Written d v s n nt := by
  have hop : opTy.isStart = true ∧ opTy.isEnd = false ∧ (opTy = .arrayStart ∨ opTy = .objectStart) ∧
      (clTy = .arrayEnd ∨ clTy = .objectEnd) ∧ clTy.isEnd = true ∧ typedText true opTy [op] = [op] ∧ typedText true clTy [cl] = [cl] := by
    rcases ho with ho | ho <;> (simp only [Prod.mk.injEq] at ho; obtain ⟨rfl, rfl, rfl, rfl⟩ := ho; decide)
  obtain ⟨o1, o2, o3, o4, o5, o6, o7⟩ := hop
  obtain ⟨⟨b, ha⟩, hf, ht⟩ := hin
  have hpre : s.pre opTy = s := by simp [SerSt.pre, o2]
  have hdd : (s.opt.setDepth (s.opt.depth + 1)).depth = s.opt.depth + 1 := by
    simp only [SerOpts.setDepth]; omega
  have hback : (s.opt.setDepth (s.opt.depth + 1)).setDepth ((s.opt.setDepth (s.opt.depth + 1)).depth - 1) = s.opt := by
    rw [hdd, Nat.add_sub_cancel]
    exact h.norm
  have hpe : ∀ b : Bool, SerSt.pre { opt := s.opt.setDepth (s.opt.depth + 1), first := false, tokenStart := b } clTy =
      { opt := s.opt, first := false, tokenStart := b } := by
    intro b; unfold SerSt.pre; rw [if_pos o5]; simp only; rw [hback]
  obtain ⟨w, hw, hfr⟩ := front_text { opt := s.opt, first := false, tokenStart := b } h true
  simp only [Bool.not_true, Bool.and_false, Bool.false_eq_true, if_false, List.nil_append] at hfr
  refine ⟨⟨_, ?_, ht w hw⟩, ?_, ?_⟩
  · rw [hk]
    simp only [SerSt.texts, SerSt.text, hpre, o2, next_start s o3, texts_append, ha, hpe]
    rw [body_text s h _ hn, o5, hfr, body_text ⟨s.opt, false, b⟩ h ⟨[], .ascii, [cl], clTy⟩ (.inr rfl)]
    simp only [o6, o7]
    simp [nameText]
  · rw [hk]
    simp only [SerSt.after, after_append, next_start s o3, ha, next_end _ o4, hback]
  · rw [hk]
    simp only [SerSt.Fits, fits_append, next_start s o3, ha, o2, hdd]
    exact ⟨by simp, hf, by simp, trivial⟩

mutual
theorem written (C : Bytes → Prop) (d : Dialect) (hd : d.Wide C) (v : JVal) (s : SerSt) (n : Bytes) (nt : Ty) (h : s.opt.Std C) (hn : NameTy nt)
    (hdep : s.opt.depth + v.depth < 256) (hwf : v.WF d) (hnm : v.Named) : Written d v s n nt := by
  match v with
  | .null => exact scalar_written h hn b!"null" .null rfl rfl rfl .null
  | .bool true => exact scalar_written h hn b!"true" .bool rfl rfl rfl .tru
  | .bool false => exact scalar_written h hn b!"false" .bool rfl rfl rfl .fls
  | .num x =>
    rw [JVal.WF] at hwf
    exact scalar_written h hn x .number rfl rfl rfl (.num hwf)
  | .str x =>
    rw [JVal.WF] at hwf
    exact scalar_written h hn x .string rfl rfl rfl (.str hwf)
  | .arr vs =>
    rw [JVal.WF] at hwf; rw [JVal.Named] at hnm; rw [JVal.depth] at hdep
    have := elemsWritten C d hd vs { opt := s.opt.setDepth (s.opt.depth + 1), first := false, tokenStart := true }
      (std_setDepth h _ (by omega)) rfl (by simp only [SerOpts.setDepth]; omega) hwf hnm
    obtain ⟨h1, h2, h3⟩ := this
    refine container_written hd h hn (inner := elemToks vs) (.inl rfl) (by omega) (by rw [JVal.toks]) ⟨⟨_, h1⟩, h2, ?_⟩
    intro w hw
    rcases h3 with rfl | h3
    · exact .arrEmpty (hd.gap w hw)
    · obtain ⟨ts, h4, h5⟩ := h3 w hw
      rw [h4]; exact .arr h5
  | .obj ms =>
    rw [JVal.WF] at hwf; rw [JVal.Named] at hnm; rw [JVal.depth] at hdep
    have := membersWritten C d hd ms { opt := s.opt.setDepth (s.opt.depth + 1), first := false, tokenStart := true }
      (std_setDepth h _ (by omega)) rfl (by simp only [SerOpts.setDepth]; omega) hwf hnm
    obtain ⟨h1, h2, h3⟩ := this
    refine container_written hd h hn (inner := memberToks ms) (.inr rfl) (by omega) (by rw [JVal.toks]) ⟨⟨_, h1⟩, h2, ?_⟩
    intro w hw
    rcases h3 with rfl | h3
    · exact .objEmpty (hd.gap w hw)
    · obtain ⟨ts, h4, h5⟩ := h3 w hw
      rw [h4]; exact .obj h5

theorem elemsWritten (C : Bytes → Prop) (d : Dialect) (hd : d.Wide C) (vs : List JVal) (s : SerSt) (h : s.opt.Std C) (hf : s.first = false)
    (hdep : s.opt.depth + elemsDepth vs < 256) (hwf : elemsWF d vs) (hnm : elemsNamed vs) : ElemsWritten C d vs s := by
  match vs with
  | [] => exact ⟨by simp [elemToks, SerSt.after, ← hf], trivial, .inl rfl⟩
  | v :: vs =>
    rw [elemsWF] at hwf; rw [elemsNamed] at hnm; rw [elemsDepth] at hdep
    obtain ⟨⟨t, ht1, ht2⟩, ha, hfit⟩ := written C d hd v s [] .ascii h (.inr rfl) (by omega) hwf.1 hnm.1
    obtain ⟨i1, i2, i3⟩ := elemsWritten C d hd vs { opt := s.opt, first := false, tokenStart := false } h rfl (by simp only; omega) hwf.2 hnm.2
    refine ⟨?_, ?_, .inr ?_⟩
    · rw [elemToks, after_append, ha, i1]; simp
    · rw [elemToks, fits_append, ha]; exact ⟨hfit, i2⟩
    · intro w hw
      obtain ⟨w0, hw0, hfr⟩ := front_text s h false
      rw [elemToks, texts_append, ha, ht1, hfr]
      simp only [nameText, List.isEmpty_nil, if_true, List.nil_append, Bool.not_false, Bool.and_true]
      have hcomma : (if (!s.tokenStart) = true then [COMMA] else []) = (if s.tokenStart = true then [] else [COMMA]) := by
        cases s.tokenStart <;> rfl
      rw [hcomma]
      rcases i3 with rfl | i3
      · refine ⟨w0 ++ t ++ w, by simp [elemToks, SerSt.texts], .one (hd.gap _ hw0) ht2 (hd.after _ _ hw)⟩
      · obtain ⟨ts, h4, h5⟩ := i3 w hw
        simp only [Bool.false_eq_true, if_false] at h4
        refine ⟨w0 ++ t ++ [] ++ b!"," ++ ts, ?_, .cons (hd.gap _ hw0) ht2 (hd.after _ _ h.nil) h5⟩
        rw [List.append_assoc, h4]; simp

theorem membersWritten (C : Bytes → Prop) (d : Dialect) (hd : d.Wide C) (ms : List (Bytes × JVal)) (s : SerSt) (h : s.opt.Std C) (hf : s.first = false)
    (hdep : s.opt.depth + membersDepth ms < 256) (hwf : membersWF d ms) (hnm : membersNamed ms) : MembersWritten C d ms s := by
  match ms with
  | [] => exact ⟨by simp [memberToks, SerSt.after, ← hf], trivial, .inl rfl⟩
  | (n, v) :: ms =>
    rw [membersWF] at hwf; rw [membersNamed] at hnm; rw [membersDepth] at hdep
    obtain ⟨⟨t, ht1, ht2⟩, ha, hfit⟩ := written C d hd v s n .string h (.inl rfl) (by omega) hwf.2.1 hnm.2.1
    obtain ⟨i1, i2, i3⟩ := membersWritten C d hd ms { opt := s.opt, first := false, tokenStart := false } h rfl (by simp only; omega) hwf.2.2 hnm.2.2
    refine ⟨?_, ?_, .inr ?_⟩
    · rw [memberToks, after_append, ha, i1]; simp
    · rw [memberToks, fits_append, ha]; exact ⟨hfit, i2⟩
    · intro w hw
      obtain ⟨w0, hw0, hfr⟩ := front_text s h false
      rw [memberToks, texts_append, ha, ht1, hfr]
      have hne : n.isEmpty = false := by
        have := hnm.1; cases n with | nil => exact absurd rfl this | cons => rfl
      obtain ⟨w3, hw3, hcol⟩ : ∃ w3, C w3 ∧ (if s.opt.pretty = true then b!": " else b!":") = COLON :: w3 := by
        cases hp : s.opt.pretty with
        | true => exact ⟨[SPACE], h.colon hp, rfl⟩
        | false => exact ⟨[], h.nil, rfl⟩
      simp only [nameText, hne, Bool.not_false, Bool.and_true, hcol]
      have hcomma : (if (!s.tokenStart) = true then [COMMA] else []) = (if s.tokenStart = true then [] else [COMMA]) := by
        cases s.tokenStart <;> rfl
      rw [hcomma]
      rcases i3 with rfl | i3
      · refine ⟨w0 ++ b!"\"" ++ n ++ b!"\"" ++ [] ++ b!":" ++ w3 ++ t ++ w, by simp [memberToks, SerSt.texts],
          .one (hd.gap _ hw0) hwf.1 (hd.gap _ h.nil) (hd.gap _ hw3) ht2 (hd.after _ _ hw)⟩
      · obtain ⟨ts, h4, h5⟩ := i3 w hw
        simp only [Bool.false_eq_true, if_false] at h4
        refine ⟨w0 ++ b!"\"" ++ n ++ b!"\"" ++ [] ++ b!":" ++ w3 ++ t ++ [] ++ b!"," ++ ts, ?_,
          .cons (hd.gap _ hw0) hwf.1 (hd.gap _ h.nil) (hd.gap _ hw3) ht2 (hd.after _ _ h.nil) h5⟩
        rw [List.append_assoc, h4]; simp
end

/-! ### Any tokens -/

theorem write_fails (s : Ser) (tok : Tok) (h : tok.valueType.isEnd = true) (hd : s.opt.depth = 0) :
    s.write tok = (.failed, s) := by
  have : (tok.valueType.isEnd && s.opt.depth == 0) = true := by simp [h, hd]
  exact if_pos this

/-- What writing any tokens comes to depends only on options and position. -/
theorem writeAll_any (ks : List Tok) (st : SerSt) : ∃ (ok : Bool) (d : Bytes) (st' : SerSt), ∀ s : Ser, s.Good → s.st = st →
    (s.writeAll ks).1 = ok ∧ WroteToks s st' d (s.writeAll ks).2 := by
  induction ks generalizing st with
  | nil =>
    refine ⟨true, [], st, fun s hg hs => ⟨rfl, ?_⟩⟩
    exact ⟨by simp [Ser.writeAll], hg, hs, rfl, fun _ _ hP => hP⟩
  | cons k ks ih =>
    by_cases hc : k.valueType.isEnd = true ∧ st.opt.depth = 0
    · obtain ⟨ok, d, st', h⟩ := ih st
      refine ⟨false, d, st', fun s hg hs => ?_⟩
      have hw := write_fails s k hc.1 (by rw [← hs] at hc; exact hc.2)
      obtain ⟨h1, h2⟩ := h s hg hs
      simp only [Ser.writeAll, hw]
      exact ⟨by simp, h2⟩
    · obtain ⟨ok, d, st', h⟩ := ih (st.next k.valueType)
      refine ⟨ok, st.text k ++ d, st', fun s hg hs => ?_⟩
      obtain ⟨w1, w2⟩ := write_wrote s k hg (by
        intro he hd
        exact hc ⟨he, by rw [← hs]; exact hd⟩)
      rw [hs] at w2
      obtain ⟨h1, h2⟩ := h (s.write k).2 w2.good w2.st
      simp only [Ser.writeAll, w1]
      exact ⟨by simpa using h1, w2.trans h2⟩

/-- No single write goes beyond its buffer. -/
theorem write_no_ub (s : Ser) (k : Tok) (h : s.Good) : (s.write k).1 ≠ .ub := by
  by_cases hc : k.valueType.isEnd = true ∧ s.opt.depth = 0
  · rw [write_fails s k hc.1 hc.2]; simp
  · rw [(write_wrote s k h (fun he hd => hc ⟨he, hd⟩)).1]; simp

/-! ### The growing string -/

theorem overlay_full (bs : List OutBuf) (last : OutBuf) (old : Bytes) (h : ∀ b ∈ bs, b.data.length = b.size)
    (hl : last.data.length ≤ last.size) :
    ∃ rest, overlay (bs ++ [last]) old = (bs.flatMap (·.data) ++ last.data) ++ rest := by
  induction bs generalizing old with
  | nil => exact ⟨_, by simp [overlay]; rfl⟩
  | cons b bs ih =>
    obtain ⟨rest, hr⟩ := ih (old.drop b.size) (fun b' hb' => h b' (by simp [hb']))
    refine ⟨rest, ?_⟩
    simp only [List.cons_append, overlay, hr, List.flatMap_cons]
    have : (List.take b.size old ++ List.replicate (b.size - old.length) 0).drop b.data.length = [] := by
      rw [h b (by simp), List.drop_eq_nil_iff]
      simp; omega
    rw [this]; simp

theorem sizes_data (bs : List OutBuf) (h : ∀ b ∈ bs, b.data.length = b.size) :
    (bs.flatMap (·.data)).length = (bs.map (·.size)).sum := by
  induction bs with
  | nil => rfl
  | cons b bs ih => simp [ih (fun b' hb' => h b' (by simp [hb'])), h b (by simp)]

/-- The sizes after `r` doublings. -/
def Doubled (n : Nat) (l : List Nat) (r : Nat) : Prop :=
  l.sum = n * 2 ^ r ∧ (l.dropLast).sum = lastPos n r ∧ l ≠ []

theorem doubled_step (n : Nat) (l : List Nat) (r : Nat) (h : Doubled n l r) :
    Doubled n (l ++ [((doubling n) r).getD 0]) (r + 1) := by
  obtain ⟨h1, h2, h3⟩ := h
  refine ⟨?_, ?_, by simp⟩
  · simp only [doubling, Option.getD_some, List.sum_append, List.sum_cons, List.sum_nil, h1, Nat.pow_succ, ← Nat.mul_assoc]; omega
  · rw [List.dropLast_concat, h1]; simp [lastPos]

/-- What is in the string after `flush` is what was written. -/
theorem flush_out (o : SerOpts) (init : Bytes) (s' : Ser) (st' : SerSt) (d : Bytes)
    (h : WroteToks (Ser.onString o init.length) st' d s') : s'.flush init = d := by
  have hout := h.out
  have h0 : (Ser.onString o init.length).out = [] := rfl
  rw [h0, List.nil_append] at hout
  have hdb := h.asked (Doubled init.length) (doubled_step init.length)
    ⟨by simp [Ser.sizes, Ser.onString], by simp [Ser.sizes, Ser.onString, lastPos], by simp [Ser.sizes]⟩
  obtain ⟨rest, hr⟩ := overlay_full s'.done s'.buf init h.good.full h.good.cur
  have hlen : s'.done.flatMap (·.data) ++ s'.buf.data = d := by
    rw [← hout]; simp [Ser.out]
  have hn : lastPos init.length s'.requests + s'.buf.data.length = d.length := by
    have := hdb.2.1
    simp only [Ser.sizes, List.map_append, List.map_cons, List.map_nil, List.dropLast_concat] at this
    rw [← this, ← sizes_data _ h.good.full, ← hlen]; simp
  unfold Ser.flush
  simp only [hr, hn, hlen]
  simp

/-! ### White space -/

theorem strip_ws {w : Bytes} (hw : Ws w) (r : Bytes) : strip .outside (w ++ r) = strip .outside r := by
  induction w with
  | nil => rfl
  | cons c w ih =>
    have hc : isWs c = true := hw c (by simp)
    simp only [List.cons_append, strip, hc, if_true]
    exact ih (fun c' h' => hw c' (by simp [h']))

theorem strip_plain {w : Bytes} (hw : ∀ c ∈ w, isWs c = false ∧ c ≠ 0x22) (r : Bytes) :
    strip .outside (w ++ r) = w ++ strip .outside r := by
  induction w with
  | nil => rfl
  | cons c w ih =>
    have hc := hw c (by simp)
    simp only [List.cons_append, strip, hc.1, Bool.false_eq_true, if_false, hc.2]
    rw [ih (fun c' h' => hw c' (by simp [h']))]

theorem strip_inside {x : Bytes} (h : JsonString x) (r : Bytes) :
    strip .inside (x ++ 0x22 :: r) = x ++ 0x22 :: strip .outside r := by
  induction h with
  | nil => simp [strip]
  | plain h1 h2 h3 _ ih => simp only [List.cons_append, strip, h2, h3, if_false, ih]
  | esc h1 _ ih =>
    simp only [List.cons_append, strip]
    rw [if_neg (by decide), if_pos (by trivial)]
    simp only [strip, ih]
  | uni ha hb hc hd _ ih =>
    have hx : ∀ c : UInt8, isHex c = true → c ≠ 0x22 ∧ c ≠ 0x5C := by
      intro c; exact forall_byte (p := fun c => isHex c = true → c ≠ 0x22 ∧ c ≠ 0x5C) (by decide +kernel) c
    simp only [List.cons_append, strip]
    rw [if_neg (by decide), if_pos (by trivial)]
    simp only [strip, hx _ ha, hx _ hb, hx _ hc, hx _ hd, if_false, ih]

theorem strip_string {x : Bytes} (h : JsonString x) (r : Bytes) :
    strip .outside (0x22 :: (x ++ 0x22 :: r)) = 0x22 :: (x ++ 0x22 :: strip .outside r) := by
  have : isWs 0x22 = false := by decide
  simp only [strip, this, Bool.false_eq_true, if_false, if_true, strip_inside h]

theorem number_plain {n : Bytes} (h : JsonNumber n) : ∀ c ∈ n, isWs c = false ∧ c ≠ 0x22 := by
  obtain ⟨m, i, f, e, rfl, hm, hi, hf, he⟩ := h
  have hd : ∀ c : UInt8, isDigit c = true → isWs c = false ∧ c ≠ 0x22 := by
    intro c; exact forall_byte (p := fun c => isDigit c = true → isWs c = false ∧ c ≠ 0x22) (by decide +kernel) c
  intro c hc
  simp only [List.mem_append] at hc
  rcases hc with ((hc | hc) | hc) | hc
  · rcases hm with rfl | rfl
    · simp at hc
    · simp at hc; subst hc; decide
  · rcases hi with rfl | ⟨h1, _⟩
    · simp at hc; subst hc; decide
    · exact hd c (h1.2 c hc)
  · rcases hf with rfl | ⟨d, rfl, h1⟩
    · simp at hc
    · simp only [List.mem_cons] at hc
      rcases hc with rfl | hc
      · decide
      · exact hd c (h1.2 c hc)
  · rcases he with rfl | ⟨x, sg, d, rfl, hx, hs, h1⟩
    · simp at hc
    · simp only [List.mem_cons, List.mem_append] at hc
      rcases hc with rfl | hc | hc
      · rcases hx with rfl | rfl <;> decide
      · rcases hs with rfl | rfl | rfl
        · simp at hc
        · simp at hc; subst hc; decide
        · simp at hc; subst hc; decide
      · exact hd c (h1.2 c hc)

theorem strip_char {c : Byte} (h : isWs c = false ∧ c ≠ 0x22) (r : Bytes) :
    strip .outside (c :: r) = c :: strip .outside r := by
  simp only [strip, h.1, Bool.false_eq_true, if_false, h.2]

/-- Dialects with the strings and numbers of RFC 8259 and white space gaps. -/
structure Dialect.Strict (d : Dialect) : Prop where
  str : ∀ x, d.str x → JsonString x
  num : ∀ x, d.num x → JsonNumber x
  gap : ∀ w, d.gap w → Ws w
  after : ∀ v w, d.after v w → Ws w
  trailObj : ¬ d.trailObj
  trailArr : ∀ v, ¬ d.trailArr v

theorem strict_rfc : rfc.Strict := ⟨fun _ h => h, fun _ h => h, fun _ h => h, fun _ _ h => h, id, fun _ => id⟩

theorem strict_tight : rfcTight.Strict :=
  ⟨fun _ h => h, fun _ h => h, fun _ h => by rw [h]; exact ws_nil, fun _ _ h => by rw [h]; exact ws_nil, id, fun _ => id⟩

theorem strip_text {d : Dialect} (hd : d.Strict) {v : JVal} {t : Bytes} (h : Text d v t) :
    ∀ r, strip .outside (t ++ r) = v.compact ++ strip .outside r := by
  refine Text.rec (d := d)
    (motive_1 := fun v t _ => ∀ r, strip .outside (t ++ r) = v.compact ++ strip .outside r)
    (motive_2 := fun vs t _ => ∀ r, strip .outside (t ++ r) = elemsCompact vs ++ strip .outside r)
    (motive_3 := fun ms t _ => ∀ r, strip .outside (t ++ r) = membersCompact ms ++ strip .outside r)
    ?_ ?_ ?_ ?_ ?_ ?_ ?_ ?_ ?_ ?_ ?_ ?_ ?_ ?_ ?_ h
  · intro r; exact strip_plain (by decide) r
  · intro r; exact strip_plain (by decide) r
  · intro r; exact strip_plain (by decide) r
  · intro n hn r; exact strip_plain (number_plain (hd.num _ hn)) r
  · intro x hx r
    have := strip_string (hd.str _ hx) r
    simpa [JVal.compact] using this
  · intro w hw r
    simp only [List.append_assoc, List.cons_append, List.nil_append]
    rw [strip_char (by decide), strip_ws (hd.gap _ hw), strip_char (by decide)]
    simp [JVal.compact, elemsCompact]
  · intro vs t _ ih r
    simp only [List.append_assoc, List.cons_append, List.nil_append]
    rw [strip_char (by decide), ih, strip_char (by decide)]
    simp [JVal.compact]
  · intro w hw r
    simp only [List.append_assoc, List.cons_append, List.nil_append]
    rw [strip_char (by decide), strip_ws (hd.gap _ hw), strip_char (by decide)]
    simp [JVal.compact, membersCompact]
  · intro ms t _ ih r
    simp only [List.append_assoc, List.cons_append, List.nil_append]
    rw [strip_char (by decide), ih, strip_char (by decide)]
    simp [JVal.compact]
  · intro v t w w' hw _ hw' ih r
    simp only [List.append_assoc]
    rw [strip_ws (hd.gap _ hw), ih, strip_ws (hd.after _ _ hw')]
    simp [elemsCompact]
  · intro v t w w' vs ts hw _ hw' hts ih ih2 r
    simp only [List.append_assoc, List.cons_append, List.nil_append]
    rw [strip_ws (hd.gap _ hw), ih, strip_ws (hd.after _ _ hw'), strip_char (by decide), ih2]
    have : vs ≠ [] := by cases hts <;> simp
    obtain ⟨v', vs', rfl⟩ := List.exists_cons_of_ne_nil this
    simp [elemsCompact]
  · intro v t w w' w'' ht; exact absurd ht (hd.trailArr v)
  · intro n v t w1 w2 w3 w4 h1 hn h2 h3 _ h4 ih r
    simp only [List.append_assoc, List.cons_append, List.nil_append]
    rw [strip_ws (hd.gap _ h1), strip_string (hd.str _ hn), strip_ws (hd.gap _ h2), strip_char (by decide), strip_ws (hd.gap _ h3), ih,
      strip_ws (hd.after _ _ h4)]
    simp [membersCompact]
  · intro n v t w1 w2 w3 w4 ms ts h1 hn h2 h3 _ h4 hms ih ih2 r
    simp only [List.append_assoc, List.cons_append, List.nil_append]
    rw [strip_ws (hd.gap _ h1), strip_string (hd.str _ hn), strip_ws (hd.gap _ h2), strip_char (by decide), strip_ws (hd.gap _ h3), ih,
      strip_ws (hd.after _ _ h4), strip_char (by decide), ih2]
    have : ms ≠ [] := by cases hms <;> simp
    obtain ⟨⟨n', v'⟩, ms', rfl⟩ := List.exists_cons_of_ne_nil this
    simp [membersCompact]
  · intro n v t w1 w2 w3 w4 w5 ht; exact absurd ht hd.trailObj

/-- A text without gaps is the compact text. -/
theorem text_tight {v : JVal} {t : Bytes} (h : Text rfcTight v t) : t = v.compact := by
  refine Text.rec (d := rfcTight)
    (motive_1 := fun v t _ => t = v.compact)
    (motive_2 := fun vs t _ => t = elemsCompact vs)
    (motive_3 := fun ms t _ => t = membersCompact ms)
    rfl rfl rfl (fun _ => rfl) (fun _ => rfl) ?_ ?_ ?_ ?_ ?_ ?_ ?_ ?_ ?_ ?_ h
  · rintro w rfl; rfl
  · rintro vs t _ rfl; rw [JVal.compact]
  · rintro w rfl; rfl
  · rintro ms t _ rfl; rw [JVal.compact]
  · rintro v t w w' rfl _ rfl rfl; simp [elemsCompact]
  · rintro v t w w' vs ts rfl _ rfl hts h1 h2
    have : vs ≠ [] := by cases hts <;> simp
    subst h1 h2
    obtain ⟨v', vs', rfl⟩ := List.exists_cons_of_ne_nil this
    simp [elemsCompact]
  · intro v t w w' w'' ht; exact absurd ht id
  · rintro n v t w1 w2 w3 w4 rfl hn rfl rfl _ rfl rfl; simp [membersCompact]
  · rintro n v t w1 w2 w3 w4 ms ts rfl hn rfl rfl _ rfl hms h1 h2
    have : ms ≠ [] := by cases hms <;> simp
    subst h1 h2
    obtain ⟨⟨n', v'⟩, ms', rfl⟩ := List.exists_cons_of_ne_nil this
    simp [membersCompact]
  · intro n v t w1 w2 w3 w4 w5 ht; exact absurd ht id

mutual
theorem wf_mono {d d' : Dialect} (hs : ∀ x, d.str x → d'.str x) (hn : ∀ x, d.num x → d'.num x) (v : JVal) (h : v.WF d) : v.WF d' := by
  match v with
  | .null | .bool _ => simp [JVal.WF]
  | .num n => rw [JVal.WF] at *; exact hn _ h
  | .str x => rw [JVal.WF] at *; exact hs _ h
  | .arr vs => rw [JVal.WF] at *; exact elemsWF_mono hs hn vs h
  | .obj ms => rw [JVal.WF] at *; exact membersWF_mono hs hn ms h
theorem elemsWF_mono {d d' : Dialect} (hs : ∀ x, d.str x → d'.str x) (hn : ∀ x, d.num x → d'.num x) (vs : List JVal) (h : elemsWF d vs) :
    elemsWF d' vs := by
  match vs with
  | [] => trivial
  | v :: vs => rw [elemsWF] at *; exact ⟨wf_mono hs hn v h.1, elemsWF_mono hs hn vs h.2⟩
theorem membersWF_mono {d d' : Dialect} (hs : ∀ x, d.str x → d'.str x) (hn : ∀ x, d.num x → d'.num x) (ms : List (Bytes × JVal))
    (h : membersWF d ms) : membersWF d' ms := by
  match ms with
  | [] => trivial
  | (n, v) :: ms => rw [membersWF] at *; exact ⟨hs _ h.1, wf_mono hs hn v h.2.1, membersWF_mono hs hn ms h.2.2⟩
end

theorem wf_tight (v : JVal) (h : v.WF rfc) : v.WF rfcTight := wf_mono (d := rfc) (d' := rfcTight) (fun _ h => h) (fun _ h => h) v h

/-- The value of a text is well formed. -/
theorem text_wf {d : Dialect} {v : JVal} {t : Bytes} (h : Text d v t) : v.WF d := by
  refine Text.rec (d := d)
    (motive_1 := fun v t _ => v.WF d)
    (motive_2 := fun vs t _ => elemsWF d vs)
    (motive_3 := fun ms t _ => membersWF d ms)
    (by trivial) (by trivial) (by trivial) (fun h => by rw [JVal.WF]; exact h) (fun h => by rw [JVal.WF]; exact h)
    (fun _ => by simp [JVal.WF, elemsWF]) (fun _ h => by rw [JVal.WF]; exact h) (fun _ => by simp [JVal.WF, membersWF])
    (fun _ h => by rw [JVal.WF]; exact h) ?_ ?_ ?_ ?_ ?_ ?_ h
  · intro v t w w' _ _ _ h; simp [elemsWF, h]
  · intro v t w w' vs ts _ _ _ _ h h'; rw [elemsWF]; exact ⟨h, h'⟩
  · intro v t w w' w'' _ _ _ _ _ h; simp [elemsWF, h]
  · intro n v t w1 w2 w3 w4 _ hn _ _ _ _ h; simp [membersWF, h, hn]
  · intro n v t w1 w2 w3 w4 ms ts _ hn _ _ _ _ _ h h'; rw [membersWF]; exact ⟨hn, h, h'⟩
  · intro n v t w1 w2 w3 w4 w5 _ _ hn _ _ _ _ _ h; simp [membersWF, h, hn]

end JsonStruct
