import Verif.Model.Output
import Verif.Lemmas.Serializer

/- The string of a `SerializerContext` over a history of writes and flushes. -/

namespace JsonStruct

/-- The buffers are full but for the last one. -/
def Filled : List OutBuf → Prop
  | [] => True
  | [b] => b.data.length ≤ b.size
  | b :: bs => b.data.length = b.size ∧ Filled bs

theorem filled_good {s : Ser} (h : s.Good) : Filled (s.done ++ [s.buf]) := by
  obtain ⟨_, hc, hf⟩ := h
  generalize s.done = ds at *
  induction ds with
  | nil => exact hc
  | cons d ds ih =>
    have := ih (fun b hb => hf b (by simp [hb]))
    cases ds with
    | nil => exact ⟨hf d (by simp), this⟩
    | cons => exact ⟨hf d (by simp), this⟩

theorem filled_cons {b c : OutBuf} {bs : List OutBuf} (h : Filled (b :: c :: bs)) : b.data.length = b.size ∧ Filled (c :: bs) := h

/-- Buffers that were full stay as they are. -/
theorem keeps_full (ds : List OutBuf) (hd : ∀ b ∈ ds, b.data.length = b.size) (m : Nat) (rest : List Nat) (bufs : List OutBuf)
    (hf : Filled bufs) (hs : bufs.map (·.size) = ds.map (·.size) ++ m :: rest) (x : Bytes)
    (ho : bufs.flatMap (·.data) = ds.flatMap (·.data) ++ x) :
    ∃ b bs, bufs = ds ++ b :: bs ∧ b.size = m ∧ bs.map (·.size) = rest ∧ Filled (b :: bs) ∧ b.data ++ bs.flatMap (·.data) = x := by
  induction ds generalizing bufs with
  | nil =>
    cases bufs with
    | nil => simp at hs
    | cons b bs =>
      simp only [List.map_cons, List.map_nil, List.nil_append, List.cons.injEq] at hs
      exact ⟨b, bs, rfl, hs.1, hs.2, hf, by simpa using ho⟩
  | cons d ds ih =>
    cases bufs with
    | nil => simp at hs
    | cons b bs =>
      simp only [List.map_cons, List.cons_append, List.cons.injEq] at hs
      cases bs with
      | nil => simp at hs
      | cons b2 bs =>
        obtain ⟨hb, hf'⟩ := filled_cons hf
        have hd0 := hd d (by simp)
        simp only [List.flatMap_cons, List.append_assoc] at ho
        obtain ⟨h1, h2⟩ := List.append_inj ho (by omega)
        have hbd : b = d := by
          cases b; cases d; simp_all
        obtain ⟨b', bs', e1, e2⟩ := ih (fun b hb => hd b (by simp [hb])) (b2 :: bs) hf' hs.2 (by simpa using h2)
        exact ⟨b', bs', by rw [hbd, e1]; rfl, e2⟩

/-- The sizes of buffers that double the string. -/
def doubles (n : Nat) : Nat → List Nat
  | 0 => []
  | k + 1 => n :: doubles (2 * n) k

theorem doubles_snoc (n k : Nat) : doubles n (k + 1) = doubles n k ++ [n * 2 ^ k] := by
  induction k generalizing n with
  | zero => simp [doubles]
  | succ k ih =>
    rw [doubles, ih (2 * n), doubles]
    simp only [Nat.pow_succ, List.cons_append]
    rw [show 2 * n * 2 ^ k = n * (2 ^ k * 2) by ac_rfl]

theorem doubles_length (n k : Nat) : (doubles n k).length = k := by
  induction k generalizing n with
  | zero => rfl
  | succ k ih => simp [doubles, ih]

theorem putAt_end (t : Bytes) (n : Nat) (d : Bytes) (h : d.length ≤ n) :
    putAt (t ++ List.replicate n 0) t.length d = some (t ++ d ++ List.replicate (n - d.length) 0) := by
  unfold putAt
  split
  · next h0 => subst h0; simp
  · simp only [List.length_append, List.length_replicate, Nat.add_le_add_iff_left, h, if_true, List.take_left',
      Option.some.injEq]
    rw [List.drop_append]
    simp

/-- Requested buffers: if the string held exactly the text, it holds the text and what was put in the buffers, then zeros. -/
theorem putNew_eq (bs : List OutBuf) (t : Bytes) (last : Nat) (hf : Filled bs)
    (hs : bs.map (·.size) = doubles t.length bs.length) (hne : bs ≠ []) :
    ∃ z l, putNew bs t last = some (t ++ bs.flatMap (·.data) ++ List.replicate z 0, l) ∧
      (t ++ bs.flatMap (·.data)).length + z = t.length * 2 ^ bs.length ∧ l * 2 = t.length * 2 ^ bs.length := by
  induction bs generalizing t last with
  | nil => exact absurd rfl hne
  | cons b bs ih =>
    simp only [List.map_cons, List.length_cons, doubles, List.cons.injEq] at hs
    obtain ⟨hb, hs⟩ := hs
    have hle : b.data.length ≤ b.size := by
      cases bs with
      | nil => exact hf
      | cons => exact Nat.le_of_eq (filled_cons hf).1
    simp only [putNew]
    rw [putAt_end t t.length b.data (by omega)]
    simp only [Option.bind_eq_bind, Option.bind_some]
    cases bs with
    | nil =>
      refine ⟨t.length - b.data.length, t.length, by simp [putNew], ?_, ?_⟩
      · simp; omega
      · simp
    | cons b2 bs =>
      obtain ⟨hbf, hf'⟩ := filled_cons hf
      have e : t ++ b.data ++ List.replicate (t.length - b.data.length) 0 = t ++ b.data := by
        rw [show t.length - b.data.length = 0 by omega]; simp
      rw [e]
      obtain ⟨z, l, h1, h2, h3⟩ := ih (t ++ b.data) t.length hf' (by
        rw [hs]; congr 1; simp; omega) (by simp)
      have hl : (t ++ b.data).length = 2 * t.length := by simp; omega
      rw [hl] at h3 h2
      have hp : t.length * 2 ^ (b2 :: bs).length.succ = 2 * t.length * 2 ^ (b2 :: bs).length := by
        rw [Nat.pow_succ]; ac_rfl
      refine ⟨z, l, ?_, ?_, ?_⟩
      · rw [h1]; simp
      · simp only [List.length_cons] at hp ⊢
        simp only [List.length_cons] at h2
        rw [hp, ← h2]; simp
      · simp only [List.length_cons] at hp h3 ⊢
        rw [hp, ← h3]

/-- A buffer is requested only when there is a byte to write. -/
structure Ser.Busy (s : Ser) : Prop where
  good : s.Good
  busy : s.requests ≠ 0 → s.buf.data ≠ []

theorem busy_andThen {r : WRes × Ser} {f : Ser → WRes × Ser} (h : r.2.Busy) (hf : ∀ s : Ser, s.Busy → (f s).2.Busy) :
    (WRes.andThen r f).2.Busy := by
  unfold WRes.andThen
  split
  · exact hf _ h
  · exact h

theorem busy_append {s : Ser} (h : s.Busy) (d : Bytes) (hd : d.length ≤ s.buf.free) (b : OutBuf) (hb : s.buf.append d = some b) :
    ({ s with buf := b } : Ser).Busy := by
  obtain ⟨b', h1, h2⟩ := append_wrote s d h.good hd
  rw [hb] at h1
  cases h1
  refine ⟨h2.good, fun hr => ?_⟩
  unfold OutBuf.append at hb
  split at hb
  · cases hb
    have := h.busy hr
    simp [this]
  · cases hb

theorem busy_writeLoop (n : Nat) (s : Ser) (d : Bytes) (h : s.Busy) : (s.writeLoop n d).2.Busy := by
  induction n generalizing s d with
  | zero => cases d <;> exact h
  | succ n ih =>
    cases d with
    | nil => exact h
    | cons x d =>
      simp only [Ser.writeLoop]
      have hm : ∃ s1, (if s.buf.free = 0 then s.markFull else s) = s1 ∧ s1.Good ∧ 0 < s1.buf.free := by
        by_cases h0 : s.buf.free = 0
        · rw [if_pos h0]
          obtain ⟨w, hp⟩ := markFull_wrote s h.good h0
          exact ⟨_, rfl, w.good, hp⟩
        · rw [if_neg h0]
          exact ⟨_, rfl, h.good, by omega⟩
      obtain ⟨s1, e, hg, hp⟩ := hm
      rw [e, if_neg (by omega)]
      obtain ⟨b, hb, w⟩ := append_wrote s1 ((x :: d).take (min (x :: d).length s1.buf.free)) hg (by simp; omega)
      rw [hb]
      refine ih _ _ ⟨w.good, fun _ => ?_⟩
      unfold OutBuf.append at hb
      split at hb
      · cases hb
        simp only [ne_eq, List.append_eq_nil_iff, not_and]
        intro _ h0
        have := congrArg List.length h0
        simp only [List.length_take, List.length_cons, List.length_nil] at this
        omega
      · cases hb

theorem busy_writeBytes (s : Ser) (d : Bytes) (h : s.Busy) : (s.writeBytes d).2.Busy := busy_writeLoop _ s d h

theorem busy_writeLit (s : Ser) (d : Bytes) (h : s.Busy) : (s.writeLit d).2.Busy := by
  unfold Ser.writeLit
  split
  · exact busy_writeBytes s d h
  · split
    · exact h
    · next b hb => exact busy_append h d (by omega) b hb

theorem busy_writeAsString (s : Ser) (d : Bytes) (h : s.Busy) : (s.writeAsString d).2.Busy :=
  busy_andThen (busy_writeLit s _ h) fun s hs => busy_andThen (busy_writeBytes s d hs) fun s hs => busy_writeLit s _ hs

theorem busy_writeTyped (s : Ser) (ty : Ty) (d : Bytes) (h : s.Busy) : (s.writeTyped ty d).2.Busy := by
  unfold Ser.writeTyped
  split
  · exact busy_writeAsString s d h
  · split
    · exact busy_writeAsString s d h
    · exact busy_writeBytes s d h
  · exact busy_writeBytes s _ h
  · exact busy_writeBytes s d h

theorem busy_same {s s' : Ser} (h : s.Busy) (h1 : s'.buf = s.buf) (h2 : s'.done = s.done) (h3 : s'.requests = s.requests)
    (h4 : s'.supply = s.supply) : s'.Busy :=
  ⟨⟨by unfold Ser.Supplied; rw [h4]; exact h.good.supplied, by rw [h1]; exact h.good.cur, by rw [h2]; exact h.good.full⟩,
    by rw [h1, h3]; exact h.busy⟩

theorem busy_shortcut (s : Ser) (isEnd : Bool) (h : s.Busy) : (s.shortcut isEnd).2.2.Busy := by
  unfold Ser.shortcut
  split
  · dsimp only
    split
    · exact h
    · exact busy_writeLit s _ h
  · exact h

theorem busy_front (s : Ser) (isEnd : Bool) (h : s.Busy) : (s.front isEnd).2.Busy := by
  refine busy_andThen ?_ fun s hs => busy_andThen ?_ fun s hs => ?_
  · split
    · exact busy_writeLit s _ h
    · exact h
  · split
    · exact busy_same hs rfl rfl rfl rfl
    · split
      · exact hs
      · exact busy_writeBytes s _ hs
  · split
    · exact hs
    · exact busy_writeBytes s _ hs

theorem busy_body (s : Ser) (tok : Tok) (h : s.Busy) : (s.body tok).2.Busy := by
  refine busy_andThen ?_ fun s hs => busy_andThen (busy_writeTyped s _ _ hs) fun s hs => busy_same hs rfl rfl rfl rfl
  split
  · exact h
  · exact busy_andThen (busy_writeTyped s _ _ h) fun s hs => busy_writeLit s _ hs

theorem busy_write (s : Ser) (tok : Tok) (h : s.Busy) : (s.write tok).2.Busy := by
  unfold Ser.write
  dsimp only
  split
  · exact h
  · generalize hs0 : (if (decide (tok.valueType = .objectEnd ∨ tok.valueType = .arrayEnd)) = true then
      { s with opt := s.opt.setDepth (s.opt.depth - 1) } else s) = s0
    have h0 : s0.Busy := by
      subst hs0
      split
      · exact busy_same h rfl rfl rfl rfl
      · exact h
    have h1 := busy_shortcut s0 (decide (tok.valueType = .objectEnd ∨ tok.valueType = .arrayEnd)) h0
    split
    · exact h1
    · refine busy_andThen ?_ fun s hs => busy_body s tok hs
      split
      · exact h1
      · exact busy_front _ _ h1

/-- The state of a context over a string that had `n` bytes, when the text `t` has been written. -/
structure OutCtx.Inv (c : OutCtx) (n : Nat) (t : Bytes) (st : SerSt) : Prop where
  out : c.ser.out = t
  st : c.ser.st = st
  cur : c.ser.buf.data.length ≤ c.ser.buf.size
  full : ∀ b ∈ c.ser.done, b.data.length = b.size
  sizes : Doubled n c.ser.sizes c.ser.requests
  last : c.lastPos = JsonStruct.lastPos n c.ser.requests
  busy : c.ser.requests ≠ 0 → c.ser.buf.data ≠ []
  /-- The string is as large as all buffers and begins with the text, or it is the text. -/
  mem : (c.json.length = n * 2 ^ c.ser.requests ∧ t <+: c.json) ∨ c.json = t

theorem putAt_prefix (t z e : Bytes) (h : e.length ≤ z.length) :
    putAt (t ++ z) t.length e = some (t ++ e ++ z.drop e.length) := by
  unfold putAt
  split
  · next h0 => subst h0; simp
  · simp only [List.length_append, Nat.add_le_add_iff_left, h, if_true, List.take_left', Option.some.injEq]
    rw [List.drop_append]
    simp

theorem putAt_out (t e : Bytes) (h : e ≠ []) : putAt t t.length e = none := by
  unfold putAt
  rw [if_neg h, if_neg]
  cases e with
  | nil => exact absurd rfl h
  | cons => simp

/-- The string is as large as the buffers and begins with the text. -/
def OutCtx.Open (c : OutCtx) (n : Nat) (t : Bytes) : Prop := c.json.length = n * 2 ^ c.ser.requests ∧ t <+: c.json

theorem inv_lengths {c : OutCtx} {n : Nat} {t : Bytes} {st : SerSt} (h : c.Inv n t st) :
    t.length = c.lastPos + c.ser.buf.data.length ∧ n * 2 ^ c.ser.requests = c.lastPos + c.ser.buf.size := by
  obtain ⟨h1, h2, h3⟩ := h.sizes
  have hd : (c.ser.done.map (·.size)).sum = c.lastPos := by
    rw [h.last, ← h2]; simp [Ser.sizes]
  constructor
  · rw [← h.out]
    simp only [Ser.out, List.flatMap_append, List.flatMap_cons, List.flatMap_nil, List.append_nil, List.length_append]
    rw [sizes_data _ h.full, hd]
  · rw [← h1]; simp [Ser.sizes, hd]

theorem write_step (c : OutCtx) (n : Nat) (hn : 0 < n) (t : Bytes) (st : SerSt) (h : c.Inv n t st) (k : Tok) (d : Bytes) (st' : SerSt)
    (hw : ∀ s : Ser, s.Good → s.st = st → WroteToks s st' d (s.write k).2) :
    (c.Open n t → ∃ c', c.write k = some c' ∧ c'.Inv n (t ++ d) st' ∧ c'.Open n (t ++ d)) ∧
    (c.json = t → t.length < n * 2 ^ c.ser.requests →
      (d = [] → ∃ c', c.write k = some c' ∧ c'.Inv n t st' ∧ c'.json = t ∧ c'.ser.requests = c.ser.requests) ∧ (d ≠ [] → c.write k = none)) := by
  obtain ⟨hl1, hl2⟩ := inv_lengths h
  generalize hL : max 1 c.json.length = L
  generalize hs : ({ c.ser with supply := fun j => some (L * 2 ^ (j - c.ser.requests)) } : Ser) = s
  have hg : s.Good := by
    subst hs
    exact ⟨fun j => ⟨_, rfl, Nat.mul_pos (by omega) (Nat.two_pow_pos _)⟩, h.cur, h.full⟩
  have hst : s.st = st := by subst hs; exact h.st
  have w := hw s hg hst
  have wb := (busy_write s k ⟨hg, by subst hs; exact h.busy⟩).busy
  generalize hs' : (s.write k).2 = s' at w wb
  have hdone : s.done = c.ser.done := by subst hs; rfl
  have hbuf : s.buf = c.ser.buf := by subst hs; rfl
  have hreq : s.requests = c.ser.requests := by subst hs; rfl
  have hsup : ∀ j, s.supply j = some (L * 2 ^ (j - c.ser.requests)) := by subst hs; intro j; rfl
  obtain ⟨j, hj1, hj2⟩ : ∃ j, s'.requests = c.ser.requests + j ∧ s'.sizes = c.ser.sizes ++ doubles L j := by
    refine w.asked (fun l r => ∃ j, r = c.ser.requests + j ∧ l = c.ser.sizes ++ doubles L j) ?_ ⟨0, by simp [hreq], by simp [Ser.sizes, hdone, hbuf, doubles]⟩
    rintro l r ⟨j, rfl, rfl⟩
    refine ⟨j + 1, rfl, ?_⟩
    rw [hsup, doubles_snoc, ← List.append_assoc]
    simp
  have hout := w.out
  have hso : s.out = c.ser.done.flatMap (·.data) ++ c.ser.buf.data := by simp [Ser.out, hdone, hbuf]
  rw [hso, List.append_assoc] at hout
  obtain ⟨b, bs, hbufs, hbsz, hbs, hfl, hdat⟩ := keeps_full c.ser.done h.full c.ser.buf.size (doubles L j) (s'.done ++ [s'.buf])
    (filled_good w.good) (by
      have := hj2
      simp only [Ser.sizes] at this
      rw [this]; simp) (c.ser.buf.data ++ d) hout
  have hjlen : bs.length = j := by
    have := congrArg List.length hbs
    simpa [doubles_length] using this
  have ht : t = c.ser.done.flatMap (·.data) ++ c.ser.buf.data := by rw [← h.out]; simp [Ser.out]
  have hble : b.data.length ≤ b.size := by
    cases bs with
    | nil => exact hfl
    | cons => exact Nat.le_of_eq (filled_cons hfl).1
  obtain ⟨e, he⟩ : ∃ e, b.data = c.ser.buf.data ++ e := by
    have hle : c.ser.buf.data.length ≤ b.data.length := by
      cases bs with
      | nil => simp only [List.flatMap_nil, List.append_nil] at hdat; rw [hdat]; simp
      | cons => rw [(filled_cons hfl).1, hbsz]; exact h.cur
    have hp : c.ser.buf.data <+: b.data := List.prefix_of_prefix_length_le (List.prefix_append _ d) (hdat ▸ List.prefix_append _ _) hle
    obtain ⟨e, he⟩ := hp
    exact ⟨e, he.symm⟩
  have hef : e ++ bs.flatMap (·.data) = d := by
    rw [he, List.append_assoc] at hdat
    exact List.append_cancel_left hdat
  have hwrite : c.write k = (do
      let json ← putAt c.json t.length e
      let r ← putNew bs json c.lastPos
      some { ser := s', json := r.1, lastPos := r.2 }) := by
    unfold OutCtx.write
    simp only [hL, hs, hs', hbufs, List.drop_left, hl1, he]
  have hout' : s'.out = t ++ d := by rw [w.out, hso, ← ht]
  constructor
  · rintro ⟨hlen, z, hz⟩
    have hLl : L = c.json.length := by
      have : 0 < n * 2 ^ c.ser.requests := Nat.mul_pos hn (Nat.two_pow_pos _)
      omega
    have hzl : t.length + z.length = n * 2 ^ c.ser.requests := by rw [← hlen, ← hz]; simp
    have hel : e.length ≤ z.length := by
      have := congrArg List.length he
      simp only [List.length_append] at this
      omega
    have hdb : Doubled n s'.sizes s'.requests := by
      refine (w.asked (fun l r => c.ser.requests ≤ r ∧ Doubled n l r) ?_ ⟨by omega, by simpa [Ser.sizes, hdone, hbuf, hreq] using h.sizes⟩).2
      rintro l r ⟨h1, h2⟩
      refine ⟨by omega, ?_⟩
      have := doubled_step n l r h2
      rw [hsup]
      convert this using 4
      simp only [doubling, Option.some.injEq]
      rw [hLl, hlen, Nat.mul_assoc, ← Nat.pow_add]; congr 2; omega
    have hput : putAt c.json t.length e = some (t ++ e ++ z.drop e.length) := by rw [← hz]; exact putAt_prefix t z e hel
    rw [hwrite, hput]
    simp only [Option.bind_eq_bind, Option.bind_some]
    cases hb : bs with
    | nil =>
      subst hb
      simp only [putNew, Option.bind_some]
      have hj0 : j = 0 := by simpa using hjlen.symm
      have hd : e = d := by simpa using hef
      have hr : s'.requests = c.ser.requests := by omega
      have hopen : (t ++ e ++ z.drop e.length).length = n * 2 ^ s'.requests ∧ t ++ d <+: t ++ e ++ z.drop e.length := by
        refine ⟨?_, hd ▸ List.prefix_append _ _⟩
        rw [hr]; simp; omega
      exact ⟨_, rfl, ⟨hout', w.st, w.good.cur, w.good.full, hdb, by rw [hr]; exact h.last, wb, .inl hopen⟩, hopen⟩
    | cons b2 bs2 =>
      rw [hb] at hfl hef hbs hjlen
      obtain ⟨hbfull, hfl2⟩ := filled_cons hfl
      have hte : (t ++ e).length = n * 2 ^ c.ser.requests := by
        have := congrArg List.length he
        simp only [List.length_append] at this ⊢
        omega
      have hz0 : z.drop e.length = [] := by
        rw [List.drop_eq_nil_iff]; simp only [List.length_append] at hte; omega
      rw [hz0, List.append_nil]
      obtain ⟨zz, l, hp1, hp2, hp3⟩ := putNew_eq (b2 :: bs2) (t ++ e) c.lastPos hfl2 (by
        rw [hbs, hjlen, hte, hLl, hlen]) (by simp)
      rw [hp1]
      simp only [Option.bind_some]
      have e2 : t ++ e ++ (b2 :: bs2).flatMap (·.data) = t ++ d := by rw [List.append_assoc, hef]
      rw [e2] at hp2 ⊢
      have hpow : (t ++ e).length * 2 ^ (b2 :: bs2).length = n * 2 ^ s'.requests := by
        rw [hte, hjlen, hj1, Nat.pow_add, Nat.mul_assoc]
      have hopen : (t ++ d ++ List.replicate zz 0).length = n * 2 ^ s'.requests ∧ t ++ d <+: t ++ d ++ List.replicate zz 0 :=
        ⟨by rw [← hpow, ← hp2]; simp [Nat.add_assoc], List.prefix_append _ _⟩
      refine ⟨_, rfl, ⟨hout', w.st, w.good.cur, w.good.full, hdb, ?_, wb, .inl hopen⟩, hopen⟩
      have hjp : s'.requests ≠ 0 := by simp at hjlen; omega
      simp only [JsonStruct.lastPos, hjp, if_false]
      rw [hpow] at hp3
      obtain ⟨q, hq⟩ : ∃ q, s'.requests = q + 1 := ⟨s'.requests - 1, by omega⟩
      rw [hq, Nat.pow_succ, ← Nat.mul_assoc] at hp3
      rw [hq]; simp only [Nat.add_sub_cancel]
      omega
  · intro hjt hlt
    have key : e = [] → bs = [] := by
      intro h0
      cases hb : bs with
      | nil => rfl
      | cons b2 bs2 =>
        rw [hb] at hfl
        have h3 := (filled_cons hfl).1
        rw [he, h0, List.append_nil, hbsz] at h3
        omega
    constructor
    · intro hd
      subst hd
      have h0 : e = [] := (List.append_eq_nil_iff.mp hef).1
      have hb := key h0
      subst h0
      subst hb
      have hj0 : j = 0 := by simpa using hjlen.symm
      refine ⟨{ ser := s', json := c.json, lastPos := c.lastPos }, ?_, ⟨by simpa using hout', w.st, w.good.cur, w.good.full, ?_, ?_, wb, .inr hjt⟩, hjt, by simp; omega⟩
      · rw [hwrite]; simp [putAt, putNew]
      · rw [hj1, hj2, hj0]; simpa [doubles] using h.sizes
      · rw [hj1, hj0]; exact h.last
    · intro hd
      have hne : e ≠ [] := by
        intro h0
        have hb := key h0
        subst h0; subst hb
        exact hd (by simpa using hef.symm)
      rw [hwrite, hjt, putAt_out t e hne]; rfl

theorem inv_cases {c : OutCtx} {n : Nat} {t : Bytes} {st : SerSt} (h : c.Inv n t st) :
    c.Open n t ∨ (c.json = t ∧ t.length < n * 2 ^ c.ser.requests) := by
  obtain ⟨h1, h2⟩ := inv_lengths h
  have := h.cur
  rcases h.mem with hm | hm
  · exact .inl hm
  · by_cases hl : t.length < n * 2 ^ c.ser.requests
    · exact .inr ⟨hm, hl⟩
    · exact .inl ⟨by rw [hm]; omega, by rw [hm]; exact List.prefix_refl t⟩

theorem flush_step {c : OutCtx} {n : Nat} {t : Bytes} {st : SerSt} (h : c.Inv n t st) : c.flush.json = t ∧ c.flush.Inv n t st := by
  obtain ⟨h1, h2⟩ := inv_lengths h
  have hj : c.flush.json = t := by
    simp only [OutCtx.flush, ← h1]
    rcases h.mem with ⟨_, z, hz⟩ | hm
    · rw [← hz]; simp
    · rw [hm]; simp
  exact ⟨hj, h.out, h.st, h.cur, h.full, h.sizes, h.last, h.busy, .inr hj⟩

theorem startString_pos (json : Bytes) : 0 < (startString json).length := by
  unfold startString
  split
  · rw [List.length_replicate]; omega
  · rename_i h; cases json with
    | nil => simp at h
    | cons => simp

theorem inv_new (o : SerOpts) (json : Bytes) : (OutCtx.new o json).Inv (startString json).length [] { opt := o } ∧
    (OutCtx.new o json).Open (startString json).length [] := by
  have ho : (OutCtx.new o json).Open (startString json).length [] := ⟨by simp [OutCtx.new, Ser.onString], List.nil_prefix⟩
  refine ⟨⟨rfl, rfl, Nat.zero_le _, by simp [OutCtx.new, Ser.onString], ⟨?_, ?_, ?_⟩, by simp [OutCtx.new, Ser.onString, lastPos], by simp [OutCtx.new, Ser.onString], .inl ho⟩, ho⟩
  · simp [Ser.sizes, OutCtx.new, Ser.onString]
  · simp [Ser.sizes, OutCtx.new, Ser.onString, lastPos]
  · simp [Ser.sizes]

end JsonStruct
