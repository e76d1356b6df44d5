import Verif.Model.Scan
import Mathlib.Tactic.Common
import Mathlib.Tactic.SplitIfs

/- Facts about the scanners: table facts for all bytes, and the vector scanners
reduced to the byte loops. -/

namespace JsonStruct

theorem forall_byte {p : UInt8 → Prop} (h : ∀ i : Fin 256, p (UInt8.ofFin i)) : ∀ c, p c :=
  fun c => by simpa using h c.toFin

theorem isAsciiV_eq (c : UInt8) : isAsciiV c = !asciiStop c :=
  forall_byte (p := fun c => isAsciiV c = !asciiStop c) (by decide +kernel) c

theorem asciiRange_stop (c : UInt8) : asciiStop c = true → asciiRange c = false :=
  forall_byte (p := fun c => asciiStop c = true → asciiRange c = false) (by decide +kernel) c

theorem numV_stop (c : UInt8) : (!isNumV c) = numberStop c :=
  forall_byte (p := fun c => (!isNumV c) = numberStop c) (by decide +kernel) c

theorem lookup_str_iff (c : UInt8) : lookup c = flStrEnd ↔ (c = QUOTE ∨ c = BSL) :=
  forall_byte (p := fun c => lookup c = flStrEnd ↔ (c = QUOTE ∨ c = BSL)) (by decide +kernel) c

theorem isWsV_facts (c : UInt8) : isWsV c = true →
    has c (flPlusMinus ||| flDigits) = false ∧ has c flAscii = false ∧ lookup c ≠ 0 ∧
    has c flWs = true ∧ c ≠ SLASH ∧ c ≠ QUOTE ∧ c ≠ LBRACE ∧ c ≠ RBRACE ∧ c ≠ LBRACK ∧ c ≠ RBRACK ∧
    c ≠ COMMA ∧ c ≠ COLON :=
  forall_byte (p := fun c => isWsV c = true →
    has c (flPlusMinus ||| flDigits) = false ∧ has c flAscii = false ∧ lookup c ≠ 0 ∧
    has c flWs = true ∧ c ≠ SLASH ∧ c ≠ QUOTE ∧ c ≠ LBRACE ∧ c ≠ RBRACE ∧ c ≠ LBRACK ∧ c ≠ RBRACK ∧
    c ≠ COMMA ∧ c ≠ COLON) (by decide +kernel) c

/-! ### Blocks -/

/-- `first` finds the first byte satisfying `p` in blocks of width `w`. -/
def Finds (w : Nat) (first : Bytes → Option Nat) (p : UInt8 → Bool) : Prop :=
  ∀ chunk : Bytes, chunk.length = w →
    first chunk = if chunk.findIdx p < chunk.length then some (chunk.findIdx p) else none

theorem movemask_lt (l : List Bool) : movemask l < 2 ^ l.length := by
  induction l with
  | nil => simp [movemask]
  | cons b bs ih =>
    have : b.toNat ≤ 1 := Bool.toNat_le b
    simp only [movemask, List.length_cons, Nat.pow_succ]; omega

theorem movemask_zero_iff (l : List Bool) : movemask l = 0 ↔ ∀ b ∈ l, b = false := by
  induction l with
  | nil => simp [movemask]
  | cons b bs ih =>
    have : 2 * movemask bs = 0 ↔ movemask bs = 0 := by omega
    cases b <;> simp [movemask, this, ih]

theorem ctz_movemask (l : List Bool) (n : Nat) (hn : l.length ≤ n) (h : movemask l ≠ 0) :
    ctz n (movemask l) = l.findIdx id := by
  induction l generalizing n with
  | nil => simp [movemask] at h
  | cons b bs ih =>
    cases n with
    | zero => simp at hn
    | succ n =>
      cases b with
      | true => simp [movemask, ctz, List.findIdx_cons, Nat.add_mod]
      | false =>
        have h0 : movemask bs ≠ 0 := by intro h0; simp [movemask, h0] at h
        have := ih n (by simpa using hn) h0
        simp [movemask, ctz, List.findIdx_cons, this]; omega

theorem findIdx_map_id (p : UInt8 → Bool) (l : Bytes) : (l.map p).findIdx id = l.findIdx p := by
  induction l with
  | nil => rfl
  | cons a l ih => simp [List.findIdx_cons, ih]

theorem findIdx_lt_iff (p : UInt8 → Bool) (l : Bytes) :
    l.findIdx p < l.length ↔ ∃ x ∈ l, p x = true := List.findIdx_lt_length

theorem firstSet_finds (p : UInt8 → Bool) (w : Nat) (hw : w ≤ 32) : Finds w (firstSet p) p := by
  intro chunk hc
  unfold firstSet
  by_cases h : movemask (chunk.map p) = 0
  · have h2 := (movemask_zero_iff _).1 h
    have : ¬ chunk.findIdx p < chunk.length := by
      rw [findIdx_lt_iff]; rintro ⟨x, hx, hp⟩
      have := h2 (p x) (List.mem_map_of_mem hx); simp [hp] at this
    simp [h, this]
  · have : chunk.findIdx p < chunk.length := by
      rw [findIdx_lt_iff]
      by_contra hne
      apply h; rw [movemask_zero_iff]; intro b hb
      obtain ⟨x, hx, rfl⟩ := List.mem_map.1 hb
      by_contra hb2; exact hne ⟨x, hx, by simpa using hb2⟩
    simp [h, this, ctz_movemask (chunk.map p) 32 (by simp; omega) h]

theorem movemask_compl (p : UInt8 → Bool) (l : Bytes) :
    2 ^ l.length - 1 - movemask (l.map p) = movemask (l.map (fun c => !p c)) := by
  induction l with
  | nil => simp [movemask]
  | cons a l ih =>
    have h1 := movemask_lt (l.map p)
    have h2 : movemask (l.map (fun c => !p c)) = 2 ^ l.length - 1 - movemask (l.map p) := ih.symm
    simp only [List.length_map] at h1
    simp only [List.map_cons, movemask, List.length_cons, Nat.pow_succ, h2]
    cases p a <;> simp <;> omega

theorem firstClear_finds (p : UInt8 → Bool) (w : Nat) (hw : w ≤ 32) :
    Finds w (firstClear p) (fun c => !p c) := by
  intro chunk hc
  have hs := firstSet_finds (fun c => !p c) w hw chunk hc
  have h1 := movemask_lt (chunk.map p)
  have h2 := movemask_compl p chunk
  simp only [List.length_map] at h1
  rw [← hs]
  unfold firstClear firstSet
  simp only [h2]
  congr 1
  simp only [ne_eq, eq_iff_iff, not_iff_not]
  omega

theorem any_false_findIdx (l : List Bool) : l.any id = false → l.findIdx id = l.length := by
  induction l with
  | nil => simp
  | cons b l ih => cases b <;> simp [List.findIdx_cons]

theorem findIdx_append_bool (a b : List Bool) :
    (a ++ b).findIdx id = if a.any id then a.findIdx id else a.length + b.findIdx id := by
  induction a with
  | nil => simp
  | cons x a ih =>
    cases x
    · simp only [List.cons_append, List.findIdx_cons, List.any_cons, id, Bool.false_or, cond_false, ih,
        List.length_cons]
      split <;> omega
    · simp [List.findIdx_cons]

set_option linter.unusedSimpArgs false in
theorem firstNeon_finds (p : UInt8 → Bool) : Finds 16 (firstNeon p) p := by
  intro chunk hc
  have hlen : (chunk.map p).length = 16 := by simp [hc]
  have hfi : chunk.findIdx p = (chunk.map p).findIdx id := (findIdx_map_id p chunk).symm
  have hcl : chunk.length = (chunk.map p).length := by simp
  unfold firstNeon
  rw [hfi, hcl]
  generalize chunk.map p = m at *
  obtain ⟨a, ha⟩ : ∃ a, a = (m.drop (0 * 4)).take 4 := ⟨_, rfl⟩
  obtain ⟨b, hb⟩ : ∃ b, b = (m.drop (1 * 4)).take 4 := ⟨_, rfl⟩
  obtain ⟨c, hcc⟩ : ∃ b, b = (m.drop (2 * 4)).take 4 := ⟨_, rfl⟩
  obtain ⟨d, hd⟩ : ∃ b, b = (m.drop (3 * 4)).take 4 := ⟨_, rfl⟩
  have hla : a.length = 4 := by rw [ha]; simp; omega
  have hlb : b.length = 4 := by rw [hb]; simp; omega
  have hlc : c.length = 4 := by rw [hcc]; simp; omega
  have hld : d.length = 4 := by rw [hd]; simp; omega
  have hm : m = a ++ (b ++ (c ++ d)) := by
    have e : ∀ (l : List Bool) n, l = l.take n ++ l.drop n := fun l n => (List.take_append_drop n l).symm
    rw [ha, hb, hcc, hd]
    have h1 := e m 4
    have h2 := e (m.drop 4) 4
    have h3 := e (m.drop 8) 4
    have h4 : (m.drop 12).take 4 = m.drop 12 := by rw [List.take_of_length_le]; simp; omega
    simp only [List.drop_drop] at h2 h3
    simp only [Nat.reduceAdd, Nat.reduceMul, Nat.zero_mul, List.drop_zero] at *
    rw [h4, ← h3, ← h2, ← h1]
  simp only [← ha, ← hb, ← hcc, ← hd]
  rw [hm]
  simp only [findIdx_append_bool, List.any_append, List.length_append, hla, hlb, hlc, hld]
  have lt4 : ∀ l : List Bool, l.length = 4 → l.any id = true → l.findIdx id < 4 := by
    intro l hl h; rw [← hl]; exact List.findIdx_lt_length.2 (by simpa using h)
  have eqd : d.any id = false → d.findIdx id = 4 := fun h => by rw [any_false_findIdx d h, hld]
  cases h1 : a.any id <;> cases h2 : b.any id <;> cases h3 : c.any id <;> cases h4 : d.any id <;>
    simp only [h1, h2, h3, h4, if_true, if_false, Bool.or_false, Bool.or_true, Bool.false_eq_true,
      Option.or] <;>
    first
      | (have := lt4 a hla h1; exact (congrArg some (by omega)).trans (if_pos (by omega)).symm)
      | (have := lt4 b hlb h2; exact (congrArg some (by omega)).trans (if_pos (by omega)).symm)
      | (have := lt4 c hlc h3; exact (congrArg some (by omega)).trans (if_pos (by omega)).symm)
      | (have := lt4 d hld h4; exact (congrArg some (by omega)).trans (if_pos (by omega)).symm)
      | (have := eqd h4; rw [if_neg (by omega)])

theorem findIdx_append' (p : UInt8 → Bool) (a b : Bytes) :
    (a ++ b).findIdx p = if a.findIdx p < a.length then a.findIdx p else a.length + b.findIdx p := by
  induction a with
  | nil => simp
  | cons x a ih =>
    simp only [List.cons_append, List.findIdx_cons, List.length_cons, ih]
    cases p x <;> simp
    split <;> omega

/-- What the block loop computes. -/
theorem blockScan_spec {w : Nat} {first : Bytes → Option Nat} {p : UInt8 → Bool} (hw : 0 < w)
    (hf : Finds w first p) (n : Nat) (s : Bytes) (hn : s.length ≤ n) :
    let r := blockScan w first n s
    r.1 ≤ s.length ∧ (∀ x ∈ s.take r.1, p x = false) ∧
    (r.2 = true → r.1 < s.length ∧ s.findIdx p = r.1) := by
  induction n generalizing s with
  | zero => simp [blockScan]
  | succ n ih =>
    simp only [blockScan]
    split
    · rename_i hws
      have hlen : (s.take w).length = w := by simp; omega
      have hfs := hf (s.take w) hlen
      have happ := findIdx_append' p (s.take w) (s.drop w)
      rw [List.take_append_drop] at happ
      have notmem : ∀ k, k ≤ (s.take w).findIdx p → ∀ x ∈ (s.take w).take k, p x = false := by
        intro k hk x hx
        obtain ⟨i, hi, rfl⟩ := List.getElem_of_mem hx
        simp only [List.length_take] at hi
        have := List.not_of_lt_findIdx (xs := s.take w) (p := p) (i := i) (by omega)
        simpa using this
      by_cases hlt : (s.take w).findIdx p < (s.take w).length
      · simp only [hfs, if_pos hlt]
        refine ⟨by omega, ?_, fun _ => ⟨by omega, by rw [happ, if_pos hlt]⟩⟩
        intro x hx
        apply notmem _ (Nat.le_refl _) x
        rwa [List.take_take, Nat.min_eq_left (by omega)]
      · simp only [hfs, if_neg hlt]
        have ih' := ih (s.drop w) (by simp; omega)
        simp only at ih'
        obtain ⟨h1, h2, h3⟩ := ih'
        simp only [List.length_drop] at h1 h3
        refine ⟨by omega, ?_, fun h => ⟨by have := (h3 h).1; omega, ?_⟩⟩
        · intro x hx
          rw [List.take_add] at hx
          rcases List.mem_append.1 hx with hx | hx
          · exact notmem w (by omega) x (by rwa [List.take_take, Nat.min_self])
          · exact h2 x hx
        · rw [happ, if_neg hlt, (h3 h).2, hlen]
    · simp

theorem findIdx_drop_of_false (p : UInt8 → Bool) (s : Bytes) (k : Nat) (hk : k ≤ s.length)
    (h : ∀ x ∈ s.take k, p x = false) : s.findIdx p = k + (s.drop k).findIdx p := by
  have happ := findIdx_append' p (s.take k) (s.drop k)
  rw [List.take_append_drop] at happ
  have : ¬ (s.take k).findIdx p < (s.take k).length := by
    rw [findIdx_lt_iff]; rintro ⟨x, hx, hp⟩; simp [h x hx] at hp
  rw [happ, if_neg this]; simp [hk]

theorem scanTo_eq {w : Nat} {first : Bytes → Option Nat} {p : UInt8 → Bool} (hw : 0 < w)
    (hf : Finds w first p) (s : Bytes) : scanTo w first p s = s.findIdx p := by
  obtain ⟨h1, h2, h3⟩ := blockScan_spec hw hf s.length s (Nat.le_refl _)
  simp only [scanTo]
  split
  · rename_i h; exact (h3 h).2.symm
  · exact (findIdx_drop_of_false p s _ h1 h2).symm

theorem cmpistri_finds : Finds 16 cmpistri (fun c => !isNumV c) := by
  intro chunk hc
  have h0 : isNumV 0 = false := by decide
  have : (chunk.takeWhile (· ≠ 0)).findIdx (fun c => !isNumV c) = chunk.findIdx (fun c => !isNumV c) := by
    clear hc
    induction chunk with
    | nil => rfl
    | cons a l ih =>
      by_cases ha : a = 0
      · subst ha; simp [List.findIdx_cons, h0]
      · simp only [ne_eq, ha, not_false_eq_true, decide_true, List.takeWhile_cons_of_pos,
          List.findIdx_cons]
        rw [← ih]
  simp only [cmpistri, this]

/-! ### The dispatchers -/

theorem asciiEndFrom_eq (k : Nat) (s : Bytes) :
    asciiEndFrom k s =
      if s.findIdx asciiStop < s.length then
        (if s.getD (s.findIdx asciiStop) 0 = 0 then .more else .found (k + s.findIdx asciiStop))
      else .more := by
  induction s generalizing k with
  | nil => simp [asciiEndFrom]
  | cons c cs ih =>
    simp only [asciiEndFrom, List.findIdx_cons]
    by_cases hc : asciiStop c = true
    · simp [hc, asciiRange_stop c hc]
    · simp only [Bool.not_eq_true] at hc
      simp [hc, ih]
      split <;> [skip; rfl]
      split <;> [rfl; (congr 1; omega)]

theorem findAsciiEnd_eq (m : Simd) (s : Bytes) : findAsciiEnd m s = asciiEnd s := by
  have hp : (fun c => !isAsciiV c) = asciiStop := by funext c; simp [isAsciiV_eq]
  have hs : findAsciiEndSIMD s = s.findIdx asciiStop := by
    rw [findAsciiEndSIMD, scanTo_eq (by decide) (firstClear_finds isAsciiV 16 (by decide)), hp]
  have hn : findAsciiEndNEON s = s.findIdx asciiStop := by
    rw [findAsciiEndNEON, scanTo_eq (by decide) (firstNeon_finds _), hp]
  have key : ∀ scan : Bytes → Nat, scan s = s.findIdx asciiStop →
      (if 16 ≤ s.length then
        let consumed := scan s
        if consumed < s.length then
          if s.getD consumed 0 = 0 then EndRes.more else .found consumed
        else asciiEndFrom consumed (s.drop consumed)
      else asciiEnd s) = asciiEnd s := by
    intro scan hsc
    split
    · simp only [hsc, asciiEnd, asciiEndFrom_eq 0 s, Nat.zero_add]
      split
      · rfl
      · rename_i h
        have hle := List.findIdx_le_length (p := asciiStop) (xs := s)
        have : s.drop (s.findIdx asciiStop) = [] := by
          apply List.drop_eq_nil_of_le; omega
        rw [this]; rfl
    · rfl
  cases m <;> simp only [findAsciiEnd] <;> first | rfl | exact key _ hs | exact key _ hn

theorem findNumberEnd_eq (m : Simd) (s : Bytes) : findNumberEnd m s = numberEnd s := by
  have hp : (fun c => !isNumV c) = numberStop := by funext c; exact numV_stop c
  have h1 : findNumberEndSSE2 s = s.findIdx numberStop := by rw [findNumberEndSSE2, hp]
  have h2 : findNumberEndSSE42 s = s.findIdx numberStop := by
    obtain ⟨ha, hb, _⟩ := blockScan_spec (by decide) cmpistri_finds s.length s (Nat.le_refl _)
    rw [findNumberEndSSE42, hp]
    simp only [numV_stop] at hb
    exact (findIdx_drop_of_false numberStop s _ ha hb).symm
  have h3 : findNumberEndNEON s = s.findIdx numberStop := by
    rw [findNumberEndNEON, scanTo_eq (by decide) (firstNeon_finds _), hp]
  have key : ∀ scan : Bytes → Nat, scan s = s.findIdx numberStop →
      (if 16 ≤ s.length then
        let consumed := scan s
        if 0 < consumed ∧ consumed < s.length then EndRes.found consumed else numberEnd s
      else numberEnd s) = numberEnd s := by
    intro scan hsc
    simp only [hsc, numberEnd]
    split <;> [skip; rfl]
    split
    · rename_i h; simp [h.2]
    · rfl
  cases m <;> simp only [findNumberEnd] <;>
    first | rfl | exact key _ h1 | exact key _ h2 | exact key _ h3

theorem skipCommentVec_eq {first : Bytes → Option Nat} (hf : Finds 16 first (fun c => decide (c = LF)))
    (s : Bytes) : skipCommentVec 16 first s =
      if s.findIdx (fun c => decide (c = LF)) < s.length then s.findIdx (fun c => decide (c = LF)) + 1 else s.length := by
  obtain ⟨h1, h2, h3⟩ := blockScan_spec (by decide) hf s.length s (Nat.le_refl _)
  simp only [skipCommentVec]
  split
  · rename_i h
    have := h3 h
    rw [if_pos (by omega)]; omega
  · rw [findIdx_drop_of_false _ s _ h1 h2]

theorem skipComment_eq (m : Simd) (nl : Bool) (s : Bytes) : skipComment m nl s = commentEnd nl s := by
  have h1 := skipCommentVec_eq (firstSet_finds (fun c => decide (c = LF)) 16 (by decide)) s
  have h2 := skipCommentVec_eq (firstNeon_finds (fun c => decide (c = LF))) s
  have key : ∀ scan : Bytes → Nat, scan s = (if s.findIdx (fun c => decide (c = LF)) < s.length then s.findIdx (fun c => decide (c = LF)) + 1 else s.length) →
      (if (16 ≤ s.length && !nl) = true then
        let consumed := scan s
        if 0 < consumed ∧ consumed ≤ s.length ∧ s.getD (consumed - 1) 0 = LF then some consumed
        else commentEnd nl s
      else commentEnd nl s) = commentEnd nl s := by
    intro scan hsc
    simp only [hsc, commentEnd]
    split <;> [skip; rfl]
    rename_i hg
    simp only [Bool.and_eq_true, Bool.not_eq_true', decide_eq_true_eq] at hg
    simp only [hg.2]
    by_cases h : s.findIdx (fun c => decide (c = LF)) < s.length
    · have hx : s[s.findIdx (fun c => decide (c = LF))] = LF := by
        have := List.findIdx_getElem (p := fun c => decide (c = LF)) (w := h); simpa using this
      simp [h, List.getD_eq_getElem?_getD, hx]
    · simp only [h, if_false]
      split
      · rename_i h2
        exfalso; apply h
        rw [findIdx_lt_iff]
        refine ⟨s[s.length - 1]'(by omega), List.getElem_mem _, ?_⟩
        have := h2.2.2
        simpa [List.getD_eq_getElem?_getD, List.getElem?_eq_getElem (show s.length - 1 < s.length by omega)] using this
      · rfl
  cases m <;> simp only [skipComment] <;> first | rfl | exact key _ h1 | exact key _ h2

theorem wsSkip_spec (m : Simd) (g : Bool) (s : Bytes) :
    wsSkip m g s ≤ s.length ∧ (∀ x ∈ s.take (wsSkip m g s), isWsV x = true) ∧
      (wsSkip m g s ≠ 0 → g = true) := by
  have hle := List.findIdx_le_length (p := fun c => !isWsV c) (xs := s)
  have hall : ∀ x ∈ s.take (s.findIdx (fun c => !isWsV c)), isWsV x = true := by
    intro x hx
    obtain ⟨i, hi, rfl⟩ := List.getElem_of_mem hx
    simp only [List.length_take] at hi
    have := List.not_of_lt_findIdx (xs := s) (p := fun c => !isWsV c) (i := i) (by omega)
    simpa using this
  have h1 : skipWhitespaceSIMD s = s.findIdx (fun c => !isWsV c) :=
    scanTo_eq (by decide) (firstClear_finds isWsV 16 (by decide)) s
  have h2 : skipWhitespaceAVX2 s = s.findIdx (fun c => !isWsV c) :=
    scanTo_eq (by decide) (firstClear_finds isWsV 32 (by decide)) s
  have h3 : skipWhitespaceNEON s = s.findIdx (fun c => !isWsV c) :=
    scanTo_eq (by decide) (firstNeon_finds _) s
  cases m <;> simp only [wsSkip, h1, h2, h3]
  · simp
  all_goals
    split
    · rename_i h
      simp only [Bool.and_eq_true] at h
      exact ⟨hle, hall, fun _ => h.2⟩
    · simp

theorem strEnd_strLoop (e : Bool) (s : Bytes) :
    strLoop e s = ((strEnd e s).1.getD s.length, (strEnd e s).2) := by
  induction s generalizing e with
  | nil => cases e <;> simp [strLoop, strEnd]
  | cons c cs ih =>
    cases e
    · by_cases h1 : c = BSL
      · subst h1; simp only [strLoop, strEnd, if_true, ih, bump, show lookup BSL = flStrEnd from by decide]
        cases (strEnd true cs).1 <;> simp
      · by_cases h2 : c = QUOTE
        · subst h2; simp [strLoop, strEnd, show lookup QUOTE = flStrEnd from by decide, show QUOTE ≠ BSL from by decide]
        · have h3 : lookup c ≠ flStrEnd := by rw [ne_eq, lookup_str_iff]; simp [h1, h2]
          simp only [strLoop, strEnd, h1, h2, h3, if_false, ih, bump]
          cases (strEnd false cs).1 <;> simp
    · simp only [strLoop, strEnd, ih, bump]
      cases (strEnd false cs).1 <;> simp

theorem strEnd_le (e : Bool) (s : Bytes) (k : Nat) : (strEnd e s).1 = some k → 0 < k ∧ k ≤ s.length := by
  induction s generalizing e k with
  | nil => simp [strEnd]
  | cons c cs ih =>
    have aux : ∀ e', (bump 1 (strEnd e' cs)).1 = some k → 0 < k ∧ k ≤ (c :: cs).length := by
      intro e' h
      simp only [bump, Option.map_eq_some_iff] at h
      obtain ⟨a, h1, h2⟩ := h
      have := ih e' a h1
      simp; omega
    cases e
    · simp only [strEnd]
      split
      · split
        · exact aux _
        · split
          · simp only [Option.some.injEq, List.length_cons]; omega
          · exact aux _
      · exact aux _
    · exact aux _

/-- Bytes other than the quote and the backslash are passed over. -/
theorem strEnd_skip (s : Bytes) (k : Nat) (hk : k ≤ s.length)
    (h : ∀ x ∈ s.take k, isQuoteOrBsl x = false) :
    strEnd false s = bump k (strEnd false (s.drop k)) := by
  induction k generalizing s with
  | zero => simp [bump]
  | succ k ih =>
    cases s with
    | nil => simp at hk
    | cons c cs =>
      have hc : isQuoteOrBsl c = false := h c (by simp)
      have h3 : lookup c ≠ flStrEnd := by
        rw [ne_eq, lookup_str_iff]; simpa [isQuoteOrBsl] using hc
      rw [strEnd, if_neg h3, ih cs (by simpa using hk) (fun x hx => h x (by simp [hx])), List.drop_succ_cons]
      simp only [bump]
      cases (strEnd false (List.drop k cs)).1 <;> simp; omega

theorem findStringEnd_eq (m : Simd) (s : Bytes) : findStringEnd m false s = strEnd false s := by
  have key : ∀ w first, 0 < w → Finds w first isQuoteOrBsl →
      (if w ≤ s.length then
        let r := findStringEndVec w first false s
        if r.1 < s.length then (some r.1, r.2) else strEnd false s
      else strEnd false s) = strEnd false s := by
    intro w first hw hf
    obtain ⟨h1, h2, _⟩ := blockScan_spec hw hf s.length s (Nat.le_refl _)
    split <;> [skip; rfl]
    simp only [findStringEndVec, strEnd_strLoop]
    have hsk := strEnd_skip s _ h1 h2
    rw [hsk]
    generalize (blockScan w first s.length s).1 = k at *
    cases h : (strEnd false (s.drop k)).1 with
    | none => simp [bump, h]; omega
    | some a =>
      simp only [Option.getD_some, bump, h, Option.map_some]
      split
      · simp; omega
      · rfl
  cases m <;> simp only [findStringEnd] <;> first
    | rfl
    | exact key _ _ (by decide) (firstSet_finds _ _ (by decide))
    | exact key _ _ (by decide) (firstNeon_finds _)

end JsonStruct
