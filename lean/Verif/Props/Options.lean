import Verif.Spec.Options
import Verif.Props.Serializer
import Mathlib.Data.List.Induction

/-
C86: the options of a serializer are those set last.
-/

namespace JsonStruct

theorem made_snoc (pretty : Bool) (cs : List SetOpt) (c : SetOpt) : SerOpts.made pretty (cs ++ [c]) = (SerOpts.made pretty cs).set c := by
  simp [SerOpts.made]

theorem getLastD_concat' (l : List α) (x d : α) : (l ++ [x]).getLastD d = x := by simp

/-- All but the indentation that was computed. -/
theorem made_fields (pretty : Bool) (cs : List SetOpt) (hd : ∀ d, SetOpt.depth d ∈ cs → d < 256) :
    ∃ ind, SerOpts.made pretty cs = ⟨lastShift pretty cs % 256, lastDepth cs, lastStyle pretty cs, lastAscii cs, ind,
      if lastSkip cs then [] else [COMMA], if lastStyle pretty cs then [LF] else []⟩ ∧ Ws ind ∧ lastDepth cs < 256 := by
  induction cs using List.reverseRecOn with
  | nil => exact ⟨[], by cases pretty <;> rfl, ws_nil, by decide⟩
  | append_singleton cs c ih =>
    obtain ⟨pre, h1, h2, h3⟩ := ih fun d h => hd d (by simp [h])
    have hpre : ∀ (b : Bool) n, Ws (if b then List.replicate n SPACE else []) := by
      intro b n; cases b
      · exact ws_nil
      · exact ws_replicate _
    rw [made_snoc, h1]
    cases c with
    | style p =>
      refine ⟨_, ?_, hpre p (lastDepth cs * (lastShift pretty cs % 256)), by simpa [lastDepth] using h3⟩
      simp [SerOpts.set, SerOpts.setStyle, SerOpts.setDepth, lastStyle, lastShift, lastDepth, lastAscii, lastSkip] at h3 ⊢
      omega
    | shiftSize n =>
      refine ⟨pre, ?_, h2, by simpa [lastDepth] using h3⟩
      simp [SerOpts.set, SerOpts.setShiftSize, lastStyle, lastShift, lastDepth, lastAscii, lastSkip]
    | depth d =>
      have := hd d (by simp)
      refine ⟨_, ?_, hpre (lastStyle pretty cs) (d * (lastShift pretty cs % 256)), by simpa [lastDepth] using this⟩
      simp [SerOpts.set, SerOpts.setDepth, lastStyle, lastShift, lastDepth, lastAscii, lastSkip]
      omega
    | convertAscii b =>
      refine ⟨pre, ?_, h2, by simpa [lastDepth] using h3⟩
      simp [SerOpts.set, SerOpts.setConvertAscii, lastStyle, lastShift, lastDepth, lastAscii, lastSkip]
    | skipDelimiter b =>
      refine ⟨pre, ?_, h2, by simpa [lastDepth] using h3⟩
      simp [SerOpts.set, SerOpts.skipDelimiter, lastStyle, lastShift, lastDepth, lastAscii, lastSkip]

/-- The indentation that was computed is that of the values set last. -/
theorem made_pre (pretty : Bool) (cs : List SetOpt) (hd : ∀ d, SetOpt.depth d ∈ cs → d < 256)
    (hs : ∀ a n b, cs = a ++ SetOpt.shiftSize n :: b → lastDepth a = 0 ∨ (∃ d, SetOpt.depth d ∈ b) ∨ ∃ p, SetOpt.style p ∈ b) :
    (SerOpts.made pretty cs).pre = if lastStyle pretty cs then List.replicate (lastDepth cs * (lastShift pretty cs % 256)) SPACE else [] := by
  induction cs using List.reverseRecOn with
  | nil => cases pretty <;> rfl
  | append_singleton cs c ih =>
    obtain ⟨pre, h1, h2, h3⟩ := made_fields pretty cs fun d h => hd d (by simp [h])
    have hrest : (∀ d, c ≠ .depth d) → (∀ p, c ≠ .style p) →
        ∀ a n b, cs = a ++ SetOpt.shiftSize n :: b → lastDepth a = 0 ∨ (∃ d, SetOpt.depth d ∈ b) ∨ ∃ p, SetOpt.style p ∈ b := by
      intro g1 g2 a n b hcs
      rcases hs a n (b ++ [c]) (by simp [hcs]) with h | ⟨d, h⟩ | ⟨p, h⟩
      · exact .inl h
      · rcases List.mem_append.mp h with h | h
        · exact .inr (.inl ⟨d, h⟩)
        · exact absurd (List.mem_singleton.mp h).symm (g1 d)
      · rcases List.mem_append.mp h with h | h
        · exact .inr (.inr ⟨p, h⟩)
        · exact absurd (List.mem_singleton.mp h).symm (g2 p)
    have hd' : ∀ d, SetOpt.depth d ∈ cs → d < 256 := fun d h => hd d (by simp [h])
    rw [made_snoc]
    cases c with
    | style p =>
      rw [h1]
      simp [SerOpts.set, SerOpts.setStyle, SerOpts.setDepth, lastStyle, lastShift, lastDepth]
    | depth d =>
      rw [h1]
      simp [SerOpts.set, SerOpts.setDepth, lastStyle, lastShift, lastDepth]
    | convertAscii b =>
      have := ih hd' (hrest (by simp) (by simp))
      simpa [SerOpts.set, SerOpts.setConvertAscii, lastStyle, lastShift, lastDepth] using this
    | skipDelimiter b =>
      have := ih hd' (hrest (by simp) (by simp))
      simpa [SerOpts.set, SerOpts.skipDelimiter, lastStyle, lastShift, lastDepth] using this
    | shiftSize n =>
      have := ih hd' (hrest (by simp) (by simp))
      have h0 : lastDepth cs = 0 := by
        rcases hs cs n [] rfl with h | ⟨d, h⟩ | ⟨p, h⟩
        · exact h
        · simp at h
        · simp at h
      rw [h0] at this
      have hl : lastDepth (cs ++ [.shiftSize n]) = 0 := by simpa [lastDepth] using h0
      have hst : lastStyle pretty (cs ++ [.shiftSize n]) = lastStyle pretty cs := by simp [lastStyle]
      rw [hl, hst]
      simpa [SerOpts.set, SerOpts.setShiftSize] using this

/-- **C86**, partial. Options made with any style, after any calls of setters in any order: they are those that the constructor
with the last style, the last shift size, the last depth, and so on give. Missing are calls of `setShiftSize` at a depth other
than 0 that neither `setDepth` nor `setStyle` follow (`C86_false_order`), and depths above 255. The shift size is the
constructor's if it is never set: see `C86_false_style`. -/
theorem C86_last_values_partial (pretty : Bool) (calls : List SetOpt) (hd : ∀ d, SetOpt.depth d ∈ calls → d < 256)
    (hs : ∀ a n b, calls = a ++ SetOpt.shiftSize n :: b → lastDepth a = 0 ∨ (∃ d, SetOpt.depth d ∈ b) ∨ ∃ p, SetOpt.style p ∈ b) :
    SerOpts.made pretty calls =
      ((userOpts (lastStyle pretty calls) (lastShift pretty calls) (lastDepth calls)).setConvertAscii (lastAscii calls)).skipDelimiter (lastSkip calls) := by
  obtain ⟨pre, h1, -, h3⟩ := made_fields pretty calls hd
  have h2 := made_pre pretty calls hd hs
  rw [h1] at h2 ⊢
  simp only at h2
  simp [userOpts, SerOpts.skipDelimiter, SerOpts.setConvertAscii, SerOpts.setDepth, SerOpts.setShiftSize, SerOpts.new, h2, Nat.mod_eq_of_lt h3]
  congr

/-- The hypotheses are met: the style and the shift size set twice, and the depth between them. -/
example :
    let calls : List SetOpt := [.shiftSize 8, .depth 1, .style false, .shiftSize 4, .style true, .convertAscii false, .depth 3]
    (∀ d, SetOpt.depth d ∈ calls → d < 256) ∧
    (∀ a n b, calls = a ++ SetOpt.shiftSize n :: b → lastDepth a = 0 ∨ (∃ d, SetOpt.depth d ∈ b) ∨ ∃ p, SetOpt.style p ∈ b) ∧
    SerOpts.made false calls = (userOpts true 4 3).setConvertAscii false := by
  refine ⟨by simp, ?_, by decide +kernel⟩
  intro a n b h
  right; left
  refine ⟨3, ?_⟩
  have hl := congrArg List.getLast? h
  rw [List.getLast?_append] at hl
  cases b with
  | nil => simp at hl
  | cons x b =>
    refine List.mem_of_getLast? (a := SetOpt.depth 3) ?_
    cases hb : (x :: b).getLast? with
    | none => simp at hb
    | some y =>
      have h2 : (SetOpt.shiftSize n :: x :: b).getLast? = some y := by rw [List.getLast?_cons_cons, hb]
      rw [h2] at hl
      simpa using hl.symm

/-- **C86**, partial: after any calls of setters at all, but for `skipDelimiter(true)` and `setConvertAsciiToString(false)`, what is
written for an array or object is a JSON text of it. Missing: depths above 255 (`C47`). -/
theorem C86_always_json_partial (pretty : Bool) (calls : List SetOpt) (hd : ∀ d, SetOpt.depth d ∈ calls → d < 256)
    (hskip : SetOpt.skipDelimiter true ∉ calls) (hascii : SetOpt.convertAscii false ∉ calls)
    (v : JVal) (hv : v.isContainer = true) (hwf : v.WF rfc) (hnm : v.Named) (hdep : lastDepth calls + v.depth ≤ 255)
    (size : Nat) (supply : Nat → Option Nat) (hsup : Answered supply) :
    let r := (Ser.fresh (SerOpts.made pretty calls) size supply).writeAll v.docToks
    r.1 = true ∧ Doc rfc v r.2.out := by
  intro r
  obtain ⟨ind, h1, h2, h3⟩ := made_fields pretty calls hd
  have hA : lastAscii calls = true := by
    unfold lastAscii
    rw [List.getLastD_eq_getLast?]
    cases hl : (calls.filterMap fun | .convertAscii b => some b | _ => none).getLast? with
    | none => rfl
    | some b =>
      obtain ⟨c, hc, hcb⟩ := List.mem_filterMap.mp (List.mem_of_getLast? hl)
      cases b with
      | true => rfl
      | false => cases c <;> simp at hcb; subst hcb; exact absurd hc hascii
  have hS : lastSkip calls = false := by
    unfold lastSkip
    rw [List.getLastD_eq_getLast?]
    cases hl : (calls.filterMap fun | .skipDelimiter b => some b | _ => none).getLast? with
    | none => rfl
    | some b =>
      obtain ⟨c, hc, hcb⟩ := List.mem_filterMap.mp (List.mem_of_getLast? hl)
      cases b with
      | false => rfl
      | true => cases c <;> simp at hcb; subst hcb; exact absurd hc hskip
  rw [hA, hS] at h1
  have hdd : (userOpts (lastStyle pretty calls) (lastShift pretty calls) (lastDepth calls)).depth = lastDepth calls := by
    simp [userOpts, SerOpts.setDepth]; omega
  have hmade : SerOpts.made pretty calls = { userOpts (lastStyle pretty calls) (lastShift pretty calls) (lastDepth calls) with pre := ind } := by
    rw [h1]
    simp [userOpts, SerOpts.setDepth, SerOpts.setShiftSize, SerOpts.new, Nat.mod_eq_of_lt h3]
  generalize hu : userOpts (lastStyle pretty calls) (lastShift pretty calls) (lastDepth calls) = u at hmade hdd
  have hstd : u.Std Ws := hu ▸ std_ws (lastStyle pretty calls) (lastShift pretty calls) (lastDepth calls) h3
  obtain ⟨⟨t, ht1, ht2⟩, ha, hf⟩ := written Ws rfc wide_rfc v { opt := u } [] .ascii hstd (.inr rfl) (by simp only [hdd]; omega) hwf hnm
  obtain ⟨k, ks, hk, hkn, hks⟩ : ∃ k ks, v.docToks = k :: ks ∧ k.name = [] ∧ k.valueType.isStart = true := by
    cases v with
    | arr vs => exact ⟨_, _, rfl, rfl, rfl⟩
    | obj ms => exact ⟨_, _, rfl, rfl, rfl⟩
    | _ => simp [JVal.isContainer] at hv
  have hke : k.valueType.isEnd = false := by
    revert hks; cases k.valueType <;> simp [Ty.isStart, Ty.isEnd]
  have hf' : (SerSt.mk u true true).Fits (k :: ks) := hk ▸ hf
  have hnext : (SerSt.mk { u with pre := ind } true true).next k.valueType = (SerSt.mk u true true).next k.valueType := by
    simp [SerSt.next, SerSt.pre, SerSt.post, hks, hke, SerOpts.setDepth]
  obtain ⟨r1, r2⟩ := writeAll_wrote (Ser.fresh (SerOpts.made pretty calls) size supply) v.docToks (fresh_good _ _ _ hsup) (by
    rw [fresh_st, hmade, hk]
    refine ⟨fun h => absurd h (by simp [hke]), ?_⟩
    rw [hnext]; exact hf'.2)
  refine ⟨r1, ?_⟩
  have hout : r.2.out = _ := r2.out
  rw [fresh_st, show (Ser.fresh (SerOpts.made pretty calls) size supply).out = [] from rfl, hmade, List.nil_append] at hout
  have e1 : (SerSt.mk u true true).texts v.docToks = u.pre ++ ((SerSt.mk u true true).body k ++ ((SerSt.mk u true true).next k.valueType).texts ks) := by
    rw [hk]
    simp [SerSt.texts, SerSt.text, SerSt.front, SerSt.short, SerSt.pre, hke]
  have e2 : (SerSt.mk { u with pre := ind } true true).texts v.docToks =
      ind ++ ((SerSt.mk u true true).body k ++ ((SerSt.mk u true true).next k.valueType).texts ks) := by
    rw [hk, SerSt.texts, hnext]
    simp [SerSt.text, SerSt.front, SerSt.short, SerSt.pre, SerSt.body, hke]
  have e3 : (SerSt.mk u true true).texts v.docToks = u.pre ++ t := by
    have : (SerSt.mk u true true).texts v.docToks = _ := ht1
    rw [this]
    simp [SerSt.front, SerSt.short, nameText]
  rw [e1] at e3
  have e4 := List.append_cancel_left e3
  rw [e4] at e2
  refine ⟨ind, t, [], h2, ht2, ws_nil, ?_⟩
  rw [hout, List.append_nil]
  exact e2

/-- The hypotheses are met by calls in an order that leaves an outdated indentation. -/
example :
    let calls : List SetOpt := [.depth 2, .shiftSize 7]
    (∀ d, SetOpt.depth d ∈ calls → d < 256) ∧ SetOpt.skipDelimiter true ∉ calls ∧ SetOpt.convertAscii false ∉ calls ∧ lastDepth calls + sampleValue.depth ≤ 255 ∧
    ((Ser.fresh (SerOpts.made true calls) 100 (fun _ => some 100)).writeAll (JVal.arr []).docToks).2.out = b!"    [\n              ]" := by
  refine ⟨by simp, by decide, by decide, by decide +kernel, by decide +kernel⟩

/-- **C86** does not hold: `setShiftSize` does not change the indentation that `setDepth` computed, so that the order of the two matters. -/
theorem C86_false_order :
    ((Ser.fresh (SerOpts.made true [.depth 1, .shiftSize 4]) 100 (fun _ => some 100)).writeAll (JVal.arr []).docToks).2.out = b!"  [\n    ]" ∧
    ((Ser.fresh (SerOpts.made true [.shiftSize 4, .depth 1]) 100 (fun _ => some 100)).writeAll (JVal.arr []).docToks).2.out = b!"    [\n    ]" := by
  decide +kernel

/-- What is written for `[1,2]`. -/
def oneTwo (o : SerOpts) : Bytes := ((Ser.fresh o 100 (fun _ => some 100)).writeAll (JVal.arr [.num b!"1", .num b!"2"]).docToks).2.out

/-- **C86** does not hold: a style that is set is not the one given to the constructor, since the shift size is not adapted.
`SerializerOptions o; o.setStyle(SerializerOptions::Compact);` still gives new lines and indentation, and a compact one made pretty
no indentation. -/
theorem C86_false_style :
    oneTwo (SerOpts.made true [.style false]) = b!"[\n  1,\n  2]" ∧ oneTwo (SerOpts.made false []) = b!"[1,2]" ∧
    oneTwo (SerOpts.made false [.style true]) = b!"[\n1,\n2\n]" ∧ oneTwo (SerOpts.made true []) = b!"[\n  1,\n  2\n]" := by
  decide +kernel

end JsonStruct
