import Verif.Lemmas.CutPlace

/- The places in a document of RFC 8259. -/

namespace JsonStruct

set_option linter.unusedSimpArgs false

/-- Behind an element (`v = false`) or the value of a member (`v = true`). -/
def Ended (v : Bool) (q : Place) : Prop :=
  q = .done ∨ q = .number v ∨ q = .word v ∨ (v = false ∧ ∃ x a, q = .behind x a)

theorem ws_stops (c : Byte) (h : isWs c = true) : numberByte c = false ∧ letter c = false :=
  forall_byte (p := fun c => isWs c = true → numberByte c = false ∧ letter c = false) (by decide +kernel) c h

theorem ended_ws {o : Opts} (hn : o.newLines = false) {v : Bool} {q : Place} {st : List Ty} (h : Ended v q) {w : Bytes} (hw : Ws w) :
    ∃ q', Ended v q' ∧ Spot.after o (q, st) w = (q', st) := by
  induction w generalizing q with
  | nil => exact ⟨q, h, rfl⟩
  | cons c w ih =>
    have hc : isWs c = true := hw c (by simp)
    obtain ⟨hs1, hs2⟩ := ws_stops c hc
    have he : endsLine o c = false := by simp [endsLine, hn]
    have hs : c ≠ 47 := by have := ws_no_slash hc; simpa [SLASH] using this
    have hn : ∃ q', Ended v q' ∧ Spot.next o (q, st) c = (q', st) := by
      rcases h with rfl | rfl | rfl | ⟨rfl, x, a, rfl⟩
      · exact ⟨.done, .inl rfl, by simp [Spot.next, Spot.step, he, Spot.finish, hc]⟩
      · cases v
        · exact ⟨.behind false true, .inr (.inr (.inr ⟨rfl, _, _, rfl⟩)), by simp [Spot.next, Spot.step, he, Spot.separate, hc, hs1]⟩
        · exact ⟨.done, .inl rfl, by simp [Spot.next, Spot.step, he, Spot.finish, hc, hs1]⟩
      · cases v
        · exact ⟨.behind false true, .inr (.inr (.inr ⟨rfl, _, _, rfl⟩)), by simp [Spot.next, Spot.step, he, Spot.separate, hc, hs2, hs]⟩
        · exact ⟨.done, .inl rfl, by simp [Spot.next, Spot.step, he, Spot.finish, hc, hs2, hs]⟩
      · exact ⟨.behind x true, .inr (.inr (.inr ⟨rfl, _, _, rfl⟩)), by simp [Spot.next, Spot.step, he, Spot.separate, hc]⟩
    obtain ⟨q', h1, h2⟩ := hn
    rw [after_cons, h2]
    exact ih h1 (fun c hc => hw c (by simp [hc]))

/-- The container of elements and of members, and its closing bracket. -/
def box (v : Bool) : Ty := if v then .objectStart else .arrayStart
def boxEnd (v : Bool) : Byte := if v then 0x7D else 0x5D

theorem ended_next {o : Opts} {v : Bool} {q : Place} {st : List Ty} (h : Ended v q) :
    Spot.next o (q, box v :: st) 0x2C = (.item, box v :: st) ∧ Spot.next o (q, box v :: st) (boxEnd v) = Spot.closed st := by
  rcases h with rfl | rfl | rfl | ⟨rfl, x, a, rfl⟩
  all_goals
    first | cases v | skip
    all_goals
      refine ⟨?_, ?_⟩ <;>
        simp [Spot.next, Spot.step, Spot.finish, Spot.separate, Spot.close, box, boxEnd, endsLine, opensComment, isWs, numberByte, isDigit, letter]

theorem item_ws {o : Opts} {w : Bytes} (hw : Ws w) (st : List Ty) : Spot.after o (.item, st) w = (.item, st) := by
  induction w with
  | nil => rfl
  | cons c w ih =>
    have hc : isWs c = true := hw c (by simp)
    rw [after_cons, show Spot.next o (.item, st) c = (.item, st) by simp [Spot.next, Spot.step, hc]]
    exact ih (fun c hc => hw c (by simp [hc]))

theorem colon_ws {o : Opts} {w : Bytes} (hw : Ws w) (a : Bool) (st : List Ty) : ∃ a', Spot.after o (.colon a, st) w = (.colon a', st) := by
  induction w generalizing a with
  | nil => exact ⟨a, rfl⟩
  | cons c w ih =>
    have hc : isWs c = true := hw c (by simp)
    rw [after_cons, show Spot.next o (.colon a, st) c = (.colon true, st) by simp [Spot.next, Spot.step, hc]]
    exact ih (fun c hc => hw c (by simp [hc])) true

theorem behind_ws {o : Opts} (hn : o.newLines = false) {w : Bytes} (hw : Ws w) (x a : Bool) (st : List Ty) : ∃ a', Spot.after o (.behind x a, st) w = (.behind x a', st) := by
  induction w generalizing a with
  | nil => exact ⟨a, rfl⟩
  | cons c w ih =>
    have hc : isWs c = true := hw c (by simp)
    have he : endsLine o c = false := by simp [endsLine, hn]
    rw [after_cons, show Spot.next o (.behind x a, st) c = (.behind x true, st) by simp [Spot.next, Spot.step, he, Spot.separate, hc]]
    exact ih (fun c hc => hw c (by simp [hc])) true

/-- A value may begin here. -/
def opening (v a : Bool) : Place := if v then .colon a else .item

theorem opening_next {o : Opts} {v a : Bool} {st : List Ty} {c : Byte} (h1 : isWs c = false) (h2 : c ≠ RBRACE) (h3 : c ≠ RBRACK) (h4 : c ≠ SLASH) :
    Spot.next o (opening v a, st) c = Spot.start v st c := by
  have ho : opensComment o c = false := by rw [← Bool.not_eq_true, opens_iff]; exact fun h => h4 h.2
  cases v
  · simp only [opening, Spot.next, Spot.step, ho, h1, Bool.false_eq_true, if_false]
    rw [if_neg (by rintro (h | h); exacts [h2 h, h3 h])]
  · simp only [opening, Spot.next, Spot.step, ho, h1, Bool.false_eq_true, if_false, if_true]

theorem string_body {o : Opts} {s : Bytes} (h : StrBody s) (v : Bool) (st : List Ty) (r : Bytes) :
    Spot.after o (.string v false, st) (s ++ QUOTE :: r) = Spot.after o (fin v true, st) r := by
  have := place_string o v false st (s ++ QUOTE :: r)
  have he := strEnd_body (r := r) h
  rcases hx : strEnd false (s ++ QUOTE :: r) with ⟨y, e⟩
  rw [hx] at this he
  simp only at he
  subst he
  simp only at this
  rw [this]
  congr 1
  rw [List.drop_append]
  simp

theorem number_body {o : Opts} {c : Byte} {cs : Bytes} (hcs : ∀ x ∈ cs, numberStop x = false) (v : Bool) (st : List Ty) :
    Spot.after o (.number v, st) cs = (.number v, st) := by
  induction cs with
  | nil => rfl
  | cons x cs ih =>
    have hb : numberByte x = true := by rw [numberByte_stop, hcs x (by simp)]; rfl
    rw [after_cons, show Spot.next o (.number v, st) x = (.number v, st) by simp [Spot.next, Spot.step, hb]]
    exact ih (fun c hc => hcs c (by simp [hc]))

/-- What holds of every text of a value. -/
def ValuePlace (o : Opts) (v : JVal) (t : Bytes) : Prop :=
  (∀ m a st, ∃ q, Ended m q ∧ Spot.after o (opening m a, box m :: st) t = (q, box m :: st)) ∧
  (v.isContainer = true → Spot.after o (.item, []) t = (.item, []))

theorem open_box {o : Opts} (m : Bool) {v a : Bool} {st : List Ty} :
    Spot.next o (opening v a, st) (if m then 0x7B else 0x5B) = (.item, box m :: st) := by
  cases m <;> rw [opening_next (by decide) (by decide) (by decide) (by decide)] <;> rfl

theorem container_place {o : Opts} (m : Bool) (v : JVal) {t : Bytes} (h : ∀ st, Spot.after o (.item, box m :: st) (t ++ [boxEnd m]) = Spot.closed st) :
    ValuePlace o v ((if m then 0x7B else 0x5B) :: (t ++ [boxEnd m])) := by
  refine ⟨fun m' a st => ⟨.done, .inl rfl, ?_⟩, fun _ => ?_⟩
  · rw [after_cons, open_box, h]; simp [Spot.closed]
  · rw [after_cons, show ((.item, []) : Spot) = (opening false false, []) from rfl, open_box, h]; rfl

theorem text_place {o : Opts} (hnl : o.newLines = false) {v : JVal} {t : Bytes} (ht : Text rfc v t) : ValuePlace o v t := by
  have word (w : Bytes) (v : JVal) (hv : v.isContainer = false) (h : w = b!"null" ∨ w = b!"true" ∨ w = b!"false") : ValuePlace o v w := by
    refine ⟨fun m a st => ⟨.word m, .inr (.inr (.inl rfl)), ?_⟩, fun h => by rw [hv] at h; simp at h⟩
    rcases h with rfl | rfl | rfl <;> cases m <;> rfl
  have member (n : Bytes) (v : JVal) (t w1 w2 w3 w4 : Bytes) (hw1 : Ws w1) (hn : JsonString n) (hw2 : Ws w2) (hw3 : Ws w3)
      (hw4 : Ws w4) (ih : ValuePlace o v t) (st : List Ty) :
      ∃ q, Ended true q ∧ ∀ r, Spot.after o (.item, box true :: st) (w1 ++ b!"\"" ++ n ++ b!"\"" ++ w2 ++ b!":" ++ w3 ++ t ++ w4 ++ r) =
        Spot.after o (q, box true :: st) r := by
    obtain ⟨a2, h2⟩ := behind_ws hnl hw2 true false (box true :: st)
    obtain ⟨a3, h3⟩ := colon_ws (o := o) hw3 false (box true :: st)
    obtain ⟨q, hq, h4⟩ := ih.1 true a3 st
    obtain ⟨q', hq', h5⟩ := ended_ws hnl (st := box true :: st) hq hw4
    refine ⟨q', hq', fun r => ?_⟩
    have hstr : Spot.after o (.item, box true :: st) (b!"\"" ++ (n ++ (b!"\"" ++ (w2 ++ (b!":" ++ (w3 ++ (t ++ (w4 ++ r)))))))) =
        Spot.after o (q', box true :: st) r := by
      have hs := string_body (o := o) (strBody_of_json hn) false (box true :: st) (w2 ++ (b!":" ++ (w3 ++ (t ++ (w4 ++ r)))))
      change Spot.after o (.string false false, box true :: st) _ = _
      refine (show _ = _ from hs).trans ?_
      simp only [fin, Bool.false_eq_true, if_false]
      rw [spot_append, h2, spot_append]
      change Spot.after o (.colon false, box true :: st) _ = _
      rw [spot_append, h3, spot_append]
      rw [show (Place.colon a3) = opening true a3 from rfl, h4, spot_append, h5]
    simp only [List.append_assoc] at hstr ⊢
    rw [spot_append, item_ws hw1]
    exact hstr
  refine Text.rec (d := rfc) (motive_1 := fun v t _ => ValuePlace o v t)
    (motive_2 := fun vs t _ => ∀ st, Spot.after o (.item, box false :: st) (t ++ [boxEnd false]) = Spot.closed st)
    (motive_3 := fun ms t _ => ∀ st, Spot.after o (.item, box true :: st) (t ++ [boxEnd true]) = Spot.closed st)
    (word _ _ rfl (.inl rfl)) (word _ _ rfl (.inr (.inl rfl))) (word _ _ rfl (.inr (.inr rfl))) ?_ ?_ ?_ ?_ ?_ ?_ ?_ ?_ ?_ ?_ ?_ ?_ ht
  · intro n hn
    refine ⟨fun m a st => ⟨.number m, .inr (.inl rfl), ?_⟩, fun h => by simp [JVal.isContainer] at h⟩
    obtain ⟨c, cs, rfl, h1, h2, h3⟩ := numTxt_of_json hn
    have hc : isWs c = false ∧ c ≠ RBRACE ∧ c ≠ RBRACK ∧ c ≠ QUOTE ∧ numberStart c = true ∧ c ≠ SLASH :=
      forall_byte (p := fun c => has c (flPlusMinus ||| flDigits) = true → c ≠ PLUS →
        isWs c = false ∧ c ≠ RBRACE ∧ c ≠ RBRACK ∧ c ≠ QUOTE ∧ numberStart c = true ∧ c ≠ SLASH) (by decide +kernel) c h1 h2
    rw [after_cons, opening_next hc.1 hc.2.1 hc.2.2.1 hc.2.2.2.2.2]
    have : Spot.start m (box m :: st) c = (.number m, box m :: st) := by
      unfold Spot.start
      rw [if_neg hc.2.2.2.1, hc.2.2.2.2.1]
      rfl
    rw [this]
    exact number_body (c := c) h3 m _
  · intro s hs
    refine ⟨fun m a st => ⟨fin m true, ?_, ?_⟩, fun h => by simp [JVal.isContainer] at h⟩
    · cases m
      · exact .inr (.inr (.inr ⟨rfl, _, _, rfl⟩))
      · exact .inl rfl
    · rw [after_cons, opening_next (by decide) (by decide) (by decide) (by decide)]
      exact string_body (strBody_of_json hs) m _ []
  · intro w hw
    have := container_place (o := o) false (.arr []) (t := w) (fun st => by rw [spot_append, item_ws hw]; rfl)
    exact this
  · intro vs t _ ih
    exact container_place false (.arr vs) ih
  · intro w hw
    have := container_place (o := o) true (.obj []) (t := w) (fun st => by rw [spot_append, item_ws hw]; rfl)
    exact this
  · intro ms t _ ih
    exact container_place true (.obj ms) ih
  · intro v t w w' hw _ hw' ih st
    obtain ⟨q, hq, h1⟩ := ih.1 false false st
    obtain ⟨q', hq', h2⟩ := ended_ws hnl (st := box false :: st) hq hw'
    rw [spot_append, spot_append, spot_append, item_ws hw]
    rw [show Spot.after o (.item, box false :: st) t = (q, box false :: st) from h1, h2]
    exact (ended_next hq').2
  · intro v t w w' vs ts hw _ hw' _ ih ihs st
    obtain ⟨q, hq, h1⟩ := ih.1 false false st
    obtain ⟨q', hq', h2⟩ := ended_ws hnl (st := box false :: st) hq hw'
    have := ihs st
    rw [spot_append] at this
    rw [spot_append, spot_append, spot_append, spot_append, spot_append, item_ws hw]
    rw [show Spot.after o (.item, box false :: st) t = (q, box false :: st) from h1, h2]
    rw [show Spot.after o (q', box false :: st) b!"," = _ from (ended_next hq').1]
    exact this
  · intro v t w w' w'' h0
    exact h0.elim
  · intro n v t w1 w2 w3 w4 hw1 hn hw2 hw3 _ hw4 ih st
    obtain ⟨q, hq, h⟩ := member n v t w1 w2 w3 w4 hw1 hn hw2 hw3 hw4 ih st
    rw [h]
    exact (ended_next hq).2
  · intro n v t w1 w2 w3 w4 ms ts hw1 hn hw2 hw3 _ hw4 _ ih ihs st
    obtain ⟨q, hq, h⟩ := member n v t w1 w2 w3 w4 hw1 hn hw2 hw3 hw4 ih st
    rw [List.append_assoc, List.append_assoc, h, spot_append]
    rw [show Spot.after o (q, box true :: st) b!"," = _ from (ended_next hq).1]
    exact ihs st
  · intro n v t w1 w2 w3 w4 w5 h0
    exact h0.elim

theorem doc_place {o : Opts} (hn : o.newLines = false) {v : JVal} {t : Bytes} (hv : v.isContainer = true) (h : Doc rfc v t) : spotBehind o t = (.item, []) := by
  obtain ⟨w, b, w', h1, h2, h3, rfl⟩ := h
  unfold spotBehind
  rw [spot_append, spot_append, item_ws h1, (text_place hn h2).2 hv, item_ws h3]

end JsonStruct
