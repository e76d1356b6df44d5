import Verif.Lemmas.Alike

/- Tokenizers that deliver the same tokens and the same error are alike. -/

namespace JsonStruct

/-- The relation up to the first failed call. -/
def simUpTo (vals : Prop) : Likeness where
  R := AnswersAlike
  E := fun _ k _ k' => k.valueType = k'.valueType
  full := False
  vals := vals
  tok := fun h => by cases h <;> assumption
  err := fun h => by
    cases h with
    | fails _ _ h h' _ => rw [h, h']
    | token _ h h' _ => rw [h, h']
  next := fun h he => by
    cases h with
    | fails _ hne h h' _ => rw [h] at he; exact absurd he hne
    | token _ h h' hs => rw [h, h']; exact hs
  fail := fun h => by
    cases h with
    | fails _ _ h h' hl => rw [h, h']; exact hl
    | token _ h h' hs => rw [h, h']; cases hs with
      | fails hk => exact congrArg Tok.valueType hk
      | token hk => exact congrArg Tok.valueType hk
  ty := id
  weak := fun h => by cases h with
    | fails hk => exact congrArg Tok.valueType hk
    | token hk => exact congrArg Tok.valueType hk
  all := False.elim

/-- The relation for all calls. -/
def simForever : Likeness where
  R := AlikeForever
  E := AlikeForever
  full := True
  vals := True
  tok := fun h => (h 0).1
  err := fun h => (h 0).2
  next := fun h _ n => h (n + 1)
  fail := fun h n => h (n + 1)
  ty := fun h => congrArg Tok.valueType (h 0).1
  weak := id
  all := fun _ _ _ _ _ h => h

/-- The part of a tokenizer's state that decides what happens when the data run out. -/
structure Tz.Plain (t : Tz) : Prop where
  ok : t.Ok
  parsed : t.parsed = none
  scopes : t.scopes = []
  groups : ∀ g ∈ t.pending, g ≠ []

theorem pump_rest (n : Nat) (t : Tz) (hn : t.supply ≤ n) (h : t.Ok) (hp : t.propState ≠ .foundEnd) (hg : ∀ g ∈ t.pending, g ≠ [])
    (hb0 : t.bufs = [] → t.pending = []) :
    (∀ g ∈ (Tz.pump n t).2.1.pending, g ≠ []) ∧
      ((Tz.pump n t).1 = .needMoreData → (Tz.pump n t).2.1.bufs = [] ∧ (Tz.pump n t).2.1.pending = []) := by
  induction n generalizing t with
  | zero =>
    have hb : t.bufs = [] := by
      cases hb : t.bufs with
      | nil => rfl
      | cons b r => simp [Tz.supply, hb] at hn
    exact ⟨hg, fun _ => ⟨hb, hb0 hb⟩⟩
  | succ n ih =>
    simp only [Tz.pump]
    cases hb : t.bufs with
    | nil => exact ⟨hg, fun _ => ⟨hb, hb0 hb⟩⟩
    | cons b rest =>
      simp only
      have hl := populateNext_ok t b ⟨h.cur b rest hb, h.fe, hp, h.ds⟩
      generalize t.populateNext b = r at *
      obtain ⟨e, t', tok⟩ := r
      simp only at hl ⊢
      obtain ⟨a1, a2, a3, a4, a5, a6, a7, a8, a9⟩ := hl
      obtain ⟨f1, f2, f3, f4, f5, f6, f7, f8, f9⟩ := a1
      split
      · rename_i he
        have h8 := a8 he
        have key : t'.releaseFirst.requestMoreData.supply + 1 ≤ t.supply ∧
            t'.releaseFirst.requestMoreData.Ok ∧ t'.releaseFirst.requestMoreData.propState ≠ .foundEnd ∧
            (∀ g ∈ t'.releaseFirst.requestMoreData.pending, g ≠ []) ∧
            (t'.releaseFirst.requestMoreData.bufs = [] → t'.releaseFirst.requestMoreData.pending = []) := by
          simp only [Tz.releaseFirst, f2, hb, Tz.requestMoreData]
          split
          · rename_i hpn
            simp only [f3] at hpn
            refine ⟨by simp [Tz.supply, hb, f3, hpn], ⟨by simp, by simp, by simp, fun _ => h8, a9⟩, h8, ?_, ?_⟩
            · intro g hgm
              rw [show ({ t' with copies := List.map (fun x => (x.1, 0, x.2.2 ++ List.drop x.2.1 b)) t'.copies, cursor := 0, dataStart := 0, bufs := rest, released := t'.released ++ [b] } : Tz).pending = t'.pending from rfl, f3, hpn] at hgm
              simp at hgm
            · intro _
              exact f3.trans hpn
          · rename_i bs ps hpn
            simp only [f3] at hpn
            refine ⟨by simp [Tz.supply, hb, hpn]; omega, ⟨by simp, by simp, by simp, fun _ => h8, a9⟩, h8, ?_, ?_⟩
            · intro g hgm
              exact hg g (by rw [hpn]; exact List.mem_cons_of_mem _ hgm)
            · intro hbe
              have hbs : bs ≠ [] := hg bs (by rw [hpn]; exact List.mem_cons_self)
              have hbe : rest ++ bs = [] := hbe
              exact absurd (List.append_eq_nil_iff.1 hbe).2 hbs
        obtain ⟨k1, k2, k3, k4, k5⟩ := key
        exact ih _ (by omega) k2 k3 k4 k5
      · rename_i he
        refine ⟨fun g hgm => hg g (by rw [← f3]; exact hgm), fun hh => absurd hh he⟩

/-- One call: what is left of the token variable if it fails, and of the data if there are no more. -/
theorem nextToken_rest (t : Tz) (k : Token) (h : t.Plain) :
    (t.nextToken k).2.1.Plain ∧
    ((t.nextToken k).1 = .needMoreData → (t.nextToken k).2.1.bufs = [] ∧ (t.nextToken k).2.1.pending = [] ∧ (t.nextToken k).2.2 = k) ∧
    ((t.nextToken k).1 ≠ .noError → (t.nextToken k).2.2.valueType =
      if (t.nextToken k).1 = .unexpectedArrayEnd then .arrayEnd else if (t.nextToken k).1 = .unexpectedObjectEnd then .objectEnd else k.valueType) := by
  have hk := nextToken_ok t k h.ok h.parsed
  have main : (t.nextToken k).2.1.scopes = [] ∧ (∀ g ∈ (t.nextToken k).2.1.pending, g ≠ []) ∧
      ((t.nextToken k).1 = .needMoreData → (t.nextToken k).2.1.bufs = [] ∧ (t.nextToken k).2.1.pending = []) ∧
      ((t.nextToken k).1 ≠ .noError → (t.nextToken k).1 ≠ .unexpectedArrayEnd → (t.nextToken k).1 ≠ .unexpectedObjectEnd → (t.nextToken k).2.2 = k) := by
    unfold Tz.nextToken
    rw [h.scopes, h.parsed]
    simp only
    generalize ht1 : (if t.bufs = [] then t.requestMoreData else t) = t1
    have f1 : t1.Ok ∧ t1.scopes = [] ∧ (∀ g ∈ t1.pending, g ≠ []) ∧ (t1.bufs = [] → t1.pending = []) := by
      rw [← ht1]; split
      · rename_i hb
        refine ⟨ok_request t h.ok hb, ?_⟩
        unfold Tz.requestMoreData; split
        · rename_i hpn; exact ⟨h.scopes, h.groups, fun _ => hpn⟩
        · rename_i g gs hpn
          refine ⟨h.scopes, fun x hx => h.groups x (by rw [hpn]; exact List.mem_cons_of_mem _ hx), fun hbe => ?_⟩
          have hbe : t.bufs ++ g = [] := hbe
          exact absurd (List.append_eq_nil_iff.1 hbe).2 (h.groups g (by rw [hpn]; exact List.mem_cons_self))
      · rename_i hb
        exact ⟨h.ok, h.scopes, h.groups, fun hh => absurd hh hb⟩
    obtain ⟨o1, s1, g1, b1⟩ := f1
    split
    · rename_i hb
      exact ⟨s1, g1, fun _ => ⟨hb, b1 hb⟩, fun _ _ _ => rfl⟩
    · rename_i hb
      generalize ht2 : (if t1.continueAfter = true then t1 else t1.resetForNewToken) = t2
      have f2 : t2.Ok ∧ t2.scopes = [] ∧ (∀ g ∈ t2.pending, g ≠ []) ∧ (t2.bufs = [] → t2.pending = []) ∧ t2.propState ≠ .foundEnd := by
        rw [← ht2]; split
        · rename_i hc
          exact ⟨o1, s1, g1, b1, o1.pe hc⟩
        · exact ⟨ok_reset t1 o1, s1, g1, b1, by simp [Tz.resetForNewToken, Tz.resetForNewValue]⟩
      obtain ⟨o2, s2, g2, b2, ne2⟩ := f2
      have hpk := pump_ok t2.supply t2 o2 ne2
      have hpr := pump_rest t2.supply t2 (Nat.le_refl _) o2 ne2 g2 b2
      generalize Tz.pump t2.supply t2 = r at *
      obtain ⟨e, t3, tok⟩ := r
      simp only at hpk hpr ⊢
      cases tok with
      | none => exact ⟨hpk.scopes.trans s2, hpr.1, hpr.2, fun _ _ _ => rfl⟩
      | some tok =>
        simp only
        have hfin := finish_ok { t3 with continueAfter := e == .needMoreData } tok
        have hsc : (Tz.finish { t3 with continueAfter := e == .needMoreData } tok).2.scopes = [] := by
          have h3 : t3.scopes = [] := hpk.scopes.trans s2
          unfold Tz.finish
          simp only
          (repeat' split) <;> simp [h3, handleScope]
        generalize Tz.finish { t3 with continueAfter := e == .needMoreData } tok = f at *
        obtain ⟨ef, tf⟩ := f
        simp only at hfin hsc ⊢
        refine ⟨hsc, ?_, fun he => ?_, fun he ha ho => ?_⟩
        · rw [hfin.same]; exact hpr.1
        · have := (hfin.bad (by simp [he])).2.2
          simp [he] at this
        · have := (hfin.bad he).2.2
          simp [ha, ho] at this
  obtain ⟨m1, m2, m3, m4⟩ := main
  refine ⟨⟨hk.inv, hk.parsed, m1, m2⟩, fun he => ⟨(m3 he).1, (m3 he).2, m4 (by simp [he]) (by simp [he]) (by simp [he])⟩, fun he => ?_⟩
  split
  · exact (hk.mismatch.1 (by assumption)).1
  · split
    · exact (hk.mismatch.2 (by assumption)).1
    · rw [m4 he (by assumption) (by assumption)]

theorem alike_of_collect : ∀ (n n' : Nat) (t t' : Tz) (k k' : Token), t.Plain → t'.Plain → k.tok = k'.tok →
    (Tz.collect n t k).1.map Token.tok = (Tz.collect n' t' k').1.map Token.tok → (Tz.collect n t k).2.1 = (Tz.collect n' t' k').2.1 →
    (Tz.collect n t k).2.1 ≠ .noError → AnswersAlike t k t' k' := by
  intro n
  induction n with
  | zero => intro n' t t' k k' _ _ _ _ _ h; exact absurd rfl h
  | succ n ih =>
    intro n' t t' k k' ht ht' hk hts he hne
    cases n' with
    | zero => exact absurd (he.trans rfl) hne
    | succ n' =>
      have r := nextToken_rest t k ht
      have r' := nextToken_rest t' k' ht'
      rw [Tz.collect, Tz.collect] at hts he
      rw [Tz.collect] at hne
      generalize hr : t.nextToken k = x at *
      generalize hr' : t'.nextToken k' = x' at *
      obtain ⟨e, u, l⟩ := x
      obtain ⟨e', u', l'⟩ := x'
      simp only at *
      by_cases h1 : e = .noError
      · rw [if_pos h1] at hts he hne
        by_cases h2 : e' = .noError
        · rw [if_pos h2] at hts he
          subst h1 h2
          simp only [List.map_cons, List.cons.injEq] at hts
          exact .token hk hr hr' (ih n' u u' l l' r.1 r'.1 hts.1 hts.2 he hne)
        · rw [if_neg h2] at hts
          simp at hts
      · rw [if_neg h1] at hts he hne
        by_cases h2 : e' = .noError
        · rw [if_pos h2] at hts
          simp at hts
        · rw [if_neg h2] at he
          simp only at he
          subst he
          refine .fails hk h1 hr hr' ?_
          rw [r.2.2 h1, r'.2.2 h1, show k.valueType = k'.valueType from congrArg Tok.valueType hk]

/-- A tokenizer without data. -/
theorem calls_idle (t : Tz) (k : Token) (ht : t.Plain) (hb : t.bufs = []) (hp : t.pending = []) (n : Nat) :
    t.calls n k = (t, k) ∧ (t.nextToken k).1 = .needMoreData := by
  have h1 : t.nextToken k = (.needMoreData, t, k) := by
    unfold Tz.nextToken
    rw [ht.scopes, ht.parsed]
    simp [hb, Tz.requestMoreData, hp]
  refine ⟨?_, by rw [h1]⟩
  induction n with
  | zero => rfl
  | succ n ih => rw [Tz.calls, h1]; exact ih

theorem forever_of_alike {t t' : Tz} {k k' : Token} (ht : t.Plain) (ht' : t'.Plain) (h : AnswersAlike t k t' k') (n : Nat)
    (hc : (Tz.collect n t k).2.1 = .needMoreData) : AlikeForever t k t' k' := by
  induction h generalizing n with
  | @fails t t' u u' k k' l l' e hk he h h' hl =>
    have r := nextToken_rest t k ht
    have r' := nextToken_rest t' k' ht'
    cases n with
    | zero => simp [Tz.collect] at hc
    | succ n =>
      rw [Tz.collect] at hc
      rw [h] at r hc
      rw [h'] at r'
      simp only [he, if_false] at hc r r'
      subst hc
      obtain ⟨b1, b2, b3⟩ := r.2.1 rfl
      obtain ⟨b1', b2', b3'⟩ := r'.2.1 rfl
      subst b3 b3'
      intro m
      cases m with
      | zero => exact ⟨hk, by simp only [Tz.calls, h, h']⟩
      | succ m =>
        rw [Tz.calls, Tz.calls, h, h']
        have c := calls_idle u l r.1 b1 b2 m
        have c' := calls_idle u' l' r'.1 b1' b2' m
        rw [c.1, c'.1]
        exact ⟨hk, by rw [c.2, c'.2]⟩
  | @token t t' u u' k k' l l' hk h h' hs ih =>
    have r := nextToken_rest t k ht
    have r' := nextToken_rest t' k' ht'
    cases n with
    | zero => simp [Tz.collect] at hc
    | succ n =>
      rw [Tz.collect] at hc
      rw [h] at r hc
      rw [h'] at r'
      simp only [if_true] at hc r r'
      have := ih r.1 r'.1 n hc
      intro m
      cases m with
      | zero => exact ⟨hk, by simp only [Tz.calls, h, h']⟩
      | succ m => rw [Tz.calls, Tz.calls, h, h']; exact this m

end JsonStruct
