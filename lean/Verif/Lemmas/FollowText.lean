import Verif.Lemmas.Beginning
import Verif.Lemmas.AlikeText
import Verif.Lemmas.Follow
import Verif.Lemmas.LenientDoc
import Verif.Lemmas.Types
import Verif.Props.Document

/- A text and a longer one. -/

namespace JsonStruct

theorem tokenize_more {o : Opts} {p : Bytes} (q : Bytes) : (tokenize o p).1 <+: (tokenize o (p ++ q)).1 := by
  obtain ⟨c, e, h1, h2⟩ := Lax.tokenize_runs o p (tokenize_stops o p)
  obtain ⟨c', e', g1, g2⟩ := Lax.tokenize_runs o (p ++ q) (tokenize_stops o (p ++ q))
  obtain ⟨ms, h3, _⟩ := Lax.run_prefix_of_all (run_more h1 q) g1 g2
  exact ⟨ms, h3.symm⟩

theorem tokenize_final {o : Opts} {p : Bytes} (q : Bytes) (he : (tokenize o p).2 ≠ .needMoreData) (hs : halfSlash o p = false) :
    tokenize o (p ++ q) = tokenize o p := by
  obtain ⟨c, e, h1, h2⟩ := Lax.tokenize_runs o p (tokenize_stops o p)
  have h3 := tokenize_run o h1 h2 (tokenize_stops o p)
  rw [h3] at he ⊢
  have h4 := lNext_append o c q
  rw [h2] at h4
  exact tokenize_run o (run_more h1 q) (h4 he (halfSlash_suffix (run_suffix h1) hs)) (tokenize_stops o (p ++ q))

/-- The tokenizer on `p` and the one on `p ++ q` at the same place. -/
structure SamePlace (o : Opts) (p q : Bytes) (t : Tz) (k : Token) (t' : Tz) (k' : Token) : Prop where
  plain : t.Plain
  opts : t.opts = o
  opts' : t'.opts = o
  scopes' : t'.scopes = []
  tok : k.tok = k'.tok
  good : ∃ buf buf', Good t buf ∧ Good t' buf' ∧ t'.light buf' = (t.light buf).more q ∧ ∃ ks, Run o ⟨false, false, [], p⟩ ks (t.light buf)

def followText (o : Opts) (p q : Bytes) : Follow where
  R := SamePlace o p q
  Dead := fun t => t.Plain ∧ t.bufs = [] ∧ t.pending = []
  sure := (tokenize o p).2 = .needMoreData
  tok := fun h => h.tok
  next := by
    intro t k t' k' h he
    obtain ⟨buf, buf', g1, g2, g3, ks, g4⟩ := h.good
    have l := nextToken_light t buf k g1 (by simp [h.plain.scopes])
    have l' := nextToken_light t' buf' k' g2 (by simp [h.scopes'])
    have m := lNext_append o (t.light buf) q
    rw [h.opts] at l
    rw [h.opts', g3] at l'
    cases hx : lNext o (t.light buf) with
    | error e =>
      rw [hx] at l
      exact absurd (l.1.symm.trans he) l.2
    | ok x =>
      obtain ⟨c1, kk⟩ := x
      rw [hx] at l m
      rw [m.1] at l'
      obtain ⟨t1, tok1, a1, a2, a3, a4, a5, a6⟩ := l
      obtain ⟨t1', tok1', b1, b2, b3, b4, b5, b6⟩ := l'
      have hp := (nextToken_rest t k h.plain).1
      rw [a1] at hp ⊢
      rw [b1]
      refine ⟨rfl, hp, a6.1.trans h.opts, b6.1.trans h.opts', ?_, a2.trans b2.symm, buf, buf', a3, b3, ?_, ks ++ [kk], ?_⟩
      · simp only [b5, h.scopes']; rfl
      · simp only [b4, a4]
      · simp only [a4]
        exact g4.append (.cons hx .nil)
  fail := by
    intro hsure t k t' k' h he
    obtain ⟨buf, buf', g1, g2, g3, ks, g4⟩ := h.good
    have l := nextToken_light t buf k g1 (by simp [h.plain.scopes])
    rw [h.opts] at l
    cases hx : lNext o (t.light buf) with
    | ok x =>
      obtain ⟨c1, kk⟩ := x
      rw [hx] at l
      obtain ⟨t1, tok1, a1, _⟩ := l
      rw [a1] at he
      exact absurd rfl he
    | error e =>
      rw [hx] at l
      have := tokenize_run o g4 hx (tokenize_stops o p)
      rw [this] at hsure
      have hr := nextToken_rest t k h.plain
      obtain ⟨r1, r2, _⟩ := hr.2.1 (l.1.trans hsure)
      exact ⟨hr.1, r1, r2⟩
  dead := by
    rintro t ⟨h1, h2, h3⟩ k
    have hc := calls_idle t k h1 h2 h3 1
    have h4 : (t.nextToken k).2.1 = t := by have := hc.1; simp only [Tz.calls] at this; exact congrArg Prod.fst this
    rw [hc.2, h4]
    exact ⟨by simp, h1, h2, h3⟩

theorem samePlace_start (o : Opts) (p q : Bytes) (k : Token) : SamePlace o p q ((Tz.new o).addData p) k ((Tz.new o).addData (p ++ q)) k where
  plain := ⟨ok_start o [p], rfl, rfl, by simp [Tz.addData, Tz.new]⟩
  opts := rfl
  opts' := rfl
  scopes' := rfl
  tok := rfl
  good := ⟨p, p ++ q, ⟨rfl, rfl, ⟨rfl, rfl, Nat.zero_le _⟩, by simp [Tz.new, Tz.addData], rfl, .inl rfl⟩,
    ⟨rfl, rfl, ⟨rfl, rfl, Nat.zero_le _⟩, by simp [Tz.new, Tz.addData], rfl, .inl rfl⟩, rfl, [], .nil⟩

theorem parse_more (t : CType T) {o : Opts} (po : POpts) {p : Bytes} (q : Bytes) (hm : (tokenize o p).2 = .needMoreData ∨ t.NoMap) {n : Nat} {old v : T} {c : Ctx}
    (h : parseTo t.handler n old (Ctx.onText o po p) = some (.noError, v, c)) :
    ∃ c', parseTo t.handler n old (Ctx.onText o po (p ++ q)) = some (.noError, v, c') ∧ c.Flags c' ∧ SamePlace o p q c.tz c.token c'.tz c'.token := by
  obtain ⟨c', h1, h2, h3⟩ := parseTo_follow (S := followText o p q) t hm n old (Ctx.onText o po p) (Ctx.onText o po (p ++ q))
    ⟨⟨rfl, rfl, rfl, rfl, rfl, rfl⟩, samePlace_start o p q _⟩ v c h
  exact ⟨c', h1, h2, h3⟩

/-- A document that is read without error is read to its end. -/
theorem parse_doc_end {h : Handler T} {d : Dec T} (hs : ∀ [EndCond], h.Sem d) {o : Opts} (p : POpts) {v : JVal} {t : Bytes}
    (htok : tokenize o t = (v.docToks, .needMoreData)) {old : T} {r : Res T} (hr : d p old (.val ([], .ascii) v) = some r) :
    ∃ N c', (∀ n, N ≤ n → parseTo h n old (Ctx.onText o p t) = some (r.err, r.val, c')) ∧
      (r.err = .noError → ∀ k, (c'.tz.nextToken k).1 = .needMoreData) := by
  let _ : EndCond := endsIn .needMoreData
  have hdel : Delivers ((Tz.new o).addData t) v.docToks := by
    simp only [tokenize, Prod.mk.injEq] at htok
    exact delivers_of_collect_end htok.1 htok.2 (by decide)
  obtain ⟨k, ks, hk⟩ : ∃ k ks, v.docToks = k :: ks := by
    cases hh : v.docToks with
    | nil => exact absurd hh (toks_ne v [] .ascii)
    | cons k ks => exact ⟨k, ks, rfl⟩
  rw [hk] at hdel
  obtain ⟨t', tok, h1, h2, h3⟩ := hdel
  have hnext : (Ctx.onText o p t).next = { Ctx.onText o p t with tz := t', token := tok, error := .noError } := by
    simp only [Ctx.next, show (Ctx.onText o p t).tz = (Tz.new o).addData t from rfl, h1]
  have hst : (Ctx.onText o p t).next.Stream ((Item.val ([], .ascii) v).toks ++ []) := by
    rw [hnext, List.append_nil]
    exact ⟨rfl, k, ks, hk, h2, h3⟩
  obtain ⟨N, c', g1, g2, g3⟩ := hs _ old _ _ r hst (by rw [hnext]; exact hr)
  dsimp only at g1
  refine ⟨N, { c' with error := r.err }, fun n hn => ?_, fun he => ?_⟩
  · simp only [parseTo]
    rw [g1 n hn, if_neg (by rw [hnext]; simp)]
    rfl
  · obtain ⟨_, k1, ks1, g4, g5, g6⟩ := g3 he
    simp only [List.cons.injEq] at g4
    rw [← g4.2] at g6
    exact g6

theorem run_stuck {o : Opts} {c c2 : LC} {ms : List Tok} {e : Err} (h : lNext o c = .error e) (hr : Run o c ms c2) : c = c2 := by
  cases hr with
  | nil => rfl
  | cons h1 _ => rw [h] at h1; simp at h1

/-- A document cut off before its end. -/
theorem cut_off (t : CType T) {o : Opts} (po : POpts) {v : JVal} {p q : Bytes} {te e' : Bool} {w : Bytes}
    (hrun : Run o ⟨false, false, [], p ++ q⟩ v.docToks ⟨te, e', [], w⟩) (hend : lNext o ⟨te, e', [], w⟩ = .error .needMoreData) (hw : w.length < q.length)
    (hm : halfSlash o p = false ∨ t.NoMap) {old : T} {r : Res T} (hr : t.dec po old (.val ([], .ascii) v) = some r) :
    ∃ N, ∀ n, N ≤ n → ∀ x c, parseTo t.handler n old (Ctx.onText o po p) ≠ some (.noError, x, c) := by
  have htok := tokenize_run o hrun hend (tokenize_stops o (p ++ q))
  have hm' : (tokenize o p).2 = .needMoreData ∨ t.NoMap := by
    rcases hm with hm | hm
    · refine .inl ?_
      by_contra hne
      have := tokenize_final q hne hm
      rw [htok] at this
      exact hne (by rw [← this])
    · exact .inr hm
  obtain ⟨N, c1, h1, h2⟩ := parse_doc_end t.sem po htok hr
  refine ⟨N, fun n hn x c hp => ?_⟩
  obtain ⟨c', g1, -, g2⟩ := parse_more t po q hm' hp
  rw [h1 n hn] at g1
  simp only [Option.some.injEq, Prod.mk.injEq] at g1
  obtain ⟨he, -, rfl⟩ := g1
  have hlast := h2 he c1.token
  obtain ⟨buf, buf', a1, a2, a3, ks, a4⟩ := g2.good
  have l := nextToken_light c1.tz buf' c1.token a2 (by simp [g2.scopes'])
  rw [g2.opts', a3] at l
  cases hx : lNext o ((c.tz.light buf).more q) with
  | ok y =>
    obtain ⟨c2, kk⟩ := y
    rw [hx] at l
    obtain ⟨t1, tok1, b1, _⟩ := l
    rw [b1] at hlast
    simp at hlast
  | error e =>
    obtain ⟨ms, _, b2⟩ := Lax.run_prefix_of_all (run_more a4 q) hrun hend
    have hlen := congrArg (fun c : LC => c.rest.length) (run_stuck hx b2)
    simp only [LC.more, List.length_append] at hlen
    omega

end JsonStruct
