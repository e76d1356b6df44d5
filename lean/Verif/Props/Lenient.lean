import Verif.Lemmas.LenientDoc
import Verif.Props.Document

/-
C65: which texts are accepted. `tokenize o t` is the list of tokens that repeated `nextToken` calls
return for the text `t` in one buffer, and the error that ends them; the grammar `Lax.Stream`
is in `Spec/Lenient`.
-/

namespace JsonStruct

open Lax

/-- **C65**. Whatever the bytes of the text and the options: the first tokens
reported are `ks`, with every bracket closed, exactly if the text begins with documents of the
grammar whose tokens are `ks`. -/
theorem C65_accepted_texts (o : Opts) (t : Bytes) (ks : List Tok) :
    (ks <+: (tokenize o t).1 ∧ opens ks = closes ks) ↔ ∃ p r, t = p ++ r ∧ Stream o p ks := by
  obtain ⟨c2, e, h1, h2⟩ := tokenize_runs o t (tokenize_stops o t)
  constructor
  · rintro ⟨⟨ms, hms⟩, hd⟩
    rw [← hms] at h1
    obtain ⟨c1, h3, -⟩ := run_split h1
    have := run_depth h3
    have hst : c1.stack = [] := by
      rw [← List.length_eq_zero_iff]
      simp only [List.length_nil] at this
      omega
    obtain ⟨p, h4, h5⟩ := run_stream o h3 hst
    exact ⟨p, _, h4, h5⟩
  · rintro ⟨p, r, rfl, hp⟩
    obtain ⟨c1, h3, h4, h5⟩ := stream_run o hp r
    obtain ⟨ms, hms, -⟩ := run_prefix_of_all h3 h1 h2
    refine ⟨⟨ms, hms.symm⟩, ?_⟩
    have := run_depth h3
    simp only [h5, List.length_nil] at this
    omega

/-- **C65**. The grammar gives each text one reading: the tokens are those that `nextToken` reports,
and all of them. -/
theorem C65_one_reading (o : Opts) (p : Bytes) (ks : List Tok) (h : Stream o p ks) :
    tokenize o p = (ks, .needMoreData) := by
  obtain ⟨c1, h3, h4, h5⟩ := stream_run o h []
  rw [List.append_nil] at h3
  refine tokenize_run o h3 ?_ (tokenize_stops o p)
  obtain ⟨te, e, st, r⟩ := c1
  simp only at h4 h5
  subst h4 h5
  simp [lNext, lPop]

/-- **C65**. Of a text that does not begin with such a document, tokens are only reported up to a place
where a bracket is still open. -/
theorem C65_otherwise (o : Opts) (t : Bytes) (h : ¬ ∃ p r ks, t = p ++ r ∧ ks ≠ [] ∧ Stream o p ks) :
    ∀ ks, ks ≠ [] → ks <+: (tokenize o t).1 → closes ks < opens ks := by
  intro ks hne hks
  obtain ⟨c2, e, h1, h2⟩ := tokenize_runs o t (tokenize_stops o t)
  obtain ⟨ms, hms⟩ := hks
  rw [← hms] at h1
  obtain ⟨c1, h3, -⟩ := run_split h1
  have hd := run_depth h3
  simp only [List.length_nil] at hd
  rcases Nat.eq_zero_or_pos c1.stack.length with h0 | h0
  · exfalso
    obtain ⟨p, h4, h5⟩ := run_stream o h3 (List.length_eq_zero_iff.1 h0)
    exact h ⟨p, _, ks, h4, hne, h5⟩
  · omega

/-- `._[foo,{"a":}]` is such a text with the default options, although RFC 8259 allows no part of it:
bytes that begin no token, a bare word and a member without a value. -/
example : Stream {} b!"._[foo,{\"a\":}]"
    [⟨[], .ascii, b!"[", .arrayStart⟩, ⟨[], .ascii, b!"foo", .ascii⟩, ⟨[], .ascii, b!"{", .objectStart⟩,
     ⟨b!"a", .string, b!"}", .objectEnd⟩, ⟨[], .ascii, b!"]", .arrayEnd⟩] := by
  have sk : Skip false [] := .nil
  have bl : ∀ k x, x.head? ≠ some 0 ∧ x.head? ≠ some 0x2F → Behind {} k [] x := fun k x h => ⟨.nil, fun _ => h⟩
  have hfoo : Scalar .word .ascii b!"foo" b!"foo" := .word (by decide) (by decide) (by decide) (by decide) (by decide)
  have ha : Name {} .plain .string b!"a" b!"\"a\"" := ⟨.str (.plain (by decide) (by decide) .nil), .inl rfl⟩
  have hobj : Nested {} [] .ascii b!"{\"a\":}" _ := .obj (.noValue (g := []) (w := []) (g' := []) .nil sk ha (bl _ _ (by decide)) sk)
  have harr : Nested {} [] .ascii b!"[foo,{\"a\":}]" _ :=
    .arr (.last (.snoc (w := []) .nil (.scalar (g := []) sk hfoo) (bl _ _ (by decide)) .comma) (.nested (g := []) sk hobj) (w := []) (bl _ _ (by decide)))
  exact .snoc (p := []) (g := b!"._") .nil (.byte (by decide) (by simp) (.byte (by decide) (by simp) .nil)) harr

/-- `[1 2]` does not begin with such a text. -/
example : ¬ ∃ p r ks, b!"[1 2]" = p ++ r ∧ ks ≠ [] ∧ Stream {} p ks := by
  rintro ⟨p, r, ks, h1, h2, h3⟩
  obtain ⟨h4, h5⟩ := (C65_accepted_texts {} b!"[1 2]" ks).2 ⟨p, r, h1, h3⟩
  have : (tokenize {} b!"[1 2]").1 = [⟨[], .ascii, b!"[", .arrayStart⟩] := by decide +kernel
  rw [this] at h4
  rcases List.prefix_cons_iff.1 h4 with rfl | ⟨t, rfl, ht⟩
  · exact h2 rfl
  · rw [List.prefix_nil.1 ht] at h5
    revert h5; decide

end JsonStruct
