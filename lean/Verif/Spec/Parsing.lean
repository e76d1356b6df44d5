import Verif.Model.Struct
import Verif.Spec.Decode

/-
Parsing a text into a value, as a user sees it: a new context on the text, one call of `parseTo`.
-/

namespace JsonStruct

/-- JSH 3864-3900: `ParseContext context(data, size)` with tokenizer options and the three options of the context
(JSH 3923-3966) set. -/
def Ctx.onText (o : Opts) (p : POpts) (t : Bytes) : Ctx :=
  { tz := (Tz.new o).addData t, allowMissing := p.allowMissing, allowUnassigned := p.allowUnassigned, track := p.track }

/-- `context.parseTo(value)` ends, whatever bound is put on its loops as long as it is large enough; it returns
`r.err`, leaves `r.val` in the variable which held `old`, and `r.missing` and `r.unassigned` in the lists of the
context. -/
def Parses (h : Handler T) (o : Opts) (p : POpts) (old : T) (t : Bytes) (r : Res T) : Prop :=
  ∃ N c', (∀ n, N ≤ n → parseTo h n old (Ctx.onText o p t) = some (r.err, r.val, c')) ∧
    c'.missing = r.missing ∧ c'.unassigned = r.unassigned ∧ c'.error = r.err

/-- There is at most one outcome. -/
theorem Parses.unique {h : Handler T} {o : Opts} {p : POpts} {old : T} {t : Bytes} {r r' : Res T}
    (a : Parses h o p old t r) (b : Parses h o p old t r') : r = r' := by
  obtain ⟨N, c, h1, h2, h3, _⟩ := a
  obtain ⟨M, d, g1, g2, g3, _⟩ := b
  have := (h1 (max N M) (by omega)).symm.trans (g1 (max N M) (by omega))
  simp only [Option.some.injEq, Prod.mk.injEq] at this
  obtain ⟨e1, e2, e3⟩ := this
  subst e3
  cases r; cases r'
  simp only at h2 h3 g2 g3 e1 e2
  simp [e1, e2, ← h2, ← h3, g2, g3]

end JsonStruct
