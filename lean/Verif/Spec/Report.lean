import Verif.Model.Basic

/- Specification: what an error report may show of a buffer. -/

namespace JsonStruct

/-- `shown` are the bytes of `d` in the given ranges: `(from, to)` without `to`. -/
def Copied (d : Bytes) (ranges : List (Nat × Nat)) (shown : List Bytes) : Prop :=
  shown = ranges.map fun r => (d.drop r.1).take (r.2 - r.1)

/-- The ranges are an excerpt of the lines of `d` around position `c`; range number `line` is the one with `c`.
`reach` is the number of bytes in front of and behind `c` that may be shown, `most` the number of lines. -/
structure Excerpt (d : Bytes) (c reach most : Nat) (ranges : List (Nat × Nat)) (line : Nat) : Prop where
  /-- every range lies in the buffer -/
  inside : ∀ r ∈ ranges, r.1 ≤ r.2 ∧ r.2 ≤ d.length
  /-- the line index is the number of the range with `c` -/
  here : ∃ r, ranges[line]? = some r ∧ r.1 ≤ c ∧ c ≤ r.2
  /-- ranges follow each other, with one line break between them -/
  next : ∀ i a b, ranges[i]? = some a → ranges[i + 1]? = some b → b.1 = a.2 + 1 ∧ d[a.2]? = some LF
  /-- several ranges: no line break inside of one, except that the first byte shown may be one -/
  noBreak : 1 < ranges.length → ∀ i r j, ranges[i]? = some r → r.1 ≤ j → j < r.2 → d[j]? = some LF →
    i = 0 ∧ j = r.1
  near : ∀ r ∈ ranges, c ≤ r.1 + reach ∧ r.2 ≤ c + reach
  few : ranges.length ≤ most

end JsonStruct
