import Verif.Model.Basic

/-
Escapes in JSON strings, written from RFC 8259 section 7. UTF-8 is
`String.utf8EncodeChar` of Lean's core library; a `Char` is a Unicode scalar value.
-/

namespace JsonStruct

/-- The byte `c` is a hexadecimal digit, of either case, with the value `v`. -/
def HexIs (c : Byte) (v : Nat) : Prop :=
  b!"0123456789abcdef"[v]? = some c ∨ b!"0123456789ABCDEF"[v]? = some c

/-- `ds` is four hexadecimal digits with the value `n`. -/
def Hex4 (ds : Bytes) (n : Nat) : Prop :=
  ∃ a b c d va vb vc vd, ds = [a, b, c, d] ∧ HexIs a va ∧ HexIs b vb ∧ HexIs c vc ∧ HexIs d vd ∧
    n = va * 4096 + vb * 256 + vc * 16 + vd

/-- `UEscape c e`: the bytes `e` are the `\u` notation of the character `c`: one group of digits
for the basic plane, a surrogate pair otherwise. -/
inductive UEscape (c : Char) : Bytes → Prop
  | one {ds} : Hex4 ds c.toNat → UEscape c (b!"\\u" ++ ds)
  | pair {hi lo} : 0x10000 ≤ c.toNat → Hex4 hi (0xD800 + (c.toNat - 0x10000) / 0x400) →
      Hex4 lo (0xDC00 + (c.toNat - 0x10000) % 0x400) → UEscape c (b!"\\u" ++ hi ++ b!"\\u" ++ lo)

/-- Text which does not end inside an escape: bytes other than the backslash, and backslashes
with the byte behind them. -/
inductive Complete : Bytes → Prop
  | nil : Complete []
  | plain {c s} : c ≠ 0x5C → Complete s → Complete (c :: s)
  | esc {c s} : Complete s → Complete (0x5C :: c :: s)

/-- Text which can stand between two quotes: complete, and no quote outside an escape. -/
inductive Quotable : Bytes → Prop
  | nil : Quotable []
  | plain {c s} : c ≠ 0x22 → c ≠ 0x5C → Quotable s → Quotable (c :: s)
  | esc {c s} : Quotable s → Quotable (0x5C :: c :: s)

/-- RFC 8259 section 7: the two character escapes, and the byte each stands for. -/
def simpleEscapes : List (Byte × Byte) :=
  [(0x22, 0x22), (0x5C, 0x5C), (0x2F, 0x2F), (0x62, 0x08), (0x66, 0x0C), (0x6E, 0x0A), (0x72, 0x0D), (0x74, 0x09)]

/-- `Denotes raw s`: the string literal with the body `raw` denotes the UTF-8 string `s`. -/
inductive Denotes : Bytes → Bytes → Prop
  | nil : Denotes [] []
  | plain {c raw s} : c ≠ 0x22 → c ≠ 0x5C → Denotes raw s → Denotes (c :: raw) (c :: s)
  | esc {e c raw s} : (e, c) ∈ simpleEscapes → Denotes raw s → Denotes (0x5C :: e :: raw) (c :: s)
  | uni {c e raw s} : UEscape c e → Denotes raw s → Denotes (e ++ raw) (String.utf8EncodeChar c ++ s)

end JsonStruct
