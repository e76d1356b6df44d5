import Verif.Spec.Unicode

namespace JsonStruct

/-- Text in which a backslash has a byte behind it, and if that is a `u`, four hexadecimal digits. -/
inductive WellEscaped : Bytes → Prop
  | nil : WellEscaped []
  | plain {c s} : c ≠ 0x5C → WellEscaped s → WellEscaped (c :: s)
  | esc {c s} : c ≠ 0x75 → WellEscaped s → WellEscaped (0x5C :: c :: s)
  | uni {ds n s} : Hex4 ds n → WellEscaped s → WellEscaped (b!"\\u" ++ ds ++ s)

end JsonStruct
