import Verif.Spec.Json

/-
Beginnings of well-formed documents, cut where an array element or object member is to come.
-/

namespace JsonStruct

/-- `Prefix d st l p ks`: the bytes `p` begin a document and end directly behind an opening
bracket or a comma. `st` are the containers open (innermost first, named by their opening
token), `ks` the tokens of `p`, and `l` is the element or member value in front of the comma
(`none` behind a bracket). -/
inductive Prefix (d : Dialect) : List Ty → Option JVal → Bytes → List Tok → Prop
  | rootArr {w} : d.gap w → Prefix d [.arrayStart] none (w ++ b!"[") [⟨[], .ascii, b!"[", .arrayStart⟩]
  | rootObj {w} : d.gap w → Prefix d [.objectStart] none (w ++ b!"{") [⟨[], .ascii, b!"{", .objectStart⟩]
  | arrArr {st l p ks w} : Prefix d (.arrayStart :: st) l p ks → d.gap w →
      Prefix d (.arrayStart :: .arrayStart :: st) none (p ++ w ++ b!"[") (ks ++ [⟨[], .ascii, b!"[", .arrayStart⟩])
  | arrObj {st l p ks w} : Prefix d (.arrayStart :: st) l p ks → d.gap w →
      Prefix d (.objectStart :: .arrayStart :: st) none (p ++ w ++ b!"{") (ks ++ [⟨[], .ascii, b!"{", .objectStart⟩])
  | objArr {st l p ks w1 n w2 w3} : Prefix d (.objectStart :: st) l p ks → d.gap w1 → d.str n → d.gap w2 → d.gap w3 →
      Prefix d (.arrayStart :: .objectStart :: st) none
        (p ++ w1 ++ b!"\"" ++ n ++ b!"\"" ++ w2 ++ b!":" ++ w3 ++ b!"[") (ks ++ [⟨n, .string, b!"[", .arrayStart⟩])
  | objObj {st l p ks w1 n w2 w3} : Prefix d (.objectStart :: st) l p ks → d.gap w1 → d.str n → d.gap w2 → d.gap w3 →
      Prefix d (.objectStart :: .objectStart :: st) none
        (p ++ w1 ++ b!"\"" ++ n ++ b!"\"" ++ w2 ++ b!":" ++ w3 ++ b!"{") (ks ++ [⟨n, .string, b!"{", .objectStart⟩])
  | elem {st l p ks w v t w'} : Prefix d (.arrayStart :: st) l p ks → d.gap w → Text d v t → d.after v w' →
      Prefix d (.arrayStart :: st) (some v) (p ++ w ++ t ++ w' ++ b!",") (ks ++ v.toks [] .ascii)
  | member {st l p ks w1 n w2 w3 v t w'} : Prefix d (.objectStart :: st) l p ks → d.gap w1 → d.str n → d.gap w2 →
      d.gap w3 → Text d v t → d.after v w' →
      Prefix d (.objectStart :: st) (some v)
        (p ++ w1 ++ b!"\"" ++ n ++ b!"\"" ++ w2 ++ b!":" ++ w3 ++ t ++ w' ++ b!",") (ks ++ v.toks n .string)

end JsonStruct
