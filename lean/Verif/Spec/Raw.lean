import Verif.Model.Raw
import Verif.Spec.Brackets

/-
Places in the input, and the token sequence that closes a bracket.
-/

namespace JsonStruct

/-- All bytes handed to a tokenizer, in order: of the buffers it has finished with, of those it has, and of those the
callback is going to add. -/
def Tz.whole (t : Tz) : Bytes := t.released.flatten ++ (t.bufs.flatten ++ t.pending.flatten.flatten)

/-- How many of them have been read. -/
def Tz.position (t : Tz) : Nat := t.released.flatten.length + t.cursor

/-- The bytes from position `a` up to position `b`. -/
def between (s : Bytes) (a b : Nat) : Bytes := (s.drop a).take (b - a)

/-- `Reads t k ks t' k'`: calling `nextToken` once for every member of `ks` delivers these tokens, every call returning
`NoError`, and brings the tokenizer from `t` to `t'` and the token variable from `k` to `k'`. -/
inductive Reads : Tz → Token → List Tok → Tz → Token → Prop
  | nil {t : Tz} {k : Token} : Reads t k [] t k
  | call {t t' t'' : Tz} {k k' k'' : Token} {ks : List Tok} (h : t.nextToken k = (.noError, t', k')) (hs : Reads t' k' ks t'' k'') :
      Reads t k (k'.tok :: ks) t'' k''

/-- Behind an open bracket `opn`, the brackets in `tys` match, the last of them closes `opn`, and none before does. -/
def Closes (opn : Ty) (tys : List Ty) : Prop :=
  tys.foldlM bracketStep [opn] = some [] ∧ ∀ ys zs, tys = ys ++ zs → zs ≠ [] → ys.foldlM bracketStep [opn] ≠ some []

/-- The byte of a bracket. -/
def bracketByte : Ty → Byte
  | .objectStart => 0x7B
  | .objectEnd => 0x7D
  | .arrayStart => 0x5B
  | _ => 0x5D

end JsonStruct
