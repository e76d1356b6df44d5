import Verif.Model.Escape

/-
`handle_json_escapes_in` (JSH 5854-5977) once more, with every access to memory: positions in the string that is decoded, and
the local arrays of hexadecimal digits, which are not initialised.
-/

namespace JsonStruct

/-- What can go wrong: a read outside of the string, a read of an array element that was not written. -/
inductive MemErr
  | outside | unset
  deriving DecidableEq, Repr

/-- JSH 5877, 5887, 5907, 5913: `*(it + i)`. -/
def readAt (s : Bytes) (i : Nat) : Except MemErr Byte :=
  match s[i]? with
  | some b => .ok b
  | none => .error .outside

/-- JSH 5885-5896, 5911-5922: the loop over the digits, from the position `pos` on. `ds` are the elements of the array written so
far; whether all were hexadecimal digits. -/
def hexLoop (s : Bytes) (pos : Nat) : Nat → List Nat → Except MemErr (Bool × List Nat)
  | 0, ds => .ok (true, ds)
  | k + 1, ds => do
    let d ← readAt s (pos + ds.length)
    match hexDigit d with
    | some v => hexLoop s pos k (ds ++ [v])
    | none => .ok (false, ds)

/-- JSH 5899-5900, 5923-5924: the four elements of the array are combined. -/
def combineDigits : List Nat → Except MemErr Nat
  | [a, b, c, d] => .ok ((a <<< 12) ||| (b <<< 8) ||| (c <<< 4) ||| d)
  | _ => .error .unset

/-- JSH 5903-5930: the code point and `hex_consumed`, for the backslash at `next`; `size` counts the bytes from `next + 2` on. The
digits of the second group are combined before it is tested whether they were all written. -/
def surrogateAt (s : Bytes) (next size cp : Nat) : Except MemErr (Nat × Nat) := do
  if 0xD800 ≤ cp ∧ cp ≤ 0xDBFF ∧ 10 ≤ size then
    let a ← readAt s (next + 6)
    if a ≠ BSL then .ok (cp, 4)
    else
      let b ← readAt s (next + 7)
      if b ≠ 117 then .ok (cp, 4)
      else
        let (ok, ds) ← hexLoop s (next + 8) 4 []
        let lo ← combineDigits ds
        .ok (if ok = true ∧ 0xDC00 ≤ lo ∧ lo ≤ 0xDFFF then (0x10000 + ((cp - 0xD800) <<< 10) + (lo - 0xDC00), 10) else (cp, 4))
  else .ok (cp, 4)

/-- JSH 5857-5976, the loop, at the position `it`, with `size` bytes to go. The first argument bounds the iterations. -/
def escapesInAt (s : Bytes) : Nat → (it size : Nat) → Except MemErr Bytes
  | 0, _, _ => .ok []
  | n + 1, it, size => do
    if size = 0 then .ok []
    else if s.length < it + size then .error .outside      -- memchr
    else
      let here := (s.drop it).take size
      let k := here.findIdx (· = BSL)
      if k = size then .ok here
      else
        let next := it + k
        let size := size - k
        if size < 2 then .ok (here.take k)
        else
          let size := size - 2
          let c ← readAt s (next + 1)
          if c = 117 then
            let (ok, ds) ← if 4 ≤ size then hexLoop s (next + 2) 4 [] else .ok (false, [])
            if ok then
              let cp ← combineDigits ds
              let (cp, used) ← surrogateAt s next size cp
              let rest ← escapesInAt s n (next + 2 + used) (size - used)
              .ok (here.take k ++ (utf8Bytes cp ++ rest))
            else
              let rest ← escapesInAt s n (next + 2) size
              .ok (here.take k ++ ([BSL, c] ++ rest))
          else
            let rest ← escapesInAt s n (next + 2) size
            .ok (here.take k ++ (pushBackEscape c ++ rest))

/-- JSH 5854-5977 `handle_json_escapes_in`. -/
def escapesInMem (s : Bytes) : Except MemErr Bytes := escapesInAt s s.length 0 s.length

end JsonStruct
