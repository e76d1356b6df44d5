import Verif.Model.Handler

/-
Raw capture: `JsonArray`, `JsonObject`, `JsonObjectOrArray` and their `Ref` forms (JSH 3708-3738, 9216-9479).

Simplifications: the destination string is known to the tokenizer by its address; here the address is a number given
to the handler (two variables have different ones) and the contents live in the tokenizer's list of copies until they
are handed back. What a `Ref` form holds after an error is not modelled.
-/

namespace JsonStruct

/-- JSH 3708-3738: The three kinds of raw capture. -/
inductive RawKind
  | array | object | any
  deriving DecidableEq, Repr

/-- JSH 9222, 9257, 9303, 9336, 9381-9396, 9428-9443: the brackets counted, or `none` if the value is refused. -/
def RawKind.brackets : RawKind → Ty → Option (Ty × Ty)
  | .array, .arrayStart | .any, .arrayStart => some (.arrayStart, .arrayEnd)
  | .object, .objectStart | .any, .objectStart => some (.objectStart, .objectEnd)
  | _, _ => none

/-- JSH 9222, 9257, 9303, 9336, 9381-9396, 9428-9443. The same lines: the error for a refused value. -/
def RawKind.refuse : RawKind → Err
  | .array => .expectedArrayStart
  | .object | .any => .expectedObjectStart

/-- JSH 9227-9236 (and the same loop in the five other handlers): read until the bracket is closed. `level` is a
`size_t`, never decremented at zero. -/
def rawLoop (opn cls : Ty) : Nat → Nat → Ctx → Option (Err × Ctx)
  | 0, _, _ => none
  | n + 1, level, c =>
    if level = 0 then some (.noError, c)
    else
      let c := c.next
      if c.error ≠ .noError then some (c.error, c)
      else rawLoop opn cls n (if c.token.valueType = opn then level + 1 else if c.token.valueType = cls then level - 1 else level) c

/-- JSH 1781-1804: `copyFromValue` is defined if the value is a copy held by the tokenizer or lies in the first
buffer (otherwise the assertion fails; without assertions the difference of unrelated pointers is taken). With a token
vector there is no buffer. -/
def Tz.recordable (t : Tz) (tok : Token) : Bool :=
  t.parsed.isNone &&
  match tok.value.loc, t.bufs with
  | .own, _ => true
  | .input off, b :: _ => decide (off < b.length)
  | _, _ => false

/-- JSH 9252-9277 `TypeHandler<JsonArray>::to`, 9331-9355 `TypeHandler<JsonObject>::to` and 9423-9461
`TypeHandler<JsonObjectOrArray>::to`. Only the first leaves the recording running after an error. -/
def rawTo (k : RawKind) (addr : Nat) (n : Nat) (old : Bytes) (c : Ctx) : Option (Err × Bytes × Ctx) :=
  match k.brackets c.token.valueType with
  | none => some (k.refuse, old, c)
  | some (opn, cls) =>
    if c.tz.recordable c.token = false then some (.ub, old, c)
    else
      (rawLoop opn cls n 1 { c with tz := c.tz.copyFromValue c.token addr old }).bind fun (e, c) =>
        if k = .array ∧ e ≠ .noError then
          some (e, ((c.tz.copies.find? (fun x => x.1 == addr)).map (·.2.2)).getD old, c)
        else
          match c.tz.copyIncludingValue addr with
          | some (data, tz) => some (e, data, { c with tz := tz })
          | none => some (.ub, old, c)

/-- JSH 9279-9294, 9357-9372, 9463-9478: an empty string stands for an empty array or object. -/
def rawFrom (k : RawKind) (v : Bytes) (t : Tok) (s : Ser) : Option (Tok × Ser) :=
  putTok { t with value := if v = [] then (if k = .array then b!"[]" else b!"{}") else v, valueType := .verbatim } s

/-- JSH 9252-9294, 9331-9372, 9423-9478:
`TypeHandler<JsonArray>`, `TypeHandler<JsonObject>`, `TypeHandler<JsonObjectOrArray>`. -/
def rawH (k : RawKind) (addr : Nat) : Handler Bytes where
  init := []
  to := rawTo k addr
  from_ := rawFrom k

/-- JSH 9217-9241 `TypeHandler<JsonArrayRef>::to`, 9298-9320 `TypeHandler<JsonObjectRef>::to` and 9376-9412
`TypeHandler<JsonObjectOrArrayRef>::to`: the range from the first byte of the first token to the last byte of the last
one. Undefined unless both lie in the same buffer. (With a token vector the result depends on where the tokens point;
that case counts as undefined here.) -/
def rawRefTo (k : RawKind) (n : Nat) (old : Bytes) (c : Ctx) : Option (Err × Bytes × Ctx) :=
  match k.brackets c.token.valueType with
  | none => some (k.refuse, old, c)
  | some (opn, cls) =>
    (rawLoop opn cls n 1 c).bind fun (e, c') =>
      if e ≠ .noError then some (e, old, c')
      else
        match c.token.value.loc, c'.token.value.loc, c'.tz.bufs with
        | .input a, .input b, buf :: _ =>
          if c'.tz.released.length = c.tz.released.length then
            some (.noError, slice buf a (b + c'.token.value.bytes.length - a), c')
          else some (.ub, old, c')
        | _, _, _ => some (.ub, old, c')

/-- JSH 9243-9248, 9322-9327, 9414-9419 `from` of the `Ref` forms. -/
def rawRefFrom (v : Bytes) (t : Tok) (s : Ser) : Option (Tok × Ser) := putTok { t with value := v, valueType := .verbatim } s

/-- JSH 9217-9248, 9298-9327, 9376-9419:
`TypeHandler<JsonArrayRef>`, `TypeHandler<JsonObjectRef>`, `TypeHandler<JsonObjectOrArrayRef>`. -/
def rawRefH (k : RawKind) : Handler Bytes where
  init := []
  to := rawRefTo k
  from_ := rawRefFrom

end JsonStruct
