import Verif.Model.Serializer

/- `SerializerContext` (JSH 4621-4660) with the bytes of its string: writes go through a pointer into `json_out`, so a
history of writes and flushes may leave the string. -/

namespace JsonStruct

/-- JSH 4621-4660 the members of `SerializerContext`. The current buffer of the serializer starts `lastPos` bytes behind the
beginning of the string: the constructor and the callback set both (4626-4630, 4634-4635). -/
structure OutCtx where
  ser : Ser
  json : Bytes
  lastPos : Nat := 0

/-- JSH 4623-4637 `SerializerContext::SerializerContext`, with options set on the serializer. -/
def OutCtx.new (o : SerOpts) (json : Bytes) : OutCtx :=
  { ser := Ser.onString o (startString json).length, json := startString json }

/-- JSH 3176-3181 `memcpy(buffer + used, data, size)`, where `buffer + used` is `pos` bytes behind the beginning of the
string; `none` if this goes beyond the end of the string. Copying no byte touches nothing. -/
def putAt (json : Bytes) (pos : Nat) (d : Bytes) : Option Bytes :=
  if d = [] then some json
  else if pos + d.length ≤ json.length then some (json.take pos ++ d ++ json.drop (pos + d.length))
  else none

/-- JSH 4631-4636, for each buffer that was requested: the callback doubles the string, then the data are copied into its
new half. The string and `last_pos`. -/
def putNew : List OutBuf → Bytes → Nat → Option (Bytes × Nat)
  | [], json, last => some (json, last)
  | b :: bs, json, _ => do
    let json' ← putAt (json ++ List.replicate json.length 0) json.length b.data
    putNew bs json' json.length

/-- JSH 3215-3337 `serializer.write(token)`, on the string: the bytes that go to the buffer in use are copied first, then those
that go to the buffers requested. The `j`-th request from here on gets `json_out.size() * 2^j` bytes. (The string is empty only
after a flush with nothing written; there the first byte written is out of bounds, before any buffer is requested. The 1 stands
for that case.) `none` if memory outside of the string is written. -/
def OutCtx.write (c : OutCtx) (k : Tok) : Option OutCtx :=
  let s := { c.ser with supply := fun j => some (max 1 c.json.length * 2 ^ (j - c.ser.requests)) }
  let s' := (s.write k).2
  match (s'.done ++ [s'.buf]).drop c.ser.done.length with
  | [] => none
  | b :: bs => do
    let json ← putAt c.json (c.lastPos + c.ser.buf.data.length) (b.data.drop c.ser.buf.data.length)
    let r ← putNew bs json c.lastPos
    some { ser := s', json := r.1, lastPos := r.2 }

/-- JSH 4652-4655 `flush`, 4639-4642 the destructor: `json_out.resize(last_pos + used)`. -/
def OutCtx.flush (c : OutCtx) : OutCtx :=
  let n := c.lastPos + c.ser.buf.data.length
  { c with json := c.json.take n ++ List.replicate (n - c.json.length) 0 }

/-- JSH 4621-4660: what a user does with a context. -/
inductive OutOp
  | write (k : Tok)
  | flush

/-- JSH 4621-4660: a history of calls; `none` if one of them is undefined. -/
def OutCtx.run (c : OutCtx) : List OutOp → Option OutCtx
  | [] => some c
  | .write k :: ops => do
    let c' ← c.write k
    c'.run ops
  | .flush :: ops => c.flush.run ops

/-- JSH 4644-4650 `serialize`: the handler writes the tokens of the value, then `flush`. -/
def serializeOps (ks : List Tok) : List OutOp := ks.map .write ++ [.flush]

end JsonStruct
