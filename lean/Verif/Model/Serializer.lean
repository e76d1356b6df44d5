import Verif.Model.Tokenizer

/-
`SerializerOptions`, `SerializerBuffer` and `Serializer` (JSH 1466-1572, 3095-3431), the
growing output string of `SerializerContext` (JSH 4621-4683) and `reformat`
(JSH 2905-2943).
-/

namespace JsonStruct

/-- JSH 1497-1505, the members of `SerializerOptions`. `shift` and `depth` are `uint8_t`. -/
structure SerOpts where
  shift : Nat
  depth : Nat := 0
  pretty : Bool
  convertAscii : Bool := true
  pre : Bytes := []
  tokenDelim : Bytes := [COMMA]
  post : Bytes
  deriving DecidableEq, Repr, Inhabited

/-- JSH 3095-3105, the constructor. `m_value_delimiter` is never used for writing and left out. -/
def SerOpts.new (pretty : Bool) : SerOpts :=
  { shift := if pretty then 2 else 0, pretty := pretty, post := if pretty then [LF] else [] }

/-- JSH 3153-3157 `setDepth`: the depth is cut to 8 bits, the indentation is not. -/
def SerOpts.setDepth (o : SerOpts) (d : Nat) : SerOpts :=
  { o with depth := d % 256, pre := if o.pretty then List.replicate (d * o.shift) SPACE else [] }

/-- JSH 3112-3115 `setShiftSize`. -/
def SerOpts.setShiftSize (o : SerOpts) (n : Nat) : SerOpts := { o with shift := n % 256 }

/-- JSH 3137-3143 `setStyle`; the shift size is not changed. -/
def SerOpts.setStyle (o : SerOpts) (pretty : Bool) : SerOpts :=
  { o with pretty := pretty, post := if pretty then [LF] else [] }.setDepth o.depth

/-- JSH 3145-3151 `skipDelimiter`. -/
def SerOpts.skipDelimiter (o : SerOpts) (skip : Bool) : SerOpts :=
  { o with tokenDelim := if skip then [] else [COMMA] }

/-- JSH 3132-3135 `setConvertAsciiToString`. -/
def SerOpts.setConvertAscii (o : SerOpts) (b : Bool) : SerOpts := { o with convertAscii := b }

/-- JSH 1508-1533 `SerializerBuffer`: `data` are the first `used` bytes. -/
structure OutBuf where
  size : Nat := 0
  data : Bytes := []
  deriving DecidableEq, Repr, Inhabited

/-- JSH 1523-1526 `SerializerBuffer::free`. -/
def OutBuf.free (b : OutBuf) : Nat := b.size - b.data.length

/-- JSH 1535-1572 the members of `Serializer`. `done` are the buffers replaced so far, oldest
first. `supply n` is the size of the buffer that the `n`-th call of the request-buffer
callback installs, `none` if it installs none (or there is no callback). -/
structure Ser where
  opt : SerOpts := SerOpts.new true
  first : Bool := true
  tokenStart : Bool := true
  buf : OutBuf := {}
  done : List OutBuf := []
  requests : Nat := 0
  supply : Nat → Option Nat := fun _ => none

/-- JSH 3344-3347 `currentBuffer`, and the buffers filled before:
Everything written so far: the used bytes of all buffers. -/
def Ser.out (s : Ser) : Bytes := (s.done ++ [s.buf]).flatMap (·.data)

/-- JSH 3176-3181 `SerializerBuffer::append`: `none` if the bytes do not fit (the assertion
fails, or `memcpy` overruns the buffer). -/
def OutBuf.append (b : OutBuf) (data : Bytes) : Option OutBuf :=
  if b.data.length + data.length ≤ b.size then some { b with data := b.data ++ data } else none

/-- JSH 3355-3359 `markCurrentSerializerBufferFull`, 3349-3353 `askForMoreBuffers` and 3205-3208
`setBuffer` called from the callback. -/
def Ser.markFull (s : Ser) : Ser :=
  { s with
    done := s.done ++ [s.buf]
    buf := match s.supply s.requests with | some n => { size := n } | none => {}
    requests := s.requests + 1 }

/-- JSH 3176-3181, 3401-3422: How a write ends: `ub` is a write beyond the end of a buffer. -/
inductive WRes
  | ok | failed | ub
  deriving DecidableEq, Repr, Inhabited

/-- JSH 3401-3422 `write(const char *, size_t)`, the loop. One iteration here is one iteration
that appends, together with the one before it that asked for a buffer, so the number of bytes
bounds the iterations. -/
def Ser.writeLoop : Nat → Ser → Bytes → WRes × Ser
  | _, s, [] => (.ok, s)
  | 0, s, _ => (.failed, s)
  | n + 1, s, data =>
    let s := if s.buf.free = 0 then s.markFull else s
    if s.buf.free = 0 then (.failed, s)
    else
      let k := min data.length s.buf.free
      match s.buf.append (data.take k) with
      | none => (.ub, s)
      | some b => Ser.writeLoop n { s with buf := b } (data.drop k)

/-- JSH 3401-3422 `write(const char *, size_t)`. -/
def Ser.writeBytes (s : Ser) (data : Bytes) : WRes × Ser := Ser.writeLoop data.length s data

/-- JSH 3424-3432 `write(const StringLiteral<SIZE> &)`. -/
def Ser.writeLit (s : Ser) (lit : Bytes) : WRes × Ser :=
  if s.buf.free < lit.length then s.writeBytes lit
  else
    match s.buf.append lit with
    | none => (.ub, s)
    | some b => (.ok, { s with buf := b })

/-- JSH 3282-3336: `if (!write(a)) return false; b`. -/
def WRes.andThen (r : WRes × Ser) (f : Ser → WRes × Ser) : WRes × Ser :=
  match r.1 with
  | .ok => f r.2
  | e => (e, r.2)

/-- JSH 3361-3375 `writeAsString`. -/
def Ser.writeAsString (s : Ser) (data : Bytes) : WRes × Ser :=
  WRes.andThen (s.writeLit [QUOTE]) fun s => WRes.andThen (s.writeBytes data) fun s => s.writeLit [QUOTE]

/-- JSH 3377-3399 `write(Type, const DataRef &)`. -/
def Ser.writeTyped (s : Ser) (ty : Ty) (data : Bytes) : WRes × Ser :=
  match ty with
  | .string => s.writeAsString data
  | .ascii => if s.opt.convertAscii then s.writeAsString data else s.writeBytes data
  | .null => s.writeBytes b!"null"
  | _ => s.writeBytes data

/-- JSH 3217-3222, the literals: a new line and the indentation of depth 1 to 5. -/
def begining (depth : Nat) : Option Bytes :=
  match depth with
  | 1 => some b!"\n  "
  | 2 => some b!"\n    "
  | 3 => some b!"\n      "
  | 4 => some b!"\n        "
  | 5 => some b!"\n          "
  | _ => none

/-- JSH 3217-3222, the same with a comma in front. -/
def beginingComma (depth : Nat) : Option Bytes :=
  match depth with
  | 1 => some b!",\n  "
  | 2 => some b!",\n    "
  | 3 => some b!",\n      "
  | 4 => some b!",\n        "
  | 5 => some b!",\n          "
  | _ => none

/-- JSH 3236-3280: `shortcut_front` and the state after the attempt; `ub` if the literal overran. -/
def Ser.shortcut (s : Ser) (isEnd : Bool) : Bool × WRes × Ser :=
  if s.opt.shift = 2 ∧ s.first = false then
    let lit :=
      if !s.tokenStart && !isEnd && s.opt.tokenDelim.isEmpty then begining s.opt.depth
      else if !s.tokenStart && !isEnd then beginingComma s.opt.depth
      else begining s.opt.depth
    match lit with
    | none => (false, .ok, s)
    | some l =>
      let r := s.writeLit l
      (r.1 == .ok, r.1, r.2)
  else (false, .ok, s)

/-- JSH 3282-3310, the general way: comma, new line, indentation. -/
def Ser.front (s : Ser) (isEnd : Bool) : WRes × Ser :=
  WRes.andThen
    (if !s.tokenStart && !isEnd && !s.opt.tokenDelim.isEmpty then s.writeLit [COMMA] else (.ok, s)) fun s =>
  WRes.andThen
    (if s.first then (.ok, { s with first := false })
     else if s.opt.post.isEmpty then (.ok, s) else s.writeBytes s.opt.post) fun s =>
  if s.opt.pre.isEmpty then (.ok, s) else s.writeBytes s.opt.pre

/-- JSH 3311-3336: name, value and the depth behind it. -/
def Ser.body (s : Ser) (tok : Tok) : WRes × Ser :=
  WRes.andThen
    (if tok.name.isEmpty then (.ok, s)
     else WRes.andThen (s.writeTyped tok.nameType tok.name) fun s =>
       s.writeLit (if s.opt.pretty then b!": " else b!":")) fun s =>
  WRes.andThen (s.writeTyped tok.valueType tok.value) fun s =>
  let start := tok.valueType = .objectStart ∨ tok.valueType = .arrayStart
  (.ok, { s with tokenStart := start, opt := if start then s.opt.setDepth (s.opt.depth + 1) else s.opt })

/-- JSH 3215-3337 `Serializer::write(const Token &)`. -/
def Ser.write (s : Ser) (tok : Tok) : WRes × Ser :=
  let isEnd : Bool := tok.valueType = .objectEnd ∨ tok.valueType = .arrayEnd
  if isEnd && s.opt.depth == 0 then (.failed, s)
  else
    let s := if isEnd then { s with opt := s.opt.setDepth (s.opt.depth - 1) } else s
    let r := s.shortcut isEnd
    if r.2.1 = .ub then (.ub, r.2.2)
    else
      WRes.andThen (if r.1 then (.ok, r.2.2) else r.2.2.front isEnd) fun s => s.body tok

/-- JSH 3215-3337, a history of calls:
Writing a sequence of tokens as the type handlers do, ignoring the results: whether all
writes succeeded, and the state. -/
def Ser.writeAll (s : Ser) : List Tok → Bool × Ser
  | [] => (true, s)
  | k :: ks =>
    let r := s.write k
    let r' := r.2.writeAll ks
    (r.1 == .ok && r'.1, r'.2)

/-! ### The growing output string -/

/-- JSH 4631-4636 (and 2916-2921): the callback doubles the string, of size `n`, each time and
installs its new half. -/
def doubling (n : Nat) : Nat → Option Nat := fun k => some (n * 2 ^ k)

/-- JSH 4623-4637 `SerializerContext::SerializerContext`: `size` is the size of `json_out`. -/
def Ser.onString (o : SerOpts) (size : Nat) : Ser :=
  { opt := o, buf := { size := size }, supply := doubling size }

/-- JSH 4628-4629 (and 2922-2923): an empty string is enlarged to 4096 bytes. -/
def startString (s : Bytes) : Bytes := if s.isEmpty then List.replicate 4096 0 else s

/-- JSH 4631-4636, 4652-4655: What `json_out` holds: the buffers lie in it one behind the other, each written from its
beginning; elsewhere it holds what it held before (`old`, then the zeros of `resize`). -/
def overlay : List OutBuf → Bytes → Bytes
  | [], _ => []
  | b :: bs, old =>
    let here := old.take b.size ++ List.replicate (b.size - old.length) 0
    (b.data ++ here.drop b.data.length) ++ overlay bs (old.drop b.size)

/-- JSH 4631-4636 (and 2916-2921): `last_pos`, the size `end` of the string before the last doubling. -/
def lastPos (n requests : Nat) : Nat := if requests = 0 then 0 else n * 2 ^ (requests - 1)

/-- JSH 4652-4655 `flush` (and 2933): `json_out.resize(last_pos + used)`; `resize` cuts or appends
zeros. `init` is the string at the beginning. -/
def Ser.flush (s : Ser) (init : Bytes) : Bytes :=
  let mem := overlay (s.done ++ [s.buf]) init
  let n := lastPos init.length s.requests + s.buf.data.length
  mem.take n ++ List.replicate (n - mem.length) 0

/-- JSH 2926-2932, the loop of `reformat`. -/
def reformatLoop : Nat → Tz → Ser → Token → Err × Ser
  | 0, _, s, _ => (.noError, s)
  | n + 1, t, s, tok =>
    let r := t.nextToken tok
    if r.1 = .noError then reformatLoop n r.2.1 (s.write r.2.2.tok).2 r.2.2
    else (r.1, s)

/-- JSH 2905-2943 `reformat`. Each token takes at least one byte, so the number of bytes bounds the
iterations (theorem `C08_tokenizing_stops`). -/
def reformat (m : Simd) (text out : Bytes) (o : SerOpts) : Err × Bytes :=
  let init := startString out
  let r := reformatLoop (text.length + 1) { Tz.new { simd := m } with bufs := [text] } (Ser.onString o init.length) {}
  (if r.1 = .needMoreData then .noError else r.1, r.2.flush init)

end JsonStruct
