import Verif.Model.Scan

/-
`class Tokenizer` (JSH 1353-1446, 1584-2808) as a state record and total
functions on it.

Not modelled: the error context (see `Model/ErrorContext`), and callbacks that
do anything else than `addData`.
-/

namespace JsonStruct

/-- JSH 1392-1398 `enum class InTokenState`. -/
inductive TokState
  | findingName | findingDelimiter | findingData | findingTokenEnd
  deriving DecidableEq, Repr, Inhabited

/-- JSH 1400-1405 `enum class InPropertyState`. -/
inductive PropState
  | noStartFound | findingEnd | foundEnd
  deriving DecidableEq, Repr, Inhabited

/-- JSH 349-378 `struct IntermediateToken`. -/
structure Inter where
  active : Bool := false
  nameTypeSet : Bool := false
  dataTypeSet : Bool := false
  nameType : Ty := .error
  dataType : Ty := .error
  name : Bytes := []
  data : Bytes := []
  deriving DecidableEq, Repr, Inhabited

/-- JSH 358-369 `IntermediateToken::clear`. -/
def Inter.clear (i : Inter) : Inter := if i.active then {} else i

/-- JSH 1332-1350 `struct ScopeCounter`; `depth` is a `uint16_t`. -/
structure Scope where
  type : Ty
  depth : Nat
  deriving DecidableEq, Repr, Inhabited

/-- `JS::Type(static_cast<int>(type) + 1)` for the two start types (JSH 1342): the
end type follows its start type in the enumeration. -/
def Ty.closing : Ty → Ty
  | .objectStart => .objectEnd
  | .arrayStart => .arrayEnd
  | t => t

/-- JSH 1341, `depth++`: `uint16_t` `++`. -/
def inc16 (n : Nat) : Nat := (n + 1) % 65536
/-- JSH 1343, 1347, `depth--`: `uint16_t` `--`. -/
def dec16 (n : Nat) : Nat := (n + 65535) % 65536

/-- JSH 1336-1349 `ScopeCounter::handleType`. -/
def Scope.handleType (s : Scope) (t : Ty) : Scope :=
  if s.type = .arrayStart ∨ s.type = .objectStart then
    if t = s.type then { s with depth := inc16 s.depth }
    else if t = s.type.closing then { s with depth := dec16 s.depth }
    else s
  else { s with depth := dec16 s.depth }

/-- JSH 1422-1444, the data members of `Tokenizer`. Stacks are lists with `back()`
at the head. `pending` scripts `need_more_data_callback`: the n-th call adds the
buffers of the n-th list (no callback: empty list). `released` logs the buffers
handed to `release_callback`. `copies` is `copy_buffers`: the destination string
is identified by a number and its contents are kept in the entry. -/
structure Tz where
  opts : Opts := {}
  tokenState : TokState := .findingName
  propState : PropState := .noStartFound
  propType : Ty := .error
  isEscaped : Bool := false
  expecting : Bool := false
  continueAfter : Bool := false
  cursor : Nat := 0
  dataStart : Nat := 0
  inter : Inter := {}
  bufs : List Bytes := []
  pending : List (List Bytes) := []
  scopes : List Scope := []
  stack : List Ty := []
  released : List Bytes := []
  copies : List (Nat × Nat × Bytes) := []
  parsed : Option (List Token) := none
  deriving DecidableEq, Repr, Inhabited

/-- JSH 1584-1605, the constructor, with the options of JSH 1607-1625 applied. -/
def Tz.new (o : Opts) : Tz := { opts := o }

/-- JSH 1626-1629 `addData(const char*, size_t)`. -/
def Tz.addData (t : Tz) (b : Bytes) : Tz := { t with bufs := t.bufs ++ [b] }

/-- JSH 1637-1642 `addData(const std::vector<Token>*)`. -/
def Tz.addTokens (t : Tz) (ts : List Token) : Tz := { t with parsed := some ts, cursor := 0 }

/-- JSH 1916-1921 `resetForNewValue`. -/
def Tz.resetForNewValue (t : Tz) : Tz :=
  { t with propState := .noStartFound, propType := .error, dataStart := 0 }

/-- JSH 1910-1914 `resetForNewToken`. -/
def Tz.resetForNewToken (t : Tz) : Tz :=
  { t with inter := t.inter.clear }.resetForNewValue

/-- JSH 1644-1657 `resetData(const char*, size_t, size_t)`. -/
def Tz.resetData (t : Tz) (b : Bytes) (index : Nat) : Tz :=
  { t with released := t.released ++ t.bufs, bufs := [b], parsed := none, cursor := index }.resetForNewToken

/-- JSH 1659-1670 `resetData(const std::vector<Token>*, size_t)`. -/
def Tz.resetTokens (t : Tz) (ts : List Token) (index : Nat) : Tz :=
  { t with released := t.released ++ t.bufs, bufs := [], parsed := some ts, cursor := index }.resetForNewToken

/-! ### Searching for the start of a value -/

/-- JSH 2130-2264: Result of `findStartOfNextValue`: error, type, `chars_ahead`, and the possibly
moved `cursor_index`. -/
structure StartRes where
  err : Err
  type : Ty
  ahead : Nat
  cursor : Nat
  deriving DecidableEq, Repr

/-- JSH 2196-2263, the loop of `findStartOfNextValue`. `s` are the bytes from
`current_pos = pos` on, `cur` is `cursor_index`. After a comment the loop
continues behind it: `skip` bytes of `s` are still to be passed over. -/
def startLoop (o : Opts) : Bytes → (skip pos cur : Nat) → StartRes
  | [], _, _, cur => ⟨.needMoreData, .error, 0, cur⟩
  | _ :: cs, skip + 1, pos, cur => startLoop o cs skip (pos + 1) cur
  | c :: cs, 0, pos, cur =>
    if o.comments && c == SLASH && cs.head? == some SLASH then
      match skipComment o.simd o.newLines cs.tail with
      | none => ⟨.needMoreData, .error, 0, pos + 2⟩
      | some k => startLoop o cs (k + 1) (pos + 1) (pos + 2 + k)
    else if c = QUOTE then ⟨.noError, .string, pos - cur, cur⟩
    else if c = LBRACE then ⟨.noError, .objectStart, pos - cur, cur⟩
    else if c = RBRACE then ⟨.noError, .objectEnd, pos - cur, cur⟩
    else if c = LBRACK then ⟨.noError, .arrayStart, pos - cur, cur⟩
    else if c = RBRACK then ⟨.noError, .arrayEnd, pos - cur, cur⟩
    else if has c (flPlusMinus ||| flDigits) then ⟨.noError, .number, pos - cur, cur⟩
    else if has c flAscii then ⟨.noError, .ascii, pos - cur, cur⟩
    else if lookup c = 0 then ⟨.encounteredIllegalChar, .error, pos - cur, cur⟩
    else startLoop o cs 0 (pos + 1) cur

/-- JSH 2158-2194, the fast path for single character tokens. -/
def startFast (s : Bytes) : Option Ty :=
  match s with
  | [] => none
  | c :: _ =>
    if c = QUOTE then some .string
    else if c = LBRACE then some .objectStart
    else if c = RBRACE then some .objectEnd
    else if c = LBRACK then some .arrayStart
    else if c = RBRACK then some .arrayEnd
    else none

/-- JSH 2130-2264 `findStartOfNextValue`. -/
def findStart (o : Opts) (buf : Bytes) (cur : Nat) : StartRes :=
  let k := wsSkip o.simd true (buf.drop cur)
  let s := buf.drop (cur + k)
  match startFast s with
  | some ty => ⟨.noError, ty, k, cur⟩
  | none => startLoop o s 0 (cur + k) cur

/-! ### Delimiters -/

/-- JSH 2266-2346, 2348-2425: Result of `findDelimiter` / `findTokenEnd`. -/
structure DelimRes where
  err : Err
  state : TokState
  ahead : Nat
  cursor : Nat
  comma : Bool := false
  deriving DecidableEq, Repr

/-- JSH 2296-2345, the loop of `findDelimiter`; `ct` is `container_stack.back()`. -/
def delimLoop (o : Opts) (ct : Ty) : Bytes → (skip pos cur : Nat) → DelimRes
  | [], _, _, cur => ⟨.needMoreData, .findingDelimiter, 0, cur, false⟩
  | _ :: cs, skip + 1, pos, cur => delimLoop o ct cs skip (pos + 1) cur
  | c :: cs, 0, pos, cur =>
    if o.comments && c == SLASH && cs.head? == some SLASH then
      match skipComment o.simd o.newLines cs.tail with
      | none => ⟨.needMoreData, .findingDelimiter, 0, pos + 2, false⟩
      | some k => delimLoop o ct cs (k + 1) (pos + 1) (pos + 2 + k)
    else if c = COLON then
      if ct ≠ .objectStart then ⟨.expectedDelimiter, .findingDelimiter, 0, cur, false⟩
      else ⟨.noError, .findingData, pos + 1 - cur, cur, false⟩
    else if c = COMMA ∨ (o.newLines = true ∧ c = LF) then
      if ct ≠ .arrayStart then ⟨.expectedDelimiter, .findingDelimiter, 0, cur, false⟩
      else ⟨.noError, .findingName, pos + 1 - cur, cur, false⟩
    else if c = RBRACK then
      if ct ≠ .arrayStart then ⟨.expectedDelimiter, .findingDelimiter, 0, cur, false⟩
      else ⟨.noError, .findingName, pos - cur, cur, false⟩
    else if !has c flWs then ⟨.expectedDelimiter, .findingDelimiter, 0, cur, false⟩
    else delimLoop o ct cs 0 (pos + 1) cur

/-- JSH 2266-2346 `findDelimiter`. -/
def findDelimiter (o : Opts) (stack : List Ty) (buf : Bytes) (cur : Nat) : DelimRes :=
  match stack with
  | [] => ⟨.illegalPropertyType, .findingDelimiter, 0, cur, false⟩
  | ct :: _ =>
    let k := wsSkip o.simd (!o.newLines) (buf.drop cur)
    delimLoop o ct (buf.drop (cur + k)) 0 (cur + k) cur

/-- JSH 2378-2424, the loop of `findTokenEnd`. `comma` reports the assignment
`expecting_prop_or_anonymous_data = true`. -/
def tokenEndLoop (o : Opts) : Bytes → (skip pos cur : Nat) → DelimRes
  | [], _, _, cur => ⟨.needMoreData, .findingTokenEnd, 0, cur, false⟩
  | _ :: cs, skip + 1, pos, cur => tokenEndLoop o cs skip (pos + 1) cur
  | c :: cs, 0, pos, cur =>
    if o.comments && c == SLASH && cs.head? == some SLASH then
      match skipComment o.simd o.newLines cs.tail with
      | none => ⟨.needMoreData, .findingTokenEnd, 0, pos + 2, false⟩
      | some k => tokenEndLoop o cs (k + 1) (pos + 1) (pos + 2 + k)
    else if c = COMMA then ⟨.noError, .findingName, pos + 1 - cur, cur, true⟩
    else if c = RBRACK ∨ c = RBRACE then ⟨.noError, .findingName, pos - cur, cur, false⟩
    else if c = LF then
      if o.newLines then ⟨.noError, .findingName, pos + 1 - cur, cur, false⟩
      else tokenEndLoop o cs 0 (pos + 1) cur
    else if has c flWs then tokenEndLoop o cs 0 (pos + 1) cur
    else ⟨.invalidToken, .findingTokenEnd, pos + 1 - cur, cur, false⟩

/-- JSH 2348-2425 `findTokenEnd`. -/
def findTokenEnd (o : Opts) (stack : List Ty) (buf : Bytes) (cur : Nat) : DelimRes :=
  match stack with
  | [] => ⟨.noError, .findingName, 0, cur, false⟩
  | _ :: _ =>
    let k := wsSkip o.simd (!o.newLines && !o.ascii) (buf.drop cur)
    tokenEndLoop o (buf.drop (cur + k)) 0 (cur + k) cur

/-! ### Reading one name or value -/

/-- JSH 2504-2573: Out parameters of `populateFromDataRef`: `data` is the range `[ptr, ptr+size)` of
the buffer. -/
structure PopRes where
  err : Err
  ptr : Nat
  size : Nat
  type : Ty
  tz : Tz
  deriving Repr

/-- JSH 2529, 2672: one of the four bracket types. -/
def Ty.isBracket : Ty → Bool
  | .objectStart | .objectEnd | .arrayStart | .arrayEnd => true
  | _ => false

/-- JSH 2540-2572, second half of `populateFromDataRef`, `property_state == FindingEnd`. -/
def Tz.populateEnd (t : Tz) (buf : Bytes) (ptr : Nat) (type : Ty) : PopRes :=
  match type with
  | .string =>
    let r := findStringEnd t.opts.simd t.isEscaped (buf.drop t.cursor)
    match r.1 with
    | none => ⟨.needMoreData, ptr, 0, type, { t with isEscaped := r.2 }⟩
    | some k =>
      let c := t.cursor + k
      ⟨.noError, ptr, c - t.dataStart - 1, type,
        { t with isEscaped := r.2, cursor := c, propState := .foundEnd }⟩
  | .number =>
    match findNumberEnd t.opts.simd (buf.drop t.cursor) with
    | .more => ⟨.needMoreData, ptr, 0, type, t⟩
    | .found k =>
      let c := t.cursor + k
      ⟨.noError, ptr, c - t.dataStart, type, { t with cursor := c, propState := .foundEnd }⟩
  | .ascii =>
    match findAsciiEnd t.opts.simd (buf.drop t.cursor) with
    | .more => ⟨.needMoreData, ptr, 0, type, t⟩
    | .found k =>
      let c := t.cursor + k
      ⟨.noError, ptr, c - t.dataStart, type, { t with cursor := c, propState := .foundEnd }⟩
  | _ => ⟨.invalidToken, ptr, 0, type, t⟩

/-- JSH 2504-2573 `populateFromDataRef`; `type` is the in/out parameter. -/
def Tz.populateFrom (t : Tz) (buf : Bytes) (type : Ty) : PopRes :=
  match t.propState with
  | .noStartFound =>
    let r := findStart t.opts buf t.cursor
    if r.err ≠ .noError then ⟨r.err, t.cursor, 0, .error, { t with cursor := r.cursor }⟩
    else
      let start := r.cursor + r.ahead
      let ptr := if r.type = .string then start + 1 else start
      let t' := { t with cursor := start + 1, dataStart := ptr, propType := r.type }
      if r.type.isBracket then ⟨.noError, ptr, 1, r.type, { t' with propState := .foundEnd }⟩
      else Tz.populateEnd { t' with propState := .findingEnd } buf ptr r.type
  | .findingEnd => t.populateEnd buf t.cursor type
  | .foundEnd => ⟨.noError, t.cursor, 0, type, t⟩

/-- JSH 2568, 2651, 2752: The bytes `[ptr, ptr+size)` of a buffer. -/
def slice (buf : Bytes) (ptr size : Nat) : Bytes := (buf.drop ptr).take size

/-- JSH 2586-2621 `getType`: keywords among the ascii words. The 32 bit loads are
compared as the four bytes they load on a little endian machine. -/
def getType (type : Ty) (b : Bytes) : Ty :=
  if type ≠ .ascii then type
  else if b.length = 4 then
    if b.take 4 = [110, 117, 108, 108] then .null
    else if b.take 4 = [116, 114, 117, 101] then .bool
    else .ascii
  else if b.length = 5 then
    if b.take 4 = [102, 97, 108, 115] ∧ b.getD 4 0 = 101 then .bool
    else .ascii
  else .ascii

/-- JSH 2575-2581 `populate_anonymous_token`. -/
def anonymous (d : DataRef) (type : Ty) : Token :=
  { name := {}, nameType := .ascii, value := d, valueType := type }

/-- JSH 2623-2627 `Internal::strnlen` followed by `append`: the bytes from `ptr` to the
end of the buffer, cut at the first NUL. -/
def untilNul (buf : Bytes) (ptr len : Nat) : Bytes := (slice buf ptr len).takeWhile (· ≠ 0)

/-- JSH 2634-2807: One iteration of the loop in `populateNextTokenFromDataRef` returns or goes on. -/
inductive Step
  | ret (e : Err) (t : Tz) (tok : Option Token)
  | cont (t : Tz) (tmp : Token)
  deriving Repr

/-- JSH 2642-2704, `case FindingName`. -/
def Tz.stepName (t : Tz) (buf : Bytes) (tmp : Token) : Step :=
  let p := t.populateFrom buf t.inter.nameType
  let t := p.tz
  if p.err = .needMoreData then
    if t.propState ≠ .noStartFound then
      let i := t.inter
      let add := untilNul buf p.ptr (buf.length - t.dataStart)
      let i := { i with active := true, name := i.name ++ add }
      let i := if i.nameTypeSet then i else { i with nameType := p.type, nameTypeSet := true }
      .ret .needMoreData { t with inter := i } none
    else .ret .needMoreData t none
  else if p.err ≠ .noError then .ret p.err t none
  else
    let d0 : DataRef := { loc := .input p.ptr, bytes := slice buf p.ptr p.size }
    let t := if t.inter.active then { t with inter := { t.inter with name := t.inter.name ++ d0.bytes } } else t
    let data : DataRef := if t.inter.active then { loc := .own, bytes := t.inter.name } else d0
    let type := if t.inter.active then t.inter.nameType else p.type
    match type with
    | .objectEnd | .arrayEnd =>
      if t.expecting && !t.opts.superfluousComma then .ret .expectedDataToken t none
      else .ret .noError { t with tokenState := .findingTokenEnd } (some (anonymous data type))
    | .objectStart | .arrayStart =>
      .ret .noError { t with expecting := false, tokenState := .findingName } (some (anonymous data type))
    | _ =>
      let tmp := { tmp with name := data, nameType := getType type data.bytes }
      .cont { t with tokenState := .findingDelimiter }.resetForNewValue tmp

/-- JSH 2710-2715, 2743-2748: save the name in the intermediate token unless it is
active already. -/
def Inter.saveName (i : Inter) (tmp : Token) : Inter :=
  if i.active then i
  else { i with name := i.name ++ tmp.name.bytes, nameType := tmp.nameType, active := true }

/-- JSH 2706-2736, `case FindingDelimiter`. -/
def Tz.stepDelimiter (t : Tz) (buf : Bytes) (tmp : Token) : Step :=
  let r := findDelimiter t.opts t.stack buf t.cursor
  let t := { t with cursor := r.cursor }
  if r.err ≠ .noError then .ret r.err { t with inter := t.inter.saveName tmp } none
  else
    let t := { t with cursor := t.cursor + r.ahead, tokenState := r.state, expecting := false }.resetForNewValue
    if r.state = .findingName then .ret .noError t (some (anonymous tmp.name tmp.nameType))
    else if tmp.nameType ≠ .string ∧ (t.opts.ascii = false ∨ tmp.nameType ≠ .ascii) then
      .ret .illegalPropertyName t none
    else .cont t tmp

/-- JSH 2738-2795, `case FindingData`. -/
def Tz.stepData (t : Tz) (buf : Bytes) (tmp : Token) : Step :=
  let p := t.populateFrom buf t.inter.dataType
  let t := p.tz
  if p.err = .needMoreData then
    let i := t.inter.saveName tmp
    let i :=
      if t.propState ≠ .noStartFound then
        let add := untilNul buf p.ptr (buf.length - t.dataStart)
        let i := { i with data := i.data ++ add }
        if i.dataTypeSet then i else { i with dataType := p.type, dataTypeSet := true }
      else i
    .ret .needMoreData { t with inter := i } none
  else if p.err ≠ .noError then .ret p.err t none
  else
    let d0 : DataRef := { loc := .input p.ptr, bytes := slice buf p.ptr p.size }
    let t :=
      if t.inter.active then
        let i := { t.inter with data := t.inter.data ++ d0.bytes }
        let i := if i.dataTypeSet then i else { i with dataType := p.type, dataTypeSet := true }
        { t with inter := i }
      else t
    let tmp : Token :=
      if t.inter.active then
        { tmp with name := { loc := .own, bytes := t.inter.name }, nameType := t.inter.nameType }
      else tmp
    let data : DataRef := if t.inter.active then { loc := .own, bytes := t.inter.data } else d0
    let type := if t.inter.active then t.inter.dataType else p.type
    let tmp : Token := { tmp with value := data, valueType := getType type data.bytes }
    if tmp.valueType = .ascii ∧ t.opts.ascii = false then .ret .illegalDataValue t none
    else
      let st : TokState :=
        if type = .objectStart ∨ type = .arrayStart then .findingName else .findingTokenEnd
      .ret .noError { t with tokenState := st } (some tmp)

/-- JSH 2796-2804, `case FindingTokenEnd`. -/
def Tz.stepTokenEnd (t : Tz) (buf : Bytes) (tmp : Token) : Step :=
  let r := findTokenEnd t.opts t.stack buf t.cursor
  let t := { t with cursor := r.cursor, expecting := t.expecting || r.comma }
  if r.err ≠ .noError then .ret r.err t none
  else .cont { t with cursor := t.cursor + r.ahead, tokenState := .findingName } tmp

/-- JSH 2640-2805, the `switch`. -/
def Tz.step (t : Tz) (buf : Bytes) (tmp : Token) : Step :=
  match t.tokenState with
  | .findingName => t.stepName buf tmp
  | .findingDelimiter => t.stepDelimiter buf tmp
  | .findingData => t.stepData buf tmp
  | .findingTokenEnd => t.stepTokenEnd buf tmp

/-- JSH 2634-2807, the loop of `populateNextTokenFromDataRef`. The counter bounds the
iterations; four always suffice (theorem `populateLoop_four`). The token is
written only on success. -/
def Tz.populateLoop : Nat → Tz → Bytes → Token → Err × Tz × Option Token
  | 0, t, _, _ => (.needMoreData, t, none)
  | n + 1, t, buf, tmp =>
    if t.cursor < buf.length then
      match t.step buf tmp with
      | .ret e t tok => (e, t, tok)
      | .cont t tmp => Tz.populateLoop n t buf tmp
    else (.needMoreData, t, none)

/-- JSH 2631-2808 `populateNextTokenFromDataRef`. -/
def Tz.populateNext (t : Tz) (buf : Bytes) : Err × Tz × Option Token :=
  Tz.populateLoop 4 t buf {}

/-! ### Buffers -/

/-- JSH 2474-2478 `requestMoreData`. -/
def Tz.requestMoreData (t : Tz) : Tz :=
  match t.pending with
  | [] => t
  | bs :: rest => { t with bufs := t.bufs ++ bs, pending := rest }

/-- JSH 2480-2502 `releaseFirstDataRef`. -/
def Tz.releaseFirst (t : Tz) : Tz :=
  match t.bufs with
  | [] => t
  | b :: rest =>
    { t with
      copies := t.copies.map (fun (id, idx, acc) => (id, 0, acc ++ b.drop idx))
      cursor := 0, dataStart := 0, bufs := rest, released := t.released ++ [b] }

/-- JSH 1723-1737, a bound for the iterations: Buffers registered or still to be supplied. -/
def Tz.supply (t : Tz) : Nat := t.bufs.length + (t.pending.map List.length).sum

/-- JSH 1723-1737, the loop of `nextToken` over the buffers. The counter bounds the
iterations; `t.supply` suffices since each iteration but the last releases a buffer. -/
def Tz.pump : Nat → Tz → Err × Tz × Option Token
  | 0, t => (.needMoreData, t, none)
  | n + 1, t =>
    match t.bufs with
    | [] => (.needMoreData, t, none)
    | b :: _ =>
      let r := t.populateNext b
      if r.1 = .needMoreData then Tz.pump n r.2.1.releaseFirst.requestMoreData
      else r

/-- `scope_counter.back().handleType(type)` if there is a scope (JSH 1704, 1764). -/
def handleScope (ss : List Scope) (ty : Ty) : List Scope :=
  match ss with
  | [] => []
  | s :: rest => s.handleType ty :: rest

/-- JSH 1740-1766: bracket bookkeeping for a token about to be returned. -/
def Tz.finish (t : Tz) (tok : Token) : Err × Tz :=
  let t := if tok.valueType = .arrayStart ∨ tok.valueType = .objectStart then
      { t with stack := tok.valueType :: t.stack } else t
  if tok.valueType = .arrayEnd then
    match t.stack with
    | .arrayStart :: rest => (.noError, { t with stack := rest, scopes := handleScope t.scopes tok.valueType })
    | _ => (.unexpectedArrayEnd, t)
  else if tok.valueType = .objectEnd then
    match t.stack with
    | .objectStart :: rest => (.noError, { t with stack := rest, scopes := handleScope t.scopes tok.valueType })
    | _ => (.unexpectedObjectEnd, t)
  else (.noError, { t with scopes := handleScope t.scopes tok.valueType })

/-- JSH 1695-1707: tokens taken from a token vector. Reading past its end is undefined. -/
def Tz.nextParsed (t : Tz) (ts : List Token) (next : Token) : Err × Tz × Token :=
  match ts[t.cursor]? with
  | none => (.ub, t, next)
  | some tok =>
    let c := t.cursor + 1
    let t := if c = ts.length then { t with cursor := 0, parsed := none } else { t with cursor := c }
    (.noError, { t with scopes := handleScope t.scopes tok.valueType }, tok)

/-- JSH 1687-1768 `nextToken`. `next` is the in/out parameter: unchanged unless a
token is produced (a mismatched closing bracket is stored although the call fails). -/
def Tz.nextToken (t : Tz) (next : Token) : Err × Tz × Token :=
  match t.scopes with
  | { depth := 0, .. } :: _ => (.scopeHasEnded, t, next)
  | _ =>
    match t.parsed with
    | some ts => t.nextParsed ts next
    | none =>
      let t := if t.bufs = [] then t.requestMoreData else t
      if t.bufs = [] then (.needMoreData, t, next)
      else
        let t := if t.continueAfter then t else t.resetForNewToken
        let r := Tz.pump t.supply t
        let t := { r.2.1 with continueAfter := r.1 == .needMoreData }
        match r.2.2 with
        | none => (r.1, t, next)
        | some tok =>
          let f := t.finish tok
          (f.1, f.2, tok)

/-! ### Scopes and copies -/

/-- JSH 1818-1823 `pushScope`. -/
def Tz.pushScope (t : Tz) (type : Ty) : Tz :=
  { t with scopes := ⟨type, if type ≠ .arrayStart ∧ type ≠ .objectStart then 0 else 1⟩ :: t.scopes }

/-- JSH 1825-1829 `popScope`; undefined without a scope (`pop_back` of an empty vector). -/
def Tz.popScope (t : Tz) : Option Tz :=
  match t.scopes with
  | [] => none
  | _ :: rest => some { t with scopes := rest }

/-- JSH 1831-1839 `goToEndOfScope`; the counter bounds the iterations. The third
component of the result is the token parameter. -/
def Tz.goToEndOfScope : Nat → Tz → Token → Err × Tz × Token
  | 0, t, tok => (.noError, t, tok)
  | n + 1, t, tok =>
    match t.scopes with
    | [] => (.ub, t, tok)
    | s :: _ =>
      if s.depth = 0 then (.noError, t, tok)
      else
        let r := t.nextToken tok
        if r.1 = .noError then Tz.goToEndOfScope n r.2.1 r.2.2 else r

/-- JSH 1789-1804 `copyFromValue`: start recording at the token's value. A value in the
intermediate token is copied and recording starts at the cursor; otherwise it
starts at the value's offset in the current buffer. -/
def Tz.copyFromValue (t : Tz) (tok : Token) (id : Nat) (to : Bytes) : Tz :=
  match tok.value.loc with
  | .input off => { t with copies := t.copies ++ [(id, off, to)] }
  | _ => { t with copies := t.copies ++ [(id, t.cursor, to ++ tok.value.bytes)] }

/-- JSH 1806-1816 `copyIncludingValue`: stop recording, returning the recorded string. -/
def Tz.copyIncludingValue (t : Tz) (id : Nat) : Option (Bytes × Tz) :=
  match t.copies.find? (fun e => e.1 == id), t.bufs with
  | some (_, idx, acc), b :: _ =>
    some (acc ++ (b.drop idx).take (t.cursor - idx),
      { t with copies := t.copies.eraseP (fun e => e.1 == id) })
  | some (_, _, acc), [] =>
    some (acc, { t with copies := t.copies.eraseP (fun e => e.1 == id) })
  | none, _ => none

/-! ### Whole inputs -/

/-- JSH 1687-1768, a history of calls: Call `nextToken` until it does not return `NoError` (at most `n` times): the tokens
delivered, the last error and the state left. -/
def Tz.collect : Nat → Tz → Token → List Token × Err × Tz
  | 0, t, _ => ([], .noError, t)
  | n + 1, t, next =>
    let r := t.nextToken next
    if r.1 = .noError then
      let rest := Tz.collect n r.2.1 r.2.2
      (r.2.2 :: rest.1, rest.2)
    else ([], r.1, r.2.1)

/-- JSH 1626-1629 and 1687-1768, a history of calls:
Feed the buffers `bs` to a fresh tokenizer and read all tokens. One call more than
there are bytes is enough to see an error (theorem `tokenize_stops`). -/
def tokenizeAll (o : Opts) (bs : List Bytes) : List Token × Err × Tz :=
  Tz.collect (bs.flatten.length + 1) { Tz.new o with bufs := bs } {}

/-- JSH 1626-1629 and 1687-1768, a history of calls: The token contents and the final error for a document in one buffer. -/
def tokenize (o : Opts) (b : Bytes) : List Tok × Err :=
  let r := tokenizeAll o [b]
  (r.1.map Token.tok, r.2.1)

/-- JSH 1626-1629 and 1687-1768, a history of calls: The same for a document cut into buffers. -/
def tokenizeBufs (o : Opts) (bs : List Bytes) : List Tok × Err :=
  let r := tokenizeAll o bs
  (r.1.map Token.tok, r.2.1)

end JsonStruct
