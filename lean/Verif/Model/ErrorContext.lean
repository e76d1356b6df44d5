import Verif.Model.Handler

/-
The error context of the tokenizer: JSH 1308-1328 `ErrorContext`, 1878-1908 `makeErrorString` and
`setErrorContextConfig`, 2819-2903 `updateErrorContext`, and where `nextToken` (1687-1768) and
`ParseContext` (3907-3955, 4607-4619) use it.

`none` is an outcome C++ leaves undefined or an exception: a read outside of the buffer, or a string constructed with a
length that wrapped around.
-/

namespace JsonStruct

/-- JSH 1310-1328 `class ErrorContext`. -/
structure ErrCtx where
  line : Nat := 0
  character : Nat := 0
  error : Err := .noError
  custom : Bytes := []
  lines : List Bytes := []
  deriving DecidableEq, Repr, Inhabited

/-- JSH 1319-1325 `ErrorContext::clear`; the custom message stays. -/
def ErrCtx.clear (x : ErrCtx) : ErrCtx := { x with line := 0, character := 0, error := .noError, lines := [] }

/-- JSH 1434-1436 and 1594-1596: the three settings. `setErrorContextConfig` (JSH 1904-1908) sets the first and the
last; `line_range_context` is always 256. -/
structure ErrCfg where
  lineContext : Nat := 4
  rangeContext : Nat := 38
  deriving DecidableEq, Repr, Inhabited

/-- `line_range_context` (JSH 1595). -/
def lineRange : Nat := 256

/-- JSH 2834-2838: `int64_t(x)` of a `size_t`. -/
def toI64 (x : Nat) : Int := if x % 2 ^ 64 < 2 ^ 63 then (x % 2 ^ 64 : Nat) else ((x % 2 ^ 64 : Nat) : Int) - 2 ^ 64
/-- JSH 2837, 2847-2850: `size_t(x)` of an `int64_t`. -/
def toSize (x : Int) : Nat := (x % 2 ^ 64).toNat

/-- JSH 2887, 2900: `std::string(data + from, size)`: the bytes, if they are all inside of the buffer. -/
def sliceAt (d : Bytes) (start size : Nat) : Option Bytes :=
  if start + size ≤ d.length then some ((d.drop start).take size) else none

/-- The variables of the loop JSH 2843-2859. -/
structure BackSt where
  /-- `lines`: start and end of each line. -/
  lines : List (Nat × Nat)
  /-- `lines_back` -/
  back : Nat
  /-- `error_context.character` -/
  char : Nat
  /-- `cursor_back` -/
  cur : Nat
  deriving DecidableEq, Repr

/-- JSH 2847, 2861: `lines.front().start = x` -/
def frontStart (ls : List (Nat × Nat)) (x : Nat) : List (Nat × Nat) :=
  match ls with
  | [] => []
  | l :: r => (x, l.2) :: r

/-- JSH 2872, 2880: `lines.back().end = x` -/
def backEnd (ls : List (Nat × Nat)) (x : Nat) : List (Nat × Nat) :=
  match ls with
  | [] => []
  | [l] => [(l.1, x)]
  | l :: r => l :: backEnd r x

/-- JSH 2843-2859, the search for line breaks in front of the error. `k` is `cursor_back - stop_back`: the loop ends at
`k = 0`. (Positions are `int64_t` in C++. `cursor_back` is -1 only for `real_cursor_index` 0, where the loop does not
run and the variable is only compared to 0; it is 0 here.) `c` is `real_cursor_index`, `lc` is `line_context`, where 0
never equals `lines_back`. -/
def backLoop (d : Bytes) (c lc stop : Nat) : Nat → BackSt → Option BackSt
  | 0, s => some { s with cur := stop }
  | k + 1, s =>
    let cb := stop + (k + 1)
    match d[cb]? with
    | none => none
    | some b =>
      if b = LF then
        let s := { s with lines := frontStart s.lines (cb + 1), back := s.back + 1 }
        let s := if s.back = 1 then { s with char := c - cb } else s
        if s.back = lc then some { s with back := s.back - 1, cur := cb }
        else backLoop d c lc stop k { s with lines := (0, cb) :: s.lines }
      else backLoop d c lc stop k s

/-- JSH 2863-2878, the search for line breaks behind the error: `k` is `stop_forward - cursor_forward`; the lines and
`cursor_forward` at the end. -/
def fwdLoop (d : Bytes) (lc stop : Nat) : Nat → (addLine : Bool) → (fwd : Nat) → List (Nat × Nat) →
    Option (List (Nat × Nat) × Nat)
  | 0, _, _, ls => some (ls, stop)
  | k + 1, addLine, fwd, ls =>
    let cf := stop - (k + 1)
    let ls := if addLine then ls ++ [(cf, 0)] else ls
    match d[cf]? with
    | none => none
    | some b =>
      if b = LF then
        let ls := backEnd ls cf
        if fwd + 1 = lc then some (ls, cf) else fwdLoop d lc stop k true (fwd + 1) ls
      else fwdLoop d lc stop k false fwd ls

/-- JSH 2879-2880: `lines.back().end`, if it is still 0, becomes `size_t(cursor_forward - 1)`. -/
def closeLast (ls : List (Nat × Nat)) (cf : Nat) : List (Nat × Nat) :=
  match ls.getLast? with
  | some (_, 0) => backEnd ls (toSize ((cf : Int) - 1))
  | _ => ls

/-- JSH 2885-2888: one string for each line; `line.end - line.start` is computed in `size_t`. -/
def copyLines (d : Bytes) : List (Nat × Nat) → Option (List Bytes)
  | [] => some []
  | (a, b) :: r => do
    let x ← sliceAt d a (toSize ((b : Int) - a))
    let xs ← copyLines d r
    some (x :: xs)

/-- JSH 2834-2902: the lines copied around position `c` of the data `d`, and the position of the marker. -/
def reportAt (cfg : ErrCfg) (d : Bytes) (c : Nat) (x : ErrCtx) : Option ErrCtx :=
  let stop := c - min c lineRange
  let stopF := min (c + lineRange) d.length
  if d.length < c then none
  else do
    let s ← backLoop d c cfg.lineContext stop (c - 1 - stop) { lines := [(0, c)], back := 0, char := x.character, cur := c - 1 }
    let ls := match s.lines with
      | (0, _) :: _ => if 0 < s.cur then frontStart s.lines s.cur else s.lines
      | _ => s.lines
    let (ls, cf) ← fwdLoop d cfg.lineContext stopF (stopF - c) false 0 ls
    let ls := closeLast ls cf
    if 1 < ls.length then
      let copied ← copyLines d ls
      some { x with character := s.char, lines := x.lines ++ copied, line := s.back }
    else
      let range := toI64 cfg.rangeContext
      let left : Int := if range < c then (c : Int) - range else 0
      if 2 ^ 63 ≤ (c : Int) + range then none
      else
        let right : Int := if (d.length : Int) < c + range then d.length else c + range
        let copied ← sliceAt d (toSize left) (toSize (right - left))
        some { x with line := 0, character := toSize (c - left), lines := x.lines ++ [copied] }

/-- JSH 2826-2833:
Where the value of each token of a token vector is: the number of a block of memory and the offset in it. -/
abbrev MemAddr := Nat × Nat

/-- JSH 2826-2833 for token vectors: the data from the first to the last token, and the position of the token at the
cursor in it. Subtracting pointers into different blocks is undefined. -/
def vectorData (mem : List Bytes) (places : List MemAddr) (cursor : Nat) : Option (Bytes × Nat) := do
  let f ← places.head?
  let l ← places.getLast?
  let p ← places[cursor]?
  if f.1 = l.1 ∧ f.1 = p.1 ∧ f.2 ≤ p.2 ∧ p.2 ≤ l.2 then
    let m ← mem[f.1]?
    some ((m.drop f.2).take (l.2 - f.2), p.2 - f.2)
  else none

/-- JSH 2819-2903 `Tokenizer::updateErrorContext`. `mem` and `places` tell where the values of the tokens of a token
vector are; they are not used while the tokenizer reads bytes. -/
def Tz.updateErrorContext (t : Tz) (cfg : ErrCfg) (mem : List Bytes) (places : List MemAddr) (e : Err) (msg : Bytes)
    (x : ErrCtx) : Option ErrCtx :=
  let x := { x with error := e, custom := msg }
  match t.parsed, t.bufs with
  | some (_ :: _), _ => do
    let (d, c) ← vectorData mem places t.cursor
    reportAt cfg d c x
  | _, [] => some x
  | _, d :: _ => reportAt cfg d t.cursor x

/-- JSH 1687-1768, what `nextToken` does to the error context: nothing if it delivers no token for a closed scope or
reads from a token vector; else it is cleared, and written for every error but `NeedMoreData`. -/
def Tz.nextTokenErr (t : Tz) (cfg : ErrCfg) (tok : Token) (x : ErrCtx) : Option ErrCtx :=
  let r := t.nextToken tok
  if r.1 = .scopeHasEnded then some x
  else if t.parsed.isSome then some x
  else if r.1 = .noError ∨ r.1 = .needMoreData then some x.clear
  else r.2.1.updateErrorContext cfg [] [] r.1 [] x.clear

/-- JSH 1843-1875 `error_strings`. -/
def errorString : Err → Bytes
  | .noError => b!"NoError"
  | .needMoreData => b!"NeedMoreData"
  | .invalidToken => b!"InvalidToken"
  | .expectedPropertyName => b!"ExpectedPropertyName"
  | .expectedDelimiter => b!"ExpectedDelimiter"
  | .expectedDataToken => b!"ExpectedDataToken"
  | .expectedObjectStart => b!"ExpectedObjectStart"
  | .expectedObjectEnd => b!"ExpectedObjectEnd"
  | .expectedArrayStart => b!"ExpectedArrayStart"
  | .expectedArrayEnd => b!"ExpectedArrayEnd"
  | .unexpectedArrayEnd => b!"UnexpectedArrayEnd"
  | .unexpectedObjectEnd => b!"UnexpectedObjectEnd"
  | .illegalPropertyName => b!"IllegalPropertyName"
  | .illegalPropertyType => b!"IllegalPropertyType"
  | .illegalDataValue => b!"IllegalDataValue"
  | .encounteredIllegalChar => b!"EncounteredIllegalChar"
  | .nodeNotFound => b!"NodeNotFound"
  | .missingPropertyMember => b!"MissingPropertyMember"
  | .missingFunction => b!"MissingFunction"
  | .failedToParseBoolean => b!"FailedToParseBoolean"
  | .failedToParseDouble => b!"FailedToParseDouble"
  | .failedToParseFloat => b!"FailedToParseFloat"
  | .failedToParseInt => b!"FailedToParseInt"
  | .unassignedRequiredMember => b!"UnassignedRequiredMember"
  | .nonContigiousMemory => b!"NonContigiousMemory"
  | .scopeHasEnded => b!"ScopeHasEnded"
  | .keyNotFound => b!"KeyNotFound"
  | .duplicateInSet => b!"DuplicateInSet"
  | .unknownPropertyMember => b!"UnknownPropertyMember"
  | .unknownError => b!"UnknownError"
  | .userDefinedErrors => b!"UserDefinedErrors"
  | .ub => []

/-- JSH 1893-1899: the line with the marker. -/
def pointing (character : Nat) : Bytes := List.replicate character SPACE ++ [94, LF]

/-- JSH 1890-1900, the loop over the lines; `i` counts them. -/
def messageLines (x : ErrCtx) : Nat → List Bytes → Bytes
  | _, [] => []
  | i, l :: r => l ++ [LF] ++ (if i = x.line then pointing x.character else []) ++ messageLines x (i + 1) r

/-- JSH 1878-1902 `Tokenizer::makeErrorString`. -/
def ErrCtx.message (x : ErrCtx) : Bytes :=
  b!"Error" ++ (if x.error ≠ .userDefinedErrors then b!" " ++ errorString x.error else [])
    ++ (if x.custom.length ≠ 0 then b!" " ++ x.custom else []) ++ b!":\n" ++ messageLines x 0 x.lines

/-- JSH 4607-4619: `parseTo` writes the error context unless one was written. `x` is the context when the handler
returned with error `e` and tokenizer `t`. -/
def Tz.parseToErr (t : Tz) (cfg : ErrCfg) (e : Err) (x : ErrCtx) : Option ErrCtx :=
  if e ≠ .noError ∧ x.error = .noError then t.updateErrorContext cfg [] [] e [] x else some x

end JsonStruct
