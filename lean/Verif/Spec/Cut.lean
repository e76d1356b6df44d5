import Verif.Spec.Json

/-
Where a text may be cut into buffers. A small lexer follows the bytes of a beginning of a
text; it knows nothing of the tokenizer. Of the options it uses three: whether there are
comments, whether line breaks separate values, and whether the build has vector instructions.
-/

namespace JsonStruct

/-- Where the beginning of a text ends. `value` tells the value of an object member from
member names and array elements. -/
inductive Place
  | item                             -- an array element, a member or a closing bracket may begin
  | string (value escaped : Bool)    -- inside a string; `escaped`: directly behind a backslash
  | number (value : Bool)            -- inside a number, which may go on or be complete
  | word (value : Bool)              -- the same for `true`, `false`, `null`
  | behind (quoted apart : Bool)     -- behind a member name or an array element that is no container;
                                     -- `quoted`: it was a string; `apart`: white space followed
  | colon (apart : Bool)             -- behind a colon; `apart`: white space followed
  | done                             -- behind the value of a member or a closing bracket
  | slash (back : Place)             -- behind the first slash of a comment at the place `back`
  | comment (back : Place)           -- inside a comment, behind its two slashes
  | off                              -- not a beginning of a document
  deriving DecidableEq, Repr

/-- A place and the containers open there, innermost first. -/
abbrev Spot := Place × List Ty

def numberStart (c : Byte) : Bool := isDigit c || c == 0x2D
def numberByte (c : Byte) : Bool := isDigit c || c == 0x2B || c == 0x2D || c == 0x2E || c == 0x65 || c == 0x45
def letter (c : Byte) : Bool := 0x61 ≤ c && c ≤ 0x7A

/-- A string, a number, a word or a container begins with `c`. -/
def Spot.start (value : Bool) (st : List Ty) (c : Byte) : Spot :=
  if c = 0x22 then (.string value false, st)
  else if numberStart c then (.number value, st)
  else if letter c then (.word value, st)
  else if c = 0x7B then (.item, .objectStart :: st)
  else if c = 0x5B then (.item, .arrayStart :: st)
  else (.off, st)

/-- Behind a closing bracket; a next document may follow the root. -/
def Spot.closed (st : List Ty) : Spot := (if st = [] then .item else .done, st)

/-- The closing bracket `c`. -/
def Spot.close (st : List Ty) (c : Byte) : Spot :=
  match st with
  | .objectStart :: st => if c = 0x7D then Spot.closed st else (.off, st)
  | .arrayStart :: st => if c = 0x5D then Spot.closed st else (.off, st)
  | st => (.off, st)

/-- `c` begins a comment. -/
def opensComment (o : Opts) (c : Byte) : Bool := c == 0x2F && o.comments

/-- `c` ends a line, and this separates values. -/
def endsLine (o : Opts) (c : Byte) : Bool := c == 0x0A && o.newLines

/-- `c` follows a name or an element. -/
def Spot.separate (o : Opts) (quoted : Bool) (st : List Ty) (c : Byte) : Spot :=
  if endsLine o c then (if st.head? = some .arrayStart then .item else .off, st)
  else if isWs c then (.behind quoted true, st)
  else if opensComment o c then (.slash (.behind quoted true), st)
  else match st with
    | .objectStart :: _ => if c = 0x3A then (.colon false, st) else (.off, st)
    | .arrayStart :: _ => if c = 0x2C then (.item, st) else Spot.close st c
    | _ => (.off, st)

/-- `c` follows a member's value or a closing bracket. -/
def Spot.finish (o : Opts) (st : List Ty) (c : Byte) : Spot :=
  if endsLine o c then (.item, st)
  else if isWs c then (.done, st)
  else if opensComment o c then (.slash .done, st)
  else if c = 0x2C then (.item, st) else Spot.close st c

/-- One more byte, outside of comments. -/
def Spot.step (o : Opts) : Spot → Byte → Spot
  | (.item, st), c =>
    if isWs c then (.item, st) else if opensComment o c then (.slash .item, st)
    else if c = 0x7D ∨ c = 0x5D then Spot.close st c else Spot.start false st c
  | (.string v true, st), _ => (.string v false, st)
  | (.string v false, st), c =>
    if c = 0x5C then (.string v true, st)
    else if c = 0x22 then (if v then .done else .behind true false, st)
    else (.string v false, st)
  | (.number v, st), c =>
    if numberByte c then (.number v, st) else if v then Spot.finish o st c else Spot.separate o false st c
  | (.word v, st), c =>
    if letter c then (.word v, st) else if c = 0x2F then (.off, st) else if v then Spot.finish o st c else Spot.separate o false st c
  | (.behind q _, st), c => Spot.separate o q st c
  | (.colon _, st), c =>
    if isWs c then (.colon true, st) else if opensComment o c then (.slash (.colon true), st) else Spot.start true st c
  | (.done, st), c => Spot.finish o st c
  | (_, st), _ => (.off, st)

/-- One more byte. A comment ends with the line; the line break is part of it unless line
breaks separate values. -/
def Spot.next (o : Opts) : Spot → Byte → Spot
  | (.slash p, st), c => (if c = 0x2F then .comment p else .off, st)
  | (.comment p, st), c =>
    if c ≠ 0x0A then (.comment p, st) else if o.newLines then Spot.step o (p, st) c else (p, st)
  | x, c => Spot.step o x c

/-- Where the bytes `p` lead to. -/
def Spot.after (o : Opts) (x : Spot) (p : Bytes) : Spot := p.foldl (Spot.next o) x

/-- Where a text beginning with `p` stands behind `p`. -/
def spotBehind (o : Opts) (p : Bytes) : Spot := Spot.after o (.item, []) p

/-- A buffer may end here. It may not
* directly behind the closing quote of a member name,
* directly behind a colon,
* behind an array element that is a string,
* behind the white space after an array element that is a number or a word,
* between a backslash and the byte it escapes (builds with vector instructions only),
* between the two slashes of a comment, or inside the comment. -/
def Spot.safe (vector : Bool) : Spot → Bool
  | (.item, _) | (.number _, _) | (.word _, _) | (.done, _) => true
  | (.string _ escaped, _) => !(escaped && vector)
  | (.behind quoted apart, .objectStart :: _) => quoted && apart
  | (.colon apart, _) => apart
  | _ => false

/-- Every cut between two buffers is at a safe place. -/
def SafeCuts (o : Opts) (bs : List Bytes) : Prop :=
  ∀ pre post : List Bytes, bs = pre ++ post → post ≠ [] → (spotBehind o pre.flatten).safe (o.simd != .scalar) = true

end JsonStruct
