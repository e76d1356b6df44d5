import Verif.Model.Tokenizer

/- Ways to hand a text to the tokenizer in pieces. -/

namespace JsonStruct

/-- The loop of a program that calls `nextToken` until it reports `NeedMoreData`, then
`addData` with the next buffer (`Tokenizer::addData` JSH 1626-1629, `nextToken` JSH
1687-1768), and so on. `n` bounds the calls per buffer. -/
def Tz.feed (n : Nat) : Tz → List Bytes → List Token × Err
  | t, [] => let r := Tz.collect n t {}; (r.1, r.2.1)
  | t, b :: bs =>
    let r := Tz.collect n t {}
    if r.2.1 = .needMoreData then
      let q := Tz.feed n (r.2.2.addData b) bs
      (r.1 ++ q.1, q.2)
    else (r.1, r.2.1)

/-- JSH 1626-1629 and 1687-1768, the history of calls:
The buffers are added one by one, each when the tokenizer has reported `NeedMoreData`. -/
def tokenizeFed (o : Opts) (bs : List Bytes) : List Tok × Err :=
  let r := Tz.feed (bs.flatten.length + 2) (Tz.new o) bs
  (r.1.map Token.tok, r.2)

/-- A `needMoreDataCallback` (JSH 1677-1680, 2474-2478) supplies the buffers: each call adds the
next group. -/
def tokenizeCallback (o : Opts) (groups : List (List Bytes)) : List Tok × Err :=
  let r := Tz.collect (groups.flatten.flatten.length + 1) { Tz.new o with pending := groups } {}
  (r.1.map Token.tok, r.2.1)

end JsonStruct
