import Verif.Model.Tokenizer

/- Specification: arbitrary histories of calls on one tokenizer. -/

namespace JsonStruct

/-- The calls a user can make on a tokenizer that reads bytes. -/
inductive Op
  | addData (b : Bytes)
  | next
  | resetData (b : Bytes) (index : Nat)
  | pushScope (ty : Ty)
  | popScope
  deriving Repr

/-- `resetData` must be given an index inside the data. -/
def Op.valid : Op → Prop
  | .resetData b i => i ≤ b.length
  | _ => True

/-- A tokenizer, the token variable passed to `nextToken`, what every call of
`nextToken` returned, and the number of bytes handed over. -/
structure World where
  tz : Tz
  tok : Token := {}
  log : List (Err × Token) := []
  supplied : Nat := 0

def World.step (w : World) : Op → World
  | .addData b => { w with tz := w.tz.addData b, supplied := w.supplied + b.length }
  | .next =>
    let r := w.tz.nextToken w.tok
    { w with tz := r.2.1, tok := r.2.2, log := w.log ++ [(r.1, r.2.2)] }
  | .resetData b i => { w with tz := w.tz.resetData b i, supplied := w.supplied + b.length }
  | .pushScope ty => { w with tz := w.tz.pushScope ty }
  | .popScope => match w.tz.popScope with | some t => { w with tz := t } | none => w

/-- A new tokenizer whose need-more-data callback adds the buffers of `script`, one
list per call. -/
def World.init (o : Opts) (script : List (List Bytes)) : World :=
  { tz := { Tz.new o with pending := script }
    supplied := (script.map (fun bs => (bs.map List.length).sum)).sum }

/-- The state after a history of calls. -/
def World.run (o : Opts) (script : List (List Bytes)) (ops : List Op) : World :=
  ops.foldl World.step (World.init o script)

/-- The tokens delivered with `NoError`. -/
def World.delivered (w : World) : List Token := (w.log.filter (fun e => e.1 = .noError)).map (·.2)

end JsonStruct
