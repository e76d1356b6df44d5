import Verif.Model.Serializer

/-
Specification for C86: what the calls of the setters of `SerializerOptions` ask for.
-/

namespace JsonStruct

/-- A call of a setter. -/
inductive SetOpt
  | style (pretty : Bool)
  | shiftSize (n : Nat)
  | depth (d : Nat)
  | convertAscii (b : Bool)
  | skipDelimiter (b : Bool)
  deriving DecidableEq, Repr

/-- JSH 3112-3157: the call itself. -/
def SerOpts.set (o : SerOpts) : SetOpt → SerOpts
  | .style p => o.setStyle p
  | .shiftSize n => o.setShiftSize n
  | .depth d => o.setDepth d
  | .convertAscii b => o.setConvertAscii b
  | .skipDelimiter b => o.skipDelimiter b

/-- Options made with a style, after calls of setters. -/
def SerOpts.made (pretty : Bool) (calls : List SetOpt) : SerOpts := calls.foldl SerOpts.set (SerOpts.new pretty)

/-- The last style asked for; `pretty` is that of the constructor. -/
def lastStyle (pretty : Bool) (calls : List SetOpt) : Bool :=
  (calls.filterMap fun | .style p => some p | _ => none).getLastD pretty

/-- The last shift size; without a call it is 2 or 0, as the style given to the constructor. -/
def lastShift (pretty : Bool) (calls : List SetOpt) : Nat :=
  (calls.filterMap fun | .shiftSize n => some n | _ => none).getLastD (if pretty then 2 else 0)

/-- The last depth. -/
def lastDepth (calls : List SetOpt) : Nat := (calls.filterMap fun | .depth d => some d | _ => none).getLastD 0

/-- Whether ASCII tokens are to be quoted. -/
def lastAscii (calls : List SetOpt) : Bool := (calls.filterMap fun | .convertAscii b => some b | _ => none).getLastD true

/-- Whether commas are to be left out. -/
def lastSkip (calls : List SetOpt) : Bool := (calls.filterMap fun | .skipDelimiter b => some b | _ => none).getLastD false

end JsonStruct
