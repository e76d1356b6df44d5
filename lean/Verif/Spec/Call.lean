import Verif.Model.Call
import Verif.Spec.Types
import Verif.Spec.Encode
import Verif.Lemmas.Deliver

/-
What calling functions from a JSON object amounts to, as a function of the members of the object: no tokenizer, no
scopes, no loops over tokens.
-/

namespace JsonStruct

mutual
/-- All functions of a table, in the order in which they are considered: the last declared first, then the super
classes. -/
def FnTable.order : FnTable W → List (Fn W)
  | .mk fns supers => fns.reverse ++ fnOrders supers
def fnOrders : List (FnTable W) → List (Fn W)
  | [] => []
  | t :: ts => t.order ++ fnOrders ts
end

/-- The function registered under a name: the first whose primary name it is; if there is none, the first that has it
as an alias. -/
def FnTable.lookup (T : FnTable W) (name : Bytes) : Option (Fn W) :=
  (T.order.find? fun f => f.names.head? = some name).or (T.order.find? fun f => name ∈ f.names.tail)

/-- A history of calls, whatever the functions do. `Called T F ctx ms w rs w'`: for the members `ms`, in this order, the
functions registered in `T` have been called, once each, starting with the container `w` and ending with `w'`; `rs` are
the records. Each function was handed a context at the beginning of the member's value, in which no error is set and
which delivers the tokens of this value. (`F` bounds the loops.) -/
inductive Called (T : FnTable W) (F : Nat) (ctx : Bytes) : List (Bytes × JVal) → W → List Exec → W → Prop
  | nil (w) : Called T F ctx [] w [] w
  | unknown {ms w rs w' name v r} (h : T.lookup name = none)
      (hr : r.name = name ∧ r.context = ctx ∧ r.error = .missingFunction) (hs : Called T F ctx ms w rs w') :
      Called T F ctx ((name, v) :: ms) w (r :: rs) w'
  | call {ms w w1 rs w' name v r f c c'} (h : T.lookup name = some f) (hc : f.call F w c = some (r.error, w1, c'))
      (hst : c.pc.Stream (v.toks name .string))
      (hr : r.name = name ∧ r.context = ctx ∧ r.error ≠ .missingFunction) (hs : Called T F ctx ms w1 rs w') :
      Called T F ctx ((name, v) :: ms) w (r :: rs) w'

/-! ### Functions described by their types -/

/-- The argument of a function: none, or one of a type. -/
inductive CArg (A : Type) : Type 1
  | void (a : A)
  | data (t : CType A)

/-- A function of a container `W`: its names, argument and return type, and what it does. One that takes a
`CallFunctionErrorContext` also says which errors it sets, in this order, with their messages. -/
inductive CFn (W : Type) : Type 1
  | plain {A R : Type} (names : List Bytes) (arg : CArg A) (ret : Option (CType R)) (f : W → A → W × R)
  | err {A R : Type} (names : List Bytes) (arg : CArg A) (ret : Option (CType R)) (f : W → A → W × R × List (Err × Bytes))

/-- A container's functions and super classes: the functions as declared, the super classes from the last one declared
to the first. -/
inductive CTable (W : Type) : Type 1
  | mk (fns : List (CFn W)) (supers : List (CTable W))

def CArg.arg : CArg A → Arg A
  | .void a => .void a
  | .data t => .data t.handler

def retOf (r : Option (CType R)) : Ret R := r.map CType.handler

def CFn.names : CFn W → List Bytes
  | .plain names .. => names
  | .err names .. => names

/-- The function as the library sees it. -/
def CFn.fn : CFn W → Fn W
  | .plain names arg ret f => Fn.plain names arg.arg (retOf ret) f
  | .err names arg ret f => Fn.err names arg.arg (retOf ret) f

mutual
/-- The table as the library sees it. -/
def CTable.table : CTable W → FnTable W
  | .mk fns supers => .mk (fns.map CFn.fn) (tablesOf supers)
def tablesOf : List (CTable W) → List (FnTable W)
  | [] => []
  | t :: ts => t.table :: tablesOf ts
end

mutual
/-- All functions, in the order in which they are considered: the last declared first, then the super classes. -/
def CTable.order : CTable W → List (CFn W)
  | .mk fns supers => fns.reverse ++ orders supers
def orders : List (CTable W) → List (CFn W)
  | [] => []
  | t :: ts => t.order ++ orders ts
end

/-- The function registered under a name: the first whose primary name it is; if there is none, the first that has it
as an alias. -/
def CTable.lookup (T : CTable W) (name : Bytes) : Option (CFn W) :=
  (T.order.find? fun f => f.names.head? = some name).or (T.order.find? fun f => name ∈ f.names.tail)

/-- What came of one member: the error, the reports, the container, the JSON value returned, if any, and the errors set
by the function, with their messages. -/
structure Outcome (W : Type) where
  err : Err
  missing : List Bytes := []
  unassigned : List Bytes := []
  state : W
  result : Option JVal := none
  sets : List (Err × Bytes) := []

/-- The error set last. -/
def lastSet (sets : List (Err × Bytes)) : Err := (sets.getLast?.map Prod.fst).getD .noError

/-- Reading the argument, into a new variable. -/
def CArg.dec (p : POpts) (l : Lbl) (v : JVal) : CArg A → Option (Res A)
  | .void a => some ⟨.noError, a, [], []⟩
  | .data t => t.dec p t.init (.val l v)

/-- The JSON value of what is returned; nothing for `void`. -/
def encRet (r : Option (CType R)) (x : R) : Option JVal := r.bind fun t => t.enc x

/-- Calling a function with the value `v` of a member: it is called if the argument could be read; what it returns
counts if it set no error. -/
def CFn.outcome (p : POpts) (l : Lbl) (v : JVal) (w : W) : CFn W → Option (Outcome W)
  | .plain _ arg ret f => do
    let r ← arg.dec p l v
    if r.err ≠ .noError then some ⟨r.err, r.missing, r.unassigned, w, none, []⟩
    else some ⟨.noError, r.missing, r.unassigned, (f w r.val).1, encRet ret (f w r.val).2, []⟩
  | .err _ arg ret f => do
    let r ← arg.dec p l v
    if r.err ≠ .noError then some ⟨r.err, r.missing, r.unassigned, w, none, []⟩
    else
      let e := lastSet (f w r.val).2.2
      some ⟨e, r.missing, r.unassigned, (f w r.val).1, if e = .noError then encRet ret (f w r.val).2.1 else none, (f w r.val).2.2⟩

/-- One member. -/
def CTable.member (T : CTable W) (p : POpts) (name : Bytes) (v : JVal) (w : W) : Option (Outcome W) :=
  match T.lookup name with
  | none => some { err := .missingFunction, state := w }
  | some f => f.outcome p (name, .string) v w

/-- All members, in order: the error returned, the container, one record for each member considered, and the values
returned. It stops only where `stop_execute_on_fail` says so; `allow_missing` makes an unknown function no reason to. -/
def CTable.calls (T : CTable W) (p : POpts) (ctx : Bytes) (allow stop : Bool) :
    List (Bytes × JVal) → W → Option (Err × W × List Exec × List JVal)
  | [], w => some (.noError, w, [], [])
  | (name, v) :: ms, w => do
    let o ← T.member p name v w
    let r : Exec := ⟨name, ctx, o.err, o.missing, o.unassigned⟩
    if stop = true ∧ o.err ≠ .noError ∧ ¬ (o.err = .missingFunction ∧ allow = true) then some (o.err, o.state, [r], o.result.toList)
    else do
      let (e, w, rs, js) ← T.calls p ctx allow stop ms o.state
      some (e, w, r :: rs, o.result.toList ++ js)

/-! ### The messages -/

/-- What came of every member considered, in order; it stops as `CTable.calls` does. -/
def CTable.outcomes (T : CTable W) (p : POpts) (allow stop : Bool) : List (Bytes × JVal) → W → Option (List (Outcome W))
  | [], _ => some []
  | (name, v) :: ms, w => do
    let o ← T.member p name v w
    if stop = true ∧ o.err ≠ .noError ∧ ¬ (o.err = .missingFunction ∧ allow = true) then some [o]
    else do
      let os ← T.outcomes p allow stop ms o.state
      some (o :: os)

/-- The first line of a message: the name of the error, unless it is `UserDefinedErrors`, and the text that was set. -/
def headLine (e : Err) (text : Bytes) : Bytes :=
  b!"Error" ++ (if e = .userDefinedErrors then [] else b!" " ++ errorString e) ++ (if text = [] then [] else b!" " ++ text) ++ b!":\n"

/-- How the message of a call begins, if the text `kept` was set by an earlier call: for an error set by the function with
that error and its text; for any other error with that error, but if there is a text from an earlier call, with `NoError`
and this text. -/
def Outcome.heading (o : Outcome W) (kept : Bytes) : Bytes :=
  match o.sets.getLast? with
  | some s => headLine s.1 s.2
  | none => if kept = [] then headLine o.err [] else headLine .noError kept

/-- The text set last, afterwards. -/
def Outcome.keeps (o : Outcome W) (kept : Bytes) : Bytes := (o.sets.getLast?.map Prod.snd).getD kept

/-- The messages of calls, one after the other: empty for a call that succeeded and set nothing; with the heading above
for a call that failed. (Nothing is said of calls that set an error and took it back.) -/
inductive Messages {W : Type} : Bytes → List (Outcome W) → List (Option Bytes) → Prop
  | nil (kept) : Messages kept [] []
  | cons {kept o os m ms} (ok : o.err = .noError → o.sets = [] → m = some [])
      (failed : o.err ≠ .noError → ∃ lines, m = some (o.heading kept ++ lines)) (rest : Messages (o.keeps kept) os ms) :
      Messages kept (o :: os) (m :: ms)

/-- The functions of a table set errors without a text only. -/
def CTable.Quiet (T : CTable W) : Prop := ∀ f ∈ T.order, match f with
  | .plain .. => True
  | .err _ _ _ f => ∀ w a, ∀ s ∈ (f w a).2.2, s.2 = []

/-- The name under which an error is written. -/
def reportName (e : Err) : Bytes := if e = .userDefinedErrors then b!"UserDefinedError" else errorString e

/-- One member of a record, if there is something to tell. -/
def noted (name : Bytes) (v : JVal) (show_ : Bool) : List (Bytes × JVal) := if show_ then [(name, v)] else []

/-- The JSON value of a record with its message. -/
def Exec.val (m : Simd) (x : Exec) (message : Bytes) : JVal :=
  .obj ([(b!"name", .str (escapesOut m x.name))] ++ noted b!"context" (.str (escapesOut m x.context)) (x.context ≠ []) ++
    [(b!"error", .str (reportName x.error))] ++ noted b!"error_string" (.str (escapesOut m message)) (message ≠ []) ++
    noted b!"missing_members" (.arr (x.missing.map fun n => .str (escapesOut m n))) (x.missing ≠ []) ++
    noted b!"unassigned_required_members" (.arr (x.unassigned.map fun n => .str (escapesOut m n))) (x.unassigned ≠ []))

/-- Values returned by a function are of its return type. -/
def retValid (r : Option (CType R)) (x : R) : Prop := ∀ t, r = some t → t.Valid x

/-- Values returned are of the return type; no function sets `MissingFunction` itself. -/
def CFn.Proper : CFn W → Prop
  | .plain _ _ ret f => ∀ w a, retValid ret (f w a).2
  | .err _ _ ret f => ∀ w a, retValid ret (f w a).2.1 ∧ Err.missingFunction ∉ (f w a).2.2.map Prod.fst

/-- The declarations of the return types make sense. -/
def CFn.Lawful : CFn W → Prop
  | .plain _ _ ret _ => ∀ t, ret = some t → t.Lawful
  | .err _ _ ret _ => ∀ t, ret = some t → t.Lawful

def CTable.Proper (T : CTable W) : Prop := ∀ f ∈ T.order, f.Proper ∧ f.Lawful

end JsonStruct
