import Verif.Model.Types
import Verif.Model.ErrorContext

/-
Calling functions from JSON (JSH 4728-5556): an object whose members name functions of a container and hold their
arguments.

Left out: `child_states` (never written), `user_handle`, and the virtual functions called before and after. A function
of the user's own is any function of the container and its argument; it may change the container.
-/

namespace JsonStruct

/-- JSH 4728-4744 `CallFunctionExecutionState`, without `error_string`, which is kept apart (`CallCtx.messages`). -/
structure Exec where
  name : Bytes
  context : Bytes := []
  error : Err := .noError
  missing : List Bytes := []
  unassigned : List Bytes := []
  deriving DecidableEq, Repr

/-- JSH 4766-4797 `CallFunctionContext`. `messages` are the `error_string`s of the entries of `execution_list`, in the
same order. `report` is the error context of the tokenizer, `cfg` its settings. `none` among them is what comes of
undefined behaviour in `updateErrorContext`. -/
structure CallCtx where
  pc : Ctx
  ser : Ser
  list : List Exec := []
  messages : List (Option Bytes) := []
  report : Option ErrCtx := some {}
  cfg : ErrCfg := {}
  userContext : Bytes := []
  allowMissing : Bool := false
  stopOnFail : Bool := false

/-- JSH 4804-4805, 5474, `execution_list.back()`: Change the last entry of `execution_list`. -/
def modifyLast (f : α → α) : List α → List α
  | [] => []
  | [x] => [f x]
  | x :: y :: ys => x :: modifyLast f (y :: ys)

/-- JSH 4799-4809 `CallFunctionErrorContext::setError` of an error and a message. The message put into the entry is made
before the error context is written. -/
def CallCtx.setError (c : CallCtx) (e : Err × Bytes) : CallCtx :=
  { c with
    pc := { c.pc with error := e.1 }
    list := modifyLast (fun x => { x with error := e.1 }) c.list
    messages := modifyLast (fun _ => c.report.map ErrCtx.message) c.messages
    report := c.report.bind (c.pc.tz.updateErrorContext c.cfg [] [] e.1 e.2) }

/-- JSH 3901-3905 `parse_context.nextToken()` with what it does to the error context. -/
def CallCtx.next (c : CallCtx) : CallCtx :=
  { c with pc := c.pc.next, report := c.report.bind (c.pc.tz.nextTokenErr c.cfg c.pc.token) }

/-- JSH 5051-5247, `ArgType`: The argument of a function: none, or one of some type. -/
inductive Arg (A : Type) where
  | void (a : A)
  | data (h : Handler A)

/-- JSH 5060-5063 (and the other callers): `TypeHandler<PureArg>::to`, the error stored in the context; JSH 5168-5179
`checkValidVoidParameter` for functions without an argument (the message on `stderr` left out): the value is skipped,
errors of `nextToken` are in the context. The error context of the tokenizer is left as it is: it was cleared when the
member was read, and every call of `nextToken` that succeeds clears it again. (What the tokenizer reports if the text
breaks within the argument is left out.) -/
def Arg.read (a : Arg A) (n : Nat) (c : Ctx) : Option (A × Ctx) :=
  match a with
  | .void x => (skipArrayOrObject n c).map fun c => (x, c)
  | .data h => (h.to n h.init c).map fun r => (r.2.1, { r.2.2 with error := r.1 })

/-- JSH 5051-5262, `Ret`: The return type of a function: `void`, or one with a handler. -/
def Ret (R : Type) := Option (Handler R)

/-- JSH 5065-5066 (and the other callers): the value returned is written, with a new token. -/
def Ret.write (r : Ret R) (x : R) (s : Ser) : Option Ser :=
  match r with
  | none => some s
  | some h => (h.from_ x {} s).map Prod.snd

/-- JSH 4816-4873 `FunctionInfo` together with `FunctionCaller` for its type: the names (the first is the primary
one), and the call. `call n w c` is the error returned, the container and the context; `none` if more than `n`
iterations of some loop are needed or the behaviour is undefined. -/
structure Fn (W : Type) where
  names : List Bytes
  call : Nat → W → CallCtx → Option (Err × W × CallCtx)

/-- JSH 5051-5069, 5113-5130, 5181-5195, 5233-5247 `FunctionCaller` with `TAKES_CONTEXT` 0: `Ret (T::*)(Arg)`. -/
def Fn.plain (names : List Bytes) (arg : Arg A) (ret : Ret R) (f : W → A → W × R) : Fn W where
  names := names
  call := fun n w c => do
    let (a, pc) ← arg.read n c.pc
    let c := { c with pc := pc }
    if pc.error ≠ .noError then some (pc.error, w, c)
    else
      let (w, x) := f w a
      let s ← ret.write x c.ser
      some (.noError, w, { c with ser := s })

/-- JSH 5071-5090, 5132-5148, 5197-5213, 5249-5262 `FunctionCaller` with `TAKES_CONTEXT` 1:
`Ret (T::*)(Arg, CallFunctionErrorContext &)`. The function can call `setError`, any number of times: the last
component of its result are the errors it sets, in this order, with their messages. -/
def Fn.err (names : List Bytes) (arg : Arg A) (ret : Ret R) (f : W → A → W × R × List (Err × Bytes)) : Fn W where
  names := names
  call := fun n w c => do
    let (a, pc) ← arg.read n c.pc
    let c := { c with pc := pc }
    if pc.error ≠ .noError then some (pc.error, w, c)
    else
      let (w, x, es) := f w a
      let c := es.foldl CallCtx.setError c
      let last ← c.list.getLast?
      let s ← if last.error = .noError then ret.write x c.ser else some c.ser
      some (last.error, w, { c with ser := s })

/-- JSH 5092-5111, 5150-5166, 5215-5231, 5264-5277 `FunctionCaller` with `TAKES_CONTEXT` 2:
`Ret (T::*)(Arg, CallFunctionContext &)`. The function can do anything with the context. -/
def Fn.ctx (names : List Bytes) (arg : Arg A) (ret : Ret R) (f : W → A → CallCtx → W × R × CallCtx) : Fn W where
  names := names
  call := fun n w c => do
    let (a, pc) ← arg.read n c.pc
    let c := { c with pc := pc }
    if pc.error ≠ .noError then some (pc.error, w, c)
    else
      let (w, x, c) := f w a c
      let last ← c.list.getLast?
      let s ← if last.error = .noError then ret.write x c.ser else some c.ser
      some (last.error, w, { c with ser := s })

/-- JSH 4982-5007 `js_static_meta_functions_info` and `js_static_meta_super_info` of a container: its functions as
declared; its super classes from the last one declared to the first, their functions as functions of the whole
container. -/
inductive FnTable (W : Type)
  | mk (fns : List (Fn W)) (supers : List (FnTable W))

/-- JSH 5284-5307 `matchAndCallFunction`. -/
def matchAndCall (f : Fn W) (primary : Bool) (n : Nat) (w : W) (c : CallCtx) : Option (Err × W × CallCtx) :=
  let name := c.pc.token.name.bytes
  if (if primary then f.names.head? = some name else name ∈ f.names.tail) then f.call n w c
  else some (.missingFunction, w, c)

/-- JSH 5337-5350 `FunctionObjectTraverser::call` up to the super classes: the functions from the last to the first
(the list is reversed). An error other than `MissingFunction` is returned for the first function of the container;
for the others the error of the context is returned instead. (Simplified: a function that takes the context and leaves
`MissingFunction` in it, but another error in its entry, is taken for a missing one, so that super classes are searched.) -/
def callRev (primary : Bool) (n : Nat) (w : W) (c : CallCtx) : List (Fn W) → Option (Err × W × CallCtx)
  | [] => some (.missingFunction, w, c)
  | f :: fs => do
    let (e, w, c) ← matchAndCall f primary n w c
    if e = .noError then some (.noError, w, c)
    else if e ≠ .missingFunction then some (if fs = [] then e else c.pc.error, w, c)
    else callRev primary n w c fs

mutual
/-- JSH 5337-5376 `FunctionObjectTraverser::call`. -/
def FnTable.call (primary : Bool) (n : Nat) (w : W) (c : CallCtx) : FnTable W → Option (Err × W × CallCtx)
  | .mk fns supers => do
    let (e, w, c) ← callRev primary n w c fns.reverse
    if e ≠ .missingFunction then some (e, w, c) else callSupers primary n w c supers
/-- JSH 5317-5335 `StartFunctionalSuperRecursion`, 5528-5556 `FunctionalSuperRecursion`. -/
def callSupers (primary : Bool) (n : Nat) (w : W) (c : CallCtx) : List (FnTable W) → Option (Err × W × CallCtx)
  | [] => some (.missingFunction, w, c)
  | t :: ts => do
    let (e, w, c) ← t.call primary n w c
    if e ≠ .missingFunction then some (e, w, c) else callSupers primary n w c ts
end

/-- JSH 5464-5468: by primary name, then by alias. -/
def FnTable.find (T : FnTable W) (n : Nat) (w : W) (c : CallCtx) : Option (Err × W × CallCtx) := do
  let (e, w, c) ← T.call true n w c
  if e = .missingFunction then T.call false n w c else some (e, w, c)

/-- JSH 5381-5386: what `add_error` does to the error context of the tokenizer if there is an error. -/
def CallCtx.noted (c : CallCtx) : Option ErrCtx :=
  c.report.bind fun x => if x.custom = [] then c.pc.tz.updateErrorContext c.cfg [] [] c.pc.error [] x else some x

/-- JSH 5378-5391 `add_error`: the lists of the context and of the entry are swapped if the former is not empty. -/
def CallCtx.addError (c : CallCtx) : CallCtx :=
  let pc := c.pc
  let last := c.list.getLast?.getD { name := [] }
  { c with
    list := modifyLast (fun x =>
      { x with
        error := pc.error
        missing := if pc.missing ≠ [] then pc.missing else x.missing
        unassigned := if pc.unassigned ≠ [] then pc.unassigned else x.unassigned }) c.list
    messages := if pc.error ≠ .noError then modifyLast (fun _ => c.noted.map ErrCtx.message) c.messages else c.messages
    report := if pc.error ≠ .noError then c.noted else c.report
    pc := { pc with
      missing := if pc.missing ≠ [] then last.missing else pc.missing
      unassigned := if pc.unassigned ≠ [] then last.unassigned else pc.unassigned } }

/-- JSH 5475 `goToEndOfScope` on the context's token, its result ignored. `none` if `n` iterations are not enough. (What
it does to the error context of the tokenizer is left out: the next call of `nextToken` clears it.) -/
def Ctx.goToEnd (n : Nat) (c : Ctx) : Option Ctx :=
  let r := Tz.goToEndOfScope n c.tz c.token
  if r.1 = .noError ∧ (r.2.1.scopes.head?.map Scope.depth) ≠ some 0 then none
  else some { c with tz := r.2.1, token := r.2.2 }

/-- JSH 5460-5485, the body of the loop: one member. The first component is the error returned from the loop, if
any. A failing assertion (JSH 5471) is `none`. -/
def callMember (T : FnTable W) (n : Nat) (w : W) (c : CallCtx) : Option (Option Err × W × CallCtx) := do
  let c := { c with
    pc := { c.pc with tz := c.pc.tz.pushScope c.pc.token.valueType }
    list := c.list ++ [{ name := c.pc.token.name.bytes, context := c.userContext }]
    messages := c.messages ++ [some []] }
  let (e, w, c) ← T.find n w c
  let c ←
    if e ≠ .noError then
      if e = c.pc.error ∨ c.pc.error = .noError then some { c with pc := { c.pc with error := e } } else none
    else some c
  let c := c.addError
  let pc ← c.pc.goToEnd n
  let tz ← pc.tz.popScope
  let c := { c with pc := { pc with tz := tz } }
  let e := if e = .missingFunction ∧ c.allowMissing = true then .noError else e
  if c.stopOnFail = true ∧ e ≠ .noError then some (some e, w, c)
  else
    let c := c.next
    if c.pc.error ≠ .noError then some (some c.pc.error, w, c) else some (none, w, c)

/-- JSH 5458-5485, the loop. -/
def callLoop (T : FnTable W) (fuel : Nat) : Nat → W → CallCtx → Option (Err × W × CallCtx)
  | 0, _, _ => none
  | n + 1, w, c =>
    if c.pc.token.valueType = .objectEnd then some (.noError, w, c)
    else do
      let (stop, w, c) ← callMember T fuel w c
      match stop with
      | some e => some (e, w, c)
      | none => callLoop T fuel n w c

/-- JSH 5437-5488 `CallFunctionContext::callFunctions`. The bracket closing the array of results is written whenever
the opening one was (JSH 5416-5433 `ArrayEndWriter`). -/
def callFunctions (T : FnTable W) (n : Nat) (w : W) (c : CallCtx) : Option (Err × W × CallCtx) := do
  let c := c.next
  if c.pc.error ≠ .noError then some (c.pc.error, w, c)
  else if c.pc.token.valueType ≠ .objectStart then
    some (.expectedObjectStart, w, c.setError (.expectedObjectStart, b!"Can only call functions on objects with members"))
  else
    let c := c.next
    if c.pc.error ≠ .noError then some (c.pc.error, w, c)
    else
      let c := { c with ser := (c.ser.write { value := b!"[", valueType := .arrayStart }).2 }
      let (e, w, c) ← callLoop T n n w c
      some (e, w, { c with ser := (c.ser.write { value := b!"]", valueType := .arrayEnd }).2 })

/-- JSH 5490-5525 `DefaultCallFunctionContext`: results go to a string, by a serializer with the options `so`. -/
def CallCtx.onString (pc : Ctx) (so : SerOpts) : CallCtx where
  pc := pc
  ser := Ser.onString so (startString []).length

/-- The string of results after `callFunctions` (JSH 5521-5524: `afterCallFunctions` flushes). -/
def CallCtx.results (c : CallCtx) : Bytes := c.ser.flush (startString [])

end JsonStruct
