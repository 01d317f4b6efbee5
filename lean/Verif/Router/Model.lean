import Verif.Calls.Model

/-!
Model of `polog/loggers/router.py` (`Router`), `polog/loggers/partial.py` (`RouterPartial`) and
`polog/loggers/finalizer.py` (`LoggerRouteFinalizer`).
-/

namespace Polog

/-- `LoggerRouteFinalizer.convert_arguments_to_dict`, finalizer.py:124-140. -/
def convertArgs (env : HEnv) (args : List HVal) (kwargs : Dict Str HVal) : Except PyErr (Dict Str HVal) :=
  match args with
  | [] => .ok kwargs
  | [.str s] =>
    match (match Dict.get? "message".toList kwargs with
      | some v => if !((HVal.str s).pyEq v) then maybeRaise env .incorrectUse () else .ok ()
      | none => Except.ok ()) with
    | .error e => .error e
    | .ok () => .ok (Dict.set "message".toList (.str s) kwargs)
  | _ => .error .incorrectUse

/-- A `LoggerRouteFinalizer`, finalizer.py:25-34. `armed`: the weak reference callback is still there; `args`,
`kwargs`: what the callback was made with. -/
structure Fin where
  used : Bool
  entered : Bool
  armed : Bool
  data : Dict Str HVal
  args : List HVal
  kwargs : Dict Str HVal
  suppressAll : Bool
  suppressed : List Nat

/-- `LoggerRouteFinalizer.__init__`, finalizer.py:25-34. -/
def Fin.create (env : HEnv) (args : List HVal) (kwargs : Dict Str HVal) : Except PyErr Fin :=
  match convertArgs env args kwargs with
  | .error e => .error e
  | .ok data => .ok ⟨false, false, true, data, args, kwargs, false, []⟩

/-- What can be given to `.suppress(...)`: a class of exceptions (a subclass of `Exception`), or anything else.
finalizer.py:150-178. -/
inductive SuppressArg where
  | exc (cls : Nat)
  | wrong
deriving DecidableEq

/-- The loop of `suppress`, finalizer.py:168-174. -/
def suppressLoop (env : HEnv) : List SuppressArg → List Nat → Except PyErr (List Nat)
  | [], acc => .ok acc
  | .exc c :: rest, acc => suppressLoop env rest (acc ++ [c])
  | .wrong :: rest, acc =>
    match maybeRaise env .valueError () with
    | .error e => .error e
    | .ok () => suppressLoop env rest acc

/-- `LoggerRouteFinalizer.suppress`, finalizer.py:150-178: the object afterwards and the exception, if any. -/
def Fin.suppress (env : HEnv) (f : Fin) (excs : List SuppressArg) : Fin × Option PyErr :=
  let f := if excs = [] then { f with suppressAll := true } else f
  match suppressLoop env excs [] with
  | .error e => (f, some e)
  | .ok classes => ({ f with suppressed := f.suppressed ++ classes }, none)

/-- `rewrite_fields`, finalizer.py:142-148. -/
def Fin.rewrite (env : HEnv) (f : Fin) (args : List HVal) (kwargs : Dict Str HVal) : Fin × Option PyErr :=
  match convertArgs env args kwargs with
  | .error e => (f, some e)
  | .ok d => ({ f with data := Dict.update f.data d }, none)

/-- What becomes of `log(...)`: a function or class is decorated (with which arguments), a manual record is
attempted, a block is entered, a block ends with a record. router.py:23-96, finalizer.py:36-108, 181-187. -/
inductive Use where
  | decorateFn (item : HVal) (suppressAll : Bool) (suppressed : List Nat) (kwargs : Dict Str HVal)
  | decorateCls (item : HVal) (suppressAll : Bool) (suppressed : List Nat) (kwargs : Dict Str HVal)
  | manual (args : List HVal) (kwargs : Dict Str HVal)
  | block
deriving DecidableEq

/-- `LoggerRouteFinalizer.__call__`, finalizer.py:36-63: the object afterwards, the exception or the use that is
made of it. Simplification: the list of classes is copied here; that it is shared is in `Router/Shared.lean`. -/
def Fin.call (env : HEnv) (f : Fin) (args : List HVal) (kwargs : Dict Str HVal) :
    Fin × Option PyErr × Option Use :=
  if f.entered then
    let r := f.rewrite env args kwargs
    (r.1, r.2, none)
  else if args.length ≠ 1 ∧ kwargs.length > 0 then (f, some .incorrectUse, none)
  else
    match args with
    | [] => (f, some .indexError, none)
    | item :: _ =>
      if f.used then (f, some .incorrectUse, none)
      else
        let f := { f with used := true, armed := false }
        if item.isCls then (f, none, some (.decorateCls item f.suppressAll f.suppressed f.data))
        else if item.callable then (f, none, some (.decorateFn item f.suppressAll f.suppressed f.data))
        else (f, some .incorrectUse, none)

/-- `LoggerRouteFinalizer.__enter__`, finalizer.py:65-82. -/
def Fin.enter (env : HEnv) (f : Fin) : Fin × Option PyErr :=
  if f.used then (f, some .incorrectUse)
  else if f.entered then ({ f with used := true }, some .incorrectUse)
  else ({ f with used := true, entered := true, armed := false, data := Dict.set "time".toList env.now f.data }, none)

/-- The arguments of the record made by `__exit__`, finalizer.py:90-100. -/
def exitData (env : CEnv) (out : Outcome) (data : Dict Str HVal) : Dict Str HVal :=
  let data :=
    match out with
    | .ret _ => Dict.set "success".toList (.bool true) data
    | .raised e =>
      Dict.set "traceback".toList (.str env.h.traceback)
        (Dict.set "success".toList (.bool false)
          (Dict.set "exception_message".toList (.str (e.text.getD []))
            (Dict.set "exception_type".toList (.str e.name) data)))
  Dict.set "time_of_work".toList env.elapsed data

/-- The object is dropped: the weak reference callback makes the manual record (finalizer.py:34, 180-187). -/
def Fin.drop (f : Fin) : Option Use := if f.armed then some (.manual f.args f.kwargs) else none

/-- The result of `log(...)`. router.py:23-96. -/
inductive Routed where
  | used (u : Use)
  | finalizer (f : Fin)
  | raised (e : PyErr)

/-- `Router.__call__` and `_wrap`, router.py:23-96. -/
def routerCall (env : HEnv) (args : List HVal) (kwargs : Dict Str HVal) : Routed :=
  match args with
  | [] =>
    match Fin.create env [] kwargs with
    | .ok f => .finalizer f
    | .error e => .raised e
  | [item] =>
    match item with
    | .str s =>
      match Fin.create env [.str s] kwargs with
      | .ok f => .finalizer f
      | .error e => .raised e
    | item =>
      if item.isCls then .used (.decorateCls item false [] kwargs)
      else if item.callable then .used (.decorateFn item false [] kwargs)
      else .raised .incorrectUse
  | _ => .raised .incorrectUse

/-- `log.<name>`: the attributes a `Router` has (router.py; the `dunder` ones of every object are summed up as
"begins with `__`"), everything else is a `RouterPartial` with `level=<name>` (`__getattribute__`,
router.py:109-118). -/
def isRouterAttr (name : Str) : Bool :=
  "__".toList.isPrefixOf name || name == "_wrap".toList || name == "message".toList || name == "suppress".toList

/-- A `RouterPartial`, partial.py:27-36. -/
structure Partial where
  kwargs : Dict Str HVal
  before : Option (List SuppressArg)

/-- `__getattribute__`, router.py:109-118; `none`: an ordinary attribute. -/
def routerGetattr (name : Str) : Option Partial :=
  if isRouterAttr name then none else some ⟨[("level".toList, .str name)], none⟩

/-- `RouterPartial.__call__`, partial.py:38-43. -/
def Partial.call (env : HEnv) (p : Partial) (args : List HVal) (kwargs : Dict Str HVal) : Routed :=
  routerCall env args (Dict.update kwargs p.kwargs)

/-- `RouterPartial.suppress`, partial.py:72-78. -/
def Partial.suppress (env : HEnv) (p : Partial) (excs : List SuppressArg) : Except PyErr Fin :=
  match Fin.create env [] p.kwargs with
  | .error e => .error e
  | .ok f =>
    match f.suppress env excs with
    | (f, none) => .ok f
    | (_, some e) => .error e

/-- `Router.suppress`, router.py:104-107. -/
def routerSuppress (excs : List SuppressArg) : Partial := ⟨[], some excs⟩

/-- What `RouterPartial.__enter__` does with the finalizer made by the router, partial.py:45-55. -/
def Partial.prepare (env : HEnv) (p : Partial) (f : Fin) : Fin × Option PyErr :=
  match f.call env [] p.kwargs with
  | (f, some e, _) => (f, some e)
  | (f, none, _) =>
    match p.before with
    | none => (f, none)
    | some excs => f.suppress env excs

/-- The finalizer inside `with log.<name>:` or `with log.suppress(...):` (router.py:132-140, partial.py:45-55). -/
def Partial.enter (env : HEnv) (p : Partial) : Except PyErr Fin :=
  match Fin.create env [] [] with
  | .error e => .error e
  | .ok f =>
    match f.enter env with
    | (_, some e) => .error e
    | (f, none) =>
      match p.prepare env f with
      | (_, some e) => .error e
      | (f, none) => .ok f

/-- `LoggerRouteFinalizer.__exit__`, finalizer.py:84-108: the outcome of the block and what was recorded. Of an
object that was not entered: the duration cannot be computed, line 98. Simplification: all blocks last
`env.elapsed`. -/
def Fin.exit (env : CEnv) (f : Fin) (out : Outcome) (s : CallState) : Outcome × CallState :=
  if out.printable && f.entered then
    let h := baseCall simpleLogger { env.h with unlogged := unlogStatus env s } [] (exitData env out f.data)
    let s := { s with records := s.records ++ h.records.map fun data => ⟨.block out, data⟩ }
    match h.raised with
    | some _ => (.raised (internalExc s.next), { s with next := s.next + 1 })
    | none =>
      match out with
      | .ret v => (.ret v, s)
      | .raised e =>
        if blockSwallows env ⟨f.data, f.suppressAll, f.suppressed⟩ e then (.ret .none, s) else (.raised e, s)
  else (.raised (internalExc s.next), { s with next := s.next + 1 })

/-- What may be done with the object `log(...)` returned. finalizer.py:36-178. -/
inductive FinOp where
  | call (args : List HVal) (kwargs : Dict Str HVal)
  | enter
  | exit (out : Outcome)
  | suppress (excs : List SuppressArg)

/-- One operation: the object afterwards, the exception, the use that is made of it. finalizer.py:36-178. -/
def Fin.op (env : CEnv) (f : Fin) : FinOp → Fin × Option PyErr × Option Use
  | .call args kwargs => f.call env.h args kwargs
  | .enter =>
    match f.enter env.h with
    | (f, none) => (f, none, some .block)
    | (f, some e) => (f, some e, none)
  | .exit out => ({ f with data := exitData env out f.data }, if f.entered then none else some .typeError, none)
  | .suppress excs =>
    let r := f.suppress env.h excs
    (r.1, r.2, none)

/-- The life of the object: the operations one after another, then it is dropped. All uses that are made of it
and all exceptions. finalizer.py:36-187. -/
def Fin.life (env : CEnv) (f : Fin) : List FinOp → List Use × List PyErr
  | [] => (f.drop.toList, [])
  | op :: ops =>
    let r := f.op env op
    let q := Fin.life env r.1 ops
    (r.2.2.toList ++ q.1, r.2.1.toList ++ q.2)

/-- `suppress` several times. finalizer.py:150-178. -/
def Fin.suppresses (env : HEnv) (f : Fin) : List (List SuppressArg) → Except PyErr Fin
  | [] => .ok f
  | excs :: rest =>
    match f.suppress env excs with
    | (_, some e) => .error e
    | (f, none) => Fin.suppresses env f rest

/-- Calls of the object inside the block, one after another. finalizer.py:36-63. -/
def Fin.edits (env : HEnv) (f : Fin) : List (List HVal × Dict Str HVal) → Except PyErr Fin
  | [] => .ok f
  | e :: rest =>
    match f.call env e.1 e.2 with
    | (_, some err, _) => .error err
    | (f, none, _) => Fin.edits env f rest

/-- `with log(*args, **kwargs).suppress(...).suppress(...)… as ctx: ctx(...); ctx(...); …`: the object just before
the end of the block. router.py:23-96, finalizer.py:65-82, 150-178. -/
def openBlock (env : HEnv) (args : List HVal) (kwargs : Dict Str HVal) (sups : List (List SuppressArg))
    (edits : List (List HVal × Dict Str HVal)) : Except PyErr Fin :=
  match routerCall env args kwargs with
  | .raised e => .error e
  | .used _ => .error .attributeError
  | .finalizer f =>
    match f.suppresses env sups with
    | .error e => .error e
    | .ok f =>
      match f.enter env with
      | (_, some e) => .error e
      | (f, none) => f.edits env edits

/-! ### `with log:` without brackets: the stack in the context variable -/

/-- All finalizers made by `with log:`, by number; the context variable `contexts` of every task (a reference to
a list object or nothing); the list objects; the blocks that were ended: which finalizer, how the block ended and
the finalizer just before. router.py:126-157. -/
structure CtxState where
  fins : Nat → Fin
  nextFin : Nat
  var : Nat → Option Nat
  lists : Nat → List Nat
  nextList : Nat
  done : List (Nat × Outcome × Fin)

/-- One step of some task: `with log`, `with log.<name>` or `with log.suppress(...)` is entered or left, the object
given by `with log as ctx` is called to edit the record, `ctx.suppress(...)`, a new asyncio task is created (it
starts with a copy of the context: with a reference to the same list). The plain `with log` is `⟨[], none⟩`:
editing with no arguments changes nothing. router.py:126-157, partial.py:45-78. -/
inductive CtxOp where
  | enter (task : Nat) (p : Partial)
  | exit (task : Nat) (out : Outcome)
  | edit (fin : Nat) (args : List HVal) (kwargs : Dict Str HVal)
  | suppress (fin : Nat) (excs : List SuppressArg)
  | spawn (task newTask : Nat)

/-- The finalizer of a new `with log:` (`LoggerRouteFinalizer()` with no arguments, entered: finalizer.py:25-34,
65-82). -/
def freshFin (env : HEnv) : Fin :=
  ⟨true, true, false, [("time".toList, env.now)], [], [], false, []⟩

/-- The finalizer popped by `Router.__exit__` of a task, router.py:146-151; `none`: it raises. -/
def CtxState.top (s : CtxState) (t : Nat) : Option Nat :=
  match s.var t with
  | none => none
  | some l => (s.lists l).getLast?

/-- `Router.__enter__` 126-140 (with the rest of `RouterPartial.__enter__`, partial.py:50-54), `Router.__exit__`
142-157. When the rest of `RouterPartial.__enter__` raises, the stack stays as it is. -/
def CtxState.step (env : HEnv) (s : CtxState) : CtxOp → CtxState
  | .enter t p =>
    let f := s.nextFin
    let fins := fun i => if i = f then (p.prepare env (freshFin env)).1 else s.fins i
    match s.var t with
    | none =>
      { fins := fins
        nextFin := f + 1
        var := fun u => if u = t then some s.nextList else s.var u
        lists := fun l => if l = s.nextList then [f] else s.lists l
        nextList := s.nextList + 1
        done := s.done }
    | some l =>
      { fins := fins
        nextFin := f + 1
        var := s.var
        lists := fun k => if k = l then s.lists l ++ [f] else s.lists k
        nextList := s.nextList
        done := s.done }
  | .exit t out =>
    match s.var t with
    | none => s
    | some l =>
      match (s.lists l).getLast? with
      | none => s
      | some f =>
        { s with
          lists := fun k => if k = l then (s.lists l).dropLast else s.lists k
          var := fun u => if u = t ∧ (s.lists l).dropLast = [] then none else s.var u
          done := s.done ++ [(f, out, s.fins f)] }
  | .edit f args kwargs =>
    { s with fins := fun i => if i = f then ((s.fins f).call env args kwargs).1 else s.fins i }
  | .suppress f excs =>
    { s with fins := fun i => if i = f then ((s.fins f).suppress env excs).1 else s.fins i }
  | .spawn t u => { s with var := fun k => if k = u then s.var t else s.var k }

/-- Any steps one after another, router.py:126-157, partial.py:45-78. -/
def CtxState.run (env : HEnv) : List CtxOp → CtxState → CtxState
  | [], s => s
  | op :: ops, s => CtxState.run env ops (s.step env op)

/-- At the start no task is inside a block. router.py:126-140. -/
def CtxState.init (env : HEnv) : CtxState := ⟨fun _ => freshFin env, 0, fun _ => none, fun _ => [], 0, []⟩

end Polog
