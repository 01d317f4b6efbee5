import Verif.Router.Model
import Verif.Calls.Spec
import Verif.Handle.Spec

/-! What the user relies on about `log(...)`, `log.<level>` and `with log` blocks. -/

namespace Polog
namespace RouterSpec

/-- Arguments of `log(...)` as named ones: the positional text is the `message`. -/
def named : List HVal → Dict Str HVal → Dict Str HVal
  | [m], kwargs => Dict.set "message".toList m kwargs
  | _, kwargs => kwargs

/-- The arguments a block was given: those of `log(...)`, with the time of entry, then the ones given inside the
block, later ones replacing earlier ones. -/
def asked (env : HEnv) (args : List HVal) (kwargs : Dict Str HVal)
    (edits : List (List HVal × Dict Str HVal)) : Dict Str HVal :=
  edits.foldl (fun d e => Dict.update d (named e.1 e.2)) (Dict.set "time".toList env.now (named args kwargs))

/-- The block ended normally. -/
def wentWell : Outcome → Bool
  | .ret _ => true
  | .raised _ => false

/-- The fields known at the end of a block: `g` of those that were asked for, and how it went. -/
def atEnd (env : CEnv) (out : Outcome) (g : Str → Option HVal) (name : Str) : Option HVal :=
  if name = "success".toList then some (.bool (wentWell out))
  else if name = "time_of_work".toList then (if env.elapsed = .none then none else some env.elapsed)
  else
    match out with
    | .ret _ => g name
    | .raised e =>
      if name = "exception_type".toList then some (.str e.name)
      else if name = "exception_message".toList then some (.str (e.text.getD []))
      else if name = "traceback".toList then some (.str env.h.traceback)
      else g name

/-- The calls of `.suppress(...)` ask for an exception to be swallowed: one was without arguments; one names a
class it belongs to; or none names any class at all, and `suppress_by_default` is set. -/
def Swallows (env : CEnv) (sups : List (List SuppressArg)) (e : Exc) : Prop :=
  [] ∈ sups ∨
  (∃ call ∈ sups, ∃ c, SuppressArg.exc c ∈ call ∧ CallSpec.Matches env e c) ∨
  ((∀ call ∈ sups, ∀ c, SuppressArg.exc c ∉ call) ∧ env.suppressByDefault = true)

/-- How the block ends for the code around it. -/
inductive Ends (env : CEnv) (sups : List (List SuppressArg)) : Outcome → Outcome → Prop
  | well (v) : Ends env sups (.ret v) (.ret v)
  | swallowed (e) : Swallows env sups e → Ends env sups (.raised e) (.ret .none)
  | passed (e) : ¬ Swallows env sups e → Ends env sups (.raised e) (.raised e)

/-- Logging is switched off around the place: the code runs inside a function under `unlog` that asked for the silence of everything it
calls; if it did not say, the setting `full_unlog` decides. -/
def silent (env : CEnv) (s : CallState) : Bool := s.unlog == some (some true) || (s.unlog == some none && env.fullUnlog)

/-- The end of a block that was asked for the fields `data` and for swallowing by `sups`: what goes on outside is as
described above; nothing else changes except that exactly one record is handed over, if its level (the one asked for;
else `default_error_level` after an exception; else `default_level`) is at least the setting `level` and logging is
not switched off around the block; its fields are those of a record made by hand from the given arguments and from
how it went. -/
def RecordsOnce (env : CEnv) (data : Dict Str HVal) (sups : List (List SuppressArg)) (out : Outcome) (s : CallState)
    (result : Outcome × CallState) : Prop :=
  Ends env sups out result.1 ∧
  ∃ n new,
    HandleSpec.levelOf env.h (atEnd env out (HandleSpec.given env.h.levels [] data)) = .int n ∧
    result.2 = { s with records := s.records ++ new } ∧
    new.length = (if env.h.threshold ≤ n ∧ silent env s = false then 1 else 0) ∧
    ∀ r ∈ new, r.origin = .block out ∧ ∀ name, name ∉ Dict.keys env.h.inPlace →
      Dict.get? name r.data = HandleSpec.field env.h (atEnd env out (HandleSpec.given env.h.levels [] data)) name

/-! ### nested blocks -/

/-- `with log…:` does not raise before the block begins: everything given to `.suppress(...)` is a class of
exceptions, or mistakes are silently ignored. -/
def Begins (env : HEnv) (p : Partial) : Prop :=
  env.silent = true ∨ ∀ excs, p.before = some excs → SuppressArg.wrong ∉ excs

/-- The operation does not begin or end a block of this task. -/
def NotABoundary (t : Nat) : CtxOp → Prop
  | .enter u _ => u ≠ t
  | .exit u _ => u ≠ t
  | _ => True

/-- Some steps of all tasks, in which every block begun by task `t` is also ended by it, and conversely. -/
inductive Balanced (env : HEnv) (t : Nat) : List CtxOp → Prop
  | nil : Balanced env t []
  | other (op) (ops) : NotABoundary t op → Balanced env t ops → Balanced env t (op :: ops)
  | block (p) (a) (out) (b) : Begins env p → Balanced env t a → Balanced env t b →
      Balanced env t (.enter t p :: (a ++ .exit t out :: b))

/-- New tasks are made only outside of all blocks (of the task that makes it and of the new one). -/
def SpawnsOutside (env : HEnv) (ops : List CtxOp) : Prop :=
  ∀ pre t u post, ops = pre ++ .spawn t u :: post → Balanced env t pre ∧ Balanced env u pre

/-- Blocks are numbered in the order in which they begin. -/
def begun : List CtxOp → Nat
  | [] => 0
  | .enter _ _ :: ops => begun ops + 1
  | _ :: ops => begun ops

/-- The fields an edit asks for; `none`: it is a mistake and raises. -/
def editOf (env : HEnv) (args : List HVal) (kwargs : Dict Str HVal) : Option (Dict Str HVal) :=
  match args with
  | [] => some kwargs
  | [.str s] =>
    if env.silent = true ∨ Dict.get? "message".toList kwargs = none ∨
      Dict.get? "message".toList kwargs = some (.str s)
    then some (Dict.set "message".toList (.str s) kwargs) else none
  | _ => none

/-- The fields of block `n` after some steps. -/
def fieldsAfter (env : HEnv) (n : Nat) (d : Dict Str HVal) : List CtxOp → Dict Str HVal
  | [] => d
  | .edit m args kwargs :: ops =>
    if m = n then
      match editOf env args kwargs with
      | some new => fieldsAfter env n (Dict.update d new) ops
      | none => fieldsAfter env n d ops
    else fieldsAfter env n d ops
  | _ :: ops => fieldsAfter env n d ops

/-- The fields of a block at its beginning. -/
def firstFields (env : HEnv) (p : Partial) : Dict Str HVal :=
  Dict.update [("time".toList, env.now)] p.kwargs

/-- The calls of `.suppress(...)` for block `n` that do not raise. -/
def suppressAfter (env : HEnv) (n : Nat) : List CtxOp → List (List SuppressArg)
  | [] => []
  | .suppress m excs :: ops =>
    if m = n ∧ (env.silent = true ∨ SuppressArg.wrong ∉ excs) then excs :: suppressAfter env n ops
    else suppressAfter env n ops
  | _ :: ops => suppressAfter env n ops

end RouterSpec
end Polog

namespace Polog
open RouterSpec

/-- The classes given to `.suppress(...)`. -/
def excClasses : List SuppressArg → List Nat
  | [] => []
  | .exc c :: rest => c :: excClasses rest
  | .wrong :: rest => excClasses rest

/-- The object as made by these calls. -/
structure Fin.Has (f : Fin) (data : Dict Str HVal) (sups : List (List SuppressArg)) : Prop where
  data : f.data = data
  all : f.suppressAll = true ↔ [] ∈ sups
  classes : f.suppressed = sups.flatMap excClasses

/-- A step inside a block that is no mistake: fields for the record, or exceptions to swallow. -/
def RightStep (env : CEnv) : FinOp → Prop
  | .call args kwargs => (editOf env.h args kwargs).isSome = true
  | .suppress excs => SuppressArg.wrong ∉ excs
  | _ => False

end Polog
