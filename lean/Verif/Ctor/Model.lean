import Verif.Dict
import Verif.Signature.Model
import Verif.LogItem.Model
import Verif.Rotation.Model
import Verif.Base.Model
import Verif.Locks.Model

/-!
Model of what the constructors of the standard handlers and of `field` accept:
`BaseHandler.do_input_proves` (`polog/handlers/abstract/base.py:17-31, 92-107`),
`SMTP_sender.__init__` (`polog/handlers/smtp/sender.py:15-56`), `file_writer.__init__`
(`polog/handlers/file/writer.py:17-31`) with `FileDependencyWrapper.__init__`
(`polog/handlers/file/file_dependency_wrapper.py:14-64`), and `field` (`polog/field.py`).
-/

namespace Polog

/-- An argument of a constructor, as far as the checks can tell: `None`, a bool, an int, a string, a
callable (with what `inspect` says about it), an object with some callable attributes (a file-like
object), any other object. What sender.py:26 and writer.py:24 get. -/
inductive CtorVal where
  | none
  | bool (b : Bool)
  | int (n : Int)
  | str (s : Str)
  | callable (f : SigObj)
  | object (methods : List Str)
  | other

/-- `callable(x)` and its signature. signature_matcher.py:32-46 asks for it. -/
def CtorVal.sigObj : CtorVal → SigObj
  | .callable f => f
  | _ => .notCallable

/-- A function of an `input_proves` table: the answer, or the exception it raises. base.py:92-107. -/
abbrev Prove := CtorVal → Except PyErr Bool

/-- `lambda x: isinstance(x, bool)`, base.py:18, writer.py:18. -/
def proveBool : Prove
  | .bool _ => .ok true
  | _ => .ok false

/-- `lambda x: isinstance(x, str)`, writer.py:19, sender.py:16-20. -/
def proveStr : Prove
  | .str _ => .ok true
  | _ => .ok false

/-- `lambda x: isinstance(x, int)`, sender.py:19; a bool is an int. -/
def proveInt : Prove
  | .int _ => .ok true
  | .bool _ => .ok true
  | _ => .ok false

/-- `lambda x: x is None or isinstance(x, str)`, writer.py:21. -/
def proveNoneOrStr : Prove
  | .none => .ok true
  | .str _ => .ok true
  | _ => .ok false

/-- `lambda x: x is None or SignatureMatcher.is_handler(x)`, base.py:19-20, writer.py:20,
sender.py:21-22; `is_handler` raises for an object that is not callable. -/
def proveNoneOrHandler (isId : Str → Bool) : Prove
  | .none => .ok true
  | v => sigIsHandler isId true v.sigObj

/-- `BaseHandler._input_proves`, base.py:17-21. -/
def baseProves (isId : Str → Bool) : Dict Str Prove :=
  [("only_errors".toList, proveBool), ("filter".toList, proveNoneOrHandler isId),
   ("alt".toList, proveNoneOrHandler isId)]

/-- `SMTP_sender.input_proves`, sender.py:15-24. -/
def smtpProves (isId : Str → Bool) : Dict Str Prove :=
  [("email_from".toList, proveStr), ("password".toList, proveStr), ("email_to".toList, proveStr),
   ("port".toList, proveInt), ("smtp_server".toList, proveStr),
   ("text_assembler".toList, proveNoneOrHandler isId), ("subject_assembler".toList, proveNoneOrHandler isId),
   ("is_html".toList, proveBool)]

/-- `file_writer.input_proves`, writer.py:17-22. -/
def fileProves (isId : Str → Bool) : Dict Str Prove :=
  [("forced_flush".toList, proveBool), ("separator".toList, proveStr),
   ("formatter".toList, proveNoneOrHandler isId), ("rotation".toList, proveNoneOrStr)]

/-- The loop of `do_input_proves`, base.py:103-107. -/
def provesLoop (proves : Dict Str Prove) : List (Str × CtorVal) → Except PyErr Unit
  | [] => .ok ()
  | (key, value) :: rest =>
    match Dict.get? key proves with
    | none => provesLoop proves rest
    | some prove =>
      match prove value with
      | .error e => .error e
      | .ok false => .error .valueError
      | .ok true => provesLoop proves rest

/-- `do_input_proves`, base.py:92-107; `own` is the table `input_proves` of the subclass (`none`: it has
none). -/
def doInputProves (isId : Str → Bool) (own : Option (Dict Str Prove)) (kwargs : List (Str × CtorVal)) :
    Except PyErr Unit :=
  match own with
  | none => provesLoop (baseProves isId) kwargs
  | some t => provesLoop (Dict.update (baseProves isId) t) kwargs

/-- The arguments of `SMTP_sender`, sender.py:26. -/
structure SmtpArgs where
  emailFrom : CtorVal
  password : CtorVal
  smtpServer : CtorVal
  emailTo : CtorVal
  port : CtorVal
  textAssembler : CtorVal
  subjectAssembler : CtorVal
  onlyErrors : CtorVal
  filter : CtorVal
  alt : CtorVal
  isHtml : CtorVal

/-- `SMTP_sender.__init__`, sender.py:46-47 with base.py:28 (the rest are assignments and the
constructor of the wrapper, which only stores its arguments). -/
def smtpInit (isId : Str → Bool) (a : SmtpArgs) : Except PyErr Unit :=
  match doInputProves isId (some (smtpProves isId))
      [("only_errors".toList, a.onlyErrors), ("filter".toList, a.filter), ("alt".toList, a.alt)] with
  | .error e => .error e
  | .ok () =>
    doInputProves isId (some (smtpProves isId))
      [("email_from".toList, a.emailFrom), ("password".toList, a.password), ("email_to".toList, a.emailTo),
       ("port".toList, a.port), ("smtp_server".toList, a.smtpServer),
       ("text_assembler".toList, a.textAssembler), ("subject_assembler".toList, a.subjectAssembler),
       ("is_html".toList, a.isHtml)]

/-- Where a `file_writer` writes. file_dependency_wrapper.py:46-64. -/
inductive FileTarget where
  | stdout
  | object (methods : List Str)
  | path (s : Str)
deriving DecidableEq

/-- `is_file_object`, file_dependency_wrapper.py:27-44.  Simplification: of the built-in objects only the
file-like ones have these methods. -/
def isFileObject : CtorVal → Bool
  | .object methods => ["read".toList, "write".toList, "close".toList].all fun m => methods.contains m
  | _ => false

/-- `get_file_object`, file_dependency_wrapper.py:46-64.  Simplification: opening the file (line 59)
succeeds. -/
def getFileObject : List CtorVal → Except PyErr FileTarget
  | [] => .ok .stdout
  | [v] =>
    if isFileObject v then
      match v with
      | .object m => .ok (.object m)
      | _ => .error .valueError
    else
      match v with
      | .str s => .ok (.path s)
      | _ => .error .valueError
  | _ :: _ :: _ => .error .valueError

/-- `filename`, file_dependency_wrapper.py:24, 52, 60, 63. -/
def FileTarget.named : FileTarget → Bool
  | .path _ => true
  | _ => false

/-- The arguments of `file_writer`, writer.py:24, without the replaceable classes. -/
structure FileArgs where
  files : List CtorVal
  formatter : CtorVal
  rotation : CtorVal
  forcedFlush : CtorVal
  separator : CtorVal
  onlyErrors : CtorVal
  filter : CtorVal
  alt : CtorVal
  lockType : CtorVal

/-- `lock_type` as `DoubleLock` sees it, double_lock.py:38-41. -/
def CtorVal.lockArg : CtorVal → Option (Option Str)
  | .none => Option.none
  | .str s => some (some s)
  | _ => some Option.none

/-- `rotation` as `Rotator` sees it (the check at writer.py:21 was passed). -/
def CtorVal.rotationArg : CtorVal → Option Str
  | .str s => some s
  | _ => Option.none

/-- `file_writer.__init__`, writer.py:24-31, in the order of the code.  The result: where it writes, which locks it takes
(`get_file_lock`, double_lock.py:68-74 with file_lock.py:21-25: without a file name there is no file
lock), when it rotates. -/
def fileInit (env : TextEnv) (isId : Str → Bool) (a : FileArgs) :
    Except PyErr (FileTarget × LKind × RotConf) :=
  match doInputProves isId (some (fileProves isId))
      [("only_errors".toList, a.onlyErrors), ("filter".toList, a.filter), ("alt".toList, a.alt)] with
  | .error e => .error e
  | .ok () =>
    match doInputProves isId (some (fileProves isId))
        [("forced_flush".toList, a.forcedFlush), ("separator".toList, a.separator),
         ("formatter".toList, a.formatter), ("rotation".toList, a.rotation)] with
    | .error e => .error e
    | .ok () =>
      match getFileObject a.files with
      | .error e => .error e
      | .ok target =>
        match lockKind env.isSpace a.lockType.lockArg with
        | .error e => .error e
        | .ok kind =>
          match rotatorInit env target.named a.rotation.rotationArg with
          | .error e => .error e
          | .ok rot => .ok (target, ⟨kind.thread, kind.file && target.named⟩, rot)

/-- `file_writer.do` for a file-like object, writer.py:33-43 with file_dependency_wrapper.py:66-71, 94-99:
the line is written, then `flush` is called if it was asked for.  A missing `flush` is an
`AttributeError`. -/
def objectDo (methods : List Str) (forcedFlush : Bool) (line : Str) : Act Str :=
  if methods.contains "write".toList then
    ⟨[line], forcedFlush && !methods.contains "flush".toList⟩
  else ⟨[], true⟩

/-! ### The class `field` -/

/-- A user's function of one argument: how `inspect` sees it and what it does. field.py:16-26. -/
structure UserFn (A B : Type) where
  sig : SigObj
  run : A → Except Unit B

/-- An object of the class `field`, field.py:16-26: the extractor, and the converter (`none` is
`standart_converter`, field.py:78-84). -/
structure FieldObj (V : Type) where
  extractor : UserFn (Dict Str V) V
  converter : Option (UserFn V V)

/-- `get_extractor`, field.py:53-62. -/
def getExtractor (isId : Str → Bool) (f : SigObj) : Except PyErr Unit :=
  match f with
  | .notCallable => .error .valueError
  | f =>
    match sigIsHandler isId true f with
    | .error e => .error e
    | .ok false => .error .valueError
    | .ok true => .ok ()

/-- `get_converter`, field.py:64-76; the argument is `None` or an object. -/
def getConverter (isId : Str → Bool) (f : Option SigObj) : Except PyErr Unit :=
  match f with
  | none => .ok ()
  | some .notCallable => .error .valueError
  | some f =>
    match sigIsHandler isId true f with
    | .error e => .error e
    | .ok false => .error .valueError
    | .ok true => .ok ()

/-- `field.__init__`, field.py:16-26. -/
def fieldInit {V : Type} (isId : Str → Bool) (extractor : UserFn (Dict Str V) V)
    (converter : Option (UserFn V V)) : Except PyErr (FieldObj V) :=
  match getExtractor isId extractor.sig with
  | .error e => .error e
  | .ok () =>
    match getConverter isId (converter.map UserFn.sig) with
    | .error e => .error e
    | .ok () => .ok ⟨extractor, converter⟩

/-- `convert`, field.py:45-51, with `standart_converter`, field.py:78-84. -/
def FieldObj.convert {V : Type} (f : FieldObj V) (value : V) : Except Unit V :=
  match f.converter with
  | none => .ok value
  | some c => c.run value

/-- `get_data`, field.py:28-34, with `extract`, field.py:36-43. -/
def FieldObj.getData {V : Type} (f : FieldObj V) : Extractor V := fun log =>
  match f.extractor.run log with
  | .error e => .error e
  | .ok item => f.convert item

end Polog
