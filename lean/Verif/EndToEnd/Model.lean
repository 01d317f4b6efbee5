import Verif.Calls.Model
import Verif.Base.Model
import Verif.Format.Model
import Verif.File.Trace

/-! From a decorated call to the text in the file: the models of the loggers, of the processing of a log, of the base
class of handlers, of the formatter and of the file put together, for the synchronous engine (`pool_size = 0`), one
thread, and a file handler without `filter`, `only_errors` and `alt`. -/

namespace Polog

/-- A value of a field as the formatter sees it. `view`: the text, truth value and type of other objects.
base_formatter.py:50-63 reads it. -/
def toFVal (view : HVal → FVal) : HVal → FVal
  | .none => .none
  | .bool b => .bool b
  | .int n => .int n
  | .str s => .str s
  | v => view v

/-- The settings of the whole way: extractors of engine fields, how objects look, the formatter.
log_item.py:173-194, base_formatter.py:32-38. -/
structure WayEnv where
  c : CEnv
  engineFields : List (Str × Extractor HVal)
  view : HVal → FVal
  f : FmtEnv
  first : Levels

/-- The log which the handler gets: `SingleThreadedRealEngine.write`, singlethreaded/engine.py:9-13, calls the log;
`LogItem.__call__`, log_item.py:151-157, extracts the engine fields. -/
def WayEnv.log (env : WayEnv) (r : Rec) : FLog :=
  (extractFrom env.c.h.fieldsIntersection env.engineFields r.data).map fun x => (x.1, toFVal env.view x.2)

/-- `file_writer(name)` with the default arguments, writer.py:24-31: `get_content` (line 45-49) formats the log, `do`
(lines 33-43) gives the line to the file; what happens to it there is the model of the file. -/
def fileHandler (env : WayEnv) : BaseH FLog Str Str where
  onlyErrors := false
  filter := none
  success := fun log => (Dict.get? "success".toList log).map FVal.truthy
  content := fun log =>
    match formatLine env.f env.first "\n".toList log with
    | .ok line => .ok line
    | .error _ => .error ()
  write := fun line => ⟨[line], false⟩

/-- The lines which running the program gives to the file, in order: the engine writes each record at once.
engine.py:53-63, singlethreaded/engine.py:9-13, log_item.py:151-171, base.py:33-44, writer.py:33-49. -/
def WayEnv.lines (env : WayEnv) (b : Body) : List Str :=
  (b.run env.c .init).2.records.flatMap fun r => ((fileHandler env).call none (env.log r)).events

end Polog
