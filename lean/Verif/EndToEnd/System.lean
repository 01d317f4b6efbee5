import Verif.EndToEnd.Model
import Verif.Calls.Threads
import Verif.Engine.Model

/-! The whole system: threads of the program, the engine with any number of workers and reloads, the file. -/

namespace Polog

/-- An execution of the whole system. The parts have models of their own (`Calls/Threads.lean`, `Engine/Model.lean`,
`File/Model.lean`); each part gets what the previous one gives:
* every record that a thread of the program hands to the engine is a log there (`Engine.write`, engine.py:53-73, called at
  function_logger.py:191-192, 213-214, handle_log.py); here a log is called by its number in the order of handing over;
* every log the engine handles is given to the handler (`LogItem.__call__`, log_item.py:151-157). In which order the calls of the
  handler begin is left open, as workers run at the same time. -/
structure SystemRun (env : WayEnv) (progs : Nat → Body) (c : FConf) where
  /-- the threads of the program -/
  w : CWorld
  /-- the engine -/
  e : Eng
  /-- the lines the handler was called with -/
  calls : List Str
  /-- the file system at the beginning and now -/
  before : FState
  after : FState
  programs : CwRun env.c (.start progs (fun _ => none) (fun _ => none)) w
  engine : EReach Eng.init e
  start : FStart c before
  file : FTrace c before calls after
  logs : ∀ t l, (t, l) ∈ e.g.calls ↔ ∃ r, w.records[l]? = some (t, r)
  handler : calls.Perm (e.g.seq.flatMap fun l =>
    (w.records[l]?).toList.flatMap fun x => ((fileHandler env).call none (env.log x.2)).events)

end Polog
