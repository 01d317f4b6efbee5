import Verif.Settings.Model

/-!
Model of what the callbacks of the settings do outside of the store:
`polog/core/stores/settings/actions/set_log_as_built_in.py`, `fields_intersection.py`,
`integration_with_logging.py`, and of the copy of the setting `fields_intersection` that the class
`LogItem` makes for itself when the first log is created (`polog/core/log_item.py:22-34`).
The callback that reloads the engine is the subject of the engine model.
-/

namespace Polog

/-- What the callbacks change.
set_log_as_built_in.py:7-17, integration_with_logging.py:45-55, fields_intersection.py:6-12. -/
structure ActWorld where
  /-- the module `builtins` has the attribute `log` -/
  builtinLog : Bool
  /-- `LogItem._fields_intersection`, if the class has this attribute -/
  cached : Option SVal
  /-- `from_logging_filter_to_polog` is among the filters of the root logger of `logging` -/
  filter : Bool

/-- Before `SettingsStore` is created.  Simplification: nobody else has put a `log` into `builtins`.
Before settings_store.py:243-260. -/
def ActWorld.init : ActWorld := ⟨false, none, false⟩

/-- A call of a callback with the old and the new value.
set_log_as_built_in.py:7-17, integration_with_logging.py:45-55, fields_intersection.py:6-12. -/
def ActWorld.act (w : ActWorld) : Action × SVal × SVal → ActWorld
  /- `set_log_as_built_in.py:7-18`: `delattr` of a missing attribute is suppressed -/
  | (.logAsBuiltIn, _, new) => { w with builtinLog := new.pyEq (.bool true) }
  /- `fields_intersection.py:6-12` -/
  | (.fieldsIntersection, _, new) => { w with cached := some new }
  /- `integration_with_logging.py:45-55`: `addFilter` adds a filter once, `removeFilter` ignores a missing one;
  the values are booleans (C09), any other object is taken for a true one -/
  | (.integration, _, new) => { w with filter := !new.pyEq (.bool false) }
  | (.reloadEngine, _, _) => w

/-- Where a thread creating a log is in `LogItem.__new__`, `log_item.py:22-34`. -/
inductive ItemPC where
  | idle
  /-- the setting was read, line 31 not finished -/
  | read (v : SVal)
  /-- the copy was stored, `cls.__new__` (line 33) not yet replaced -/
  | copied

/-- Threads that change settings (`conf`), threads that create logs (`item`; numbered separately), and the
world around. setting_point.py:50-78, log_item.py:22-34. -/
structure ActState where
  conf : CState
  world : ActWorld
  item : Nat → ItemPC
  /-- `LogItem.__new__` has been replaced by the one that does nothing, line 33 -/
  ready : Bool

/-- After import: the callback with `do_action_first_time` has been executed (`settings_store.py:257-259`). -/
def ActState.init (isId : Str → Bool) (debug : Bool) : ActState :=
  ⟨CState.init isId debug, (Store.init isId debug).journal.foldl ActWorld.act ActWorld.init, fun _ => .idle, false⟩

/-- One atomic step.  A step of `config.set` is a step of the model of settings; the callbacks that it adds to
the journal are executed (`setting_point.py:77`, still under the lock of the setting). -/
inductive ActStep (isId : Str → Bool) (debug : Bool) : ActState → ActState → Prop where
  | conf (a : ActState) (c' : CState) (h : CStep isId debug a.conf c') :
      ActStep isId debug a { a with
        conf := c',
        world := (c'.store.journal.drop a.conf.store.journal.length).foldl ActWorld.act a.world }
  /-- `cls.store['fields_intersection']`, line 31 (this setting is read without its lock) -/
  | read (a : ActState) (u : Nat) (h : a.item u = .idle) (hr : a.ready = false) :
      ActStep isId debug a { a with item := setAt a.item u (.read (a.conf.store.value .fieldsIntersection)) }
  /-- `cls._fields_intersection = …`, line 31 -/
  | copy (a : ActState) (u : Nat) (v : SVal) (h : a.item u = .read v) :
      ActStep isId debug a { a with item := setAt a.item u .copied, world := { a.world with cached := some v } }
  /-- `cls.__new__ = __new__`, line 33 -/
  | replace (a : ActState) (u : Nat) (h : a.item u = .copied) :
      ActStep isId debug a { a with item := setAt a.item u .idle, ready := true }

/-- setting_point.py:50-78, log_item.py:22-34. -/
inductive ActReach (isId : Str → Bool) (debug : Bool) : ActState → Prop where
  | init : ActReach isId debug (ActState.init isId debug)
  | step {a a' : ActState} : ActReach isId debug a → ActStep isId debug a a' → ActReach isId debug a'

end Polog
