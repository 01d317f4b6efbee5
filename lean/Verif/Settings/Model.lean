import Verif.Levels.Model

/-!
Model of `polog/core/stores/settings/setting_point.py`, `settings_store.py` and of `config.set`
(`polog/config.py:25-39`).
-/

namespace Polog

/-- A Python float as far as the checks see it: only its sign and its being a number matter.
Used at settings_store.py:23-239. -/
inductive PyFloat where
  | nan
  | inf (negative : Bool)
  | finite (mantissa : Int) (exponent : Int)
deriving DecidableEq, Repr

/-- An attribute of a module object. Used at settings_store.py:23-239 (checks of `json_module`). -/
inductive Attr where
  | missing
  | notCallable
  | isCallable
deriving DecidableEq, Repr

/-- Python objects used as values of settings. settings_store.py:23-239. -/
inductive SVal where
  | none
  | bool (b : Bool)
  | int (n : Int)
  | float (f : PyFloat)
  | str (s : Str)
  /-- a class or callable object -/
  | callable (id : Nat)
  /-- a module with its attributes `loads` and `dumps` -/
  | module (id : Nat) (loads dumps : Attr)
  /-- the functions of `settings_store.py:151-152`; `true` is the one of `'all'` -/
  | politic (all : Bool)
  /-- an instance of any other class -/
  | instance (id : Nat)
deriving DecidableEq, Repr

/-- The number a value is equal to, for `int` and `bool` (`isinstance(x, int)`).
Used at settings_store.py:23-239. -/
def SVal.int? : SVal → Option Int
  | .int n => some n
  | .bool b => some (boolInt b)
  | _ => Option.none

/-- Python's `==` between two values of settings.  Simplification: numbers are equal as numbers only
among `int`/`bool` (no setting with an action or a conflict holds floats). Used at setting_point.py:50-78. -/
def SVal.pyEq (a b : SVal) : Bool :=
  match a.int?, b.int? with
  | some x, some y => x == y
  | _, _ => a == b

/-- `x > 0` / `x >= 0` for a number; comparisons with other objects raise `TypeError`, but every
such check is preceded by a type check. Used at settings_store.py:23-239. -/
def SVal.gtZero : SVal → Bool
  | .float .nan => false
  | .float (.inf neg) => !neg
  | .float (.finite m _) => decide (0 < m)
  | v => match v.int? with | some n => decide (0 < n) | Option.none => false

/-- `x >= 0`, see `gtZero`; used at settings_store.py:23-239. -/
def SVal.geZero : SVal → Bool
  | .float .nan => false
  | .float (.inf neg) => !neg
  | .float (.finite m _) => decide (0 ≤ m)
  | v => match v.int? with | some n => decide (0 ≤ n) | Option.none => false

/-- `isinstance(x, int)`, settings_store.py:23-239. -/
def SVal.isInt (v : SVal) : Bool := v.int?.isSome
/-- `isinstance(x, float)`, settings_store.py:23-239. -/
def SVal.isFloat : SVal → Bool | .float _ => true | _ => false
/-- `isinstance(x, str)`, settings_store.py:23-239. -/
def SVal.isStr : SVal → Bool | .str _ => true | _ => false
/-- `isinstance(x, bool)`, settings_store.py:23-239. -/
def SVal.isBool : SVal → Bool | .bool _ => true | _ => false
/-- `x is None`, settings_store.py:23-239. -/
def SVal.isNone : SVal → Bool | .none => true | _ => false
/-- `callable(x)`, settings_store.py:23-239. -/
def SVal.isCallable : SVal → Bool | .callable _ => true | .politic _ => true | _ => false
/-- `isinstance(x, ModuleType)`, settings_store.py:23-239. -/
def SVal.isModule : SVal → Bool | .module _ _ _ => true | _ => false
/-- `getattr(module, 'loads')`, settings_store.py:23-239. -/
def SVal.loads : SVal → Attr | .module _ l _ => l | _ => .missing
/-- `getattr(module, 'dumps')`, settings_store.py:23-239. -/
def SVal.dumps : SVal → Attr | .module _ _ d => d | _ => .missing

/-- The keys of `SettingsStore.points`, `settings_store.py:23-239`, in order. -/
inductive Setting where
  | poolSize | maxQueueSize | started | level | defaultLevel | defaultErrorLevel | serviceName
  | silentInternalExceptions | maxDelayBeforeExit | delayOnExit | timeQuant | engine | jsonModule
  | smartAssertPolitic | debugMode | fieldsIntersection | unknownFields | deduplicateErrors
  | logIsBuiltIn | fullUnlog | suppressByDefault | suppressExceptionSubclasses
  | integrationWithLogging | loggingOff | tracebackCutting
deriving DecidableEq, Repr

/-- The keys of `points`, settings_store.py:23-239. -/
def Setting.all : List Setting :=
  [.poolSize, .maxQueueSize, .started, .level, .defaultLevel, .defaultErrorLevel, .serviceName,
   .silentInternalExceptions, .maxDelayBeforeExit, .delayOnExit, .timeQuant, .engine, .jsonModule,
   .smartAssertPolitic, .debugMode, .fieldsIntersection, .unknownFields, .deduplicateErrors,
   .logIsBuiltIn, .fullUnlog, .suppressByDefault, .suppressExceptionSubclasses,
   .integrationWithLogging, .loggingOff, .tracebackCutting]

/-- The callbacks of `polog/core/stores/settings/actions/`. decorator.py:13-27. -/
inductive Action where
  | reloadEngine | fieldsIntersection | logAsBuiltIn | integration
deriving DecidableEq, Repr

/-- A `SettingPoint`, `setting_point.py:13-45`. -/
structure Point where
  default : SVal
  proves : List (SVal → Bool) := []
  converter : Option (Levels → SVal → Except PyErr SVal) := none
  changeOnce : Bool := false
  changeOnlyBeforeStart : Bool := false
  /-- `conflict_checker(new_value, old_value, other)`, `setting_point.py:133` -/
  conflicts : List (Setting × (SVal → SVal → SVal → Bool)) := []
  action : Option Action := none
  sharedLockWith : List Setting := []

/-- `Levels.get` as a converter (`settings_store.py:74, 81, 91`). -/
def levelConverter (l : Levels) : SVal → Except PyErr SVal
  | .str s => (l.get (.str s)).map SVal.int
  | .int n => (l.get (.int n)).map SVal.int
  | .bool b => (l.get (.bool b)).map SVal.int
  | _ => (l.get .other).map SVal.int

/-- The converter of `smart_assert_politic`, `settings_store.py:150-153`: `dict.get`. -/
def politicConverter : SVal → Except PyErr SVal
  | .str s => .ok (if s = "all".toList then .politic true
      else if s = "if_debug".toList then .politic false else .none)
  | _ => .ok .none

/-- The check of the levels, settings_store.py:23-239. -/
def levelProve (x : SVal) : Bool := (x.isInt && x.geZero) || x.isStr

/-- `SettingsStore.points`, `settings_store.py:23-239`.  `isId` is `str.isidentifier`, `debug` is
`__debug__`. -/
def point (isId : Str → Bool) (debug : Bool) : Setting → Point
  | .poolSize => -- 24-39
    { default := .int 0
      proves := [SVal.isInt, SVal.geZero]
      conflicts := [(.maxQueueSize, fun new _ other => new.pyEq (.int 0) && !other.pyEq (.int 0))]
      action := some .reloadEngine
      sharedLockWith := [.maxQueueSize, .started] }
  | .maxQueueSize => -- 40-55
    { default := .int 0
      proves := [SVal.isInt, SVal.geZero]
      conflicts := [(.poolSize, fun new _ other => !new.pyEq (.int 0) && other.pyEq (.int 0))]
      action := some .reloadEngine
      sharedLockWith := [.poolSize, .started] }
  | .started => -- 56-68
    { default := .bool false
      proves := [SVal.isBool, fun x => x.pyEq (.bool true)]
      changeOnce := true
      sharedLockWith := [.poolSize, .maxQueueSize] }
  | .level => -- 69-75
    { default := .int 0, proves := [levelProve], converter := some levelConverter }
  | .defaultLevel => -- 76-85
    { default := .int 1, proves := [levelProve], converter := some levelConverter,
      sharedLockWith := [.defaultErrorLevel] }
  | .defaultErrorLevel => -- 86-92
    { default := .int 2, proves := [levelProve], converter := some levelConverter }
  | .serviceName => -- 93-99
    { default := .none
      proves := [fun x => x.isStr || x.isNone, fun x => match x with | .str s => isId s | _ => true] }
  | .silentInternalExceptions => { default := .bool false, proves := [SVal.isBool] } -- 100-105
  | .maxDelayBeforeExit => -- 106-112
    { default := .float (.finite 1 0), proves := [fun x => x.isInt || x.isFloat, SVal.geZero] }
  | .delayOnExit => -- 113-119
    { default := .int 10, proves := [SVal.isInt, SVal.gtZero] }
  | .timeQuant => -- 120-126 (the float 0.01)
    { default := .float (.finite 5764607523034235 (-59))
      proves := [fun x => x.isInt || x.isFloat, SVal.gtZero] }
  | .engine => { default := .callable 0, proves := [SVal.isCallable] } -- 127-133
  | .jsonModule => -- 134-143
    { default := .module 0 .isCallable .isCallable
      proves := [SVal.isModule, fun x => x.loads != .missing, fun x => x.dumps != .missing,
        fun x => x.loads == .isCallable, fun x => x.dumps == .isCallable] }
  | .smartAssertPolitic => -- 144-155 (the default 'if_debug' is converted)
    { default := .politic false
      proves := [SVal.isStr, fun x => x == .str "all".toList || x == .str "if_debug".toList]
      converter := some fun _ => politicConverter }
  | .debugMode => { default := .bool debug, proves := [SVal.isBool] } -- 156-161
  | .fieldsIntersection => -- 162-168
    { default := .bool false, proves := [SVal.isBool], action := some .fieldsIntersection }
  | .unknownFields => { default := .bool true, proves := [SVal.isBool] } -- 169-174
  | .deduplicateErrors => { default := .bool true, proves := [SVal.isBool] } -- 175-180
  | .logIsBuiltIn => -- 181-187
    { default := .bool false, proves := [SVal.isBool], action := some .logAsBuiltIn }
  | .fullUnlog => { default := .bool true, proves := [SVal.isBool] } -- 188-193
  | .suppressByDefault => { default := .bool false, proves := [SVal.isBool] } -- 194-199
  | .suppressExceptionSubclasses => { default := .bool true, proves := [SVal.isBool] } -- 200-205
  | .integrationWithLogging => -- 206-219
    { default := .bool true
      proves := [SVal.isBool]
      conflicts := [(.loggingOff, fun new _ other => new.pyEq (.bool false) && other.pyEq (.bool true))]
      action := some .integration
      sharedLockWith := [.loggingOff] }
  | .loggingOff => -- 220-231
    { default := .bool true
      proves := [SVal.isBool]
      conflicts := [(.integrationWithLogging,
        fun new _ other => new.pyEq (.bool true) && other.pyEq (.bool false))]
      sharedLockWith := [.integrationWithLogging] }
  | .tracebackCutting => { default := .bool true, proves := [SVal.isBool] } -- 232-237

/-- The state of the store: the values, the `changed` flags, the level names, and the journal of the
callbacks really executed (old and new value). settings_store.py:243-260, setting_point.py:13-45. -/
structure Store where
  value : Setting → SVal
  changed : Setting → Bool
  levels : Levels
  journal : List (Action × SVal × SVal)

/-- The store after import (`settings_store.py:243-260`): default values; the one callback with
`do_action_first_time` was executed with `old = None`. -/
def Store.init (isId : Str → Bool) (debug : Bool) : Store :=
  { value := fun s => (point isId debug s).default
    changed := fun _ => false
    levels := Levels.empty
    journal := [(.integration, .none, .bool true)] }

/-- Assignment to one attribute of one point, setting_point.py:66-78. -/
def setAt {α β : Type} [DecidableEq α] (f : α → β) (a : α) (b : β) : α → β :=
  fun x => if x = a then b else f x

/-- `if self.converter is not None: value = self.converter(value)`, `setting_point.py:72-73`. -/
def Point.convert (p : Point) (levels : Levels) (v : SVal) : Except PyErr SVal :=
  match p.converter with
  | none => .ok v
  | some c => c levels v

/-- The checks of `SettingPoint.set`, `setting_point.py:67-75`: the converted value to be stored, or
the exception.  `values` are the current values of all points. -/
def Point.check (p : Point) (levels : Levels) (values : Setting → SVal) (changed : Bool)
    (old v : SVal) : Except PyErr SVal :=
  if changed && p.changeOnce then .error .doubleSetting -- 67-68
  else if p.changeOnlyBeforeStart && (values .started).pyEq (.bool true) then .error .afterStart -- 69-70
  else if !(p.proves.all fun f => f v) then .error .valueError -- 71, 237-250
  else
    match p.convert levels v with -- 72-73
    | .error e => .error e
    | .ok v' =>
      if p.conflicts.any fun c => c.2 v' old (values c.1) then .error .valueError -- 75, 127-134
      else .ok v'

/-- The callback of a point: executed only when the value changed (`actions/decorator.py:23-26`);
its exceptions are escaped (`setting_point.py:120-125`). -/
def Point.journalEntry (p : Point) (old new : SVal) : List (Action × SVal × SVal) :=
  match p.action with
  | none => []
  | some a => if old.pyEq new then [] else [(a, old, new)]

/-- `SettingPoint.set`, `setting_point.py:50-78`. -/
def Store.set (isId : Str → Bool) (debug : Bool) (st : Store) (s : Setting) (v : SVal) :
    Store × Option PyErr :=
  let p := point isId debug s
  let old := st.value s
  match p.check st.levels st.value (st.changed s) old v with
  | .error e => (st, some e)
  | .ok v' =>
    ({ st with
        value := setAt st.value s v' -- 76
        changed := setAt st.changed s true -- 78
        journal := st.journal ++ p.journalEntry old v' }, -- 77
     none)

/-- A keyword argument of `config.set`: a known setting or an unknown name (`settings_store.py:313-321`). -/
abbrev SetArg := Option Setting × SVal

/-- `config.set(**kwargs)`, `config.py:25-39`. -/
def Store.configSet (isId : Str → Bool) (debug : Bool) : Store → List SetArg → Store × Option PyErr
  | st, [] => (st, none)
  | st, (none, _) :: _ => (st, some .keyError)
  | st, (some s, v) :: rest =>
    match st.set isId debug s v with
    | (st', some e) => (st', some e)
    | (st', none) => st'.configSet isId debug rest

/-- The calls of `config` that matter here. config.py:26-69. -/
inductive SettingsCall where
  | set (kwargs : List SetArg)
  | levels (c : LevelsCall)

/-- config.py:26-69. -/
def Store.call (isId : Str → Bool) (debug : Bool) (st : Store) : SettingsCall → Store
  | .set kwargs => (st.configSet isId debug kwargs).1
  | .levels c => { st with levels := st.levels.call isId c }

/-- The store after a history of calls. config.py:26-69, one call after another. -/
def Store.calls (isId : Str → Bool) (debug : Bool) : Store → List SettingsCall → Store
  | st, [] => st
  | st, c :: cs => (st.call isId debug c).calls isId debug cs

/-! ### Locks and concurrent `config.set` -/

/-- The lock object of each point after `share_lock_object` of one point, `setting_point.py:136-146`. -/
def shareLock (isId : Str → Bool) (debug : Bool) (locks : Setting → Setting) (s : Setting) :
    Setting → Setting :=
  (point isId debug s).sharedLockWith.foldl (fun ls other => setAt ls other (ls s)) locks

/-- The lock objects after `SettingsStore.__init__`, `settings_store.py:255-256`.  A lock object is
named after the point that created it (`setting_point.py:41`). -/
def lockOf (isId : Str → Bool) (debug : Bool) : Setting → Setting :=
  Setting.all.foldl (shareLock isId debug) id

/-- Where a thread is inside `SettingPoint.set`. setting_point.py:50-78. -/
inductive SetPC where
  /-- not inside `set` -/
  | idle
  /-- called, waiting for `with self.lock` (line 66) -/
  | waiting (s : Setting) (v : SVal)
  /-- holds the lock, checks not done (lines 67-75) -/
  | locked (s : Setting) (v : SVal)
  /-- checks done, value not stored (before line 76) -/
  | checked (s : Setting) (old new : SVal)
  /-- value stored, callback not run (before line 77) -/
  | stored (s : Setting) (old new : SVal)

/-- Many threads calling `config.set`; threads are numbered. setting_point.py:50-78. -/
structure CState where
  store : Store
  /-- who holds a lock object -/
  holder : Setting → Option Nat
  pc : Nat → SetPC

/-- No thread is inside setting_point.py:50-78. -/
def CState.init (isId : Str → Bool) (debug : Bool) : CState :=
  ⟨Store.init isId debug, fun _ => none, fun _ => .idle⟩

/-- One atomic step of thread `t`.  Other threads may step between any two of these. setting_point.py:50-78. -/
inductive CStep (isId : Str → Bool) (debug : Bool) : CState → CState → Prop where
  | call (c : CState) (t : Nat) (s : Setting) (v : SVal) (h : c.pc t = .idle) :
      CStep isId debug c { c with pc := setAt c.pc t (.waiting s v) }
  | acquire (c : CState) (t : Nat) (s : Setting) (v : SVal) (h : c.pc t = .waiting s v)
      (free : c.holder (lockOf isId debug s) = none) :
      CStep isId debug c { c with pc := setAt c.pc t (.locked s v),
                                  holder := setAt c.holder (lockOf isId debug s) (some t) }
  | reject (c : CState) (t : Nat) (s : Setting) (v : SVal) (h : c.pc t = .locked s v) (e : PyErr)
      (bad : (point isId debug s).check c.store.levels c.store.value (c.store.changed s)
        (c.store.value s) v = .error e) :
      CStep isId debug c { c with pc := setAt c.pc t .idle,
                                  holder := setAt c.holder (lockOf isId debug s) none }
  | accept (c : CState) (t : Nat) (s : Setting) (v new : SVal) (h : c.pc t = .locked s v)
      (good : (point isId debug s).check c.store.levels c.store.value (c.store.changed s)
        (c.store.value s) v = .ok new) :
      CStep isId debug c { c with pc := setAt c.pc t (.checked s (c.store.value s) new) }
  | store (c : CState) (t : Nat) (s : Setting) (old new : SVal) (h : c.pc t = .checked s old new) :
      CStep isId debug c { c with pc := setAt c.pc t (.stored s old new),
                                  store := { c.store with value := setAt c.store.value s new } }
  | finish (c : CState) (t : Nat) (s : Setting) (old new : SVal) (h : c.pc t = .stored s old new) :
      CStep isId debug c
        { pc := setAt c.pc t .idle,
          holder := setAt c.holder (lockOf isId debug s) none,
          store := { c.store with
            changed := setAt c.store.changed s true,
            journal := c.store.journal ++ (point isId debug s).journalEntry old new } }
  | levels (c : CState) (lc : LevelsCall) :
      CStep isId debug c { c with store := { c.store with levels := c.store.levels.call isId lc } }

/-- States reachable under some schedule. setting_point.py:50-78. -/
inductive CReach (isId : Str → Bool) (debug : Bool) : CState → Prop where
  | init : CReach isId debug (CState.init isId debug)
  | step {c c' : CState} : CReach isId debug c → CStep isId debug c c' → CReach isId debug c'

end Polog
