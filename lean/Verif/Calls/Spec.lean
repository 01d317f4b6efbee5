import Verif.LogItem.Spec
import Verif.Calls.Model

/-!
What the user relies on about decorated calls, stated on the code itself (`Body`), without context
variables, marks on exceptions or any other internal state.
-/

namespace Polog
namespace CallSpec

/-- The exception is one of the given classes: exactly, or also through a subclass, according to the
setting `suppress_exception_subclasses`. -/
def Matches (env : CEnv) (e : Exc) (c : Nat) : Prop :=
  (env.subclasses = true ∧ env.isSub e.cls c = true) ∨ (env.subclasses = false ∧ e.cls = c)

instance (env : CEnv) (e : Exc) (c : Nat) : Decidable (Matches env e c) := by
  unfold Matches; infer_instance

/-- `@log(...).suppress(...)` swallows it: everything (that is an `Exception`) without arguments, else the
given classes. -/
def DecoSwallows (env : CEnv) (d : Deco) (e : Exc) : Prop :=
  e.isException = true ∧ (d.suppressAll = true ∨ ∃ c ∈ d.suppressed, Matches env e c)

instance (env : CEnv) (d : Deco) (e : Exc) : Decidable (DecoSwallows env d e) := by
  unfold DecoSwallows; infer_instance

/-- `with log(...).suppress(...)` swallows it: everything without arguments; the given classes; without
`.suppress`, according to the setting `suppress_by_default`. -/
def BlockSwallows (env : CEnv) (o : BlockOpts) (e : Exc) : Prop :=
  o.suppressAll = true ∨ (∃ c ∈ o.suppressed, Matches env e c) ∨
    (o.suppressed = [] ∧ env.suppressByDefault = true)

instance (env : CEnv) (o : BlockOpts) (e : Exc) : Decidable (BlockSwallows env o e) := by
  unfold BlockSwallows; infer_instance

/-- The outcome of a call of a decorated function, from the outcome of the original. -/
def decoOutcome (env : CEnv) (d : Deco) : Outcome → Outcome
  | .ret v => .ret v
  | .raised e => if DecoSwallows env d e then .ret .none else .raised e

/-- The outcome of a `with` block, from the outcome of the code in it. -/
def blockOutcome (env : CEnv) (o : BlockOpts) : Outcome → Outcome
  | .ret v => .ret v
  | .raised e => if BlockSwallows env o e then .ret .none else .raised e

/-- The exception `message(...)` raises. -/
def messageRaises (env : CEnv) (args : List HVal) (kwargs : Dict Str HVal) : Option PyErr :=
  match messageCall env.h args kwargs with
  | .error e => some e
  | .ok _ => none

/-- The fields `message(...)` asks for. -/
def messageFields (env : CEnv) (args : List HVal) (kwargs : Dict Str HVal) : Option (Dict Str HVal) :=
  match messageCall env.h args kwargs with
  | .error _ => none
  | .ok fields => fields

/-- What the code would do if logging had no effect on it: decorators other than `.suppress` are
ignored. -/
def outcomeOf (env : CEnv) : Body → Outcome
  | .ret v => .ret v
  | .raise e => .raised e
  | .call .plain b k => outcomeOf env (k (outcomeOf env b))
  | .call (.logged d _) b k => outcomeOf env (k (decoOutcome env d (outcomeOf env b)))
  | .call (.unlogged _) b k => outcomeOf env (k (outcomeOf env b))
  | .block o b k => outcomeOf env (k (blockOutcome env o (outcomeOf env b)))
  | .msg args kwargs k => outcomeOf env (k (messageRaises env args kwargs))
  | .manual args kwargs k => outcomeOf env (k (handleLog env.h args kwargs).raised)

/-- Objects that can be turned to text. -/
def Printable : Outcome → Prop
  | .ret v => v.text.isSome = true
  | .raised e => e.text.isSome = true

/-- A level that can be understood: none, a registered name, a non-negative number. -/
def GoodLevel (env : CEnv) : Option PyObj → Prop
  | none => True
  | some l => (∃ name number, l = .str name ∧ Dict.get? name env.h.levels.byName = some number) ∨ ∃ n, l = .int n ∧ 0 ≤ n

/-- Code whose logging calls have valid arguments: known levels, printable arguments and results, correct
arguments of `with log(...)`. Only the calls that are really made count. -/
def Valid (env : CEnv) : Body → Prop
  | .ret _ => True
  | .raise _ => True
  | .call .plain b k => Valid env b ∧ Valid env (k (outcomeOf env b))
  | .call (.logged d info) b k =>
    Valid env b ∧ GoodLevel env d.level ∧ info.inputs.isSome = true ∧ Printable (outcomeOf env b) ∧
      Valid env (k (decoOutcome env d (outcomeOf env b)))
  | .call (.unlogged _) b k => Valid env b ∧ Valid env (k (outcomeOf env b))
  | .block o b k =>
    Valid env b ∧ Printable (outcomeOf env b) ∧
      (baseCall simpleLogger env.h [] (blockData env o (outcomeOf env b))).raised = none ∧
      Valid env (k (blockOutcome env o (outcomeOf env b)))
  | .msg args kwargs k => Valid env (k (messageRaises env args kwargs))
  | .manual args kwargs k => Valid env (k (handleLog env.h args kwargs).raised)

/-! ### Levels -/

/-- The number a level given to a decorator stands for. -/
inductive LevelIs (levels : Levels) : PyObj → Int → Prop
  | number (n : Int) : 0 ≤ n → LevelIs levels (.int n) n
  | name (s : Str) (n : Int) : Dict.get? s levels.byName = some n → LevelIs levels (.str s) n

/-- The level of the record of a successful call. -/
inductive NormalLevel (env : CEnv) (d : Deco) : Int → Prop
  | given (l : PyObj) (n : Int) : d.level = some l → LevelIs env.h.levels l n → NormalLevel env d n
  | default : d.level = none → NormalLevel env d env.h.defaultLevel

/-- The levels an error record may take when the decorator has no usable `errors_level`. -/
inductive ErrorCandidate (env : CEnv) (d : Deco) : Int → Prop
  | default : ErrorCandidate env d env.h.defaultLevel
  | defaultError : ErrorCandidate env d env.h.defaultErrorLevel
  | given (l : PyObj) (n : Int) : d.level = some l → LevelIs env.h.levels l n → ErrorCandidate env d n

/-- The level of the record of a failed call: `errors_level` if it is given and known, else the greatest of
the candidates. -/
inductive ErrorLevel (env : CEnv) (d : Deco) : Int → Prop
  | given (l : PyObj) (n : Int) : d.errLevel = some l → LevelIs env.h.levels l n → ErrorLevel env d n
  | greatest (n : Int) : (∀ l m, d.errLevel = some l → ¬ LevelIs env.h.levels l m) →
      ErrorCandidate env d n → (∀ m, ErrorCandidate env d m → m ≤ n) → ErrorLevel env d n

/-- The call passes the level filter: its level is at least the setting `level`. -/
def Passes (env : CEnv) (d : Deco) : Outcome → Prop
  | .ret _ => ∃ n, NormalLevel env d n ∧ env.h.threshold ≤ n
  | .raised _ => ∃ n, ErrorLevel env d n ∧ env.h.threshold ≤ n

/-! ### Calls made, and records expected -/

/-- `@unlog(full=...)` forbids logging inside: the argument, else the setting `full_unlog`. -/
def fullOf (env : CEnv) (full : Option Bool) : Bool := full.getD env.fullUnlog

/-- The messages left by the code itself, not by decorated functions it calls, in order. -/
def ownMessages (env : CEnv) : Body → List (Dict Str HVal)
  | .ret _ => []
  | .raise _ => []
  | .call .plain b k => ownMessages env b ++ ownMessages env (k (outcomeOf env b))
  | .call (.logged d _) b k => ownMessages env (k (decoOutcome env d (outcomeOf env b)))
  | .call (.unlogged _) b k => ownMessages env b ++ ownMessages env (k (outcomeOf env b))
  | .block o b k => ownMessages env b ++ ownMessages env (k (blockOutcome env o (outcomeOf env b)))
  | .msg args kwargs k =>
    (messageFields env args kwargs).toList ++ ownMessages env (k (messageRaises env args kwargs))
  | .manual args kwargs k => ownMessages env (k (handleLog env.h args kwargs).raised)

/-- What happens outside unlogged calls: a decorated call ended (its decorator, function, outcome of the
function and the last message left by it), or a record was made by hand or by a `with` block. -/
inductive Event where
  | ended (d : Deco) (info : FnInfo) (o : Outcome) (msg : Option (Dict Str HVal))
  | byHand (r : Rec)

/-- The events of running the code, in order. `muted`: the code runs in an unlogged call. -/
def events (env : CEnv) : Bool → Body → List Event
  | _, .ret _ => []
  | _, .raise _ => []
  | muted, .call .plain b k => events env muted b ++ events env muted (k (outcomeOf env b))
  | muted, .call (.logged d info) b k =>
    events env muted b ++
      (if muted then [] else [.ended d info (outcomeOf env b) (ownMessages env b).getLast?]) ++
      events env muted (k (decoOutcome env d (outcomeOf env b)))
  | muted, .call (.unlogged full) b k =>
    events env (muted || fullOf env full) b ++ events env muted (k (outcomeOf env b))
  | muted, .block o b k =>
    events env muted b ++
      (if muted then [] else
        (baseCall simpleLogger { env.h with unlogged := false } [] (blockData env o (outcomeOf env b))).records.map
          fun data => .byHand ⟨.block (outcomeOf env b), data⟩) ++
      events env muted (k (blockOutcome env o (outcomeOf env b)))
  | muted, .msg args kwargs k => events env muted (k (messageRaises env args kwargs))
  | muted, .manual args kwargs k =>
    (if muted then [] else
      (handleLog { env.h with unlogged := false } args kwargs).records.map fun data => .byHand ⟨.manual, data⟩) ++
      events env muted (k (handleLog env.h args kwargs).raised)

/-- The exception with which an event's call ended. -/
def Event.exc? : Event → Option ExcId
  | .ended _ _ (.raised e) _ => if e.isException then some e.id else none
  | _ => none

/-- Events in the order of time, each with the exceptions met by the earlier ones. -/
def withEarlier : List ExcId → List Event → List (List ExcId × Event)
  | _, [] => []
  | seen, ev :: rest => (seen, ev) :: withEarlier (seen ++ ev.exc?.toList) rest

/-- A call that ended is to be recorded: it passes the level filter; an exception counts only if it is an
`Exception` and, with `deduplicate_errors`, was not met before. -/
def ToRecord (env : CEnv) (seen : List ExcId) : Event → Prop
  | .byHand _ => True
  | .ended d _ (.ret v) _ => Passes env d (.ret v)
  | .ended d _ (.raised e) _ =>
    Passes env d (.raised e) ∧ e.isException = true ∧ (env.dedup = true → e.id ∉ seen)

/-- The events to be recorded. -/
noncomputable def toRecord (env : CEnv) (seen : List ExcId) (evs : List Event) : List Event :=
  open Classical in
  ((withEarlier seen evs).filter fun x => ToRecord env x.1 x.2).map Prod.snd

/-- The origin of the record of an event. -/
def Event.origin : Event → Origin
  | .ended _ info o _ => .auto info o
  | .byHand r => r.origin

/-- The table of the fields of an automatic record of level `n`, before extractable fields are added: fields
of the message first (but not in place of the arguments of the call), then the automatic ones. -/
def autoField (env : CEnv) (d : Deco) (info : FnInfo) (o : Outcome) (msg : Option (Dict Str HVal)) (n : Int)
    (key : Str) : Option HVal :=
  match (if key = "input_variables".toList then info.inputs.join else none) with
  | some t => some (.str t)
  | none =>
    match msg.bind (Dict.get? key) with
    | some v => some v
    | none =>
      if key = "auto".toList then some (.bool true)
      else if key = "message".toList then d.message.map .str
      else if key = "module".toList then info.module.map .str
      else if key = "function".toList then info.name.map .str
      else if key = "class".toList then info.cls.map .str
      else if key = "time".toList then some env.h.now
      else if key = "time_of_work".toList then some env.elapsed
      else if key = "service_name".toList then env.h.serviceName.map .str
      else if key = "level".toList then some (.int n)
      else match o with
        | .ret v =>
          if key = "success".toList then some (.bool true)
          else if key = "result".toList then v.text.map .str
          else none
        | .raised e =>
          if key = "success".toList then some (.bool false)
          else if key = "exception_type".toList then some (.str e.name)
          else if key = "exception_message".toList then e.text.map .str
          else if key = "traceback".toList then some (.str env.h.traceback)
          else if key = "local_variables".toList then some (.str env.h.localsText)
          else none

/-- The level of the record of a call. -/
def LevelOf (env : CEnv) (d : Deco) : Outcome → Int → Prop
  | .ret _ => NormalLevel env d
  | .raised _ => ErrorLevel env d

/-- The record is the right one for the event. -/
def RecordOf (env : CEnv) : Event → Rec → Prop
  | .byHand r, r' => r' = r
  | .ended d info o msg, r =>
    r.origin = .auto info o ∧ ∃ n base, LevelOf env d o n ∧
      (∀ key, Dict.get? key base = autoField env d info o msg n key) ∧
      FieldsSpec.Extracted env.h.fieldsIntersection d.inPlace base r.data

/-! ### Code to which the promises apply as they are -/

/-- No unlogged function is called from inside a (fully) unlogged one. -/
def UnlogFlat (env : CEnv) : Bool → Body → Prop
  | _, .ret _ => True
  | _, .raise _ => True
  | muted, .call .plain b k => UnlogFlat env muted b ∧ UnlogFlat env muted (k (outcomeOf env b))
  | muted, .call (.logged d _) b k =>
    UnlogFlat env muted b ∧ UnlogFlat env muted (k (decoOutcome env d (outcomeOf env b)))
  | muted, .call (.unlogged full) b k =>
    muted = false ∧ UnlogFlat env (fullOf env full) b ∧ UnlogFlat env false (k (outcomeOf env b))
  | muted, .block o b k =>
    UnlogFlat env muted b ∧ UnlogFlat env muted (k (blockOutcome env o (outcomeOf env b)))
  | muted, .msg args kwargs k => UnlogFlat env muted (k (messageRaises env args kwargs))
  | muted, .manual args kwargs k => UnlogFlat env muted (k (handleLog env.h args kwargs).raised)

/-- A decorated call that is recorded for sure. -/
def SurelyRecorded (env : CEnv) (muted : Bool) (d : Deco) (o : Outcome) : Prop :=
  muted = false ∧ Passes env d o ∧
    match o with
    | .ret _ => True
    | .raised e => e.isException = true ∧ env.dedup = false

/-- Code that leaves messages only after the decorated functions it calls (`pending`: a message was already
left), where every called decorated function is recorded or leaves no messages. -/
def MsgSafe (env : CEnv) : Bool → Bool → Body → Prop
  | _, _, .ret _ => True
  | _, _, .raise _ => True
  | muted, pending, .call .plain b k =>
    MsgSafe env muted pending b ∧
      MsgSafe env muted (pending || !(ownMessages env b).isEmpty) (k (outcomeOf env b))
  | muted, pending, .call (.logged d _) b k =>
    pending = false ∧ MsgSafe env muted false b ∧
      (SurelyRecorded env muted d (outcomeOf env b) ∨ ownMessages env b = []) ∧
      MsgSafe env muted false (k (decoOutcome env d (outcomeOf env b)))
  | muted, pending, .call (.unlogged full) b k =>
    MsgSafe env (muted || fullOf env full) pending b ∧
      MsgSafe env muted (pending || !(ownMessages env b).isEmpty) (k (outcomeOf env b))
  | muted, pending, .block o b k =>
    MsgSafe env muted pending b ∧
      MsgSafe env muted (pending || !(ownMessages env b).isEmpty)
        (k (blockOutcome env o (outcomeOf env b)))
  | muted, pending, .msg args kwargs k =>
    MsgSafe env muted (pending || (messageFields env args kwargs).isSome) (k (messageRaises env args kwargs))
  | muted, pending, .manual args kwargs k =>
    MsgSafe env muted pending (k (handleLog env.h args kwargs).raised)

/-- Code that calls no unlogged functions, whatever happens. -/
def NoUnlog : Body → Prop
  | .ret _ => True
  | .raise _ => True
  | .call kind b k => (∀ full, kind ≠ .unlogged full) ∧ NoUnlog b ∧ ∀ o, NoUnlog (k o)
  | .block _ b k => NoUnlog b ∧ ∀ o, NoUnlog (k o)
  | .msg _ _ k => ∀ o, NoUnlog (k o)
  | .manual _ _ k => ∀ o, NoUnlog (k o)

/-- The code with all decorators removed. -/
def original : Body → Body
  | .ret v => .ret v
  | .raise e => .raise e
  | .call _ b k => .call .plain (original b) fun o => original (k o)
  | .block o b k => .block o (original b) fun o => original (k o)
  | .msg args kwargs k => .msg args kwargs fun o => original (k o)
  | .manual args kwargs k => .manual args kwargs fun o => original (k o)

/-- No decorator uses `.suppress(...)`. -/
def NoSuppress : Body → Prop
  | .ret _ => True
  | .raise _ => True
  | .call kind b k =>
    (∀ d info, kind = .logged d info → d.suppressAll = false ∧ d.suppressed = []) ∧ NoSuppress b ∧
      ∀ o, NoSuppress (k o)
  | .block _ b k => NoSuppress b ∧ ∀ o, NoSuppress (k o)
  | .msg _ _ k => ∀ o, NoSuppress (k o)
  | .manual _ _ k => ∀ o, NoSuppress (k o)

/-- `return f(...)`: ending as a call ended. -/
def andReturn : Outcome → Body
  | .ret v => .ret v
  | .raised e => .raise e

end CallSpec
end Polog

namespace Polog
open CallSpec

/-- The number of decorated calls the code makes. -/
def callsMade (env : CEnv) : Body → Nat
  | .ret _ => 0
  | .raise _ => 0
  | .call .plain b k => callsMade env b + callsMade env (k (outcomeOf env b))
  | .call (.logged d _) b k => callsMade env b + 1 + callsMade env (k (decoOutcome env d (outcomeOf env b)))
  | .call (.unlogged _) b k => callsMade env b + callsMade env (k (outcomeOf env b))
  | .block o b k => callsMade env b + callsMade env (k (blockOutcome env o (outcomeOf env b)))
  | .msg args kwargs k => callsMade env (k (messageRaises env args kwargs))
  | .manual args kwargs k => callsMade env (k (handleLog env.h args kwargs).raised)

/-- The record was made by a decorator. -/
def Origin.isAuto : Origin → Bool
  | .auto _ _ => true
  | _ => false

/-- Every decorated call made passes the level filter, ends with a value or an `Exception`, and no unlogged
function is called. -/
def AllPass (env : CEnv) : Body → Prop
  | .ret _ => True
  | .raise _ => True
  | .call .plain b k => AllPass env b ∧ AllPass env (k (outcomeOf env b))
  | .call (.logged d _) b k =>
    AllPass env b ∧ Passes env d (outcomeOf env b) ∧ (∀ e, outcomeOf env b = .raised e → e.isException = true) ∧
      AllPass env (k (decoOutcome env d (outcomeOf env b)))
  | .call (.unlogged _) _ _ => False
  | .block o b k => AllPass env b ∧ AllPass env (k (blockOutcome env o (outcomeOf env b)))
  | .msg args kwargs k => AllPass env (k (messageRaises env args kwargs))
  | .manual args kwargs k => AllPass env (k (handleLog env.h args kwargs).raised)

/-- Is this a record of the exception? -/
def recordsExc (x : ExcId) (r : Rec) : Bool :=
  match r.origin with
  | .auto _ (.raised e) => e.id = x
  | _ => false

/-- How many automatic records of the exception there are. -/
def timesRecorded (x : ExcId) (s : CallState) : Nat := (s.records.filter (recordsExc x)).length

/-- Functions with the decorators of `ds` (innermost first), each calling the previous one and returning what
it returns. -/
def callChain (b : Body) : List (Deco × FnInfo) → Body
  | [] => b
  | (d, info) :: outer => callChain (.call (.logged d info) b andReturn) outer

end Polog
