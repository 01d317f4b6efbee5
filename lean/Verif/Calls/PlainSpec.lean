import Verif.Calls.Spec
import Verif.Handle.MessageSpec
import Verif.Router.Spec

/-!
Specification for C102: the complete log of a program, read off its code. Nothing here mentions how the library works: only the
code, the settings, and the tables of the fields of records made by hand (`HandleSpec.field`), by messages (`MessageSpec.newValue`),
at the end of blocks (`RouterSpec.atEnd`) and of decorated calls (`CallSpec.autoField`).
-/

namespace Polog
namespace PlainSpec

open CallSpec HandleSpec MessageSpec

/-- How the code ends: logging calls raise nothing, decorators and blocks swallow what they were asked to swallow. -/
def outcome (env : CEnv) : Body → Outcome
  | .ret v => .ret v
  | .raise e => .raised e
  | .call .plain b k => outcome env (k (outcome env b))
  | .call (.logged d _) b k => outcome env (k (decoOutcome env d (outcome env b)))
  | .call (.unlogged _) b k => outcome env (k (outcome env b))
  | .block o b k => outcome env (k (blockOutcome env o (outcome env b)))
  | .msg _ _ k => outcome env (k none)
  | .manual _ _ k => outcome env (k none)

/-- The calls of `message(...)` made by the code itself, not by decorated functions it calls, in order: their arguments. -/
def messages (env : CEnv) : Body → List (List HVal × Dict Str HVal)
  | .ret _ => []
  | .raise _ => []
  | .call .plain b k => messages env b ++ messages env (k (outcome env b))
  | .call (.logged d _) b k => messages env (k (decoOutcome env d (outcome env b)))
  | .call (.unlogged _) b k => messages env b ++ messages env (k (outcome env b))
  | .block o b k => messages env b ++ messages env (k (blockOutcome env o (outcome env b)))
  | .msg args kwargs k => (args, kwargs) :: messages env (k none)
  | .manual _ _ k => messages env (k none)

/-- What may leave a record. -/
inductive Happened where
  /-- a call of a decorated function ended, after the last of its messages -/
  | ended (d : Deco) (info : FnInfo) (o : Outcome) (said : Option (List HVal × Dict Str HVal))
  /-- `log('...')` by hand -/
  | manual (args : List HVal) (kwargs : Dict Str HVal)
  /-- a `with log(...)` block ended -/
  | block (o : BlockOpts) (out : Outcome)

/-- What happens when the code runs, in order, outside of unlogged calls. `muted`: the code is in an unlogged call. -/
def happened (env : CEnv) : Bool → Body → List Happened
  | _, .ret _ => []
  | _, .raise _ => []
  | muted, .call .plain b k => happened env muted b ++ happened env muted (k (outcome env b))
  | muted, .call (.logged d info) b k =>
    happened env muted b ++
      (if muted then [] else [.ended d info (outcome env b) (messages env b).getLast?]) ++
      happened env muted (k (decoOutcome env d (outcome env b)))
  | muted, .call (.unlogged full) b k =>
    happened env (muted || fullOf env full) b ++ happened env muted (k (outcome env b))
  | muted, .block o b k =>
    happened env muted b ++ (if muted then [] else [.block o (outcome env b)]) ++
      happened env muted (k (blockOutcome env o (outcome env b)))
  | muted, .msg _ _ k => happened env muted (k none)
  | muted, .manual args kwargs k => (if muted then [] else [.manual args kwargs]) ++ happened env muted (k none)

/-- The arguments given by hand, as a table. -/
def byHand (env : CEnv) (args : List HVal) (kwargs : Dict Str HVal) : Str → Option HVal := given env.h.levels args kwargs

/-- The fields known at the end of a block: those given to `log(...)`, the time of entry, and how it went. -/
def byBlock (env : CEnv) (o : BlockOpts) (out : Outcome) : Str → Option HVal :=
  RouterSpec.atEnd env out (given env.h.levels [] (Dict.set "time".toList env.h.now o.data))

/-- The level of a record made by hand reaches the setting `level`. -/
def Reaches (env : CEnv) (g : Str → Option HVal) : Prop := ∃ n, levelOf env.h g = .int n ∧ env.h.threshold ≤ n

/-- A record is due, if these exceptions were met before. -/
def Due (env : CEnv) (seen : List ExcId) : Happened → Prop
  | .ended d _ (.ret v) _ => Passes env d (.ret v)
  | .ended d _ (.raised e) _ => Passes env d (.raised e) ∧ e.isException = true ∧ (env.dedup = true → e.id ∉ seen)
  | .manual args kwargs => Reaches env (byHand env args kwargs)
  | .block o out => Reaches env (byBlock env o out)

/-- The exception with which a decorated call ended. -/
def met : Happened → List ExcId
  | .ended _ _ (.raised e) _ => if e.isException then [e.id] else []
  | _ => []

/-- What a record is due to, in order. -/
noncomputable def due (env : CEnv) : List ExcId → List Happened → List Happened
  | _, [] => []
  | seen, h :: rest => open Classical in (if Due env seen h then [h] else []) ++ due env (seen ++ met h) rest

/-- The record has the fields of the table, then the registered extra fields were taken. -/
def HasFields (env : CEnv) (extra : List (Str × Extractor HVal)) (table : Str → Option HVal) (data : Dict Str HVal) : Prop :=
  ∃ base, (∀ name, Dict.get? name base = table name) ∧ FieldsSpec.Extracted env.h.fieldsIntersection extra base data

/-- The fields the last message of a call asks for. -/
def Asks (env : CEnv) : Option (List HVal × Dict Str HVal) → Option (Dict Str HVal) → Prop
  | none, asked => asked = none
  | some (args, kwargs), asked => ∃ f, asked = some f ∧ ∀ name, Dict.get? name f = newValue env.h (given env.h.levels args kwargs) name

/-- The record of what happened. -/
def RecordFor (env : CEnv) : Happened → Rec → Prop
  | .ended d info o said, r =>
    r.origin = .auto info o ∧ ∃ n asked, LevelOf env d o n ∧ Asks env said asked ∧
      HasFields env d.inPlace (autoField env d info o asked n) r.data
  | .manual args kwargs, r => r.origin = .manual ∧ HasFields env env.h.inPlace (field env.h (byHand env args kwargs)) r.data
  | .block o out, r => r.origin = .block out ∧ HasFields env env.h.inPlace (field env.h (byBlock env o out)) r.data

/-- The message gives some field. -/
def GivesSomething (env : CEnv) (args : List HVal) (kwargs : Dict Str HVal) : Prop :=
  ∃ name, newValue env.h (given env.h.levels args kwargs) name ≠ none

/-- Code that is written as documented. Only the calls that are really made count.

* Logging calls have no mistakes: levels are known, arguments and results can be printed.
* No unlogged function is called from inside a fully unlogged one (`muted`).
* Messages are left after the decorated functions called (`pending`: a message was already left), and these are recorded or leave no
  messages.

What happens in other programs is the subject of C23, C24, C28 and C29. -/
def Orderly (env : CEnv) : Bool → Bool → Body → Prop
  | _, _, .ret _ => True
  | _, _, .raise _ => True
  | muted, pending, .call .plain b k =>
    Orderly env muted pending b ∧ Orderly env muted (pending || !(messages env b).isEmpty) (k (outcome env b))
  | muted, pending, .call (.logged d info) b k =>
    GoodLevel env d.level ∧ info.inputs.isSome = true ∧ Printable (outcome env b) ∧ pending = false ∧
      (SurelyRecorded env muted d (outcome env b) ∨ messages env b = []) ∧
      Orderly env muted false b ∧ Orderly env muted false (k (decoOutcome env d (outcome env b)))
  | muted, pending, .call (.unlogged full) b k =>
    muted = false ∧ Orderly env (fullOf env full) pending b ∧
      Orderly env false (pending || !(messages env b).isEmpty) (k (outcome env b))
  | muted, pending, .block o b k =>
    ValidCall simpleLogger env.h [] (Dict.set "time".toList env.h.now o.data) ∧ Printable (outcome env b) ∧
      Orderly env muted pending b ∧
      Orderly env muted (pending || !(messages env b).isEmpty) (k (blockOutcome env o (outcome env b)))
  | muted, _, .msg args kwargs k =>
    RightMessage env.h args kwargs ∧ GivesSomething env args kwargs ∧ Orderly env muted true (k none)
  | muted, pending, .manual args kwargs k =>
    ValidCall handleLogger env.h args kwargs ∧ Orderly env muted pending (k none)

end PlainSpec
end Polog
