import Verif.Calls.Spec

/-! What every record of any program is due to: no assumption about the program. -/

namespace Polog
namespace CallSpec

/-- The code `p` is a part of the code (it may be run or not). -/
inductive Part (p : Body) : Body → Prop
  | self : Part p p
  | callee (kind : Kind) (b : Body) (k : Outcome → Body) : Part p b → Part p (.call kind b k)
  | afterCall (kind : Kind) (b : Body) (k : Outcome → Body) (o : Outcome) : Part p (k o) → Part p (.call kind b k)
  | inBlock (o : BlockOpts) (b : Body) (k : Outcome → Body) : Part p b → Part p (.block o b k)
  | afterBlock (o : BlockOpts) (b : Body) (k : Outcome → Body) (out : Outcome) : Part p (k out) → Part p (.block o b k)
  | afterMessage (args : List HVal) (kwargs : Dict Str HVal) (k : Option PyErr → Body) (e : Option PyErr) :
      Part p (k e) → Part p (.msg args kwargs k)
  | afterManual (args : List HVal) (kwargs : Dict Str HVal) (k : Option PyErr → Body) (e : Option PyErr) :
      Part p (k e) → Part p (.manual args kwargs k)

/-- Somewhere in the code `message(...)` is called with these arguments. -/
def SaysMessage (b : Body) (args : List HVal) (kwargs : Dict Str HVal) : Prop := ∃ k, Part (.msg args kwargs k) b

/-- The message is one of those in the code, or there is none. -/
def MessageFrom (env : CEnv) (b : Body) : Option (Dict Str HVal) → Prop
  | none => True
  | some f => ∃ args kwargs, SaysMessage b args kwargs ∧ messageFields env args kwargs = some f

/-- No message in the code gives this field. -/
def NoMessageGives (b : Body) (key : Str) : Prop := ∀ args kwargs, SaysMessage b args kwargs → key ∉ Dict.keys kwargs

/-- Extractable fields do not replace this field: they never replace anything with `fields_intersection=False`, and they do not
concern fields with other names. -/
def ExtraFieldsKeep (env : CEnv) (b : Body) (key : Str) : Prop :=
  env.h.fieldsIntersection = false ∨
    (key ∉ env.h.inPlace.map Prod.fst ∧
      ∀ d info callee k, Part (.call (.logged d info) callee k) b → key ∉ d.inPlace.map Prod.fst)

/-- What a record is due to. -/
inductive DueTo (env : CEnv) (b : Body) (r : Rec) : Prop
  /-- the end of a call of a function that is decorated in the code, whose level passes the filter; the fields are those of
  this call, with at most one message of the code -/
  | call (d : Deco) (info : FnInfo) (o : Outcome) (callee : Body) (k : Outcome → Body) (msg : Option (Dict Str HVal)) :
      Part (.call (.logged d info) callee k) b → Passes env d o → MessageFrom env b msg →
      RecordOf env (.ended d info o msg) r → DueTo env b r
  /-- a manual log in the code -/
  | manual (args : List HVal) (kwargs : Dict Str HVal) (k : Option PyErr → Body) :
      Part (.manual args kwargs k) b → r.origin = .manual →
      r.data ∈ (handleLog { env.h with unlogged := false } args kwargs).records → DueTo env b r
  /-- the end of a `with log(...)` block in the code -/
  | block (o : BlockOpts) (inner : Body) (k : Outcome → Body) (out : Outcome) :
      Part (.block o inner k) b → r.origin = .block out →
      r.data ∈ (baseCall simpleLogger { env.h with unlogged := false } [] (blockData env o out)).records → DueTo env b r

end CallSpec
end Polog

namespace Polog
open CallSpec

/-- Fields registered by the API: a program whose decorators have no extra fields of their own. -/
def CallSpec.OnlyRegistered (isId : Str → Bool) (env : CEnv) (b : Body) : Prop :=
  (∃ history, env.h.inPlace = (FieldStore.empty.calls isId history).inPlace) ∧
    ∀ d info callee k, Part (.call (.logged d info) callee k) b → d.inPlace = env.h.inPlace

end Polog
