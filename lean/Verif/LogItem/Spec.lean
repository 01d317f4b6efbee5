import Verif.LogItem.Model

/-! What the user relies on about extra fields. -/

namespace Polog
namespace FieldsSpec

/-- A plain map from field names to field objects. -/
abbrev Map (F : Type) := Str → Option F

def assign {F : Type} (m : Map F) (name : Str) (v : Option F) : Map F :=
  fun n => if n = name then v else m n

/-- The standard fields of a record. -/
def standardFields : List Str :=
  ["level", "auto", "time", "service_name", "success", "function", "class", "module", "message", "exception_type",
   "exception_message", "traceback", "input_variables", "local_variables", "result", "time_of_work"].map String.toList

/-- A name the documentation allows for an extra field. -/
def goodName (isId : Str → Bool) (name : Str) : Bool :=
  isId name && name.head? != some '_' && !(standardFields.contains name)

/-- `add_fields`: items are registered one by one until the first bad one. -/
def add {F : Type} (isId : Str → Bool) : Map F → List (Str × Option F) → Map F × Option PyErr
  | m, [] => (m, none)
  | m, (_, none) :: _ => (m, some .valueError)
  | m, (name, some f) :: rest =>
    if goodName isId name then add isId (assign m name (some f)) rest else (m, some .nameError)

/-- `delete_fields`: names are removed one by one until the first unknown one. -/
def delete {F : Type} : Map F → List Key → Map F × Option PyErr
  | m, [] => (m, none)
  | m, .other :: _ => (m, some .keyError)
  | m, .str name :: rest =>
    match m name with
    | none => (m, some .keyError)
    | some _ => delete (assign m name none) rest

/-- Both registries. -/
structure Maps (F : Type) where
  inPlace : Map F
  engine : Map F

def call {F : Type} (isId : Str → Bool) (s : Maps F) : FieldCall F → Maps F × Option PyErr
  | .addFields kw => let r := add isId s.inPlace kw; (⟨r.1, s.engine⟩, r.2)
  | .addEngineFields kw => let r := add isId s.engine kw; (⟨s.inPlace, r.1⟩, r.2)
  | .deleteFields ns => let r := delete s.inPlace ns; (⟨r.1, s.engine⟩, r.2)
  | .deleteEngineFields ns => let r := delete s.engine ns; (⟨s.inPlace, r.1⟩, r.2)

def calls {F : Type} (isId : Str → Bool) : Maps F → List (FieldCall F) → Maps F
  | s, [] => s
  | s, c :: cs => calls isId (call isId s c).1 cs

/-- What a record holds for a field after its extraction: `old` is what it held before (if anything),
`result` what the extractor did. -/
def stored {V : Type} (old : Option V) (inter : Bool) (result : Except Unit V) : Option V :=
  match old, inter, result with
  | none, _, .ok v => some v
  | none, _, .error _ => none
  | some o, false, _ => some o
  | some _, true, .ok v => some v
  | some o, true, .error _ => some o

/-- One extra field is taken from a record: it gets what it is to hold, all others stay as they are and where they are, and a
new one comes last. -/
def Taken {V : Type} (inter : Bool) (name : Str) (f : Extractor V) (before after : Dict Str V) : Prop :=
  (∀ key, Dict.get? key after =
    if key = name then stored (Dict.get? name before) inter (f before) else Dict.get? key before) ∧
  (after.map Prod.fst = before.map Prod.fst ∨ after.map Prod.fst = before.map Prod.fst ++ [name] ∧ name ∉ before.map Prod.fst)

/-- Extra fields are taken one after another. -/
inductive Extracted {V : Type} (inter : Bool) : List (Str × Extractor V) → Dict Str V → Dict Str V → Prop
  | none (d) : Extracted inter [] d d
  | more {name f rest d₁ d₂ d₃} : Taken inter name f d₁ d₂ → Extracted inter rest d₂ d₃ →
      Extracted inter ((name, f) :: rest) d₁ d₃

/-- The union of dictionaries with pairwise different string keys and proper fields, or failure. -/
def goodDicts {F : Type} (ds : List (List (Str × F))) : Prop := (ds.flatten.map Prod.fst).Nodup

end FieldsSpec
end Polog

namespace Polog

/-- A clean dictionary argument. -/
def cleanDict {F : Type} (d : List (Str × F)) : List (Option Str × Option F) :=
  d.map fun x => (some x.1, some x.2)

end Polog

namespace Polog

variable {V : Type}

namespace LogSpec

/-- The answers a dictionary gives that has exactly the items `items`, in this order: to every way of reading it. -/
structure Answers (answer : LogOp V → LogRes V) (items : List (Str × V)) : Prop where
  /-- every field has one value -/
  once : (items.map Prod.fst).Nodup
  pairs : answer .items = .pairs items
  keys : answer .keys = .names (items.map Prod.fst)
  iter : answer .iter = .names (items.map Prod.fst)
  values : answer .values = .vals (items.map Prod.snd)
  len : answer .len = .nat items.length
  present : ∀ k v, (k, v) ∈ items → answer (.contains k) = .bool true ∧ answer (.getitem k) = .value v ∧
    answer (.get k) = .value v ∧ ∀ d, answer (.getOr k d) = .value v
  absent : ∀ k, k ∉ items.map Prod.fst → answer (.contains k) = .bool false ∧ answer (.getitem k) = .raised .keyError ∧
    answer (.get k) = .noneValue ∧ ∀ d, answer (.getOr k d) = .value d

end LogSpec

end Polog
