import Verif.LogItem.Model

/-!
Model of the extraction of extra fields *while other threads (or the fields themselves) register and delete fields*:
`LogItem.extract_extra_fields_from` (`polog/core/log_item.py:179-194`) goes through `fields.items()` without a lock and without a
copy.  `fields` is the global dictionary itself (`polog/core/stores/fields.py`) or a `FieldsContainer` over it
(`polog/data_structures/wrappers/fields_container/container.py:30-41`).  `config.add_fields`, `config.delete_fields` and their
counterparts for engine fields change this dictionary in place (`polog/config.py:146-199`).
-/

namespace Polog

/-- A dictionary of CPython as its iterators see it (`Objects/dictobject.c`): the table of entries in the order of insertion; a
deleted entry leaves an empty place until the table is rebuilt.
The dictionaries of fields iterated at container.py:30-41 and log_item.py:179-194. -/
abbrev Slots (F : Type) := List (Option (Str × F))

/-- The content of the dictionary, `fields.py:1-2`. -/
def Slots.items {F : Type} (s : Slots F) : Dict Str F := s.filterMap id

/-- The next entry at or after a position: the position behind it, and the entry.
A step of the iteration at log_item.py:188. -/
def Slots.next {F : Type} : Slots F → Nat → Option (Nat × (Str × F))
  | [], _ => none
  | some x :: _, 0 => some (1, x)
  | none :: r, 0 => (Slots.next r 0).map fun y => (y.1 + 1, y.2)
  | _ :: r, p + 1 => (Slots.next r p).map fun y => (y.1 + 1, y.2)

/-- An elementary change of the dictionary by `add_fields` / `add_engine_fields` (`config.py:164, 177`) or `delete_fields` /
`delete_engine_fields` (`config.py:189, 199`).
Simplification: CPython rebuilds the table when an insertion meets a full table (the first time at the sixth insertion); here any
insertion of a new name may do it. -/
inductive FieldChange {F : Type} : Slots F → Slots F → Prop
  /-- `in_place_fields[key] = value` for a new name -/
  | add {s : Slots F} (n : Str) (f : F) (hn : n ∉ Dict.keys s.items) : FieldChange s (s ++ [some (n, f)])
  /-- the same, and the table is rebuilt without the empty places -/
  | addRebuild {s : Slots F} (n : Str) (f : F) (hn : n ∉ Dict.keys s.items) :
      FieldChange s (s.items.map some ++ [some (n, f)])
  /-- `in_place_fields[key] = value` for a name that is there: the entry keeps its place -/
  | replace (a b : Slots F) (n : Str) (f f' : F) :
      FieldChange (a ++ some (n, f) :: b) (a ++ some (n, f') :: b)
  /-- `in_place_fields.pop(name)` -/
  | delete (a b : Slots F) (n : Str) (f : F) : FieldChange (a ++ some (n, f) :: b) (a ++ none :: b)

/-- Where the thread that makes the record is. Inside log_item.py:179-194. -/
inductive TakeState (V : Type) where
  /-- `container.py:36-37`: the fields given to the decorator that are still to be taken.  No other code has a reference to their
  dictionary (`function_logger.py:311-326`).  Empty if `fields` is the global dictionary -/
  | own (rest : List (Str × Extractor V))
  /-- before `self.defaults.items()`, `container.py:39`, or `fields.items()`, `log_item.py:188` -/
  | start
  /-- before the next step of the iterator, which was made when the dictionary had `used` entries, is at place `pos` and
  expects `len` more entries -/
  | loop (used pos len : Nat)
  /-- the iterator gave the field; before and during `get_data`, `log_item.py:189-192` -/
  | took (name : Str) (f : Extractor V) (used pos len : Nat)
  /-- the loop has ended, and the record goes on its way: to the engine (`handle_log.py:69-70`, `function_logger.py:238`,
  `217, 188`) or, for engine fields, to the handlers (`log_item.py:156-157`) -/
  | handed
  /-- `RuntimeError` of the iterator.  It is raised outside of the `try` of `log_item.py:190-194`, so it leaves the log call (or the
  decorated function) before `engine.write`; for engine fields, it leaves `LogItem.__call__` before the handlers -/
  | raised

/-- The whole state: the global dictionary of fields, the thread, the record in work.
log_item.py:173-194 and the dictionary of config.py:147-187. -/
structure TakeSys (V : Type) where
  slots : Slots (Extractor V)
  st : TakeState V
  data : Dict Str V

variable {V : Type}

/-- The body of the loop, `log_item.py:189-194`. -/
def extractOne (inter : Bool) (name : Str) (f : Extractor V) (data : Dict Str V) : Dict Str V :=
  if !(Dict.has name data) || inter then
    match f data with
    | .ok value => Dict.set name value data
    | .error _ => data
  else data

/-- One step of the thread that makes the record.  `own` are the fields given to the decorator, `globals` says whether the global
ones are used too (`FieldsSource`).
Simplifications: the setting `fields_intersection` does not change during the run; `get_data` is one step (its own changes of the
registry are `FieldChange`s made in the state `took`). log_item.py:179-194 with container.py:30-41. -/
inductive TakeStep (inter : Bool) (own : List (Str × Extractor V)) (globals : Bool) : TakeSys V → TakeSys V → Prop
  /-- `container.py:36-37`, `log_item.py:188-194` -/
  | ownField {s : Slots (Extractor V)} {n f r d} :
      TakeStep inter own globals ⟨s, .own ((n, f) :: r), d⟩ ⟨s, .own r, extractOne inter n f d⟩
  /-- `container.py:39` -/
  | ownEnd {s : Slots (Extractor V)} {d} (hg : globals = true) : TakeStep inter own globals ⟨s, .own [], d⟩ ⟨s, .start, d⟩
  /-- no global fields are used -/
  | ownOnly {s : Slots (Extractor V)} {d} (hg : globals = false) : TakeStep inter own globals ⟨s, .own [], d⟩ ⟨s, .handed, d⟩
  /-- the iterator is made -/
  | iter {s : Slots (Extractor V)} {d} :
      TakeStep inter own globals ⟨s, .start, d⟩ ⟨s, .loop s.items.length 0 s.items.length, d⟩
  /-- "dictionary changed size during iteration" -/
  | changed {s : Slots (Extractor V)} {used pos len d} (hu : s.items.length ≠ used) :
      TakeStep inter own globals ⟨s, .loop used pos len, d⟩ ⟨s, .raised, d⟩
  /-- `StopIteration` -/
  | finish {s : Slots (Extractor V)} {used pos len d} (hu : s.items.length = used) (hn : s.next pos = none) :
      TakeStep inter own globals ⟨s, .loop used pos len, d⟩ ⟨s, .handed, d⟩
  /-- "dictionary keys changed during iteration" -/
  | unexpected {s : Slots (Extractor V)} {used pos d y} (hu : s.items.length = used) (hn : s.next pos = some y) :
      TakeStep inter own globals ⟨s, .loop used pos 0, d⟩ ⟨s, .raised, d⟩
  /-- the next field -/
  | item {s : Slots (Extractor V)} {used pos len d pos' n f} (hu : s.items.length = used)
      (hn : s.next pos = some (pos', (n, f))) :
      TakeStep inter own globals ⟨s, .loop used pos (len + 1), d⟩ ⟨s, .took n f used pos' len, d⟩
  /-- `container.py:40`: the decorator has a field of this name -/
  | hidden {s : Slots (Extractor V)} {n f used pos len d} (ho : n ∈ Dict.keys own) :
      TakeStep inter own globals ⟨s, .took n f used pos len, d⟩ ⟨s, .loop used pos len, d⟩
  /-- `log_item.py:189-194` -/
  | field {s : Slots (Extractor V)} {n f used pos len d} (ho : n ∉ Dict.keys own) :
      TakeStep inter own globals ⟨s, .took n f used pos len, d⟩ ⟨s, .loop used pos len, extractOne inter n f d⟩

/-- The thread and the changes by all threads, in any interleaving. log_item.py:179-194, config.py:147-198. -/
inductive LiveStep (inter : Bool) (own : List (Str × Extractor V)) (globals : Bool) : TakeSys V → TakeSys V → Prop
  | own {x y : TakeSys V} (h : TakeStep inter own globals x y) : LiveStep inter own globals x y
  | change {x : TakeSys V} {s' : Slots (Extractor V)} (h : FieldChange x.slots s') :
      LiveStep inter own globals x { x with slots := s' }

/-- The call of `extract_extra_fields_from` for a record with the given content. log_item.py:173-177. -/
def TakeSys.begin (own : List (Str × Extractor V)) (slots : Slots (Extractor V)) (d : Dict Str V) : TakeSys V :=
  ⟨slots, .own own, d⟩

end Polog
