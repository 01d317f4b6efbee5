import Verif.EndToEnd.Model
import Verif.Calls.Spec
import Verif.Format.Spec
import Verif.File.Spec

/-! What a user expects to find in the file. -/

namespace Polog
namespace WaySpec

/-- A value as the formatter sees it: `None`, booleans, numbers and strings are themselves, other objects are what `view`
says. -/
inductive Shown (view : HVal → FVal) : HVal → FVal → Prop
  | none : Shown view .none .none
  | bool (b) : Shown view (.bool b) (.bool b)
  | int (n) : Shown view (.int n) (.int n)
  | str (s) : Shown view (.str s) (.str s)
  | object (v) (h : v ≠ .none) (hb : ∀ b, v ≠ .bool b) (hi : ∀ n, v ≠ .int n) (hs : ∀ s, v ≠ .str s) : Shown view v (view v)

/-- The log that comes to the handlers for a record: the fields of the engine are taken too. -/
def LogFor (env : WayEnv) (r : Rec) (log : FLog) : Prop :=
  ∃ data, FieldsSpec.Extracted env.c.h.fieldsIntersection env.engineFields r.data data ∧
    List.Forall₂ (fun x y => y.1 = x.1 ∧ Shown env.view x.2 y.2) data log

/-- The line for an event: the line of the record of the event (see the specifications of records and lines). -/
def LineFor (env : WayEnv) (ev : CallSpec.Event) (line : Str) : Prop :=
  ∃ r log, CallSpec.RecordOf env.c ev r ∧ LogFor env r log ∧ FormatSpec.LineOf env.f env.first "\n".toList log line

/-- The text of the rotated files in order of rotation, and of the file itself. -/
def text (fn : Str) (s : FState) : Str :=
  (s.rotated.map (FileSpec.content s.w)).flatten ++ FileSpec.content s.w fn

end WaySpec
end Polog
