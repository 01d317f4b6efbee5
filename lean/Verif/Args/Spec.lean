import Verif.Args.Model
import Verif.Format.Spec

/-! Specification for C90: the arguments of a call and its record. -/

namespace Polog
namespace ArgsSpec

/-- What is logged while a program runs: a call of a decorated function, with its arguments, the states of the program at
its start and at its end and how it ended, or a manual log. -/
inductive Event (W : Type) where
  | call (args : List Nat) (kwargs : Dict Str Nat) (before after : W) (out : AOut)
  | manual

variable {W : Type}

/-- The program without Polog: it ends so, in this state, after these events (a call is an event when it ends). -/
inductive Runs : ACode W → W → List (Event W) → AOut → W → Prop where
  | ret (v : Nat) (w : W) : Runs (.ret v) w [] (.ret v) w
  | raise (e : Nat) (w : W) : Runs (.raise e) w [] (.raised e) w
  | act (f : W → W) (k : W → ACode W) (w : W) (evs : List (Event W)) (o : AOut) (w' : W) :
      Runs (k w) (f w) evs o w' → Runs (.act f k) w evs o w'
  | logged (args : List Nat) (kwargs : Dict Str Nat) (b : ACode W) (k : AOut → ACode W) (w w1 w2 : W)
      (evs evs' : List (Event W)) (o o' : AOut) : Runs b w evs o w1 → Runs (k o) w1 evs' o' w2 →
      Runs (.call true args kwargs b k) w (evs ++ .call args kwargs w w1 o :: evs') o' w2
  | plain (args : List Nat) (kwargs : Dict Str Nat) (b : ACode W) (k : AOut → ACode W) (w w1 w2 : W)
      (evs evs' : List (Event W)) (o o' : AOut) : Runs b w evs o w1 → Runs (k o) w1 evs' o' w2 →
      Runs (.call false args kwargs b k) w (evs ++ evs') o' w2
  | manual (k : ACode W) (w : W) (evs : List (Event W)) (o : AOut) (w' : W) : Runs k w evs o w' →
      Runs (.manual k) w (.manual :: evs) o w'

/-- The JSON document has one entry for every argument, in order, with the value or text it has in the state `w` and the
name of its class; there is none when there are no arguments. -/
def Shows (look : W → Nat → ArgVal) (w : W) (args : List Nat) (kwargs : Dict Str Nat) (shown : Option J) : Prop :=
  (args = [] ∧ kwargs = [] ∧ shown = none) ∨
  (¬ (args = [] ∧ kwargs = []) ∧ ∃ as ks, List.Forall₂ (fun r e => FormatSpec.EntryOf (look w r) e) args as ∧
    List.Forall₂ (fun (x : Str × Nat) (e : Str × J) => x.1 = e.1 ∧ FormatSpec.EntryOf (look w x.2) e.2) kwargs ks ∧
    shown = some (.obj ((if args = [] then [] else [("args".toList, .arr as)]) ++
      (if kwargs = [] then [] else [("kwargs".toList, .obj ks)]))))

/-- The objects passed look the same at the end of the call as at its start. -/
def Unchanged (look : W → Nat → ArgVal) (args : List Nat) (kwargs : Dict Str Nat) (before after : W) : Prop :=
  (∀ r ∈ args, look after r = look before r) ∧ ∀ x ∈ kwargs, look after x.2 = look before x.2

/-- Every object has a text and is not an instance of a subclass of `bool`, `int`, `float` or `str` (see C45 for these). -/
def Clear (look : W → Nat → ArgVal) : Prop := ∀ w r, FormatSpec.Printable (look w r) ∧ FormatSpec.Exact (look w r)

end ArgsSpec
end Polog
