import Verif.Registry.Binding

/-! Calls of methods, and which methods are ordinary (C88). -/

namespace Polog
namespace BindSpec

/-- The two ways to call a method: through a class, `D.name(...)`, or through an instance of it, `d.name(...)`. -/
inductive Access where
  | onClass (d : Nat)
  | onInstance (d i : Nat)

/-- The class through which it is called. -/
def Access.via : Access → Nat
  | .onClass d => d
  | .onInstance d _ => d

/-- The attribute that is found under a name: that of the first class of the order of resolution which defines it. -/
def found (w : MClasses) (name : Str) (order : List Nat) : Option MethodAttr :=
  order.findSome? fun c => Dict.get? name (w.own c)

/-- `D.name`, if it can be called. A class method is bound to the class through which it is read. -/
def viaClass (w : MClasses) (d : Nat) (name : Str) : Option CallObj :=
  match found w name (w.mro d) with
  | none => none
  | some .value => none
  | some (.plain o) => some o
  | some (.static o) => some o
  | some (.clsm o) => some (.bound o (.cls d))

/-- `d.name`, where `d` is the instance `i` of the class `d`: functions are bound to the instance, class methods to its class. -/
def viaInstance (w : MClasses) (d i : Nat) (name : Str) : Option CallObj :=
  match found w name (w.mro d) with
  | none => none
  | some .value => none
  | some (.plain (.fn id)) => some (.bound (.fn id) (.inst i))
  | some (.plain (.wrapper f)) => some (.bound (.wrapper f) (.inst i))
  | some (.plain (.bound f s)) => some (.bound f s)
  | some (.plain (.object id)) => some (.object id)
  | some (.static o) => some o
  | some (.clsm o) => some (.bound o (.cls d))

/-- What of the user's is run by a call with these arguments, and what it is given: a bound method puts its object first, a wrapper
changes nothing. -/
def received : CallObj → List Actual → Nat × List Actual
  | .fn id, args => (id, args)
  | .object id, args => (id, args)
  | .bound f self, args => received f (self :: args)
  | .wrapper f, args => received f args

/-- The object without its outermost wrapper, if it has one. -/
def inner : CallObj → CallObj
  | .wrapper f => f
  | .fn id => .fn id
  | .bound f self => .bound f self
  | .object id => .object id

/-- Which of the user's functions a call runs, and what it is given; `none`: nothing can be called. -/
def runs (w : MClasses) : Access → Str → List Actual → Option (Nat × List Actual)
  | .onClass d, name, args => (viaClass w d name).map fun o => received o args
  | .onInstance d i, name, args => (viaInstance w d i name).map fun o => received o args

/-- The class has the name, and it is an ordinary method: the function `id`, decorated or not. -/
inductive IsMethod : CallObj → Nat → Prop
  | fn (id : Nat) : IsMethod (.fn id) id
  | wrapper (f : CallObj) (id : Nat) : IsMethod f id → IsMethod (.wrapper f) id

/-- An attribute that is an ordinary method, or nothing that can be called, or no attribute at all. -/
def Ordinary (w : MClasses) (c : Nat) (name : Str) : Prop :=
  (∃ o id, found w name (w.mro c) = some (.plain o) ∧ IsMethod o id) ∨ viaClass w c name = none

/-- The order of resolution of `d` ends with that of `c`: `c` itself and what is derived from it with single inheritance, or
with all other bases before it. -/
def DerivedFrom (w : MClasses) (d c : Nat) : Prop := ∃ before, c ∉ before ∧ w.mro d = before ++ w.mro c

end BindSpec

end Polog
