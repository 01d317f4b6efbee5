import Verif.Registry.Model

/-!
What the documentation says about stacks of decorators (README, «Перекрестное декорирование» and «Запрет
логирования»), without the registry.
-/

namespace Polog.StackSpec

/-- What stands between the caller and the user's function, from the outside in. -/
inductive Wrap where
  | log (d : Deco)
  | unlog (full : Option Bool)
  | other

/-- The wrappers a call of the function object goes through. -/
def wraps : FObj → List Wrap
  | .orig _ => []
  | .logged _ d f => .log d :: wraps f
  | .unlogged _ full f => .unlog full :: wraps f
  | .other _ f => .other :: wraps f

/-- The user's function at the bottom. -/
def bottom : FObj → Nat
  | .orig i => i
  | .logged _ _ f => bottom f
  | .unlogged _ _ f => bottom f
  | .other _ f => bottom f

/-- A line of the stack is a log decorator of the function itself. -/
def IsLog : Layer → Prop
  | .log _ => True
  | _ => False

/-- A line of the stack is `@unlog`. -/
def IsUnlog : Layer → Prop
  | .unlog _ => True
  | _ => False

/-- A line of the stack is a foreign decorator. -/
def IsOther : Layer → Prop
  | .other => True
  | _ => False

/-- Only Polog's decorators (for a function itself or for its class). -/
def PologOnly (ls : List Layer) : Prop := ∀ l ∈ ls, ¬ IsOther l

/-- What the lines of a stack (without foreign decorators, the top line first) should amount to. -/
inductive Amounts : List Layer → List Wrap → Prop
  /-- No decorators: the function itself. -/
  | none : Amounts [] []
  /-- No `@unlog`: the topmost `@log(...)` of the function itself. -/
  | own (upper lower : List Layer) (d : Deco) :
    (∀ l ∈ upper, ¬ IsLog l) → (∀ l ∈ upper ++ lower, ¬ IsUnlog l) →
    Amounts (upper ++ .log d :: lower) [.log d]
  /-- Only decorators of the class: the topmost one. -/
  | cls (lower : List Layer) (d : Deco) :
    (∀ l ∈ lower, ¬ IsLog l) → (∀ l ∈ lower, ¬ IsUnlog l) →
    Amounts (.cls d :: lower) [.log d]
  /-- `@unlog` on top of the stack. -/
  | unlogTop (lower : List Layer) (full : Option Bool) : Amounts (.unlog full :: lower) [.unlog full]
  /-- `@unlog` somewhere lower: unlogged, in the mode of the setting `full_unlog`. -/
  | unlogBelow (l : Layer) (lower : List Layer) : ¬ IsUnlog l → (∃ l ∈ lower, IsUnlog l) →
    Amounts (l :: lower) [.unlog .none]

/-- The same with foreign decorators: each of them separates the stack, and both parts work on their own. -/
inductive AmountsAll : List Layer → List Wrap → Prop
  | polog (ls : List Layer) (ws : List Wrap) : PologOnly ls → Amounts ls ws → AmountsAll ls ws
  | other (upper lower : List Layer) (us ws : List Wrap) : PologOnly upper → Amounts upper us →
    AmountsAll lower ws → AmountsAll (upper ++ .other :: lower) (us ++ .other :: ws)

/-- Names that the decorator of a class leaves alone. -/
def Dunder (n : Str) : Prop := "__".toList <+: n ∨ "__".toList <:+ n

end Polog.StackSpec

namespace Polog
open StackSpec

/-- All function objects there are after a history of `def` statements and decorations, applied to any objects in
any order (also to the same object again). -/
inductive FHistory : FRegistry → List FObj → Prop
  | start : FHistory .empty []
  | define {r objs} : FHistory r objs → FHistory r.defFn.2 (r.defFn.1 :: objs)
  | decorate {r objs} (l : Layer) (f : FObj) : FHistory r objs → f ∈ objs →
      FHistory (l.apply f r).2 ((l.apply f r).1 :: objs)

/-- A function was defined and the decorators `ls` (the top one first) were put on it one by one, each on the
result of the one before. In between, before and after, anything was done to other functions. -/
inductive Built (b : Nat) : FRegistry → List FObj → FObj → List Layer → Prop
  | define {r objs} : FHistory r objs → r.next = b → Built b r.defFn.2 (r.defFn.1 :: objs) r.defFn.1 []
  | line {r objs f ls} (l : Layer) : Built b r objs f ls →
      Built b (l.apply f r).2 ((l.apply f r).1 :: objs) (l.apply f r).1 (l :: ls)
  | defineAnother {r objs f ls} : Built b r objs f ls → Built b r.defFn.2 (r.defFn.1 :: objs) f ls
  | decorateAnother {r objs f ls} (l : Layer) (g : FObj) : Built b r objs f ls → g ∈ objs → bottom g ≠ b →
      Built b (l.apply g r).2 ((l.apply g r).1 :: objs) f ls

end Polog
