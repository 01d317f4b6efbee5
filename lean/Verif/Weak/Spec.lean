import Verif.Weak.Model

/-! What the user of a weak dictionary relies on. -/

namespace Polog.WeakSpec

/-- A plain map. -/
abbrev Map := Nat → Option Nat

/-- Assignments and deletions do what they do in a dictionary, and an object that goes away takes its
pairs with it, as a key and as a value. -/
def step (env : ObjEnv) (m : Map) : WeakOp → Map
  | .set k v => if env.isNone v || !env.weakable k || !env.weakable v then m else fun n => if n = k then some v else m n
  | .del k => fun n => if n = k then none else m n
  | .pop k ds => if 2 ≤ ds.length then m else fun n => if n = k then none else m n
  | .die x => fun n => if n = x ∨ m n = some x then none else m n

def run (env : ObjEnv) : Map → List WeakOp → Map
  | m, [] => m
  | m, op :: ops => run env (step env m op) ops

/-- The program uses only objects that it still has, and an object goes away once. -/
def Sensible : List Nat → List WeakOp → Prop
  | _, [] => True
  | gone, .set k v :: ops => k ∉ gone ∧ v ∉ gone ∧ Sensible gone ops
  | gone, .del k :: ops => k ∉ gone ∧ Sensible gone ops
  | gone, .pop k _ :: ops => k ∉ gone ∧ Sensible gone ops
  | gone, .die x :: ops => x ∉ gone ∧ Sensible (x :: gone) ops

/-- Keys are equal only to themselves (as functions are). -/
def Identity (env : ObjEnv) : Prop := ∀ a b, env.same a b = true ↔ a = b

end Polog.WeakSpec
