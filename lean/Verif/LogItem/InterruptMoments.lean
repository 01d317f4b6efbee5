import Verif.LogItem.InterruptProps

/-! C82: the moments of an interrupt inside of a handler. -/

namespace Polog

variable {V : Type}

/-- What a handler does, one action after the other: `some e` is an effect, `none` something that nobody else sees (reading the log,
the end). -/
def InterruptSpec.actions {E : Type} : Prog V E → LogItem V → List (Option E)
  | .ret, _ => [none]
  | .throw, _ => [none]
  | .op o k, l => none :: actions (k (l.op o).2) (l.op o).1
  | .emit e k, l => some e :: actions k l

open InterruptSpec in
/-- **C82**, the moments: an interrupt before the action number `n` of a handler (counted from 0) leaves exactly the effects among the
first `n` actions, and the handler ends with an exception. If the handler has at most `n` actions, it does all of its work, and the
interrupt comes later, after the rest of the `n` actions. -/
theorem C82_interrupt_at_every_moment {E : Type} (h : Prog V E) : ∀ (l : LogItem V) (n : Nat),
    (h.runInt (some n) l).2.1 = ((actions h l).take n).reduceOption ∧
    (n < (actions h l).length → (h.runInt (some n) l).2.2 = (.raised, none)) ∧
    ((actions h l).length ≤ n → (h.runInt (some n) l).2.1 = (h.run l).2.1 ∧
      (h.runInt (some n) l).2.2 = ((h.run l).2.2, some (n - (actions h l).length))) := by
  induction h with
  | ret =>
    intro l n
    cases n with
    | zero => exact ⟨rfl, fun _ => rfl, fun h => absurd h (by simp [actions])⟩
    | succ n => exact ⟨by simp [Prog.runInt, actions, List.reduceOption], fun h => absurd h (by simp [actions]), fun _ => ⟨rfl, rfl⟩⟩
  | throw =>
    intro l n
    cases n with
    | zero => exact ⟨rfl, fun _ => rfl, fun h => absurd h (by simp [actions])⟩
    | succ n => exact ⟨by simp [Prog.runInt, actions, List.reduceOption], fun h => absurd h (by simp [actions]), fun _ => ⟨rfl, rfl⟩⟩
  | op o k ih =>
    intro l n
    cases n with
    | zero => exact ⟨rfl, fun _ => rfl, fun h => absurd h (by simp [actions])⟩
    | succ n =>
      obtain ⟨h1, h2, h3⟩ := ih (l.op o).2 (l.op o).1 n
      simp only [Prog.runInt, Prog.run, actions, Option.map_some, Nat.add_sub_cancel, List.take_succ_cons, List.length_cons,
        Nat.add_lt_add_iff_right, Nat.add_le_add_iff_right, Nat.add_sub_add_right]
      exact ⟨by rw [h1]; rfl, h2, h3⟩
  | emit e k ih =>
    intro l n
    cases n with
    | zero => exact ⟨rfl, fun _ => rfl, fun h => absurd h (by simp [actions])⟩
    | succ n =>
      obtain ⟨h1, h2, h3⟩ := ih l n
      simp only [Prog.runInt, Prog.run, actions, Option.map_some, Nat.add_sub_cancel, List.take_succ_cons, List.length_cons,
        Nat.add_lt_add_iff_right, Nat.add_le_add_iff_right, Nat.add_sub_add_right]
      exact ⟨by rw [h1]; rfl, h2, fun hn => ⟨by rw [(h3 hn).1], (h3 hn).2⟩⟩

/-- A handler with two effects, interrupted between them and after them. -/
example : (InterruptSpec.actions (V := Nat) (.emit 1 (.emit 2 .ret)) ⟨some []⟩).length = 3 ∧
    (Prog.runInt (V := Nat) (some 1) (.emit 1 (.emit 2 .ret)) ⟨some []⟩).2 = ([1], .raised, none) ∧
    (Prog.runInt (V := Nat) (some 5) (.emit 1 (.emit 2 .ret)) ⟨some []⟩).2 = ([1, 2], .returned, some 2) := ⟨rfl, rfl, rfl⟩

end Polog
