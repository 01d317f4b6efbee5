import Verif.Locks.Props

/-! C41 for processes made by `fork` after the handler was created (`multiprocessing` on Linux).

The lock file of a handler is opened once, when the handler is created (file_lock.py:24-25).  A forked
process gets a copy of the handler with its own copy of the thread lock, but its descriptor refers to the
*same* open file, and `flock` belongs to open files. -/

namespace Polog

/-- Where the only thread of a process is: outside or inside `with self.lock`. double_lock.py:19-31. -/
inductive KPc where
  | outside
  | inside
deriving DecidableEq

/-- `holder`: the open file that holds the exclusive `flock`. file_lock.py:14-39. -/
structure KState (P O : Type) where
  pc : P → KPc
  holder : Option O

variable {P O : Type} [DecidableEq P] [DecidableEq O]

/-- One action of a process with `lock_type='file'` or `'thread+file'` (the thread lock of a process with
one thread is always free).  `opened p` is the open lock file that the handler of process `p` refers to.
`acquire`: file_lock.py:27-32; `release`: file_lock.py:34-39. -/
inductive KStep (opened : P → O) : KState P O → KState P O → Prop
  | acquire (s : KState P O) (p : P) : s.pc p = .outside →
      s.holder = none ∨ s.holder = some (opened p) →
      KStep opened s ⟨fun q => if q = p then .inside else s.pc q, some (opened p)⟩
  | release (s : KState P O) (p : P) : s.pc p = .inside →
      KStep opened s ⟨fun q => if q = p then .outside else s.pc q,
        if s.holder = some (opened p) then none else s.holder⟩

/-- Executions of processes that use file_lock.py:27-39. -/
inductive KReach (opened : P → O) : KState P O → Prop
  | init : KReach opened ⟨fun _ => .outside, none⟩
  | step {s s' : KState P O} : KReach opened s → KStep opened s s' → KReach opened s'

/-- **C41 (partial).** If every process has created its handler itself, at most one process is inside.
Missing: forked processes, see below. -/
theorem C41_separately_opened_lock_files_partial (opened : P → O) (hsep : ∀ p q, opened p = opened q → p = q)
    (s : KState P O) (hr : KReach opened s) (p q : P) (hp : s.pc p = .inside) (hq : s.pc q = .inside) :
    p = q := by
  have inv : ∀ p, s.pc p = .inside → s.holder = some (opened p) := by
    clear hp hq
    induction hr with
    | init => intro p h; cases h
    | step _ hs ih =>
      cases hs with
      | acquire r hpc hh =>
        intro p h
        dsimp only at h ⊢
        by_cases hpr : p = r
        · rw [hpr]
        · rw [if_neg hpr] at h
          have := ih p h
          rcases hh with hh | hh
          · rw [hh] at this; cases this
          · rw [hh] at this
            exact this
      | release r hpc =>
        intro p h
        dsimp only at h ⊢
        by_cases hpr : p = r
        · rw [if_pos hpr] at h; cases h
        · rw [if_neg hpr] at h
          have h1 := ih p h
          rw [if_neg]
          · exact h1
          · intro h2
            rw [h2] at h1
            exact hpr (hsep _ _ (Option.some.inj h1)).symm
  have h1 := inv p hp
  rw [inv q hq] at h1
  exact (hsep _ _ (Option.some.inj h1)).symm

/-- **C41 fails after a fork**: two processes that share the open lock file can both be inside, and when
one of them leaves, a third one with its own lock file can enter while the other is still inside. -/
theorem C41_forked_processes_interleave_fails :
    ∃ opened : Nat → Nat, opened 0 = opened 1 ∧ opened 2 ≠ opened 0 ∧
      (∃ s, KReach opened s ∧ s.pc 0 = .inside ∧ s.pc 1 = .inside) ∧
      (∃ s, KReach opened s ∧ s.pc 0 = .inside ∧ s.pc 2 = .inside) := by
  refine ⟨fun p => p / 2, rfl, by decide, ?_, ?_⟩
  · have r : KReach (fun p => p / 2 : Nat → Nat) _ := .init
    have r := r.step (.acquire _ 0 rfl (.inl rfl))
    have r := r.step (.acquire _ 1 rfl (.inr rfl))
    exact ⟨_, r, rfl, rfl⟩
  · have r : KReach (fun p => p / 2 : Nat → Nat) _ := .init
    have r := r.step (.acquire _ 0 rfl (.inl rfl))
    have r := r.step (.acquire _ 1 rfl (.inr rfl))
    have r := r.step (.release _ 1 rfl)
    have r := r.step (.acquire _ 2 rfl (.inl rfl))
    exact ⟨_, r, rfl, rfl⟩

example : ∃ s, KReach (fun p => p : Nat → Nat) s ∧ s.pc 0 = .inside ∧ s.pc 1 = .outside := by
  have r : KReach (fun p => p : Nat → Nat) _ := .init
  have r := r.step (.acquire _ 0 rfl (.inl rfl))
  exact ⟨_, r, rfl, rfl⟩

end Polog
