import Verif.Py

/-! C106: the file lock when processes fork and die.

The lock file `<name>.lock` is opened once, when the handler is created (file_lock.py:24-25).  `flock`
(file_lock.py:32) locks the *open file*: a forked process has a descriptor for the same open file.  The system
frees the lock when it is released through any of these descriptors (file_lock.py:39), or when the last of them
is gone. -/

namespace Polog

/-- Where the only thread of a process is. double_lock.py:19-31. -/
inductive FdPc where
  /-- there is no such process, or it has no handler -/
  | absent
  | outside
  /-- in the body of `with self.lock` -/
  | inside
deriving DecidableEq

/-- `opened p`: the open lock file that the handler of process `p` refers to; `holder`: the open file that
holds the exclusive `flock`; `fresh`: open files are numbered from 0. file_lock.py:14-39. -/
structure FdState where
  pc : Nat → FdPc
  opened : Nat → Nat
  holder : Option Nat
  fresh : Nat

/-- A process goes to another place of double_lock.py:19-31. -/
def FdState.go (s : FdState) (p : Nat) (x : FdPc) : FdState := { s with pc := fun q => if q = p then x else s.pc q }

/-- Process `p` refers to the open file `o`, file_lock.py:25. -/
def FdState.refer (s : FdState) (p o : Nat) : FdState :=
  { s with opened := fun q => if q = p then o else s.opened q }

/-- One action of a process with `lock_type='file'` or `'thread+file'`. `forks`: whether processes may fork
after the handler was created. file_lock.py:14-39. -/
inductive FdStep (forks : Bool) : FdState → FdState → Prop
  /-- a process creates the handler, file_lock.py:25 -/
  | create (s : FdState) (p : Nat) : s.pc p = .absent →
      FdStep forks s ({ s with fresh := s.fresh + 1 }.refer p s.fresh |>.go p .outside)
  /-- `os.fork()` outside the handler -/
  | fork (s : FdState) (p q : Nat) : forks = true → s.pc p = .outside → s.pc q = .absent →
      FdStep forks s ((s.refer q (s.opened p)).go q .outside)
  /-- `acquire`, file_lock.py:27-32; it waits while another open file holds the lock -/
  | acquire (s : FdState) (p : Nat) : s.pc p = .outside →
      s.holder = none ∨ s.holder = some (s.opened p) →
      FdStep forks s ({ s with holder := some (s.opened p) }.go p .inside)
  /-- `release`, file_lock.py:34-39 -/
  | release (s : FdState) (p : Nat) : s.pc p = .inside →
      FdStep forks s ({ s with holder := if s.holder = some (s.opened p) then none else s.holder }.go p .outside)
  /-- the process ends or is killed, and others keep its open lock file -/
  | dieShared (s : FdState) (p q : Nat) : s.pc p ≠ .absent → q ≠ p → s.pc q ≠ .absent → s.opened q = s.opened p →
      FdStep forks s (s.go p .absent)
  /-- the process ends or is killed, and nobody else has its open lock file: the system frees the lock -/
  | dieLast (s : FdState) (p : Nat) : (∀ q, q ≠ p → s.pc q ≠ .absent → s.opened q ≠ s.opened p) →
      s.pc p ≠ .absent →
      FdStep forks s ({ s with holder := if s.holder = some (s.opened p) then none else s.holder }.go p .absent)

/-- No process has a handler. Before file_lock.py:14-25. -/
def FdState.init : FdState := ⟨fun _ => .absent, fun _ => 0, none, 0⟩

/-- Executions, file_lock.py:14-39. -/
inductive FdReach (forks : Bool) (s₀ : FdState) : FdState → Prop
  | init : FdReach forks s₀ s₀
  | step {s s' : FdState} : FdReach forks s₀ s → FdStep forks s s' → FdReach forks s₀ s'

/-- Invariant without forks. -/
structure FdInv (s : FdState) : Prop where
  below : ∀ p, s.pc p ≠ .absent → s.opened p < s.fresh
  apart : ∀ p q, s.pc p ≠ .absent → s.pc q ≠ .absent → s.opened p = s.opened q → p = q
  inside : ∀ p, s.pc p = .inside → s.holder = some (s.opened p)
  holder : ∀ o, s.holder = some o → ∃ p, s.pc p = .inside ∧ s.opened p = o

theorem FdReach.inv {s : FdState} (hr : FdReach false .init s) : FdInv s := by
  induction hr with
  | init => constructor <;> simp [FdState.init]
  | step _ hs ih =>
    obtain ⟨h1, h2, h3, h4⟩ := ih
    cases hs with
    | create p hp => constructor <;> simp only [FdState.go, FdState.refer] <;> grind
    | fork p q hf => cases hf
    | acquire p hp hh => constructor <;> simp only [FdState.go] <;> grind
    | release p hp => constructor <;> simp only [FdState.go] <;> grind
    | dieShared p q hp hne hq ho => exact absurd (h2 q p hq hp ho) hne
    | dieLast p ho hp => constructor <;> simp only [FdState.go] <;> grind

/-- **C106 (partial).** Processes that have created their handlers themselves exclude each other, whenever they
start and die.  Missing: forked processes, see below. -/
theorem C106_file_lock_excludes_partial (s : FdState) (hr : FdReach false .init s) (p q : Nat)
    (hp : s.pc p = .inside) (hq : s.pc q = .inside) : p = q := by
  have h := hr.inv
  have e := h.inside p hp
  rw [h.inside q hq] at e
  exact h.apart p q (by rw [hp]; simp) (by rw [hq]; simp) (Option.some.inj e).symm

/-- **C106 (partial).** Without forks a process waits for the file lock only while a living process is inside:
whoever dies, the others can go on.  Missing: forked processes, see below. -/
theorem C106_nobody_waits_for_the_dead_partial (s : FdState) (hr : FdReach false .init s) (p : Nat)
    (hp : s.pc p = .outside) (hin : ∀ q, s.pc q ≠ .inside) :
    ∃ s', FdStep false s s' ∧ s'.pc p = .inside := by
  have h := hr.inv
  have hh : s.holder = none := by
    cases e : s.holder with
    | none => rfl
    | some o => obtain ⟨q, hq, _⟩ := h.holder o e; exact absurd hq (hin q)
  exact ⟨_, .acquire s p hp (.inl hh), by simp [FdState.go]⟩

/-- **C106 fails with forks: exclusion.** A parent and its child are inside at the same time. -/
theorem C106_parent_and_child_inside_fails :
    ∃ s, FdReach true .init s ∧ s.pc 0 = .inside ∧ s.pc 1 = .inside := by
  have r : FdReach true .init .init := .init
  have r := r.step (.create _ 0 rfl)
  have r := r.step (.fork _ 0 1 rfl rfl rfl)
  have r := r.step (.acquire _ 0 rfl (.inl rfl))
  have r := r.step (.acquire _ 1 rfl (.inr rfl))
  exact ⟨_, r, rfl, rfl⟩

/-- Executions in which the processes of `P` neither fork nor are forked; the others may. file_lock.py:14-39. -/
inductive FdFew (P : Nat → Prop) : FdState → Prop
  | init : FdFew P .init
  | step {s s' : FdState} : FdFew P s → FdStep false s s' → FdFew P s'
  | fork {s s' : FdState} (p q : Nat) : FdFew P s → ¬ P p → ¬ P q → s.pc p = .outside → s.pc q = .absent →
      s' = (s.refer q (s.opened p)).go q .outside → FdFew P s'

theorem FdFew.inv {P : Nat → Prop} {s : FdState} (hr : FdFew P s) :
    (∀ p, s.pc p ≠ .absent → s.opened p < s.fresh) ∧
    (∀ p q, P p → s.pc p ≠ .absent → s.pc q ≠ .absent → s.opened p = s.opened q → p = q) ∧
    (∀ p, P p → s.pc p = .inside → s.holder = some (s.opened p)) := by
  induction hr with
  | init => simp [FdState.init]
  | step _ hs ih =>
    obtain ⟨h1, h2, h3⟩ := ih
    cases hs with
    | create p hp => refine ⟨?_, ?_, ?_⟩ <;> simp only [FdState.go, FdState.refer] <;> grind
    | fork p q hf => cases hf
    | acquire p hp hh => refine ⟨?_, ?_, ?_⟩ <;> simp only [FdState.go] <;> grind
    | release p hp => refine ⟨?_, ?_, ?_⟩ <;> simp only [FdState.go] <;> grind
    | dieShared p q hp hne hq ho => refine ⟨?_, ?_, ?_⟩ <;> simp only [FdState.go] <;> grind
    | dieLast p ho hp => refine ⟨?_, ?_, ?_⟩ <;> simp only [FdState.go] <;> grind
  | fork p q _ hp hq hpo hqa he ih =>
    obtain ⟨h1, h2, h3⟩ := ih
    subst he
    refine ⟨?_, ?_, ?_⟩ <;> simp only [FdState.go, FdState.refer] <;> grind

/-- **C106.** Processes that neither fork nor are forked exclude each other, even if other programs that use the same lock file fork:
parents and children that are inside together and release the lock do not take it from them. -/
theorem C106_forks_of_others_do_no_harm (P : Nat → Prop) (s : FdState) (hr : FdFew P s) (p q : Nat) (hp : P p) (hq : P q)
    (hip : s.pc p = .inside) (hiq : s.pc q = .inside) : p = q := by
  obtain ⟨_, h2, h3⟩ := hr.inv
  have e := h3 p hp hip
  rw [h3 q hq hiq] at e
  exact h2 p q hp (by rw [hip]; simp) (by rw [hiq]; simp) (Option.some.inj e).symm

example : -- a parent (0) and its child (1) were inside together, both have left; 2 is inside, 3 waits
    ∃ s, FdFew (fun p => 2 ≤ p) s ∧ s.pc 0 = .outside ∧ s.pc 1 = .outside ∧ s.pc 2 = .inside ∧ s.pc 3 = .outside ∧
      s.opened 0 = s.opened 1 := by
  have r : FdFew (fun p => 2 ≤ p) .init := .init
  have r := r.step (.create _ 0 rfl)
  have r := r.step (.create _ 2 rfl)
  have r := r.step (.create _ 3 rfl)
  have r := r.fork 0 1 (by decide) (by decide) rfl rfl rfl
  have r := r.step (.acquire _ 0 rfl (.inl rfl))
  have r := r.step (.acquire _ 1 rfl (.inr rfl))
  have r := r.step (.release _ 0 rfl)
  have r := r.step (.acquire _ 2 rfl (.inl rfl))
  have r := r.step (.release _ 1 rfl)
  exact ⟨_, r, rfl, rfl, rfl, rfl, rfl⟩

/-- Process `q` is outside, and no other process has its open lock file. -/
def FdAlone (q : Nat) (s : FdState) : Prop :=
  s.pc q = .outside ∧ ∀ p, p ≠ q → s.pc p ≠ .absent → s.opened p ≠ s.opened q

/-- Executions in which process `q` stays outside the handler and forks nobody; the others do what they like. -/
inductive FdIdle (q : Nat) (s₀ : FdState) : FdState → Prop
  | init : FdIdle q s₀ s₀
  | step {s s' : FdState} : FdIdle q s₀ s → FdStep true s s' → FdAlone q s' → FdIdle q s₀ s'

theorem FdIdle.held {q : Nat} {s₀ s : FdState} (hr : FdIdle q s₀ s) (h0 : FdAlone q s₀)
    (h1 : s₀.holder = some (s₀.opened q)) (h2 : ∀ p, s₀.pc p ≠ .inside) :
    FdAlone q s ∧ s.holder = some (s.opened q) ∧ ∀ p, s.pc p ≠ .inside := by
  induction hr with
  | init => exact ⟨h0, h1, h2⟩
  | step _ hs ha ih =>
    obtain ⟨⟨i1, i2⟩, i3, i4⟩ := ih
    refine ⟨ha, ?_⟩
    obtain ⟨a1, a2⟩ := ha
    cases hs with
    | create p hp => simp only [FdState.go, FdState.refer] at a1 a2 ⊢; grind
    | fork p r hf hp hr => simp only [FdState.go, FdState.refer] at a1 a2 ⊢; grind
    | acquire p hp hh => simp only [FdState.go] at a1 a2 ⊢; grind
    | release p hp => simp only [FdState.go] at a1 a2 ⊢; grind
    | dieShared p r hp hne hr ho => simp only [FdState.go] at a1 a2 ⊢; grind
    | dieLast p ho hp => simp only [FdState.go] at a1 a2 ⊢; grind

/-- **C106 fails with forks: the dead.** The parent is killed inside `write`; the child that it forked before is
outside the handler.  Nobody is inside, and still process 2 waits: as long as the child lives, does not log and
does not fork, nobody gets the lock, however long the others run. -/
theorem C106_lock_of_the_dead_is_kept_fails :
    ∃ s, FdReach true .init s ∧ (∀ p, s.pc p ≠ .inside) ∧ s.pc 2 = .outside ∧
      ∀ s', FdIdle 1 s s' → ∀ p, s'.pc p ≠ .inside := by
  have r : FdReach true .init .init := .init
  have r := r.step (.create _ 0 rfl)
  have r := r.step (.create _ 2 rfl)
  have r := r.step (.fork _ 0 1 rfl rfl rfl)
  have r := r.step (.acquire _ 0 rfl (.inl rfl))
  have r := r.step (.dieShared _ 0 1 (by decide +kernel) (by decide) (by decide +kernel) rfl)
  obtain ⟨s, r, hin, hh, h1, h2⟩ : ∃ s, FdReach true .init s ∧
      (∀ p, s.pc p = if p = 1 ∨ p = 2 then .outside else .absent) ∧ s.holder = some 0 ∧ s.opened 1 = 0 ∧
      s.opened 2 = 1 :=
    ⟨_, r, fun p => by simp only [FdState.go, FdState.refer, FdState.init]; grind, rfl, rfl, rfl⟩
  have hn : ∀ p, s.pc p ≠ .inside := fun p hp => by rw [hin] at hp; split at hp <;> cases hp
  refine ⟨s, r, hn, by rw [hin]; rfl, fun s' hs' p => ?_⟩
  refine (hs'.held ⟨by rw [hin]; rfl, fun q hq hp => ?_⟩ (by rw [hh, h1]) hn).2.2 p
  rw [hin] at hp
  have hq2 : q = 2 := by grind
  rw [hq2, h1, h2]
  decide

example : -- without forks: three processes, one was killed inside, another is inside now and the third is outside
    ∃ s, FdReach false .init s ∧ s.pc 0 = .absent ∧ s.pc 1 = .inside ∧ s.pc 2 = .outside := by
  have r : FdReach false .init .init := .init
  have r := r.step (.create _ 0 rfl)
  have r := r.step (.create _ 1 rfl)
  have r := r.step (.create _ 2 rfl)
  have r := r.step (.acquire _ 0 rfl (.inl rfl))
  have r := r.step (.dieLast _ 0 (fun q hq hp => by
    simp only [FdState.go, FdState.refer, FdState.init] at hp ⊢
    grind) (by decide +kernel))
  have r := r.step (.acquire _ 1 rfl (.inl rfl))
  exact ⟨_, r, rfl, rfl, rfl⟩

end Polog
