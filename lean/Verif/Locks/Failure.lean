import Verif.Locks.Props

/-!
What becomes of the locks when `flock` fails or is interrupted.  `DoubleLock.__enter__`
(double_lock.py:19-24) takes the thread lock and then the file lock; `fcntl.flock` (file_lock.py:32) waits
for other processes and may raise: `OSError` (no locks available, a network file system), or
`KeyboardInterrupt` during the wait.  The exception leaves `__enter__`; `__exit__` is not called for a
`with` statement whose `__enter__` raised.
-/

namespace Polog

/-- The state, with the handlers through which `flock` has failed (history).
double_lock.py:19-31, file_lock.py:27-39. -/
structure FlState (T H : Type) where
  l : LState T H
  failed : List H

variable {T H : Type} [DecidableEq T] [DecidableEq H]

/-- No lock is taken, nothing has failed: double_lock.py:13-17. -/
def FlState.init : FlState T H := ⟨LState.init, []⟩

/-- One step when `flock` may fail. double_lock.py:19-31, file_lock.py:27-39. -/
inductive FlStep (k : LKind) (uses : T → H → Prop) : FlState T H → FlState T H → Prop
  | run (s : FlState T H) (l' : LState T H) : LStep k uses s.l l' → FlStep k uses s ⟨l', s.failed⟩
  /-- `file_lock.acquire()` raises, double_lock.py:24: the thread is outside again -/
  | fail (s : FlState T H) (t : T) (h : H) : s.l.pc t = .entering h → k.file = true →
      FlStep k uses s ⟨{ s.l with pc := setPc s.l t .outside }, h :: s.failed⟩

/-- Executions from `s₀`. double_lock.py:19-31. -/
inductive FlReach (k : LKind) (uses : T → H → Prop) (s₀ : FlState T H) : FlState T H → Prop
  | init : FlReach k uses s₀ s₀
  | step {s s' : FlState T H} : FlReach k uses s₀ s → FlStep k uses s s' → FlReach k uses s₀ s'

structure FlInv (k : LKind) (s : FlState T H) : Prop where
  off : k.thread = false → ∀ h, s.l.threadLock h = none
  offFile : k.file = false → s.l.fileLock = none
  owner : ∀ h t, s.l.threadLock h = some t → s.l.pc t = .entering h ∨ s.l.pc t = .inside h ∨ (k.file = true ∧ h ∈ s.failed)
  file : ∀ h, s.l.fileLock = some h → ∃ t, s.l.pc t = .inside h ∨ s.l.pc t = .leaving h
  holds : k.thread = true → ∀ t h, s.l.pc t = .entering h ∨ s.l.pc t = .inside h → s.l.threadLock h = some t
  stuck : k.thread = true → ∀ h ∈ s.failed, ∃ t, s.l.threadLock h = some t ∧ s.l.pc t ≠ .entering h ∧ s.l.pc t ≠ .inside h

theorem FlInv_init {k : LKind} : FlInv k (FlState.init : FlState T H) := by
  constructor <;> simp [FlState.init, LState.init]

theorem FlInv_step {k : LKind} {uses : T → H → Prop} {s s' : FlState T H} (hi : FlInv k s)
    (hs : FlStep k uses s s') : FlInv k s' := by
  obtain ⟨i1, i2, i3, i4, i5, i6⟩ := hi
  cases hs with
  | run l' hl =>
    cases hl with
    | acquireThread t h hu hp hl => constructor <;> simp only [setPc] <;> grind
    | acquireFile t h hp hl => constructor <;> simp only [setPc] <;> grind
    | releaseThread t h hp => constructor <;> simp only [setPc] <;> grind
    | releaseFile t h hp => constructor <;> simp only [setPc] <;> grind
  | fail t h hp hk => constructor <;> simp only [setPc] <;> grind

theorem FlInv_reach {k : LKind} {uses : T → H → Prop} {s : FlState T H} (h : FlReach k uses FlState.init s) :
    FlInv k s := by
  induction h with
  | init => exact FlInv_init
  | step _ hs ih => exact FlInv_step ih hs

theorem FlReach.trans {k : LKind} {uses : T → H → Prop} {a b c : FlState T H} (h : FlReach k uses a b)
    (h' : FlReach k uses b c) : FlReach k uses a c := by
  induction h' with
  | init => exact h
  | step _ hs ih => exact .step ih hs

theorem FlReach.failed_mono {k : LKind} {uses : T → H → Prop} {a b : FlState T H} (h : FlReach k uses a b) (x : H)
    (hx : x ∈ a.failed) : x ∈ b.failed := by
  induction h with
  | init => exact hx
  | step _ hs ih =>
    cases hs with
    | run => exact ih
    | fail => exact List.mem_cons_of_mem _ ih

/-- **C97**: failures of `flock` never let two threads into one handler at once (lock types that contain
`thread`). -/
theorem C97_failures_let_nobody_in (k : LKind) (uses : T → H → Prop) (hk : k.thread = true)
    (s : FlState T H) (hr : FlReach k uses FlState.init s) (h : H) (t t' : T)
    (h1 : s.l.pc t = .inside h) (h2 : s.l.pc t' = .inside h) : t = t' := by
  have hi := (FlInv_reach hr).holds hk
  have e := hi t h (.inr h1)
  rw [hi t' h (.inr h2)] at e
  cases e; rfl

/-- **C97**: failures of `flock` never let two processes in at once (lock types that contain `file`, one
thread for each handler, as in C41). -/
theorem C97_failures_let_no_process_in (k : LKind) (uses : T → H → Prop) (hk : k.file = true)
    (hone : ∀ t t' h, uses t h → uses t' h → t = t') (s : FlState T H)
    (hr : FlReach k uses FlState.init s) (t t' : T) (h h' : H)
    (h1 : s.l.pc t = .inside h) (h2 : s.l.pc t' = .inside h') : t = t' := by
  have key : (∀ t h, s.l.pc t = .inside h ∨ s.l.pc t = .leaving h → s.l.fileLock = some h) ∧
      ∀ t h, s.l.pc t = .inside h ∨ s.l.pc t = .entering h ∨ s.l.pc t = .leaving h → uses t h := by
    clear h1 h2
    induction hr with
    | init => simp [FlState.init, LState.init]
    | step _ hs ih =>
      obtain ⟨ih1, ih2⟩ := ih
      cases hs with
      | run l' hl =>
        cases hl with
        | acquireThread t h hu hp hl => constructor <;> simp only [setPc] <;> grind
        | acquireFile t h hp hl => constructor <;> simp only [setPc] <;> grind
        | releaseThread t h hp => constructor <;> simp only [setPc] <;> grind
        | releaseFile t h hp => constructor <;> simp only [setPc] <;> grind
      | fail t h hp hk => constructor <;> simp only [setPc] <;> grind
  have e := key.1 t h (.inl h1)
  rw [key.1 t' h' (.inl h2)] at e
  cases e
  exact hone _ _ _ (key.2 t h (.inl h1)) (key.2 t' h (.inl h2))

/-- **C97** (partial: a handler with the lock type `thread+file` for which `flock` has failed is the
exception, see `C97_thread_and_file_fails`).  Whatever has failed before: when nobody is using the locks,
any thread can take the lock of its handler. -/
theorem C97_lock_can_be_taken_again_partial (k : LKind) (uses : T → H → Prop) (s : FlState T H)
    (hr : FlReach k uses FlState.init s) (hout : ∀ t, s.l.pc t = .outside) (t : T) (h : H) (hu : uses t h)
    (hex : k.thread = false ∨ k.file = false ∨ h ∉ s.failed) :
    ∃ s', FlReach k uses s s' ∧ s'.l.pc t = .inside h ∧ s'.failed = s.failed := by
  have hi := FlInv_reach hr
  have ht : s.l.threadLock h = none := by
    cases hl : s.l.threadLock h with
    | none => rfl
    | some u =>
      exfalso
      have := hi.owner h u hl
      rw [hout u] at this
      rcases hex with hk | hk | hk
      · rw [hi.off hk h] at hl; cases hl
      · simp [hk] at this
      · simp [hk] at this
  have hf : s.l.fileLock = none := by
    cases hl : s.l.fileLock with
    | none => rfl
    | some h' =>
      obtain ⟨u, hu⟩ := hi.file h' hl
      rw [hout u] at hu
      simp at hu
  have a1 : FlReach k uses s _ := .step .init (.run s _ (.acquireThread s.l t h hu (hout t) (fun _ => ht)))
  have a2 := FlReach.step a1 (.run _ _ (.acquireFile _ t h (by simp [setPc]) (fun _ => .inl hf)))
  exact ⟨_, a2, by simp [setPc], rfl⟩

/-- With the lock type `file` alone the hypotheses are met although `flock` has failed. -/
example : ∃ s : FlState Nat Nat, FlReach ⟨false, true⟩ (fun _ _ => True) FlState.init s ∧
    (∀ t, s.l.pc t = .outside) ∧ (0 : Nat) ∈ s.failed := by
  have a1 : FlReach ⟨false, true⟩ (fun (_ _ : Nat) => True) FlState.init _ :=
    .step .init (.run _ _ (.acquireThread _ 0 0 trivial rfl (fun h => nomatch h)))
  have a2 := FlReach.step a1 (.fail _ 0 0 (by simp [setPc]) rfl)
  exact ⟨_, a2, fun t => by simp [setPc, FlState.init, LState.init], by simp⟩

/-- **C97** is false for the lock type `thread+file`: after one failure of `flock` through a handler, no
thread is ever inside that handler again, in any continuation: every later call waits for ever for the
thread lock, which nobody gives back. -/
theorem C97_failed_lock_stays_taken (uses : T → H → Prop) (s s' : FlState T H)
    (hr : FlReach ⟨true, true⟩ uses FlState.init s) (h : H) (hf : h ∈ s.failed)
    (hr' : FlReach ⟨true, true⟩ uses s s') (t : T) :
    s'.l.pc t ≠ .inside h ∧ s'.l.pc t ≠ .entering h := by
  have hi := FlInv_reach (hr.trans hr')
  obtain ⟨u, h1, h2, h3⟩ := hi.stuck rfl h (hr'.failed_mono h hf)
  constructor <;> intro hp
  · have := hi.holds rfl t h (.inr hp)
    rw [h1] at this; cases this
    exact h3 hp
  · have := hi.holds rfl t h (.inl hp)
    rw [h1] at this; cases this
    exact h2 hp

/-- **C97 fails**: two processes (handlers 0 and 1).  Thread 1 is inside; thread 0 waits for the file lock
and is interrupted; thread 1 leaves.  Nobody uses any lock now, and handler 0 can never be used again,
while handler 1 can. -/
theorem C97_thread_and_file_fails : ∃ s : FlState Nat Nat,
    FlReach ⟨true, true⟩ (fun t h => t = h) FlState.init s ∧ (∀ t, s.l.pc t = .outside) ∧ s.failed = [0] ∧
    (∀ s', FlReach ⟨true, true⟩ (fun t h => t = h) s s' → ∀ t, s'.l.pc t ≠ .inside 0) ∧
    ∃ s', FlReach ⟨true, true⟩ (fun t h => t = h) s s' ∧ s'.l.pc 1 = .inside 1 := by
  obtain ⟨s, hr, hout, hf⟩ : ∃ s : FlState Nat Nat, FlReach ⟨true, true⟩ (fun t h => t = h) FlState.init s ∧
      (∀ t, s.l.pc t = .outside) ∧ s.failed = [0] := by
    have a1 : FlReach ⟨true, true⟩ (fun (t h : Nat) => t = h) FlState.init _ :=
      .step .init (.run _ _ (.acquireThread _ 1 1 rfl rfl (fun _ => rfl)))
    have a2 := FlReach.step a1 (.run _ _ (.acquireFile _ 1 1 (by simp [setPc]) (fun _ => .inl rfl)))
    have a3 := FlReach.step a2 (.run _ _ (.acquireThread _ 0 0 rfl (by simp [setPc, FlState.init, LState.init])
      (fun _ => by simp [FlState.init, LState.init])))
    have a4 := FlReach.step a3 (.fail _ 0 0 (by simp [setPc]) rfl)
    have a5 := FlReach.step a4 (.run _ _ (.releaseThread _ 1 1 (by simp [setPc])))
    have a6 := FlReach.step a5 (.run _ _ (.releaseFile _ 1 1 (by simp [setPc])))
    refine ⟨_, a6, fun t => ?_, rfl⟩
    simp only [setPc, FlState.init, LState.init]
    grind
  obtain ⟨s', h1, h2, _⟩ := C97_lock_can_be_taken_again_partial _ _ s hr hout 1 1 rfl (.inr (.inr (by simp [hf])))
  exact ⟨s, hr, hout, hf, fun s'' hs t => (C97_failed_lock_stays_taken _ s s'' hr 0 (by simp [hf]) hs t).1, s', h1, h2⟩

end Polog
