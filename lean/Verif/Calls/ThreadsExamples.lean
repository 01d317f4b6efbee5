import Verif.Calls.ThreadsProps

/-! Two threads: executions that meet the hypotheses of C78, and one with an exception object that two threads share. -/

namespace Polog
open CallSpec

/-- The threads make steps in this order (for examples). -/
def CWorld.exec (env : CEnv) : List Nat → CWorld → Option CWorld
  | [], w => some w
  | t :: ts, w =>
    match (w.threads t).step env (fun x => decide (GExc.of t x ∈ w.marked)) with
    | none => none
    | some out => CWorld.exec env ts
        ⟨fun i => if i = t then out.th else w.threads i, out.marks.map (GExc.of t) ++ w.marked, w.records ++ out.recs.map fun r => (t, r)⟩

theorem CWorld.exec_run {env : CEnv} : ∀ {ts : List Nat} {w w' : CWorld}, w.exec env ts = some w' → CwRun env w w' := by
  intro ts
  induction ts with
  | nil => intro w w' h; cases h; exact .refl
  | cons t ts ih =>
    intro w w' h
    unfold CWorld.exec at h
    split at h
    · cases h
    · rename_i out ho
      exact (CwRun.refl.step (.step t out ho)).trans (ih h)

/-- Thread 1 leaves another message and makes another record than thread 0, which runs `cProg`. -/
def twoProgs (t : Nat) : Body :=
  if t = 0 then cProg
  else .call (.logged (cDeco 9) (cFn "other")) (.msg [.str "other".toList] [] fun _ => .ret cVal) andReturn

theorem andReturn_own {owner : Nat → Nat} {t : Nat} (o : Outcome) (h : OwnOutcome owner t o) : Own owner t (andReturn o) := by
  cases o with
  | ret v => trivial
  | raised e => exact h

/-- The exception of `cProg` is one of thread 0. -/
def twoOwner (_ : Nat) : Nat := 0

theorem twoProgs_own (t : Nat) : Own twoOwner t (twoProgs t) := by
  unfold twoProgs
  split
  · rename_i h
    subst h
    refine ⟨⟨rfl, fun o ho => ?_⟩, andReturn_own⟩
    cases o with
    | ret v => trivial
    | raised e => exact fun _ => trivial
  · exact ⟨fun _ => trivial, andReturn_own⟩

-- the threads take turns; the message of each is in its own record
example : (∀ t, Own twoOwner t (twoProgs t)) ∧
    ∃ w, CwRun cEnv (.start twoProgs (fun _ => none) (fun _ => none)) w ∧ (w.threads 0).ctl = .halted (.ret cVal) ∧
      (w.threads 1).ctl = .halted (.ret cVal) ∧
      w.records.map (fun x => (x.1, Dict.get? "message".toList x.2.data)) =
        [(0, none), (0, some (.str "hello".toList)), (1, some (.str "other".toList))] := by
  refine ⟨twoProgs_own, ?_⟩
  have h : ((CWorld.start twoProgs (fun _ => none) (fun _ => none)).exec cEnv [0, 1, 0, 1, 0, 0, 0, 0, 1, 0, 1]).map
      (fun w => (match (w.threads 0).ctl with | .halted o => some o | _ => none, match (w.threads 1).ctl with | .halted o => some o | _ => none,
        w.records.map fun x => (x.1, Dict.get? "message".toList x.2.data))) =
      some (some (.ret cVal), some (.ret cVal), [(0, none), (0, some (.str "hello".toList)), (1, some (.str "other".toList))]) := by
    decide +kernel
  obtain ⟨w, hw, he⟩ := Option.map_eq_some_iff.1 h
  obtain ⟨h1, h2⟩ := Prod.mk.inj he
  obtain ⟨h2, h3⟩ := Prod.mk.inj h2
  refine ⟨w, CWorld.exec_run hw, ?_, ?_, h3⟩
  · split at h1
    · rename_i heq; cases h1; exact heq
    · cases h1
  · split at h2
    · rename_i heq; cases h2; exact heq
    · cases h2

/-- **C27 fails for two threads**: `deduplicate_errors` checks the mark on the exception and sets it in two steps. If two threads meet
one exception object (for example that of a `Future` which both wait for), both may record it. -/
theorem C27_two_threads_record_one_exception_fails : ∃ (env : CEnv) (progs : Nat → Body) (e : Exc) (w : CWorld), env.dedup = true ∧
    (∀ t, Valid env (progs t)) ∧ CwRun env (.start progs (fun _ => none) (fun _ => none)) w ∧
    ∃ r0 r1, w.records = [(0, r0), (1, r1)] ∧ r0.origin = .auto (cFn "f") (.raised e) ∧ r1.origin = .auto (cFn "f") (.raised e) := by
  refine ⟨cEnv, fun _ => .call (.logged (cDeco 9) (cFn "f")) (.raise cExc) andReturn, cExc, ?_⟩
  have h : ((CWorld.start (fun _ => .call (.logged (cDeco 9) (cFn "f")) (.raise cExc) andReturn) (fun _ => none) (fun _ => none)).exec
      cEnv [0, 1, 0, 1, 0, 1]).map (fun w => w.records.map fun x => (x.1, x.2.origin)) =
      some [(0, .auto (cFn "f") (.raised cExc)), (1, .auto (cFn "f") (.raised cExc))] := by
    decide +kernel
  obtain ⟨w, hw, he⟩ := Option.map_eq_some_iff.1 h
  refine ⟨w, rfl, fun _ => ⟨trivial, .inr ⟨9, rfl, by decide⟩, rfl, rfl, trivial⟩, CWorld.exec_run hw, ?_⟩
  rcases hr : w.records with _ | ⟨⟨t0, r0⟩, _ | ⟨⟨t1, r1⟩, _ | ⟨x, l⟩⟩⟩ <;> rw [hr] at he <;> simp at he
  obtain ⟨⟨rfl, h0⟩, rfl, h1⟩ := he
  exact ⟨r0, r1, rfl, h0, h1⟩

end Polog
