import Verif.Engine.Model

/-!
Vocabulary for the statements about the engine.  Nothing here is used by the model.
-/

namespace Polog.EngineSpec

/-- The log is still in the hands of the call `log(...)` that created it: the call has not handed it
to an engine.  (The thread is somewhere between the beginning of `engine.write` and the handover.) -/
def InCall (e : Eng) (t : Nat) (l : Log) : Prop :=
  e.pc t = .wFirst l ∨ e.pc t = .wCheck l ∨ e.pc t = .wStart l ∨ e.pc t = .wStarting l ∨
  e.pc t = .wLoad l ∨ e.pc t = .wLoadCap l ∨ (∃ c, e.pc t = .wLoadSize l c) ∨ e.pc t = .wHook l ∨
  e.pc t = .wSwap l ∨ e.pc t = .wFetch l ∨ (∃ k, e.pc t = .wHand l k) ∨ e.pc t = .wFailed l ∨
  e.pc t = .bLock l ∨ e.pc t = .bFetch l ∨ (∃ k, e.pc t = .bHand l k)

/-- The log waits in the queue of one of the engines created so far. -/
def Queued (e : Eng) (k : Nat) (l : Log) : Prop :=
  k < e.g.loads ∧ ∃ p, e.g.real k = .pool p ∧ l ∈ p.queue

/-- The log is being handled by a worker of one of the engines created so far. -/
def InWork (e : Eng) (k i : Nat) (l : Log) : Prop :=
  k < e.g.loads ∧ ∃ p, e.g.real k = .pool p ∧ i < p.size ∧ p.worker i = .busy l

/-- How many times the handlers of the log were called. -/
def timesHandled (e : Eng) (l : Log) : Nat := e.g.seq.count l

/-- The log was written by a call of some thread. -/
def Written (e : Eng) (l : Log) : Prop := ∃ t, (t, l) ∈ e.g.calls

/-- No call of a logger, no change of a setting and no exit hook is in progress, and the workers of
the current engine have nothing to do. -/
def Quiescent (e : Eng) : Prop :=
  (∀ t, e.pc t = .idle) ∧
  ∀ k, k + 1 = e.g.loads → (∀ l, ¬ Queued e k l) ∧ (∀ i l, ¬ InWork e k i l)

/-- Every real engine created so far is the synchronous one. -/
def AllSync (e : Eng) : Prop := ∀ k, k < e.g.loads → e.g.real k = .single

/-- A write that went straight to the engine (the normal case, not the blocked one) is in progress. -/
def WriteInFlight (e : Eng) : Prop := ∃ t l, e.pc t = .wFetch l ∨ ∃ k, e.pc t = .wHand l k

/-- Executions in which the writes are never exchanged for blocked ones (the first step of a reload,
and of the exit hook) while a direct write is in flight. -/
inductive CalmReach (e₀ : Eng) : Eng → Prop where
  | init : CalmReach e₀ e₀
  | step {e e' : Eng} : CalmReach e₀ e → EStep e e' →
      (e.g.mode ≠ .blocked → e'.g.mode = .blocked → ¬ WriteInFlight e) → CalmReach e₀ e'

/-- Steps that start nothing new: steps of threads that are inside polog, and of the workers. -/
inductive Onward : Eng → Eng → Prop where
  | refl (e : Eng) : Onward e e
  | thread {e e' : Eng} (t : Nat) (g' : Glob) (p' : PC) (busy : e.pc t ≠ .idle)
      (h : TStep t e.g (e.pc t) g' p') : Onward ⟨g', setFn e.pc t p'⟩ e' → Onward e e'
  | pool {e e' : Eng} (k : Nat) (p p' : Pool) (a : PLabel) (hk : k < e.g.loads)
      (hr : e.g.real k = .pool p) (hp : PStep p a p') (hput : ∀ l, a ≠ .put l) (hstop : a ≠ .stop) :
      Onward ⟨{ e.g with real := setFn e.g.real k (.pool p'), seq := e.g.seq ++ a.log?.toList }, e.pc⟩ e' →
      Onward e e'

/-- As `Onward`, by steps of the given threads and of the workers only. -/
inductive OnwardBy (A : Nat → Prop) : Eng → Eng → Prop where
  | refl (e : Eng) : OnwardBy A e e
  | thread {e e' : Eng} (t : Nat) (mine : A t) (g' : Glob) (p' : PC) (busy : e.pc t ≠ .idle)
      (h : TStep t e.g (e.pc t) g' p') : OnwardBy A ⟨g', setFn e.pc t p'⟩ e' → OnwardBy A e e'
  | pool {e e' : Eng} (k : Nat) (p p' : Pool) (a : PLabel) (hk : k < e.g.loads)
      (hr : e.g.real k = .pool p) (hp : PStep p a p') (hput : ∀ l, a ≠ .put l) (hstop : a ≠ .stop) :
      OnwardBy A ⟨{ e.g with real := setFn e.g.real k (.pool p'), seq := e.g.seq ++ a.log?.toList }, e.pc⟩ e' →
      OnwardBy A e e'

/-- The thread is about to put its log into the full queue of an engine that has been replaced or is
being replaced and whose workers may be gone. -/
def Stranded (e : Eng) (t : Nat) : Prop :=
  ∃ l k p, e.pc t = .wHand l k ∧ e.g.real k = .pool p ∧ p.closed = true ∧
    p.cap ≠ 0 ∧ p.cap ≤ p.queue.length

/-- Somebody executes the exit hook. -/
def Exiting (e : Eng) (t : Nat) : Prop :=
  e.pc t = .xBlock ∨ e.pc t = .xSwap ∨ e.pc t = .xStop ∨ (∃ k, e.pc t = .xStopping k) ∨ e.pc t = .xEnd

/-- The real engine is the one described by the settings: no workers means the synchronous engine,
otherwise a pool of so many workers whose queue has the given limit. -/
def AsConfigured (poolSize maxQueue : Nat) (r : Real) : Prop :=
  (poolSize = 0 → r = .single) ∧
  (poolSize ≠ 0 → ∃ p, r = .pool p ∧ p.size = poolSize ∧ p.cap = maxQueue)

/-- Thread `t` executes `config.set(...)`, has been accepted and has not returned. -/
def Accepted (e : Eng) (t : Nat) : Prop :=
  e.pc t = .cEngine ∨ e.pc t = .cEngineIn ∨ e.pc t = .cReload ∨ e.pc t = .cBlock ∨ e.pc t = .cSwap ∨
  e.pc t = .cStop ∨ (∃ k, e.pc t = .cStopping k) ∨ e.pc t = .cLoad ∨ e.pc t = .cUnblock ∨
  e.pc t = .cRelease ∨ e.pc t = .cDone

/-- The value the call asked for is the value of the setting. -/
def HasValue (e : Eng) : Change → Prop
  | .poolSize n => e.g.poolSize = n
  | .maxQueue n => e.g.maxQueue = n

/-- A limited queue needs workers. -/
def Acceptable (e : Eng) : Change → Prop
  | .poolSize n => n = 0 → e.g.maxQueue = 0
  | .maxQueue n => n ≠ 0 → e.g.poolSize ≠ 0

/-- Executions during which thread `t` stays inside its accepted `config.set(...)`. -/
inductive Inside (t : Nat) (e₀ : Eng) : Eng → Prop where
  | init : Inside t e₀ e₀
  | step {e e' : Eng} : Inside t e₀ e → Accepted e t → EStep e e' → Inside t e₀ e'

/-- The call that wrote the log has handed it over, but the handlers of the log have not been called: the log is lost if the program is
killed now. -/
def Outstanding (e : Eng) (l : Log) : Prop :=
  Written e l ∧ timesHandled e l = 0 ∧ ∀ t, ¬ InCall e t l

/-- The logs written by thread `t`, in the order of its calls. -/
def writtenBy (t : Nat) (e : Eng) : List Log := (e.g.calls.filter (fun x => x.1 == t)).map (·.2)

/-- The logs of thread `t` in the order in which they were handled. -/
def handledOf (t : Nat) (e : Eng) : List Log :=
  e.g.seq.filter (fun l => e.g.calls.any (fun x => x.1 == t && x.2 == l))

end Polog.EngineSpec

namespace Polog
open EngineSpec

/-- The call that wrote the log has returned. -/
def Returned (e : Eng) (l : Log) : Prop := Written e l ∧ ∀ t, ¬ InCall e t l

end Polog
