import Verif.Engine.Witness
import Verif.Engine.Props2
import Verif.Engine.Kill

/-!
Model of the end of a program: the callbacks that `atexit` runs, newest first, in the main thread. Three kinds of them log or
stop the engine: the hook of the engine (`polog/core/engine/engine.py:126-139`), registered by the first write; the
callback of the standard module `weakref`, registered when the first object of `log(...)` is made
(`polog/loggers/finalizer.py:34`; `weakref.finalize` registers one callback for all its objects, which at exit calls those that have not
been called or detached, newest first); and the callbacks of the program itself.

On top of the model of the engine. What `atexit` does is not code of Polog: the order, and that callbacks registered while the
callbacks run are not run any more, are those of CPython up to 3.13. The limit of time of the hook (`max_delay_before_exit`) is not part of
this model, see `TimeLimit` and C52: it is not reached.
-/

namespace Polog
open EngineSpec

/-- A registered callback: of the engine, of the objects of `log(...)`, of the program (with the logs it writes).
engine.py:126-139, finalizer.py:181-187. -/
inductive Callback where
  | engine
  | objects
  | user (ls : List Log)

/-- What a callback has to do when the end begins. engine.py:126-139, finalizer.py:181-187. -/
inductive ExitTask where
  | stop
  | write (ls : List Log)
deriving DecidableEq

/-- Newest object first (`finalize._exitfunc`). Python's own; for the objects of finalizer.py:181-187. -/
def Callback.task (armed : List Log) : Callback → ExitTask
  | .engine => .stop
  | .objects => .write armed.reverse
  | .user ls => .write ls

/-- How far the end of the program is. A callback that stops the engine and a callback that writes are executed under
the number `u` of an idle thread: each under a new one, one after the other, they are the main thread.
Python's own order of `atexit` and `weakref.finalize`; engine.py:126-139, finalizer.py:181-187. -/
inductive ExitPhase where
  | running
  | exiting (todo : List ExitTask)
  | stopping (u : Nat) (todo : List ExitTask)
  | writing (u : Nat) (ls : List Log) (todo : List ExitTask)
  | ended

/-- The engine with all threads; the registered callbacks, oldest first; the objects of `log(...)` that are alive and not used
(each as the log that it will write); the phase. engine.py:29-139, finalizer.py:181-187. -/
structure XState where
  e : Eng
  hooks : List Callback
  armed : List Log
  phase : ExitPhase

/-- engine.py:29-40. -/
def XState.init : XState := ⟨Eng.init, [], [], .running⟩

/-- The logs that objects and callbacks are going to write. For statements; finalizer.py:181-187. -/
def XState.reserved (s : XState) : List Log :=
  s.armed ++ s.hooks.flatMap fun c => match c with | .user ls => ls | _ => []

/-- The end of the program begins: the callbacks are executed, newest first. Python's own order of `atexit`; engine.py:137-139. -/
def XState.exit (s : XState) : XState := { s with phase := .exiting (s.hooks.reverse.map (Callback.task s.armed)) }

/-- One step. engine.py:53-139, finalizer.py:181-187. -/
inductive XStep : XState → XState → Prop where
  /-- A step of any thread or worker that does not execute the hook. The first write registers the hook, engine.py:51, 133. -/
  | work (s : XState) (e' : Eng) (h : EStep s.e e') (hx : ∀ t, e'.pc t = .xBlock → s.e.pc t = .xBlock)
      (hf : ∀ x ∈ e'.g.calls, x ∉ s.e.g.calls → x.2 ∉ s.reserved) (hp : s.phase ≠ .ended) :
      XStep s { s with e := e', hooks := if s.e.g.hooks < e'.g.hooks then s.hooks ++ [.engine] else s.hooks }
  /-- An object of `log(...)` is made, finalizer.py:34. -/
  | make (s : XState) (l : Log) (hp : s.phase = .running) (hl : l ∉ s.reserved) (hc : ∀ x ∈ s.e.g.calls, x.2 ≠ l) :
      XStep s { s with
        armed := s.armed ++ [l]
        hooks := if s.hooks.any (fun c => match c with | .objects => true | _ => false) then s.hooks else s.hooks ++ [.objects] }
  /-- An object is used as a decorator or a context manager, finalizer.py:53, 77. -/
  | use (s : XState) (l : Log) (hp : s.phase = .running) (hl : l ∈ s.armed) : XStep s { s with armed := s.armed.erase l }
  /-- An object is dropped: some thread writes its log, finalizer.py:185-187. -/
  | drop (s : XState) (l : Log) (t : Nat) (g' : Glob) (p' : PC) (hp : s.phase = .running) (hl : l ∈ s.armed) (hi : s.e.pc t = .idle)
      (h : TStep t s.e.g .idle g' p') (hc : g'.calls = s.e.g.calls ++ [(t, l)]) :
      XStep s { s with e := ⟨g', setFn s.e.pc t p'⟩, armed := s.armed.erase l }
  /-- The program registers a callback of its own, which will write the logs `ls`. -/
  | register (s : XState) (ls : List Log) (hp : s.phase = .running) (hn : ls.Nodup)
      (hl : ∀ l ∈ ls, l ∉ s.reserved ∧ ∀ x ∈ s.e.g.calls, x.2 ≠ l) :
      XStep s { s with hooks := s.hooks ++ [.user ls] }
  /-- The program ends. -/
  | exit (s : XState) (hp : s.phase = .running) : XStep s s.exit
  /-- The callback of the engine begins, engine.py:137. -/
  | stop (s : XState) (u : Nat) (todo : List ExitTask) (g' : Glob) (hp : s.phase = .exiting (.stop :: todo)) (hi : s.e.pc u = .idle)
      (h : TStep u s.e.g .idle g' .xBlock) :
      XStep s { s with e := ⟨g', setFn s.e.pc u .xBlock⟩, phase := .stopping u todo }
  /-- It has ended, engine.py:139. -/
  | stopped (s : XState) (u : Nat) (todo : List ExitTask) (hp : s.phase = .stopping u todo) (hx : s.e.pc u = .xEnd) :
      XStep s { s with phase := .exiting todo }
  /-- A callback that writes begins. -/
  | begin (s : XState) (u : Nat) (ls : List Log) (todo : List ExitTask) (hp : s.phase = .exiting (.write ls :: todo))
      (hi : s.e.pc u = .idle) : XStep s { s with phase := .writing u ls todo }
  /-- It writes the next log. -/
  | write (s : XState) (u : Nat) (l : Log) (ls : List Log) (todo : List ExitTask) (g' : Glob) (p' : PC)
      (hp : s.phase = .writing u (l :: ls) todo) (hi : s.e.pc u = .idle) (h : TStep u s.e.g .idle g' p')
      (hc : g'.calls = s.e.g.calls ++ [(u, l)]) :
      XStep s { s with e := ⟨g', setFn s.e.pc u p'⟩, phase := .writing u ls todo }
  /-- Its last call has returned. -/
  | wrote (s : XState) (u : Nat) (todo : List ExitTask) (hp : s.phase = .writing u [] todo) (hi : s.e.pc u = .idle) :
      XStep s { s with phase := .exiting todo }
  /-- No callback is left: the process ends. -/
  | done (s : XState) (hp : s.phase = .exiting []) : XStep s { s with phase := .ended }

/-- engine.py:53-139, finalizer.py:181-187. -/
inductive XReach (s₀ : XState) : XState → Prop where
  | init : XReach s₀ s₀
  | step {s s' : XState} : XReach s₀ s → XStep s s' → XReach s₀ s'

/-- The engine of an execution is an execution of the engine. -/
theorem XReach.eng {s₀ s : XState} (h : XReach s₀ s) : EReach s₀.e s.e := by
  induction h with
  | init => exact .init
  | step _ hs ih =>
    cases hs with
    | work e' h => exact .step ih h
    | drop l t g' p' hp hl hi h hc => exact .step ih (.thread _ t _ _ (by rw [hi]; exact h))
    | stop u todo g' hp hi h => exact .step ih (.thread _ u _ _ (by rw [hi]; exact h))
    | write u l ls todo g' p' hp hi h hc => exact .step ih (.thread _ u _ _ (by rw [hi]; exact h))
    | make | use | register | exit | stopped | begin | wrote | done => exact ih

/-- Something has to be written. -/
def WritesIn (todo : List ExitTask) : Prop := ∃ ls, ExitTask.write ls ∈ todo ∧ ls ≠ []

/-- Something has to be written after the engine is stopped. -/
def WritesAfterStop (todo : List ExitTask) : Prop := ∃ a b, todo = a ++ .stop :: b ∧ WritesIn b

theorem WritesAfterStop.tail {x : ExitTask} {todo : List ExitTask} (h : WritesAfterStop (x :: todo)) :
    WritesAfterStop todo ∨ (x = .stop ∧ WritesIn todo) := by
  obtain ⟨a, b, h1, h2⟩ := h
  cases a with
  | nil =>
    simp only [List.nil_append, List.cons.injEq] at h1
    exact .inr ⟨h1.1, h1.2 ▸ h2⟩
  | cons y a =>
    simp only [List.cons_append, List.cons.injEq] at h1
    exact .inl ⟨a, b, h1.2, h2⟩

/-- The program hangs, or is going to. -/
def Doomed (s : XState) : Prop :=
  match s.phase with
  | .exiting todo => WritesAfterStop todo ∨ ((∃ t, s.e.pc t = .xEnd) ∧ WritesIn todo)
  | .stopping _ todo => WritesAfterStop todo ∨ WritesIn todo
  | .writing u ls todo =>
    WritesAfterStop todo ∨ ((∃ t, s.e.pc t = .xEnd) ∧ (WritesIn todo ∨ ls ≠ [] ∨ ∃ l, s.e.pc u = .bLock l))
  | _ => False

theorem xEnd_keeps {e e' : Eng} (hI : EInv e) (hs : EStep e e') (h : ∃ t, e.pc t = .xEnd) : ∃ t, e'.pc t = .xEnd := by
  obtain ⟨t, ht⟩ := h
  exact ⟨t, (xEnd_forever hI (.step .init hs) ht).2⟩

theorem bLock_keeps {e e' : Eng} (h : EReach Eng.init e) (hs : EStep e e') (hx : ∃ t, e.pc t = .xEnd) {u : Nat} {l : Log}
    (hu : e.pc u = .bLock l) : e'.pc u = .bLock l := by
  obtain ⟨t, ht⟩ := hx
  exact C55_after_exit_hook_blocked_for_ever e e' h t ht (.step .init hs) u l hu

/-- A call made after the hook has ended waits for the lock. -/
theorem call_blocks {e : Eng} (h : EReach Eng.init e) (hx : ∃ t, e.pc t = .xEnd) {u : Nat} {l : Log} {g' : Glob} {p' : PC}
    (hs : TStep u e.g .idle g' p') (hc : g'.calls = e.g.calls ++ [(u, l)]) : p' = .bLock l := by
  obtain ⟨t, ht⟩ := hx
  have hI := EInv_reach EInv_init h
  have hp := hI.s.held t ((hI.s.eng t).1 (by rw [ht]; rfl))
  rw [ht] at hp
  have hm : e.g.mode = .blocked := hp.1.2.2.1
  cases hs with
  | callFirst l' hf hm' => rw [hm] at hm'; cases hm'
  | callDirect l' hf hm' => rw [hm] at hm'; cases hm'
  | callBlocked l' hf hm' =>
    have := List.append_cancel_left hc
    simp at this
    rw [this]
  | cCall c => simp at hc
  | xCall hh => simp at hc

theorem Doomed.step {s s' : XState} (hr : EReach Eng.init s.e) (h : Doomed s) (hs : XStep s s') : Doomed s' := by
  have hI := EInv_reach EInv_init hr
  unfold Doomed at h ⊢
  cases hs with
  | work e' he hx hf hp =>
    dsimp only
    split at h
    · rename_i todo heq; exact h.imp id fun h => ⟨xEnd_keeps hI he h.1, h.2⟩
    · exact h
    · rename_i u ls todo heq
      refine h.imp id fun h => ⟨xEnd_keeps hI he h.1, h.2.imp id fun k => k.imp id fun ⟨l, hl⟩ => ⟨l, bLock_keeps hr he h.1 hl⟩⟩
    · exact h
  | make l hp => rw [hp] at h; exact h.elim
  | use l hp => rw [hp] at h; exact h.elim
  | drop l t g' p' hp => rw [hp] at h; exact h.elim
  | register ls hp => rw [hp] at h; exact h.elim
  | exit hp => rw [hp] at h; exact h.elim
  | stop u todo g' hp hi ht =>
    rw [hp] at h
    dsimp only at h ⊢
    rcases h with h | ⟨_, ls, hm, hne⟩
    · exact h.tail.imp id fun h => h.2
    · rcases List.mem_cons.1 hm with hm | hm
      · cases hm
      · exact .inr ⟨ls, hm, hne⟩
  | stopped u todo hp hx =>
    rw [hp] at h
    dsimp only at h ⊢
    exact h.imp id fun h => ⟨⟨u, hx⟩, h⟩
  | begin u ls todo hp hi =>
    rw [hp] at h
    dsimp only at h ⊢
    rcases h with h | ⟨hx, ls', hm, hne⟩
    · rcases h.tail with h | ⟨h, _⟩
      · exact .inl h
      · cases h
    · rcases List.mem_cons.1 hm with hm | hm
      · cases hm; exact .inr ⟨hx, .inr (.inl hne)⟩
      · exact .inr ⟨hx, .inl ⟨ls', hm, hne⟩⟩
  | write u l ls todo g' p' hp hi ht hc =>
    rw [hp] at h
    dsimp only at h ⊢
    have he : EStep s.e ⟨g', setFn s.e.pc u p'⟩ := .thread _ u _ _ (by rw [hi]; exact ht)
    rcases h with h | ⟨hx, h⟩
    · exact .inl h
    · exact .inr ⟨xEnd_keeps hI he hx, .inr (.inr ⟨l, by rw [setFn_self]; exact call_blocks hr hx ht hc⟩)⟩
  | wrote u todo hp hi =>
    rw [hp] at h
    dsimp only at h ⊢
    rcases h with h | ⟨hx, h | h | ⟨l, h⟩⟩
    · exact .inl h
    · exact .inr ⟨hx, h⟩
    · exact absurd rfl h
    · rw [hi] at h; cases h
  | done hp =>
    rw [hp] at h
    dsimp only at h ⊢
    rcases h with ⟨a, b, h, _⟩ | ⟨_, ls, h, _⟩
    · cases a <;> cases h
    · cases h

theorem XReach.trans {a b c : XState} (h : XReach a b) (h' : XReach b c) : XReach a c := by
  induction h' with
  | init => exact h
  | step _ hs ih => exact .step ih hs

theorem EStep.calls_keep {e e' : Eng} (h : EStep e e') : ∃ more, e'.g.calls = e.g.calls ++ more := by
  cases h with
  | pool => exact ⟨[], (List.append_nil _).symm⟩
  | thread t g' p' hs =>
    generalize e.pc t = p at hs
    cases hs with
    | callFirst l | callDirect l | callBlocked l => exact ⟨[(t, l)], rfl⟩
    | cStore c => cases c <;> exact ⟨[], (List.append_nil _).symm⟩
    | _ => exact ⟨[], (List.append_nil _).symm⟩

theorem Written_step {e e' : Eng} (h : EStep e e') {l : Log} (hl : Written e l) : Written e' l := by
  obtain ⟨t, ht⟩ := hl
  obtain ⟨more, hm⟩ := h.calls_keep
  exact ⟨t, by rw [hm]; exact List.mem_append_left _ ht⟩

/-- A log whose call has begun can only be in the hands of a thread that had it before. -/
theorem inCall_back {e e' : Eng} (h : EStep e e') {l : Log} (hl : Written e l) {t : Nat} (ht : InCall e' t l) : InCall e t l := by
  rw [← log?_iff_inCall] at ht ⊢
  cases h with
  | pool => exact ht
  | thread u g' p' hs =>
    by_cases hu : t = u
    · subst hu
      dsimp only at ht
      rw [setFn_self] at ht
      cases hs.effect with
      | quiet hp => rw [← hp]; exact ht
      | call l' fresh hp hp' =>
        rw [hp'] at ht
        cases ht
        obtain ⟨v, hv⟩ := hl
        exact absurd rfl (fresh _ hv)
      | single l' hp hp' => rw [hp'] at ht; cases ht
      | put l' k q q' hp hp' => rw [hp'] at ht; cases ht
    · dsimp only at ht
      rwa [setFn_ne _ _ hu] at ht

theorem Returned.step {e e' : Eng} (h : EStep e e') {l : Log} (hl : Returned e l) : Returned e' l :=
  ⟨Written_step h hl.1, fun t ht => hl.2 t (inCall_back h hl.1 ht)⟩

/-- What has been done of the tasks `all`. -/
def ExitDone (e : Eng) (past : List ExitTask) : Prop :=
  (∀ ls, .write ls ∈ past → ∀ l ∈ ls, Returned e l) ∧ (.stop ∈ past → ∃ t, e.pc t = .xEnd)

theorem ExitDone.step {e e' : Eng} {past : List ExitTask} (hI : EInv e) (h : ExitDone e past) (hs : EStep e e') : ExitDone e' past :=
  ⟨fun ls hls l hl => (h.1 ls hls l hl).step hs, fun hst => xEnd_keeps hI hs (h.2 hst)⟩

def ExitInv (all : List ExitTask) (s : XState) : Prop :=
  match s.phase with
  | .running => False
  | .exiting todo => ∃ past, all = past ++ todo ∧ ExitDone s.e past
  | .stopping _ todo => ∃ past, all = past ++ .stop :: todo ∧ ExitDone s.e past
  | .writing u ls todo => ∃ past wrote, all = past ++ .write (wrote ++ ls) :: todo ∧ ExitDone s.e past ∧
      ∀ l ∈ wrote, Written s.e l ∧ ∀ t, InCall s.e t l → t = u
  | .ended => ExitDone s.e all

theorem ExitInv.step {all : List ExitTask} {s s' : XState} (hr : EReach Eng.init s.e) (h : ExitInv all s) (hs : XStep s s') :
    ExitInv all s' := by
  have hI := EInv_reach EInv_init hr
  unfold ExitInv at h ⊢
  cases hs with
  | work e' he hx hf hp =>
    dsimp only
    split at h
    · exact h
    · obtain ⟨past, h1, h2⟩ := h; exact ⟨past, h1, h2.step hI he⟩
    · obtain ⟨past, h1, h2⟩ := h; exact ⟨past, h1, h2.step hI he⟩
    · obtain ⟨past, wrote, h1, h2, h3⟩ := h
      exact ⟨past, wrote, h1, h2.step hI he, fun l hl => ⟨Written_step he (h3 l hl).1, fun t ht =>
        (h3 l hl).2 t (inCall_back he (h3 l hl).1 ht)⟩⟩
    · exact h.step hI he
  | make l hp => rw [hp] at h; exact h.elim
  | use l hp => rw [hp] at h; exact h.elim
  | drop l t g' p' hp => rw [hp] at h; exact h.elim
  | register ls hp => rw [hp] at h; exact h.elim
  | exit hp => rw [hp] at h; exact h.elim
  | stop u todo g' hp hi ht =>
    rw [hp] at h
    obtain ⟨past, h1, h2⟩ := h
    exact ⟨past, h1, h2.step hI (.thread _ u _ _ (by rw [hi]; exact ht))⟩
  | stopped u todo hp hx =>
    rw [hp] at h
    obtain ⟨past, h1, h2⟩ := h
    refine ⟨past ++ [.stop], by simp [h1], fun ls hls l hl => ?_, fun _ => ⟨u, hx⟩⟩
    rcases List.mem_append.1 hls with hls | hls
    · exact h2.1 ls hls l hl
    · cases List.mem_singleton.1 hls
  | begin u ls todo hp hi =>
    rw [hp] at h
    obtain ⟨past, h1, h2⟩ := h
    exact ⟨past, [], h1, h2, fun l hl => nomatch hl⟩
  | write u l ls todo g' p' hp hi ht hc =>
    rw [hp] at h
    obtain ⟨past, wrote, h1, h2, h3⟩ := h
    have he : EStep s.e ⟨g', setFn s.e.pc u p'⟩ := .thread _ u _ _ (by rw [hi]; exact ht)
    refine ⟨past, wrote ++ [l], by simp [h1], h2.step hI he, fun l' hl' => ?_⟩
    rcases List.mem_append.1 hl' with hl' | hl'
    · exact ⟨Written_step he (h3 l' hl').1, fun t ht => (h3 l' hl').2 t (inCall_back he (h3 l' hl').1 ht)⟩
    · rw [List.mem_singleton.1 hl']
      have hw : (u, l) ∈ g'.calls := by rw [hc]; simp
      refine ⟨⟨u, hw⟩, fun t htl => ?_⟩
      apply Classical.byContradiction
      intro hne
      rw [← log?_iff_inCall] at htl
      dsimp only at htl
      rw [setFn_ne _ _ hne] at htl
      obtain ⟨loc, hL⟩ := hI.l
      have h5 := (hL.thread t l).1 htl
      have h6 : loc l = .unborn := (hL.born l).2 fun x hx => by
        cases ht with
        | callFirst l1 hf | callDirect l1 hf | callBlocked l1 hf =>
          have := List.append_cancel_left hc
          simp at this
          exact this ▸ hf x hx
        | cCall c => simp at hc
        | xCall hh => simp at hc
      rw [h5] at h6
      cases h6
  | wrote u todo hp hi =>
    rw [hp] at h
    obtain ⟨past, wrote, h1, h2, h3⟩ := h
    refine ⟨past ++ [.write wrote], by simp [h1], fun ls hls l hl => ?_, fun hst => ?_⟩
    · rcases List.mem_append.1 hls with hls | hls
      · exact h2.1 ls hls l hl
      · cases List.mem_singleton.1 hls
        refine ⟨(h3 l hl).1, fun t ht => ?_⟩
        have hu := (h3 l hl).2 t ht
        subst hu
        rw [← log?_iff_inCall, hi] at ht
        cases ht
    · rcases List.mem_append.1 hst with hst | hst
      · exact h2.2 hst
      · cases List.mem_singleton.1 hst
  | done hp =>
    rw [hp] at h
    obtain ⟨past, h1, h2⟩ := h
    rw [List.append_nil] at h1
    exact h1 ▸ h2

/-- A thread on its way from the start of the engine to the handover of its log. -/
def PC.handing : PC → Bool
  | .wFetch _ | .wHand _ _ | .bLock _ | .bFetch _ | .bHand _ _ => true
  | _ => false

theorem TStep.hooks_mono {t : Nat} {g g' : Glob} {p p' : PC} (h : TStep t g p g' p') : g.hooks ≤ g'.hooks := by
  cases h with
  | cStore c => cases c <;> exact Nat.le_refl _
  | wRegister => exact Nat.le_succ _
  | _ => exact Nat.le_refl _

theorem EStep.hooks_mono {e e' : Eng} (h : EStep e e') : e.g.hooks ≤ e'.g.hooks := by
  cases h with
  | pool => exact Nat.le_refl _
  | thread t g' p' hs => exact hs.hooks_mono

/-- The hook is registered before anything is handed over. -/
structure HookInv (e : Eng) : Prop where
  mode : e.g.mode ≠ .first → 0 < e.g.hooks
  hand : ∀ t, (e.pc t).handing = true → 0 < e.g.hooks
  back : ∀ l, Returned e l → 0 < e.g.hooks

theorem HookInv_step {e e' : Eng} (hI : EInv e) (h : HookInv e) (hs : EStep e e') : HookInv e' := by
  have hmono := hs.hooks_mono
  have hback : ∀ l, Returned e' l → 0 < e'.g.hooks := by
    intro l hl
    by_cases hr : Returned e l
    · exact Nat.lt_of_lt_of_le (h.back l hr) hmono
    · cases hs with
      | pool k p p' a =>
        exact absurd ⟨hl.1, fun t ht => hl.2 t ht⟩ hr
      | thread u g' p' hst =>
        have hother : ∀ t, t ≠ u → ¬ InCall e t l := fun t htu ht => hl.2 t (by
          rw [← log?_iff_inCall] at ht ⊢
          dsimp only
          rw [setFn_ne _ _ htu]; exact ht)
        have hu : p'.log? ≠ some l := fun ht => hl.2 u (by
          rw [← log?_iff_inCall]
          dsimp only
          rw [setFn_self]; exact ht)
        have old : g'.calls = e.g.calls → (e.pc u).log? = some l := by
          intro hc
          apply Classical.byContradiction
          intro hn
          refine hr ⟨?_, fun t ht => ?_⟩
          · obtain ⟨t, ht⟩ := hl.1
            exact ⟨t, by rw [← hc]; exact ht⟩
          · by_cases htu : t = u
            · subst htu; exact hn ((log?_iff_inCall e t l).2 ht)
            · exact hother t htu ht
        have hand : (e.pc u).handing = true → 0 < g'.hooks := fun hh => Nat.lt_of_lt_of_le (h.hand u hh) hmono
        generalize hpc : e.pc u = pc at hst old hand
        cases hst.effect with
        | quiet hp hc => rw [hp] at hu; exact absurd (old hc) hu
        | call l' fresh hp hp' hc =>
          exfalso
          obtain ⟨t, ht⟩ := hl.1
          have ht : (t, l) ∈ g'.calls := ht
          rw [hc] at ht
          rcases List.mem_append.1 ht with ht | ht
          · refine hr ⟨⟨t, ht⟩, fun t' ht' => ?_⟩
            by_cases htu : t' = u
            · subst htu
              rw [← log?_iff_inCall, hpc, hp] at ht'
              cases ht'
            · exact hother t' htu ht'
          · cases List.mem_singleton.1 ht
            exact hu hp'
        | single l' hp hp' hc =>
          cases hst with
          | handSingle | bHandSingle | handPool | bHandPool => exact hand rfl
          | _ => first | (cases hp; done) | (cases hp')
        | put l' k q q' hp hp' hc hs hl hload hk =>
          rcases hk with hk | hk <;> exact hand (by rw [hk]; rfl)
  cases hs with
  | pool k p p' a => exact ⟨h.mode, h.hand, hback⟩
  | thread u g' p' hst =>
    have hheld : (e.pc u).holdsEng = true → Phase e.g (e.pc u) := fun hx => hI.s.held u ((hI.s.eng u).1 hx)
    have hmode : g'.mode ≠ .first → 0 < g'.hooks := by
      intro hm
      by_cases hm0 : e.g.mode = .first
      · have hand := h.hand u
        generalize e.pc u = pc at hst hheld hand
        cases hst with
        | wDone l => have := hheld rfl; exact this.2.2.2.2.1 ▸ Nat.one_pos
        | cSwap => have := (hheld rfl).1; exact this.2.2.2.2 ▸ Nat.one_pos
        | xSwap => have := (hheld rfl).1; exact this.2.2.2.2 ▸ Nat.one_pos
        | cUnblock => have := (hheld rfl).1; exact this.2.2.2.2 ▸ Nat.one_pos
        | cStore c => cases c <;> exact absurd hm0 hm
        | _ => exact absurd hm0 hm
      · exact Nat.lt_of_lt_of_le (h.mode hm0) hmono
    refine ⟨hmode, fun t ht => ?_, hback⟩
    by_cases htu : t = u
    · subst htu
      dsimp only at ht
      rw [setFn_self] at ht
      have hand : (e.pc t).handing = true → 0 < g'.hooks := fun hh => Nat.lt_of_lt_of_le (h.hand t hh) hmono
      have hm := h.mode
      generalize e.pc t = pc at hst hheld hand
      show 0 < g'.hooks
      cases hst with
      | callDirect l hf hd => exact hm (by rw [hd]; simp)
      | callBlocked l hf hd => exact hm (by rw [hd]; simp)
      | wAlready l hs =>
        have : Normal e.g := hheld rfl
        rcases this with ⟨h1, _⟩ | ⟨h1, _⟩
        · rw [hs] at h1; cases h1
        · show 0 < e.g.hooks; rw [h1.2.2.2.2]; exact Nat.one_pos
      | wDone l => have := hheld rfl; show 0 < e.g.hooks; rw [this.2.2.2.2.1]; exact Nat.one_pos
      | fetch l k => exact hand rfl
      | bAcquire l => exact hand rfl
      | bFetch l k => exact hand rfl
      | _ => cases ht
    · dsimp only at ht
      rw [setFn_ne _ _ htu] at ht
      exact Nat.lt_of_lt_of_le (h.hand t ht) hmono

theorem HookInv_reach {e : Eng} (h : EReach Eng.init e) : HookInv e := by
  induction h with
  | init => exact ⟨fun h => absurd rfl h, fun t ht => (by cases ht), fun l hl => by obtain ⟨⟨t, ht⟩, _⟩ := hl; cases ht⟩
  | step hr hs ih => exact HookInv_step (EInv_reach EInv_init hr) ih hs

/-- **C21**: when any call of a logger has returned, the exit hook has been registered, once. -/
theorem C21_hook_is_registered (e : Eng) (h : EReach Eng.init e) (l : Log) (hl : Returned e l) : e.g.hooks = 1 := by
  have h1 := (HookInv_reach h).back l hl
  have h2 := (C21_started_exactly_once e h).2.1
  omega

/-- The callbacks of the engine and of the objects are registered when they are needed. -/
structure ExitRegInv (s : XState) : Prop where
  engine : 0 < s.e.g.hooks → Callback.engine ∈ s.hooks
  objects : s.armed ≠ [] → Callback.objects ∈ s.hooks

theorem ExitRegInv_reach {s : XState} (h : XReach .init s) : ExitRegInv s := by
  induction h with
  | init => exact ⟨fun h => absurd h (Nat.lt_irrefl 0), fun h => absurd rfl h⟩
  | @step s s' hr hs ih =>
    cases hs with
    | work e' he hx hf hp =>
      by_cases hn : s.e.g.hooks < e'.g.hooks
      · rw [if_pos hn]
        exact ⟨fun _ => by simp, fun ha => List.mem_append_left _ (ih.objects ha)⟩
      · rw [if_neg hn]
        exact ⟨fun hh => ih.engine (by have : 0 < e'.g.hooks := hh; omega), ih.objects⟩
    | make l hp hl hc =>
      refine ⟨fun hh => ?_, fun _ => ?_⟩
      · dsimp only
        split
        · exact ih.engine hh
        · exact List.mem_append_left _ (ih.engine hh)
      · dsimp only
        split
        · rename_i hany
          obtain ⟨c, hc, hm⟩ := List.any_eq_true.1 hany
          cases c with
          | objects => exact hc
          | engine => cases hm
          | user ls => cases hm
        · simp
    | use l hp hl => exact ⟨ih.engine, fun ha => ih.objects fun h0 => by rw [h0] at hl; cases hl⟩
    | drop l t g' p' hp hl hi ht hc =>
      refine ⟨fun hh => ih.engine ?_, fun ha => ih.objects fun h0 => by rw [h0] at hl; cases hl⟩
      have : g'.hooks = s.e.g.hooks := by cases ht <;> rfl
      have hh : 0 < g'.hooks := hh
      omega
    | register ls hp hn hl => exact ⟨fun hh => List.mem_append_left _ (ih.engine hh), fun ha => List.mem_append_left _ (ih.objects ha)⟩
    | stop u todo g' hp hi ht =>
      refine ⟨fun hh => ih.engine ?_, ih.objects⟩
      have : g'.hooks = s.e.g.hooks := by cases ht; rfl
      have hh : 0 < g'.hooks := hh
      omega
    | write u l ls todo g' p' hp hi ht hc =>
      refine ⟨fun hh => ih.engine ?_, ih.objects⟩
      have : g'.hooks = s.e.g.hooks := by cases ht <;> rfl
      have hh : 0 < g'.hooks := hh
      omega
    | exit hp => exact ⟨ih.engine, ih.objects⟩
    | stopped u todo hp hx => exact ⟨ih.engine, ih.objects⟩
    | begin u ls todo hp hi => exact ⟨ih.engine, ih.objects⟩
    | wrote u todo hp hi => exact ⟨ih.engine, ih.objects⟩
    | done hp => exact ⟨ih.engine, ih.objects⟩

/-- The callback has something to log. -/
def HasToLog (s : XState) : Callback → Prop
  | .engine => False
  | .objects => s.armed ≠ []
  | .user ls => ls ≠ []

/-- **C87** is false whenever a callback was registered before the first log and has something to log at exit: the program never ends.
The callback of the objects of `log(...)` is such a callback, if one of them is kept until the end and the first of them was made before
the first log (as it is when the first log is `log('...')`). -/
theorem C87_log_after_the_engine_has_stopped_hangs (s s' : XState) (h : XReach .init s) (before after : List Callback)
    (hh : s.hooks = before ++ .engine :: after) (hl : ∃ c ∈ before, HasToLog s c) (h' : XReach s.exit s') : s'.phase ≠ .ended := by
  have key : EReach Eng.init s'.e ∧ Doomed s' := by
    induction h' with
    | init =>
      refine ⟨h.eng, .inl ?_⟩
      refine ⟨after.reverse.map (Callback.task s.armed), before.reverse.map (Callback.task s.armed), ?_, ?_⟩
      · rw [hh]; simp [Callback.task]
      · obtain ⟨c, hc, hw⟩ := hl
        cases c with
        | engine => exact hw.elim
        | objects => exact ⟨s.armed.reverse, List.mem_map.2 ⟨_, List.mem_reverse.2 hc, rfl⟩, by simpa [HasToLog] using hw⟩
        | user ls => exact ⟨ls, List.mem_map.2 ⟨_, List.mem_reverse.2 hc, rfl⟩, hw⟩
    | step hr hs ih => exact ⟨(XReach.step hr hs).eng |> (h.eng).trans, ih.2.step ih.1 hs⟩
  intro he
  have := key.2
  unfold Doomed at this
  rw [he] at this
  exact this

/-- **C87** (partial: it says what holds when the end is reached; a log put into an engine that was being exchanged is the exception,
as in C17, C55; the limit of time of the hook, C52, is not reached). When the program has ended, and some log was written before the end began, every object of `log(...)`
that was still alive and unused, and every callback of the program, has written its logs; these and all other logs whose calls have
returned have been handled, exactly once. -/
theorem C87_ended_program_has_recorded_everything_partial (s s' : XState) (h : XReach .init s) (l₀ : Log) (hfirst : Returned s.e l₀)
    (h' : XReach s.exit s') (hend : s'.phase = .ended) :
    (∀ l ∈ s.armed, Returned s'.e l) ∧ (∀ ls, .user ls ∈ s.hooks → ∀ l ∈ ls, Returned s'.e l) ∧
    ∀ l, Returned s'.e l → timesHandled s'.e l = 1 ∨ l ∈ s'.e.g.late := by
  have key : EReach Eng.init s'.e ∧ ExitInv (s.hooks.reverse.map (Callback.task s.armed)) s' := by
    clear hend
    induction h' with
    | init => exact ⟨h.eng, [], rfl, ⟨fun ls hls => absurd hls List.not_mem_nil, fun hst => absurd hst List.not_mem_nil⟩⟩
    | step hr hs ih => exact ⟨(XReach.step hr hs).eng |> (h.eng).trans, ih.2.step ih.1 hs⟩
  obtain ⟨hr, hinv⟩ := key
  unfold ExitInv at hinv
  rw [hend] at hinv
  obtain ⟨hw, hst⟩ := hinv
  have heng : Callback.engine ∈ s.hooks := (ExitRegInv_reach h).engine ((HookInv_reach h.eng).back l₀ hfirst)
  refine ⟨fun l hl => ?_, fun ls hls l hl => ?_, fun l hl => ?_⟩
  · have ho := (ExitRegInv_reach h).objects (List.ne_nil_of_mem hl)
    exact hw s.armed.reverse (List.mem_map.2 ⟨_, List.mem_reverse.2 ho, rfl⟩) l (List.mem_reverse.2 hl)
  · exact hw ls (List.mem_map.2 ⟨_, List.mem_reverse.2 hls, rfl⟩) l hl
  · obtain ⟨t, ht⟩ := hst (List.mem_map.2 ⟨_, List.mem_reverse.2 heng, rfl⟩)
    rcases C55_exit_hook_drains_partial s'.e hr t ht l hl.1 with h1 | ⟨t', _, h1⟩ | h1
    · exact .inl h1
    · exact absurd h1 (hl.2 t')
    · exact .inr h1

theorem armed_nodup {s : XState} (h : XReach .init s) : s.armed.Nodup := by
  induction h with
  | init => exact List.nodup_nil
  | @step s s' _ hs ih =>
    cases hs with
    | make l hp hl hc =>
      refine List.nodup_append.2 ⟨ih, by simp, fun a ha b hb => ?_⟩
      rw [List.mem_singleton.1 hb]
      rintro rfl
      exact hl (List.mem_append_left _ ha)
    | use l => exact ih.erase l
    | drop l => exact ih.erase l
    | _ => exact ih

/-- **C87**, the objects that have been used: an object of `log(...)` that is alive and unused can be used (as a decorator or as a
context manager), which writes nothing; after that it is no longer one of those that write at the end, and the others still are. -/
theorem C87_used_object_does_not_write_at_exit (s : XState) (h : XReach .init s) (hp : s.phase = .running) (l : Log)
    (hl : l ∈ s.armed) : ∃ s1, XStep s s1 ∧ s1.e = s.e ∧ s1.phase = .running ∧ s1.hooks = s.hooks ∧
      ∀ x, x ∈ s1.armed ↔ x ∈ s.armed ∧ x ≠ l :=
  ⟨_, .use s l hp hl, rfl, hp, rfl, fun _ => (armed_nodup h).mem_erase_iff.trans And.comm⟩

/-! ### Executions -/

theorem setFn_setFn' {α : Type} (f : Nat → α) (i : Nat) (x y : α) : setFn (setFn f i x) i y = setFn f i y := by
  funext j
  simp only [setFn]
  split <;> rfl

theorem setFn_const {α : Type} (t : Nat) (x : α) : setFn (fun _ => x) t x = fun _ => x := by
  funext u
  simp only [setFn]
  split <;> rfl

theorem Returned.of_idle {e : Eng} {l : Log} (hi : ∀ t, e.pc t = .idle) (t : Nat) (hc : (t, l) ∈ e.g.calls) : Returned e l := by
  refine ⟨⟨t, hc⟩, fun u hu => ?_⟩
  rw [← log?_iff_inCall, hi u] at hu
  cases hu

/-- One thread takes a step of the engine while the others are idle. -/
theorem XReach.go {s0 : XState} {g : Glob} {H : List Callback} {A : List Log} {P : ExitPhase} {t : Nat} {p : PC}
    (h : XReach s0 ⟨⟨g, setFn (fun _ => .idle) t p⟩, H, A, P⟩) (hP : P ≠ .ended) {g' : Glob} {p' : PC} (hs : TStep t g p g' p')
    (hx : p' ≠ .xBlock) (hc : g'.calls = g.calls) (H' : List Callback)
    (hH : H' = if g.hooks < g'.hooks then H ++ [.engine] else H) :
    XReach s0 ⟨⟨g', setFn (fun _ => .idle) t p'⟩, H', A, P⟩ := by
  have e : setFn (setFn (fun _ => PC.idle) t p) t p' = setFn (fun _ => .idle) t p' := setFn_setFn' _ _ _ _
  have := XReach.step h (.work _ ⟨g', setFn (setFn (fun _ => PC.idle) t p) t p'⟩
    (.thread ⟨g, setFn (fun _ => .idle) t p⟩ t g' p' (by dsimp only; rw [setFn_self]; exact hs)) (fun u hu => ?_)
    (fun x hx hn => absurd (hc ▸ hx) hn) hP)
  · subst hH
    rw [e] at this
    exact this
  · rw [e] at hu
    dsimp only at hu
    simp only [setFn] at hu
    split at hu
    · exact absurd hu hx
    · cases hu

/-- The state after the first log was handled by the synchronous engine. -/
def firstSync (calls : List (Nat × Log)) (seq : List Log) : Glob :=
  { Glob.init with started := true, mode := .direct, loads := 1, inits := 1, hooks := 1, calls := calls, seq := seq }

/-- The first write with the synchronous engine. -/
theorem XReach.firstWrite {t : Nat} {l : Log} {calls : List (Nat × Log)} {H : List Callback} {A : List Log} {P : ExitPhase}
    (hP : P ≠ .ended)
    (h : XReach .init ⟨⟨{ Glob.init with calls := calls }, setFn (fun _ => .idle) t (.wFirst l)⟩, H, A, P⟩) :
    XReach .init ⟨⟨firstSync calls [l], fun _ => .idle⟩, H ++ [.engine], A, P⟩ := by
  have b1 := h.go hP (.wLock _ _ rfl) (by simp) rfl H rfl
  have b2 := b1.go hP (.wNotYet _ _ rfl) (by simp) rfl H rfl
  have b3 := b2.go hP (.wSetLock _ _ rfl) (by simp) rfl H rfl
  have b4 := b3.go hP (.wSetStarted _ _) (by simp) rfl H rfl
  have b5 := b4.go hP (.wLoadSingle _ _ rfl) (by simp) rfl H rfl
  have b6 := b5.go hP (.wRegister _ _) (by simp) rfl (H ++ [.engine]) rfl
  have b7 := b6.go hP (.wDone _ _) (by simp) rfl _ rfl
  have b8 := b7.go hP (.fetch _ _ 0 rfl) (by simp) rfl _ rfl
  have b9 := b8.go hP (.handSingle _ _ _ rfl) (by simp) rfl _ rfl
  simpa [firstSync, Glob.load, Glob.init, setFn_const] using b9

/-- `x = log('a')`, `log('b')`: the object `x` is kept, the log `b` was handled. -/
theorem keeps_an_object : XReach .init ⟨⟨firstSync [(0, 1)] [1], fun _ => .idle⟩, [.objects, .engine], [0], .running⟩ := by
  have a1 : XReach .init ⟨Eng.init, [.objects], [0], .running⟩ :=
    .step .init (.make .init 0 rfl List.not_mem_nil (fun x hx => nomatch hx))
  have a2 : XReach .init ⟨Eng.init, [.objects], [0, 1], .running⟩ :=
    .step a1 (.make ⟨Eng.init, [.objects], [0], .running⟩ 1 rfl (by decide) (fun x hx => nomatch hx))
  have a3 : XReach .init ⟨⟨{ Glob.init with calls := [(0, 1)] }, setFn (fun _ => .idle) 0 (.wFirst 1)⟩, [.objects], [0], .running⟩ :=
    .step a2 (.drop ⟨Eng.init, [.objects], [0, 1], .running⟩ 1 0 _ _ rfl (by decide) rfl
      (.callFirst _ 1 (fun x hx => nomatch hx) rfl) rfl)
  exact a3.firstWrite (by simp)

/-- **C87 fails**: `x = log('a')` and then `log('b')`, and the program never ends, whatever its threads do. -/
theorem C87_program_ends_fails : ∃ s, XReach .init s ∧ s.phase = .running ∧ s.armed = [0] ∧ (∀ t, s.e.pc t = .idle) ∧
    timesHandled s.e 1 = 1 ∧ ∀ s', XReach s.exit s' → s'.phase ≠ .ended :=
  ⟨_, keeps_an_object, rfl, rfl, fun _ => rfl, rfl, fun s' h' =>
    C87_log_after_the_engine_has_stopped_hangs _ s' keeps_an_object [.objects] [] rfl ⟨.objects, by simp, by simp [HasToLog]⟩ h'⟩

/-- A decorated function has logged, then `x = log('a')`: the program ends, with both logs handled. -/
example : ∃ s s', XReach .init s ∧ Returned s.e 0 ∧ s.armed = [1] ∧ XReach s.exit s' ∧ s'.phase = .ended := by
  have a1 : XReach .init ⟨⟨{ Glob.init with calls := [(0, 0)] }, setFn (fun _ => .idle) 0 (.wFirst 0)⟩, [], [], .running⟩ :=
    .step .init (.work .init ⟨{ Glob.init with calls := [(0, 0)] }, setFn (fun _ => .idle) 0 (.wFirst 0)⟩
      (.thread _ 0 _ _ (.callFirst _ 0 (fun x hx => nomatch hx) rfl)) (fun t ht => by
        simp only [setFn] at ht
        split at ht <;> cases ht) (fun x _ _ => List.not_mem_nil) (by simp [XState.init]))
  have a2 := a1.firstWrite (by simp)
  have a3 : XReach .init ⟨⟨firstSync [(0, 0)] [0], fun _ => .idle⟩, [.engine, .objects], [1], .running⟩ :=
    .step a2 (.make ⟨⟨firstSync [(0, 0)] [0], fun _ => .idle⟩, [.engine], [], .running⟩ 1 rfl (by decide) (by decide))
  let s : XState := ⟨⟨firstSync [(0, 0)] [0], fun _ => .idle⟩, [.engine, .objects], [1], .running⟩
  have b0 : XReach s.exit s.exit := .init
  have b1 : XReach s.exit { s with phase := .writing 0 [1] [.stop] } := .step b0 (.begin s.exit 0 [1] [.stop] rfl rfl)
  have b2 := XReach.step b1 (.write { s with phase := .writing 0 [1] [.stop] } 0 1 [] [.stop] _ _ rfl rfl
    (.callDirect _ 1 (by decide) rfl) rfl)
  have b3 := b2.go (by simp) (.fetch _ _ 0 rfl) (by simp) rfl _ rfl
  have b4 := b3.go (by simp) (.handSingle _ _ _ rfl) (by simp) rfl _ rfl
  rw [setFn_const] at b4
  have b5 := XReach.step b4 (.wrote _ 0 [.stop] rfl rfl)
  have b6 := XReach.step b5 (.stop _ 1 [] _ rfl rfl (.xCall _ (by decide)))
  have b7 := b6.go (by simp) (.xLock _ rfl) (by simp) rfl _ rfl
  have b8 := b7.go (by simp) (.xSwap _) (by simp) rfl _ rfl
  have b9 := b8.go (by simp) (.xStopSingle _ 0 rfl rfl) (by simp) rfl _ rfl
  have c1 := XReach.step b9 (.stopped _ 1 [] rfl rfl)
  have c2 := XReach.step c1 (.done _ rfl)
  refine ⟨s, _, a3, .of_idle (fun _ => rfl) 0 (by decide), rfl, c2, rfl⟩

/-- **C87 fails** for the first log: `pool_size=1` is set, `x = log('a')` is kept, the program ends: the log is written, but the hook that
waits for the workers is registered too late to be run; the program ends and the log is in the queue. -/
theorem C87_first_log_at_exit_fails : ∃ s s', XReach .init s ∧ s.armed = [0] ∧ (∀ t, s.e.pc t = .idle) ∧ XReach s.exit s' ∧
    s'.phase = .ended ∧ Returned s'.e 0 ∧ timesHandled s'.e 0 = 0 ∧ (0 : Log) ∉ s'.e.g.late := by
  have a0 : XReach .init ⟨⟨Glob.init, setFn (fun _ => .idle) 0 .idle⟩, [], [], .running⟩ := by
    rw [setFn_const]
    exact .init
  have a1 := a0.go (by simp) (.cCall _ (.poolSize 1)) (by simp) rfl [] rfl
  have a2 := a1.go (by simp) (.cAcquire _ _ rfl) (by simp) rfl [] rfl
  have a3 := a2.go (by simp) (.cStore _ _ rfl rfl) (by simp) rfl [] rfl
  have a4 := a3.go (by simp) (.cEngineEnter _ rfl) (by simp) rfl [] rfl
  have a5 := a4.go (by simp) (.cEngineLeave _) (by simp) rfl [] rfl
  have a6 := a5.go (by simp) (.cNotStarted _ rfl) (by simp) rfl [] rfl
  have a7 := a6.go (by simp) (.cDone _) (by simp) rfl [] rfl
  rw [setFn_const] at a7
  have a8 := XReach.step a7 (.make _ 0 rfl List.not_mem_nil (fun x hx => nomatch hx))
  let g : Glob := { Glob.init with poolSize := 1 }
  let s : XState := ⟨⟨g, fun _ => .idle⟩, [.objects], [0], .running⟩
  have hs : XReach .init s := a8
  have b0 : XReach s.exit s.exit := .init
  have b1 : XReach s.exit ⟨⟨g, fun _ => .idle⟩, [.objects], [0], .writing 0 [0] []⟩ := .step b0 (.begin s.exit 0 [0] [] rfl rfl)
  have b2 : XReach s.exit ⟨⟨{ g with calls := [(0, 0)] }, setFn (fun _ => .idle) 0 (.wFirst 0)⟩, [.objects], [0], .writing 0 [] []⟩ :=
    .step b1 (.write _ 0 0 [] [] _ _ rfl rfl (.callFirst _ 0 (fun x hx => nomatch hx) rfl) rfl)
  have b3 := b2.go (by simp) (.wLock _ _ rfl) (by simp) rfl [.objects] rfl
  have b4 := b3.go (by simp) (.wNotYet _ _ rfl) (by simp) rfl [.objects] rfl
  have b5 := b4.go (by simp) (.wSetLock _ _ rfl) (by simp) rfl [.objects] rfl
  have b6 := b5.go (by simp) (.wSetStarted _ _) (by simp) rfl [.objects] rfl
  have b7 := b6.go (by simp) (.wLoadMulti _ _ (by decide)) (by simp) rfl [.objects] rfl
  have b8 := b7.go (by simp) (.wLoadQueue _ _) (by simp) rfl [.objects] rfl
  let g' (p : Pool) : Glob :=
    { setLock := none, engLock := none, started := true, poolSize := 1, maxQueue := 0, mode := .direct, loads := 1,
      real := setFn (fun _ => .single) 0 (.pool p), inits := 1, hooks := 1, calls := [(0, 0)], seq := [], late := [] }
  have b9 : XReach s.exit ⟨⟨{ g' (.init 1 0) with engLock := some 0, mode := .first, hooks := 0 }, setFn (fun _ => .idle) 0 (.wHook 0)⟩,
    [.objects], [0], .writing 0 [] []⟩ := b8.go (by simp) (.wLoadWorkers _ _ _) (by simp) rfl [.objects] rfl
  have c1 := b9.go (by simp) (.wRegister _ _) (by simp) rfl [.objects, .engine] rfl
  have c2 : XReach s.exit ⟨⟨g' (.init 1 0), setFn (fun _ => .idle) 0 (.wFetch 0)⟩, [.objects, .engine], [0], .writing 0 [] []⟩ :=
    c1.go (by simp) (.wDone _ _) (by simp) rfl [.objects, .engine] rfl
  have c3 := c2.go (by simp) (.fetch _ _ 0 rfl) (by simp) rfl [.objects, .engine] rfl
  have c4 := c3.go (by simp) (.handPool _ _ 0 (Pool.init 1 0) { Pool.init 1 0 with queue := [0] } rfl (.put _ 0 (.inl rfl))) (by simp)
    rfl [.objects, .engine] rfl
  rw [setFn_setFn', setFn_const] at c4
  have c4 : XReach s.exit ⟨⟨g' { Pool.init 1 0 with queue := [0] }, fun _ => .idle⟩, [.objects, .engine], [0], .writing 0 [] []⟩ := c4
  have c5 := XReach.step c4 (.wrote _ 0 [] rfl rfl)
  have c6 := XReach.step c5 (.done _ rfl)
  refine ⟨s, _, hs, rfl, fun _ => rfl, c6, rfl, .of_idle (fun _ => rfl) 0 (by decide), rfl, by decide⟩

end Polog
