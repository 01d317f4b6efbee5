import Verif.Engine.Props

/-! Theorems about the engine: order of synchronous writes (C20), start (C21), exit (C55).  Executions that meet the
hypotheses are in `Engine/Witness.lean`. -/

namespace Polog
open EngineSpec

theorem allSync_back {e e' : Eng} (hs : EStep e e') (h : AllSync e') : AllSync e := by
  cases hs with
  | pool k p p' a hk hr hp hput hstop =>
    have := h k hk
    simp [setFn] at this
  | thread t g' p' hst =>
    intro k hk
    have h1 := h k (Nat.lt_of_lt_of_le hk hst.mono.1)
    dsimp only at h1
    have upd : ∀ j r, g'.real = setFn e.g.real j r → r ≠ .single ∨ j = e.g.loads → e.g.real k = .single := by
      intro j r hg hr
      rw [hg] at h1
      by_cases hkj : k = j
      · subst hkj
        rw [setFn_self] at h1
        rcases hr with hr | hr
        · exact absurd h1 hr
        · omega
      · rw [setFn_ne _ _ hkj] at h1; exact h1
    generalize e.pc t = pc at hst
    cases hst with
    | wLoadSingle l hz => exact upd _ _ rfl (.inr rfl)
    | wLoadWorkers l cap => exact upd _ _ rfl (.inr rfl)
    | cLoad => exact upd _ _ rfl (.inr rfl)
    | handPool l j r r' hr hp => exact upd _ _ rfl (.inl (by simp))
    | bHandPool l j r r' hr hp => exact upd _ _ rfl (.inl (by simp))
    | cStopPool j r r' hl hr hp => exact upd _ _ rfl (.inl (by simp))
    | xStopPool j r r' hl hr hp => exact upd _ _ rfl (.inl (by simp))
    | cStore c => cases c <;> exact h1
    | _ => exact h1

/-- Logs called are told apart, and only called logs are handled. -/
theorem calls_nodup {e : Eng} (h : EReach Eng.init e) : (e.g.calls.map (·.2)).Nodup := by
  induction h with
  | init => exact List.nodup_nil
  | step hr hs ih =>
    cases hs with
    | pool => exact ih
    | thread t g' p' hst =>
      cases hst.effect with
      | quiet hp hc hs hl hr => dsimp only; rw [hc]; exact ih
      | call l fresh hp hp' hc hs hl hload hr =>
        dsimp only; rw [hc, List.map_append, List.nodup_append]
        refine ⟨ih, by simp, ?_⟩
        intro a ha b hb hab
        obtain ⟨x, hx, rfl⟩ := List.mem_map.1 ha
        simp only [List.map_cons, List.map_nil, List.mem_singleton] at hb
        subst hb
        exact fresh x hx hab
      | single l hp hp' hc hs hl hload hr => dsimp only; rw [hc]; exact ih
      | put l k q q' hp hp' hc hs hl hload hk hq hstep hr => dsimp only; rw [hc]; exact ih

theorem own_unique {e : Eng} (h : EReach Eng.init e) {t t' : Nat} {l : Log} (h1 : (t, l) ∈ e.g.calls)
    (h2 : (t', l) ∈ e.g.calls) : t = t' := by
  have hn := calls_nodup h
  generalize e.g.calls = cs at *
  induction cs with
  | nil => cases h1
  | cons c cs ih =>
    simp only [List.map_cons, List.nodup_cons] at hn
    rcases List.mem_cons.1 h1 with rfl | h1' <;> rcases List.mem_cons.1 h2 with h2' | h2'
    · cases h2'; rfl
    · exact absurd (List.mem_map.2 ⟨_, h2', rfl⟩) hn.1
    · rw [← h2'] at hn
      exact absurd (List.mem_map.2 ⟨_, h1', rfl⟩) hn.1
    · exact ih h1' h2' hn.2

theorem seq_order {e : Eng} (h : EReach Eng.init e) (hs : AllSync e) (t : Nat) :
    writtenBy t e = handledOf t e ++ (e.pc t).log?.toList := by
  induction h with
  | init => rfl
  | @step e1 e2 hr hst ih =>
    have hsb := allSync_back hst hs
    have ih := ih hsb
    cases hst with
    | pool k p p' a hk hrk hp hput hstop => rw [hsb k hk] at hrk; cases hrk
    | thread t1 g' p' hst =>
      have hL := (EInv_reach EInv_init hr).l
      obtain ⟨loc, hL⟩ := hL
      have hlog : ∀ p'' : PC, p''.log? = (e1.pc t1).log? →
          (setFn e1.pc t1 p'' t).log? = (e1.pc t).log? := by
        intro p'' hp
        by_cases ht : t = t1
        · subst ht; rw [setFn_self, hp]
        · rw [setFn_ne _ _ ht]
      cases hst.effect with
      | quiet hp hc hs hl hr =>
        unfold writtenBy handledOf at *
        dsimp only
        rw [hc, hs, hlog p' hp]
        exact ih
      | call l fresh hp hp' hc hs hl hload hr' =>
        unfold writtenBy handledOf at *
        dsimp only
        rw [hc, hs]
        have hfil : e1.g.seq.filter (fun x => (e1.g.calls ++ [(t1, l)]).any (fun y => y.1 == t && y.2 == x))
            = e1.g.seq.filter (fun x => e1.g.calls.any (fun y => y.1 == t && y.2 == x)) := by
          apply List.filter_congr
          intro x hx
          have hxl : x ≠ l := by
            rintro rfl
            have hd := hL.done x
            have : loc x = .unborn := (hL.born x).2 fresh
            rw [this] at hd
            simp at hd
            exact List.count_eq_zero.1 hd hx
          have hxl' : (l == x) = false := by simpa using fun e => hxl e.symm
          simp [hxl']
        rw [hfil, List.filter_append, List.map_append, ih]
        by_cases ht : t = t1
        · subst ht
          simp [setFn_self, hp, hp']
        · have ht' : (t1 == t) = false := by simpa using fun e => ht e.symm
          simp [setFn_ne _ _ ht, ht']
      | single l hp hp' hc hs hl hload hr' =>
        have hown := hL.owner t1 l ((hL.thread t1 l).1 hp)
        unfold writtenBy handledOf at *
        dsimp only
        rw [hc, hs, List.filter_append, ih]
        by_cases ht : t = t1
        · subst ht
          have : e1.g.calls.any (fun y => y.1 == t && y.2 == l) = true :=
            List.any_eq_true.2 ⟨_, hown, by simp⟩
          simp [setFn_self, hp, hp', this]
        · have : e1.g.calls.any (fun y => y.1 == t && y.2 == l) = false := by
            rw [List.any_eq_false]
            rintro ⟨a, b⟩ hab hx
            simp only [Bool.and_eq_true, beq_iff_eq] at hx
            obtain ⟨rfl, rfl⟩ := hx
            exact ht (own_unique hr hab hown)
          simp [setFn_ne _ _ ht, this]
      | put l k q q' hp hp' hc hs' hl hload hk hq hstep hr' =>
        exfalso
        have hS := (EInv_reach EInv_init hr).s
        have hkl : k < e1.g.loads := by
          rcases hk with hk | hk
          · have := hS.loc t1; rw [hk] at this; exact this
          · have := hS.held t1 ((hS.eng t1).1 (by rw [hk]; rfl))
            rw [hk] at this
            have := this.2; omega
        rw [hsb k hkl] at hq; cases hq

/-- **C20.** With the synchronous engine the logs of a thread are handled in the order in which the
thread wrote them, and a call returns only after its log has been handled: whenever the thread is
outside polog, the logs handled for it are exactly the logs it wrote, in order. -/
theorem C20_sync_handled_before_return_in_order (e : Eng) (h : EReach Eng.init e) (hs : AllSync e)
    (t : Nat) (hidle : e.pc t = .idle) : handledOf t e = writtenBy t e := by
  have := seq_order h hs t
  rw [hidle] at this
  simpa [PC.log?] using this.symm

/-- **C20.** … and while it is inside a call, at most the last log is missing. -/
theorem C20_sync_at_most_the_last_missing (e : Eng) (h : EReach Eng.init e) (hs : AllSync e) (t : Nat) :
    handledOf t e = writtenBy t e ∨ ∃ l, InCall e t l ∧ handledOf t e ++ [l] = writtenBy t e := by
  have := seq_order h hs t
  cases hl : (e.pc t).log? with
  | none => rw [hl] at this; left; simpa using this.symm
  | some l =>
    rw [hl] at this
    exact .inr ⟨l, (log?_iff_inCall e t l).1 hl, by simpa using this.symm⟩

/-- **C21.** Whatever number of threads write their first log at the same time: the engine is loaded
by a first write at most once, the exit hook is registered at most once, no write fails for want of
an engine, and as soon as anything is handled or queued the engine has been loaded by exactly one
first write. -/
theorem C21_started_exactly_once (e : Eng) (h : EReach Eng.init e) :
    e.g.inits ≤ 1 ∧ e.g.hooks ≤ 1 ∧ (∀ t l, e.pc t ≠ .wFailed l) ∧
    ((∃ l, 0 < timesHandled e l) ∨ (∃ k l, Queued e k l) → e.g.inits = 1) := by
  have hS := (EInv_reach EInv_init h).s
  have ho := hS.overview
  refine ⟨ho.2.2.1, ho.2.2.2.1, ?_, ?_⟩
  · intro t l hpc
    have := hS.loc t
    rw [hpc] at this; exact this
  · have pos : 0 < e.g.loads → e.g.inits = 1 := ho.2.2.2.2
    rintro (⟨l, hl⟩ | ⟨k, l, hk, _⟩)
    · -- a handled log was handled by a loaded engine
      apply pos
      have : ∀ e, EReach Eng.init e → 0 < e.g.seq.length → 0 < e.g.loads := by
        intro e he
        induction he with
        | init => intro h; simp [Eng.init, Glob.init] at h
        | @step e1 e2 hr hs ih =>
          cases hs with
          | pool k p p' a hk _ _ _ _ => intro _; exact Nat.lt_of_le_of_lt (Nat.zero_le _) hk
          | thread t g' p' hst =>
            intro hlen
            have hS1 := (EInv_reach EInv_init hr).s
            refine Nat.lt_of_lt_of_le ?_ hst.mono.1
            dsimp only at hlen
            have loc := hS1.loc t
            have held : (e1.pc t).holdsEng = true → Phase e1.g (e1.pc t) :=
              fun hx => hS1.held t ((hS1.eng t).1 hx)
            generalize e1.pc t = pc at hst loc held
            cases hst with
            | handSingle l k hk => exact Nat.lt_of_le_of_lt (Nat.zero_le _) loc
            | bHandSingle l k hk => exact (held rfl).1.1.2.1
            | cStore c => cases c <;> exact ih hlen
            | _ => exact ih hlen
      refine this e h ?_
      unfold timesHandled at hl
      exact List.length_pos_of_mem (List.count_pos_iff.1 hl)
    · exact pos (by omega)

/-- **C55** (partial: late logs are the exception).  When the exit hook has ended, every log written
by a call that has returned has been handled, exactly once, unless it was put into the queue of an
engine after its `stop()` had seen that queue empty. -/
theorem C55_exit_hook_drains_partial (e : Eng) (h : EReach Eng.init e) (t : Nat) (hx : e.pc t = .xEnd)
    (l : Log) (hw : Written e l) :
    timesHandled e l = 1 ∨ (∃ t', (t', l) ∈ e.g.calls ∧ InCall e t' l) ∨ l ∈ e.g.late := by
  have hI := EInv_reach EInv_init h
  obtain ⟨loc, hL⟩ := hI.l
  have hp := hI.s.held t ((hI.s.eng t).1 (by rw [hx]; rfl))
  rw [hx] at hp
  have hdone : ∀ k p, k < e.g.loads → e.g.real k = .pool p → p.stop = .done := by
    intro k p hk hr
    by_cases hc : k + 1 = e.g.loads
    · exact hp.2 p (by rw [← hc]; exact hr)
    · exact hI.r.old k (by omega) p hr
  rcases C17_nothing_vanishes_or_duplicates e h l hw with h1 | ⟨_, h1 | ⟨k, hk, p, hr, hl⟩ | ⟨k, i, hk, p, hr, hi, hl⟩⟩
  · exact .inl h1
  · exact .inr (.inl h1)
  · exact .inr (.inr ((held_by_old hI hL hk hr (hdone k p hk hr)).1 l hl))
  · exact absurd hl ((held_by_old hI hL hk hr (hdone k p hk hr)).2 i l hi)

/-- **C55** (partial: only for the executions described by `CalmReach`).  If no reload and no exit
hook begins while a direct write is in flight, then when the exit hook has ended, every log written
by a call that has returned has been handled exactly once. -/
theorem C55_exit_hook_drains_in_calm_executions_partial (e : Eng) (h : CalmReach Eng.init e) (t : Nat)
    (hx : e.pc t = .xEnd) (l : Log) (hw : Written e l) :
    timesHandled e l = 1 ∨ (∃ t', (t', l) ∈ e.g.calls ∧ InCall e t' l) := by
  rcases C55_exit_hook_drains_partial e h.reach t hx l hw with h1 | h1 | h1
  · exact .inl h1
  · exact .inr h1
  · rw [(Calm_reach EInv_init ⟨rfl, by simp [Eng.init], by simp [Eng.init]⟩ h).late] at h1
    cases h1

/-- The lock is kept by the hook for ever. -/
theorem xEnd_forever {e e' : Eng} (hI : EInv e) (h : EReach e e') {t : Nat} (hx : e.pc t = .xEnd) :
    EInv e' ∧ e'.pc t = .xEnd := by
  induction h with
  | init => exact ⟨hI, hx⟩
  | step hr hs ih =>
    obtain ⟨hI1, hx1⟩ := ih
    refine ⟨EInv_step hI1 hs, ?_⟩
    cases hs with
    | pool => exact hx1
    | thread t' g' p' hst =>
      by_cases ht : t = t'
      · subst ht
        rw [hx1] at hst
        cases hst
      · dsimp only; rw [setFn_ne _ _ ht]; exact hx1

/-- **C55.** After the exit hook has ended no thread ever gets `Engine.lock` again: a thread that
waits for it inside a log call or a reload waits for ever. -/
theorem C55_after_exit_hook_blocked_for_ever (e e' : Eng) (h : EReach Eng.init e) (t : Nat)
    (hx : e.pc t = .xEnd) (h' : EReach e e') (t' : Nat) (l : Log)
    (hb : e.pc t' = .bLock l) : e'.pc t' = .bLock l := by
  have hI := EInv_reach EInv_init h
  induction h' with
  | init => exact hb
  | step hr hs ih =>
    obtain ⟨hI1, hx1⟩ := xEnd_forever hI hr hx
    have hk := (hI1.s.eng t).1 (by rw [hx1]; rfl)
    cases hs with
    | pool => exact ih
    | thread u g' p' hst =>
      by_cases ht : t' = u
      · subst ht
        rw [ih] at hst
        cases hst with
        | bAcquire l hf => rw [hf] at hk; cases hk
      · dsimp only; rw [setFn_ne _ _ ht]; exact ih

end Polog
