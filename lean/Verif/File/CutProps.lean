import Verif.File.CutLive

/-! C107: interrupts that come while the main thread is in a file handler. -/

namespace Polog
open FileSpec CutSpec

/-- **C107.** Whatever interrupts come, at whatever moments: what was written is in the rotated files, the current file
and the buffer, whole, in order and once; every call that has ended has exactly one fate; and lines lost by an interrupt
are at most as many as interrupts. -/
theorem C107_written_lines_are_kept (c : FConf) (s₀ s : CuState) (h₀ : CuStart c s₀) (h : CuRun c false s₀ s) :
    Kept c.fn s₀ s ∧ Accounted s ∧ (linesWith .cut s).length ≤ s.cuts := by
  have hi := h.inv h₀
  refine ⟨hi.wf.text, fun t ht => ?_, hi.cuts⟩
  rw [hi.fates t, ht]
  simp [CuPc.pending]

/-- **C107**, for interrupts that come neither in `__enter__` and `__exit__` of the lock nor between the renaming of the
file and the opening of the new one: all calls can be finished, and if the system does not refuse anything no line is
given to `alt`, and after the calls the file with the name of the log is open. -/
theorem C107_handler_goes_on_after_interrupts_partial (c : FConf) (s₀ s : CuState) (h₀ : CuStart c s₀) (h : CuRun c true s₀ s) :
    (∃ s', GoesOnUndisturbed c s s' ∧ ∀ t, s'.pc t = .idle) ∧
    (c.reliable = true → linesWith .failed s = [] ∧
      ((∀ t, s.pc t = .idle) → ∃ i, s.w.files c.fn = some i ∧ s.w.file = some i)) := by
  refine ⟨cu_finishes (h.inv h₀) (h.locks h₀), fun hr => ?_⟩
  have hs := h.sound hr h₀
  refine ⟨hs.none, fun hall => ?_⟩
  rcases hs.file with ⟨t, ht⟩ | hf
  · rw [hall t] at ht; cases ht
  · exact hf

/-- Nobody is inside and the lock is taken. -/
structure CuShut (s : CuState) : Prop where
  taken : s.lock ≠ none
  outside : ∀ t, (s.pc t).inLock = false

theorem CuShut.step {c : FConf} {s s' : CuState} {t : Nat} (h : CuShut s) (hs : CuStep c t s s') :
    CuShut s' ∧ s'.done = s.done := by
  have ho := h.outside t
  have hpc : ∀ x : CuPc, x.inLock = false → ∀ u, (putAt s.pc t x u).inLock = false := by
    intro x hx u
    by_cases e : u = t
    · rw [e, putAt_same]; exact hx
    · rw [putAt_ne _ _ e]; exact h.outside u
  cases hs with
  | call line ht hi => exact ⟨⟨h.taken, hpc _ rfl⟩, rfl⟩
  | rotation line hi => exact ⟨⟨h.taken, hpc _ rfl⟩, rfl⟩
  | lockRot line hi hr => exact ⟨⟨h.taken, hpc _ rfl⟩, rfl⟩
  | fire line n hi hn hf => exact ⟨⟨h.taken, hpc _ rfl⟩, rfl⟩
  | pass line hi hn => exact ⟨⟨h.taken, hpc _ rfl⟩, rfl⟩
  | acquire o line hi hl => exact absurd hl h.taken
  | moved line target w' hi => rcases hi with hi | hi <;> rw [hi] at ho <;> cases ho
  | moveFails line hi hn => rcases hi with hi | hi <;> rw [hi] at ho <;> cases ho
  | into o line hi => rw [hi] at ho; cases ho
  | notFound line hi hn => rw [hi] at ho; cases ho
  | close line hi => rw [hi] at ho; cases ho
  | opened line hi => rw [hi] at ho; cases ho
  | openFails line hi => rw [hi] at ho; cases ho
  | write line auto w' hi => rw [hi] at ho; cases ho
  | writeFails line hi => rw [hi] at ho; cases ho
  | spill line auto w' hi => rw [hi] at ho; cases ho
  | flush line w' hi => rw [hi] at ho; cases ho
  | flushFails line hi => rw [hi] at ho; cases ho
  | leave o line hi => rw [hi] at ho; cases ho
  | release o line r hi => rw [hi] at ho; cases ho

theorem CuShut.interrupted {s : CuState} (h : CuShut s) :
    CuShut s.interrupt ∧ ∀ f, f ≠ .cut → linesWith f s.interrupt = linesWith f s := by
  have ho := h.outside 0
  have hpc : ∀ x : CuPc, x.inLock = false → ∀ u, (putAt s.pc 0 x u).inLock = false := by
    intro x hx u
    by_cases e : u = 0
    · rw [e, putAt_same]; exact hx
    · rw [putAt_ne _ _ e]; exact h.outside u
  have hcut : ∀ (s' : CuState) line, s'.done = s.done ++ [(0, line, .cut)] →
      ∀ f, f ≠ .cut → linesWith f s' = linesWith f s := by
    intro s' line hd f hf
    rw [linesWith_append hd, if_neg (Ne.symm hf), List.append_nil]
  unfold CuState.interrupt
  dsimp only
  cases hi : s.pc 0 with
  | idle => exact ⟨⟨h.taken, h.outside⟩, fun _ _ => rfl⟩
  | before line => exact ⟨⟨h.taken, hpc _ rfl⟩, hcut _ line rfl⟩
  | start line => exact ⟨⟨h.taken, hpc _ rfl⟩, fun _ _ => rfl⟩
  | checking line => exact ⟨⟨h.taken, hpc _ rfl⟩, fun _ _ => rfl⟩
  | enter o line =>
    cases o with
    | move => exact ⟨⟨h.taken, hpc _ rfl⟩, fun _ _ => rfl⟩
    | write => exact ⟨⟨h.taken, hpc _ rfl⟩, hcut _ line rfl⟩
    | flush => exact ⟨⟨h.taken, hpc _ rfl⟩, fun _ _ => rfl⟩
  | entered o line => rw [hi] at ho; cases ho
  | body o line => rw [hi] at ho; cases ho
  | dirs line => rw [hi] at ho; cases ho
  | closing line => rw [hi] at ho; cases ho
  | opening line => rw [hi] at ho; cases ho
  | ended o line => rw [hi] at ho; cases ho
  | exit o line r => rw [hi] at ho; cases ho

theorem CuShut.run {c : FConf} {s s' : CuState} (h : CuShut s) (hr : CuRun c false s s') :
    CuShut s' ∧ ∀ f, f ≠ .cut → linesWith f s' = linesWith f s := by
  induction hr with
  | init => exact ⟨h, fun _ _ => rfl⟩
  | step t _ hs ih =>
    obtain ⟨h1, h2⟩ := ih.1.step hs
    exact ⟨h1, fun f hf => by rw [linesWith_same f h2]; exact ih.2 f hf⟩
  | cut _ _ _ ih =>
    obtain ⟨h1, h2⟩ := ih.1.interrupted
    exact ⟨h1, fun f hf => by rw [h2 f hf]; exact ih.2 f hf⟩

/-- **C107.** What an interrupt in `__enter__` after the lock was taken, or in `__exit__` before it is released, does:
nothing is written to the file any more, by any thread, and no call that begins afterwards, or that was under way, ends
otherwise than by another interrupt. -/
theorem C107_interrupt_in_the_lock_stops_the_handler (c : FConf) (s₀ s s' : CuState) (h₀ : CuStart c s₀)
    (h : CuRun c false s₀ s) (o : CuOp) (line : Str) (hi : s.pc 0 = .entered o line ∨ ∃ r, s.pc 0 = .exit o line r)
    (h' : CuRun c false s.interrupt s') (f : CuFate) (hf : f ≠ .cut) :
    linesWith f s' = linesWith f s.interrupt := by
  have hin : (s.pc 0).inLock = true := by rcases hi with hi | ⟨r, hi⟩ <;> rw [hi] <;> rfl
  have hlk := (h.inv h₀).lock
  have h0 := hlk 0 hin
  have hout : ∀ u, u ≠ 0 → (s.pc u).inLock = false := by
    intro u hu
    cases hb : (s.pc u).inLock with
    | false => rfl
    | true => have := hlk u hb; rw [h0] at this; cases this; exact absurd rfl hu
  have hpc : ∀ x : CuPc, x.inLock = false → ∀ u, (putAt s.pc 0 x u).inLock = false := by
    intro x hx u
    by_cases e : u = 0
    · rw [e, putAt_same]; exact hx
    · rw [putAt_ne _ _ e]; exact hout u e
  have hsh : CuShut s.interrupt := by
    have ht : s.lock ≠ none := by rw [h0]; exact fun e => nomatch e
    unfold CuState.interrupt
    dsimp only
    rcases hi with hi | ⟨r, hi⟩ <;> rw [hi] <;> cases o <;> exact ⟨ht, hpc _ rfl⟩
  exact (hsh.run h').2 f hf

/-- Nobody is between the renaming of the file and the opening of a new one, and there is no file with the name of the
log. -/
structure CuGone (fn : Str) (s : CuState) : Prop where
  gone : s.w.files fn = none
  outside : ∀ t, (s.pc t).between = false

theorem CuGone.step {c : FConf} {s s' : CuState} {t : Nat} (h : CuGone c.fn s) (hs : CuStep c t s s') :
    CuGone c.fn s' ∧ s'.w.file = s.w.file := by
  have ho := h.outside t
  have hpc : ∀ x : CuPc, x.between = false → ∀ u, (putAt s.pc t x u).between = false := by
    intro x hx u
    by_cases e : u = t
    · rw [e, putAt_same]; exact hx
    · rw [putAt_ne _ _ e]; exact h.outside u
  cases hs with
  | moved line target w' hi hfree hne hm =>
    unfold FileW.moveOnce at hm
    rw [h.gone] at hm
    simp at hm
  | close line hi => rw [hi] at ho; cases ho
  | opened line hi => rw [hi] at ho; cases ho
  | openFails line hi => rw [hi] at ho; cases ho
  | write line auto w' hi hw => exact ⟨⟨by show w'.files _ = none; rw [write_files hw]; exact h.gone, hpc _ rfl⟩, write_file hw⟩
  | spill line auto w' hi hw => exact ⟨⟨by dsimp only; rw [write_files hw]; exact h.gone, h.outside⟩, write_file hw⟩
  | flush line w' hi hw => exact ⟨⟨by show w'.files _ = none; rw [flush_files hw]; exact h.gone, hpc _ rfl⟩, flush_file hw⟩
  | release o line r hi =>
    cases o with
    | move => exact ⟨⟨h.gone, hpc _ rfl⟩, rfl⟩
    | write => exact ⟨⟨h.gone, hpc _ (by split <;> rfl)⟩, rfl⟩
    | flush => exact ⟨⟨h.gone, hpc _ rfl⟩, rfl⟩
  | _ => exact ⟨⟨h.gone, hpc _ rfl⟩, rfl⟩

theorem CuGone.interrupted {fn : Str} {s : CuState} (h : CuGone fn s) :
    CuGone fn s.interrupt ∧ s.interrupt.w.file = s.w.file ∧ linesWith .written s.interrupt = linesWith .written s := by
  have ho := h.outside 0
  have hpc : ∀ x : CuPc, x.between = false → ∀ u, (putAt s.pc 0 x u).between = false := by
    intro x hx u
    by_cases e : u = 0
    · rw [e, putAt_same]; exact hx
    · rw [putAt_ne _ _ e]; exact h.outside u
  have hcut : ∀ (s' : CuState) line, s'.done = s.done ++ [(0, line, .cut)] → linesWith .written s' = linesWith .written s := by
    intro s' line hd
    rw [linesWith_append hd]
    simp
  unfold CuState.interrupt
  dsimp only
  cases hi : s.pc 0 with
  | idle => exact ⟨⟨h.gone, h.outside⟩, rfl, rfl⟩
  | before line => exact ⟨⟨h.gone, hpc _ rfl⟩, rfl, hcut _ line rfl⟩
  | enter o line => cases o <;> first | exact ⟨⟨h.gone, hpc _ rfl⟩, rfl, rfl⟩ | exact ⟨⟨h.gone, hpc _ rfl⟩, rfl, hcut _ line rfl⟩
  | entered o line => cases o <;> first | exact ⟨⟨h.gone, hpc _ rfl⟩, rfl, rfl⟩ | exact ⟨⟨h.gone, hpc _ rfl⟩, rfl, hcut _ line rfl⟩
  | body o line => cases o <;> first | exact ⟨⟨h.gone, hpc _ rfl⟩, rfl, rfl⟩ | exact ⟨⟨h.gone, hpc _ rfl⟩, rfl, hcut _ line rfl⟩
  | closing line => rw [hi] at ho; cases ho
  | opening line => rw [hi] at ho; cases ho
  | exit o line r => cases o <;> exact ⟨⟨h.gone, hpc _ rfl⟩, rfl, rfl⟩
  | _ => exact ⟨⟨h.gone, hpc _ rfl⟩, rfl, rfl⟩

theorem CuGone.run {c : FConf} {s s' : CuState} (h : CuGone c.fn s) (hr : CuRun c false s s') :
    CuGone c.fn s' ∧ s'.w.file = s.w.file := by
  induction hr with
  | init => exact ⟨h, rfl⟩
  | step t _ hs ih => obtain ⟨h1, h2⟩ := ih.1.step hs; exact ⟨h1, h2.trans ih.2⟩
  | cut _ _ _ ih => obtain ⟨h1, h2, _⟩ := ih.1.interrupted; exact ⟨h1, h2.trans ih.2⟩

/-- While a thread is between, there is no file with the name of the log. -/
theorem CuRun.between {c : FConf} {s₀ s : CuState} (h₀ : CuStart c s₀) (h : CuRun c false s₀ s) :
    ∀ t, (s.pc t).between = true → s.w.files c.fn = none := by
  have hbl : ∀ x : CuPc, x.between = true → x.inLock = true := by
    intro x hx; cases x <;> first | rfl | cases hx
  induction h with
  | init => intro t ht; rw [h₀.idle] at ht; cases ht
  | @step s s' v hr hs ih =>
    have hlk := (hr.inv h₀).lock
    intro t ht
    -- a step of another thread does not change the names
    have other : (s.pc t).between = true → t ≠ v → (s.pc v).inLock = false := by
      intro hb hne
      have h1 := hlk t (hbl _ hb)
      cases hb2 : (s.pc v).inLock with
      | false => rfl
      | true => have := hlk v hb2; rw [h1] at this; cases this; exact absurd rfl hne
    by_cases hne : t = v
    · subst hne
      cases hs with
      | moved line target w' hi hfree hne hm => exact ((hr.inv h₀).wf.moved hfree hne hm).2
      | close line hi =>
        have := ih t (by rw [hi]; rfl)
        show s.w.close.files c.fn = none
        unfold FileW.close
        split <;> exact this
      | spill line auto w' hi hw => dsimp only at ht; rw [hi] at ht; cases ht
      | release o line r hi =>
        cases o with
        | write => simp only [CuState.after, CuState.go, putAt_same] at ht; split at ht <;> cases ht
        | move => simp only [CuState.after, CuState.go, putAt_same] at ht; cases ht
        | flush => simp only [CuState.after, CuState.go, putAt_same] at ht; cases ht
      | _ => simp only [CuState.go, putAt_same] at ht; cases ht
    · have hold : (s.pc t).between = true → s.w.files c.fn = none ∧ (s.pc v).inLock = false := fun hb => ⟨ih t hb, other hb hne⟩
      cases hs with
      | moved line target w' hi hfree hn hm =>
        simp only [CuState.go, putAt_ne _ _ hne] at ht
        have := (hold ht).2
        rcases hi with hi | hi <;> rw [hi] at this <;> cases this
      | close line hi => simp only [CuState.go, putAt_ne _ _ hne] at ht; have := (hold ht).2; rw [hi] at this; cases this
      | opened line hi => simp only [CuState.go, putAt_ne _ _ hne] at ht; have := (hold ht).2; rw [hi] at this; cases this
      | write line auto w' hi hw => simp only [CuState.go, putAt_ne _ _ hne] at ht; have := (hold ht).2; rw [hi] at this; cases this
      | spill line auto w' hi hw => have := (hold ht).2; rw [hi] at this; cases this
      | flush line w' hi hw => simp only [CuState.go, putAt_ne _ _ hne] at ht; have := (hold ht).2; rw [hi] at this; cases this
      | release o line r hi =>
        cases o <;> simp only [CuState.after, CuState.go, putAt_ne _ _ hne] at ht <;> exact (hold ht).1
      | _ => simp only [CuState.fate, CuState.go, putAt_ne _ _ hne] at ht; exact (hold ht).1
  | @cut s hr hm hid ih =>
    intro t ht
    have hw : s.interrupt.w = s.w := by
      unfold CuState.interrupt
      dsimp only
      cases hi : s.pc 0 with
      | enter o line => cases o <;> rfl
      | entered o line => cases o <;> rfl
      | body o line => cases o <;> rfl
      | exit o line r => cases o <;> rfl
      | _ => rfl
    rw [hw]
    by_cases e : t = 0
    · subst e
      exfalso
      revert ht
      unfold CuState.interrupt
      dsimp only
      cases hi : s.pc 0 with
      | idle => exact absurd hi hid
      | enter o line => cases o <;> simp [CuState.abandon, CuState.go, CuState.fate, putAt_same, CuPc.between]
      | entered o line => cases o <;> simp [CuState.abandon, CuState.go, CuState.fate, putAt_same, CuPc.between]
      | body o line => cases o <;> simp [CuState.abandon, CuState.go, CuState.fate, putAt_same, CuPc.between]
      | exit o line r => cases o <;> simp [CuState.abandon, CuState.go, CuState.fate, putAt_same, CuPc.between]
      | _ => simp [CuState.go, CuState.fate, putAt_same, CuPc.between]
    · have hp : s.interrupt.pc t = s.pc t := by
        unfold CuState.interrupt
        dsimp only
        cases hi : s.pc 0 with
        | enter o line => cases o <;> exact putAt_ne _ _ e
        | entered o line => cases o <;> exact putAt_ne _ _ e
        | body o line => cases o <;> exact putAt_ne _ _ e
        | exit o line r => cases o <;> exact putAt_ne _ _ e
        | idle => rfl
        | _ => exact putAt_ne _ _ e
      rw [hp] at ht
      exact ih t ht

theorem cu_gone {c : FConf} {s₀ s : CuState} (h₀ : CuStart c s₀) (h : CuRun c false s₀ s) (line : Str)
    (hi : s.pc 0 = .closing line ∨ s.pc 0 = .opening line) :
    CuGone c.fn s.interrupt ∧ s.interrupt.w = s.w ∧ linesWith .written s.interrupt = linesWith .written s := by
  have hb : (s.pc 0).between = true := by rcases hi with hi | hi <;> rw [hi] <;> rfl
  have hin : (s.pc 0).inLock = true := by rcases hi with hi | hi <;> rw [hi] <;> rfl
  have hlk := (h.inv h₀).lock
  have h0 := hlk 0 hin
  have hout : ∀ u, u ≠ 0 → (s.pc u).between = false := by
    intro u hu
    cases hb : (s.pc u).between with
    | false => rfl
    | true =>
      have h2 : (s.pc u).inLock = true := by
        cases hp : s.pc u <;> rw [hp] at hb <;> first | rfl | cases hb
      have := hlk u h2; rw [h0] at this; cases this; exact absurd rfl hu
  have hpc : ∀ x : CuPc, x.between = false → ∀ u, (putAt s.pc 0 x u).between = false := by
    intro x hx u
    by_cases e : u = 0
    · rw [e, putAt_same]; exact hx
    · rw [putAt_ne _ _ e]; exact hout u e
  have hg := h.between h₀ 0 hb
  unfold CuState.interrupt
  dsimp only
  rcases hi with hi | hi <;> rw [hi] <;> exact ⟨⟨hg, hpc _ rfl⟩, rfl, rfl⟩

/-- **C107.** What an interrupt between the renaming of the file and the opening of the new one does: there is no file
with the name of the log any more, whatever is logged afterwards. -/
theorem C107_interrupt_in_a_rotation_ends_the_log_file (c : FConf) (s₀ s s' : CuState) (h₀ : CuStart c s₀)
    (h : CuRun c false s₀ s) (line : Str) (hi : s.pc 0 = .closing line ∨ s.pc 0 = .opening line)
    (h' : CuRun c false s.interrupt s') : s'.w.files c.fn = none :=
  ((cu_gone h₀ h line hi).1.run h').1.gone

/-- **C107.** If the old file was already closed, nothing is written any more: every later line is given to `alt`, or
lost by another interrupt. -/
theorem C107_interrupt_before_the_new_file_loses_all_later_lines (c : FConf) (s₀ s s' : CuState) (h₀ : CuStart c s₀)
    (h : CuRun c false s₀ s) (line : Str) (hi : s.pc 0 = .opening line) (h' : CuRun c false s.interrupt s') :
    linesWith .written s' = linesWith .written s := by
  obtain ⟨hg, hw, hd⟩ := cu_gone h₀ h line (.inr hi)
  have hf : s.interrupt.w.file = none := by rw [hw]; exact (h.inv h₀).opening 0 line hi
  rw [← hd]
  induction h' with
  | init => rfl
  | @step s1 s2 t hr hs ih =>
    have hcl : s1.w.file = none := (hg.run hr).2.trans hf
    rw [← ih]
    cases hs with
    | write line auto w' hi hw => unfold FileW.write at hw; rw [hcl] at hw; cases hw
    | writeFails line hi hf =>
      rw [linesWith_append (s := s1) (x := (t, line, .failed)) rfl]
      simp
    | release o line r hi => cases o <;> rfl
    | _ => rfl
  | cut hr _ _ ih => rw [← ih]; exact (hg.run hr).1.interrupted.2.2

/-- The thread has flushed the file and has not left the block. -/
def CuPc.flushed : CuPc → Bool
  | .ended .flush _ => true
  | .exit .flush _ false => true
  | _ => false

theorem CuRun.flushed {c : FConf} {s₀ s : CuState} (h₀ : CuStart c s₀) (h : CuRun c false s₀ s) :
    ∀ t, (s.pc t).flushed = true → s.w.buf = [] := by
  have hfl : ∀ x : CuPc, x.flushed = true → x.inLock = true := by
    intro x hx; cases x <;> first | rfl | cases hx
  induction h with
  | init => intro t ht; rw [h₀.idle] at ht; cases ht
  | @step s s' v hr hs ih =>
    have hlk := (hr.inv h₀).lock
    intro t ht
    have other : (s.pc t).flushed = true → t ≠ v → (s.pc v).inLock = false := by
      intro hb hne
      have h1 := hlk t (hfl _ hb)
      cases hb2 : (s.pc v).inLock with
      | false => rfl
      | true => have := hlk v hb2; rw [h1] at this; cases this; exact absurd rfl hne
    by_cases hne : t = v
    · subst hne
      cases hs with
      | spill line auto w' hi hw => dsimp only at ht; rw [hi] at ht; cases ht
      | flush line w' hi hw =>
        show w'.buf = []
        unfold FileW.flush at hw
        cases hf : s.w.file with
        | none => rw [hf] at hw; cases hw
        | some i => rw [hf] at hw; cases hw; rfl
      | leave o line hi =>
        cases o with
        | flush => exact ih t (by rw [hi]; rfl)
        | move => simp only [CuState.go, putAt_same] at ht; cases ht
        | write => simp only [CuState.go, putAt_same] at ht; cases ht
      | release o line r hi =>
        cases o with
        | write => simp only [CuState.after, CuState.go, putAt_same] at ht; split at ht <;> cases ht
        | move => simp only [CuState.after, CuState.go, putAt_same] at ht; cases ht
        | flush => simp only [CuState.after, CuState.go, putAt_same] at ht; cases ht
      | _ => simp only [CuState.go, putAt_same] at ht; cases ht
    · have hold : (s.pc t).flushed = true → s.w.buf = [] ∧ (s.pc v).inLock = false := fun hb => ⟨ih t hb, other hb hne⟩
      cases hs with
      | moved line target w' hi hfree hn hm =>
        simp only [CuState.go, putAt_ne _ _ hne] at ht
        have := (hold ht).2
        rcases hi with hi | hi <;> rw [hi] at this <;> cases this
      | close line hi => simp only [CuState.go, putAt_ne _ _ hne] at ht; have := (hold ht).2; rw [hi] at this; cases this
      | opened line hi => simp only [CuState.go, putAt_ne _ _ hne] at ht; have := (hold ht).2; rw [hi] at this; cases this
      | write line auto w' hi hw => simp only [CuState.go, putAt_ne _ _ hne] at ht; have := (hold ht).2; rw [hi] at this; cases this
      | spill line auto w' hi hw => have := (hold ht).2; rw [hi] at this; cases this
      | flush line w' hi hw => simp only [CuState.go, putAt_ne _ _ hne] at ht; have := (hold ht).2; rw [hi] at this; cases this
      | release o line r hi =>
        cases o <;> simp only [CuState.after, CuState.go, putAt_ne _ _ hne] at ht <;> exact (hold ht).1
      | _ => simp only [CuState.fate, CuState.go, putAt_ne _ _ hne] at ht; exact (hold ht).1
  | @cut s hr hm hid ih =>
    intro t ht
    have hw : s.interrupt.w = s.w := by
      unfold CuState.interrupt
      dsimp only
      cases hi : s.pc 0 with
      | enter o line => cases o <;> rfl
      | entered o line => cases o <;> rfl
      | body o line => cases o <;> rfl
      | exit o line r => cases o <;> rfl
      | _ => rfl
    rw [hw]
    by_cases e : t = 0
    · subst e
      exfalso
      revert ht
      unfold CuState.interrupt
      dsimp only
      cases hi : s.pc 0 with
      | idle => exact absurd hi hid
      | enter o line => cases o <;> simp [CuState.abandon, CuState.go, CuState.fate, putAt_same, CuPc.flushed]
      | entered o line => cases o <;> simp [CuState.abandon, CuState.go, CuState.fate, putAt_same, CuPc.flushed]
      | body o line => cases o <;> simp [CuState.abandon, CuState.go, CuState.fate, putAt_same, CuPc.flushed]
      | exit o line r => cases o <;> simp [CuState.abandon, CuState.go, CuState.fate, putAt_same, CuPc.flushed]
      | ended o line => cases o <;> simp [CuState.abandon, CuState.go, CuState.fate, putAt_same, CuPc.flushed]
      | _ => simp [CuState.go, CuState.fate, putAt_same, CuPc.flushed]
    · have hp : s.interrupt.pc t = s.pc t := by
        unfold CuState.interrupt
        dsimp only
        cases hi : s.pc 0 with
        | enter o line => cases o <;> exact putAt_ne _ _ e
        | entered o line => cases o <;> exact putAt_ne _ _ e
        | body o line => cases o <;> exact putAt_ne _ _ e
        | exit o line r => cases o <;> exact putAt_ne _ _ e
        | idle => rfl
        | _ => exact putAt_ne _ _ e
      rw [hp] at ht
      exact ih t ht

/-- **C107.** However many interrupts came before, in whatever threads' calls: when a call with `forced_flush=True` comes
to its end undisturbed, its line and all lines written before are on disk, not in a buffer. -/
theorem C107_undisturbed_call_ends_on_disk (c : FConf) (s₀ s : CuState) (h₀ : CuStart c s₀) (h : CuRun c false s₀ s)
    (t : Nat) (line : Str) (hi : s.pc t = .exit .flush line false) :
    (s.rotated.map (content s.w)).flatten ++ content s.w c.fn = content s₀.w c.fn ++ (linesWith .written s).flatten := by
  have hk := (h.inv h₀).wf.text
  rw [h.flushed h₀ t (by rw [hi]; rfl), List.append_nil] at hk
  exact hk

/-! ### Such interrupts can come -/

def cuStart : CuState :=
  ⟨⟨fun n => if n = ['f'] then some 0 else none, fun _ => [], 1, some 0, []⟩, fun _ => .idle, none, none, [], [], [], 0⟩

/-- Rotation as soon as there is something in the file. -/
def cuConf : FConf := ⟨['f'], fun n => decide (0 < n), true, 2, true, true⟩

theorem cuStart_ok : CuStart cuConf cuStart where
  opened := ⟨0, rfl, rfl⟩
  distinct p q i hp hq := by
    have : ∀ p, (if p = ['f'] then some 0 else none) = some i → p = ['f'] := by
      intro p hp
      split at hp
      · assumption
      · cases hp
    rw [this p hp, this q hq]
  below p i hp := by
    have hp : (if p = ['f'] then some 0 else none) = some i := hp
    split at hp
    · cases hp; decide
    · cases hp
  buf := rfl
  idle _ := rfl
  unlocked := ⟨rfl, rfl⟩
  history := ⟨rfl, rfl, rfl, rfl⟩

/-- The first line has been written by thread 0 and the next call checks the rules. -/
theorem cu_first (mild : Bool) : ∃ s, CuRun cuConf mild cuStart s ∧ s.pc = putAt cuStart.pc 0 .idle ∧ s.lock = none ∧ s.rotLock = none ∧
    s.w.files = cuStart.w.files ∧ s.w.file = some 0 ∧ s.w.data 0 = ['a'] ∧ s.w.buf = [] ∧
    s.done = [(0, ['a'], .written)] ∧ s.calls = [(0, ['a'])] ∧ s.rotated = [] ∧ s.cuts = 0 := by
  have r := CuRun.init (c := cuConf) (mild := mild) (s₀ := cuStart)
  have r := r.step 0 (.call _ ['a'] (by decide) rfl)
  have r := r.step 0 (.rotation _ ['a'] rfl)
  have r := r.step 0 (.lockRot _ ['a'] rfl rfl)
  have r := r.step 0 (.pass _ ['a'] rfl (fun n hn => by
    have hn : some 0 = some n := hn
    cases hn; rfl))
  have r := r.step 0 (.acquire _ .write ['a'] rfl rfl)
  have r := r.step 0 (.into _ .write ['a'] rfl)
  have r := r.step 0 (.write _ ['a'] 0 _ rfl rfl)
  have r := r.step 0 (.leave _ .write ['a'] rfl)
  have r := r.step 0 (.release _ .write ['a'] false rfl)
  have r := r.step 0 (.acquire _ .flush ['a'] rfl rfl)
  have r := r.step 0 (.into _ .flush ['a'] rfl)
  have r := r.step 0 (.flush _ ['a'] _ rfl rfl)
  have r := r.step 0 (.leave _ .flush ['a'] rfl)
  have r := r.step 0 (.release _ .flush ['a'] false rfl)
  refine ⟨_, r, ?_, rfl, rfl, rfl, rfl, rfl, rfl, rfl, rfl, rfl, rfl⟩
  funext u
  by_cases hu : u = 0
  · subst hu; rfl
  · simp [CuState.after, CuState.go, CuState.fate, putAt, hu, cuStart]

/-- Thread 0 is in its second call, in the block around the rotation. -/
theorem cu_second (mild : Bool) : ∃ s, CuRun cuConf mild cuStart s ∧ s.pc 0 = .entered .move ['b'] ∧
    s.w.files = cuStart.w.files ∧ s.w.file = some 0 ∧ s.done = [(0, ['a'], .written)] ∧
    s.calls = [(0, ['a']), (0, ['b'])] ∧ s.rotated = [] ∧ s.cuts = 0 ∧ (∀ u, u ≠ 0 → s.pc u = .idle) := by
  obtain ⟨s, r, hpc, hl, hrl, hfs, hf, hd, hb, hdone, hcalls, hrot, hcuts⟩ := cu_first mild
  have r := r.step 0 (.call _ ['b'] (by decide) (by rw [hpc]; rfl))
  have r := r.step 0 (.rotation _ ['b'] rfl)
  have r := r.step 0 (.lockRot _ ['b'] rfl hrl)
  have hsz : s.w.size cuConf.fn = some 1 := by
    unfold FileW.size
    rw [hfs]
    show some (byteSize (s.w.data 0)) = some 1
    rw [hd]; rfl
  have r := r.step 0 (.fire _ ['b'] 1 rfl hsz rfl)
  have r := r.step 0 (.acquire _ .move ['b'] rfl hl)
  refine ⟨_, r, rfl, hfs, hf, hdone, ?_, hrot, hcuts, fun u hu => ?_⟩
  · show s.calls ++ [(0, ['b'])] = _
    rw [hcalls]; rfl
  · simp only [CuState.go, putAt_ne _ _ hu, hpc]; rfl

/-- **C107 fails**: one Ctrl-C while the lock is being taken, and the handler never writes again: every later call, of
every thread, waits for ever. -/
theorem C107_interrupt_in_the_lock_fails : ∃ s, CuRun cuConf false cuStart s ∧ s.cuts = 1 ∧
    linesWith .written s = [['a']] ∧ ∀ s', CuRun cuConf false s s' → linesWith .written s' = [['a']] ∧ linesWith .failed s' = [] := by
  obtain ⟨s, r, hi, _, _, hd, _, _, hc, _⟩ := cu_second false
  have hdi : s.interrupt.done = s.done := by unfold CuState.interrupt; dsimp only; rw [hi]; rfl
  have hw : linesWith .written s.interrupt = [['a']] := by rw [linesWith_same _ hdi, linesWith, hd]; rfl
  have hf : linesWith .failed s.interrupt = [] := by rw [linesWith_same _ hdi, linesWith, hd]; rfl
  refine ⟨s.interrupt, r.cut (fun e => nomatch e) (by rw [hi]; exact fun e => nomatch e), ?_, hw, fun s' h' => ⟨?_, ?_⟩⟩
  · unfold CuState.interrupt; dsimp only; rw [hi]; show s.cuts + 1 = 1; rw [hc]
  · rw [C107_interrupt_in_the_lock_stops_the_handler cuConf cuStart s s' cuStart_ok r .move ['b'] (.inl hi) h' .written (fun e => nomatch e), hw]
  · rw [C107_interrupt_in_the_lock_stops_the_handler cuConf cuStart s s' cuStart_ok r .move ['b'] (.inl hi) h' .failed (fun e => nomatch e), hf]

/-- **C107 fails**: one Ctrl-C during a rotation, after the old file was closed, and no line is ever written again. -/
theorem C107_interrupt_in_a_rotation_fails : ∃ s, CuRun cuConf false cuStart s ∧ s.cuts = 1 ∧
    linesWith .written s = [['a']] ∧ ∀ s', CuRun cuConf false s s' → linesWith .written s' = [['a']] ∧ s'.w.files cuConf.fn = none := by
  obtain ⟨s, r, hi, hfs, _, hd, _, _, hc, _⟩ := cu_second false
  have r := r.step 0 (.into _ .move ['b'] hi)
  have r := r.step 0 (.moved _ ['b'] ['g'] { s.w with files := putAt (putAt s.w.files cuConf.fn none) ['g'] (some 0) }
    (.inl rfl) (by show s.w.files ['g'] = none; rw [hfs]; rfl) (by decide)
    (by show s.w.moveOnce _ _ _ = _; unfold FileW.moveOnce; rw [hfs]; rfl))
  have r := r.step 0 (.close _ ['b'] rfl)
  generalize hs2 : CuState.go _ 0 (.opening ['b']) = s2 at r
  have hi2 : s2.pc 0 = .opening ['b'] := by rw [← hs2]; exact rfl
  have hd2 : linesWith .written s2 = [['a']] := by
    have : s2.done = s.done := by rw [← hs2]; rfl
    rw [linesWith_same _ this, linesWith, hd]; rfl
  have hc2 : s2.cuts = 0 := by rw [← hs2]; exact hc
  refine ⟨s2.interrupt, r.cut (fun e => nomatch e) (by rw [hi2]; exact fun e => nomatch e), ?_, ?_, fun s' h' => ⟨?_, ?_⟩⟩
  · unfold CuState.interrupt; dsimp only; rw [hi2]; show s2.cuts + 1 = 1; rw [hc2]
  · rw [C107_interrupt_before_the_new_file_loses_all_later_lines cuConf cuStart s2 _ cuStart_ok r ['b'] hi2 .init, hd2]
  · rw [C107_interrupt_before_the_new_file_loses_all_later_lines cuConf cuStart s2 s' cuStart_ok r ['b'] hi2 h', hd2]
  · exact C107_interrupt_in_a_rotation_ends_the_log_file cuConf cuStart s2 s' cuStart_ok r ['b'] (.inr hi2) h'

-- a harmless interrupt: in the second call, after the lock was taken and before the file is moved
example : ∃ s, CuRun cuConf true cuStart s ∧ s.cuts = 1 ∧ s.pc 0 = .exit .move ['b'] true ∧ linesWith .written s = [['a']] := by
  obtain ⟨s, r, hi, hfs, _, hd, _, _, hc, _⟩ := cu_second true
  have r := r.step 0 (.into _ .move ['b'] hi)
  generalize hs2 : CuState.go _ 0 (.body .move ['b']) = s2 at r
  have hi2 : s2.pc 0 = .body .move ['b'] := by rw [← hs2]; exact rfl
  refine ⟨s2.interrupt, r.cut (fun _ => by rw [hi2]; rfl) (by rw [hi2]; exact fun e => nomatch e), ?_, ?_, ?_⟩
  · unfold CuState.interrupt; dsimp only; rw [hi2]; rw [← hs2]; show s.cuts + 1 = 1; rw [hc]
  · unfold CuState.interrupt; dsimp only; rw [hi2]; exact rfl
  · have : s2.interrupt.done = s.done := by unfold CuState.interrupt; dsimp only; rw [hi2]; rw [← hs2]; rfl
    rw [linesWith_same _ this, linesWith, hd]; rfl

-- an interrupt that costs its line
example : ∃ s, CuRun cuConf true cuStart s ∧ s.cuts = 1 ∧ linesWith .cut s = [['b']] ∧ linesWith .written s = [['a']] := by
  obtain ⟨s, r, hpc, _, _, _, _, _, _, hd, _, _, hc⟩ := cu_first true
  have r := r.step 0 (.call _ ['b'] (by decide) (by rw [hpc]; rfl))
  generalize hs2 : CuState.go _ 0 (.before ['b']) = s2 at r
  have hi2 : s2.pc 0 = .before ['b'] := by rw [← hs2]; exact rfl
  have hdn : s2.interrupt.done = [(0, ['a'], .written), (0, ['b'], .cut)] := by
    unfold CuState.interrupt; dsimp only; rw [hi2]; rw [← hs2]
    show s.done ++ _ = _
    rw [hd]; rfl
  refine ⟨s2.interrupt, r.cut (fun _ => by rw [hi2]; rfl) (by rw [hi2]; exact fun e => nomatch e), ?_, ?_, ?_⟩
  · unfold CuState.interrupt; dsimp only; rw [hi2]; rw [← hs2]; show s.cuts + 1 = 1; rw [hc]
  · rw [linesWith, hdn]; rfl
  · rw [linesWith, hdn]; rfl

end Polog
