import Verif.File.OutsideLemmas

/-! C96: log files that others rename, replace or remove. -/

namespace Polog
open FileSpec OutsideSpec

/-! ### Where the lines are -/

/-- **C96** (first part): whatever others do with names of files, every line is in the file (wherever that file is
now) that the handler had open when the line was written: each file holds what was in it before and then exactly the
lines that were given to it, in order, each once; and every written line was given to exactly one file. The handler
may still keep the end of it for the file it has open. -/
theorem C96_lines_are_in_the_file_they_were_given_to (c : FConf) (hfs : c.sameFs = true) (harmless : Bool)
    (s₀ s : FState) (into : List (Nat × Str)) (hstart : FStart c s₀) (hrun : ORun c harmless s₀ s into) :
    into.map Prod.snd = s.written ∧
    ∀ i, i < s.w.fresh → s.w.data i ++ pendingFor s.w i = before s₀ i ++ linesOf i into := by
  refine ⟨?_, (hrun.inv hfs hstart).holds⟩
  induction hrun with
  | init => rw [hstart.history.1]; rfl
  | handler _ _ hw ih => rw [ih, hw]
  | line _ _ _ hw ih => rw [List.map_append, ih, hw]; rfl
  | outside _ _ ih => exact ih

/-- A step of the handler keeps: with `forced_flush` something is kept only while a thread is between `write` and `flush`. -/
theorem flushing_step {c : FConf} (hfs : c.sameFs = true) (hforced : c.forced = true) {s s' : FState}
    (hcl : s.w.file = none → s.w.buf = []) (h : s.w.buf = [] ∨ ∃ t line, s.pc t = .flushing line) (hs : FStep c s s') :
    s'.w.buf = [] ∨ ∃ t line, s'.pc t = .flushing line := by
  have other : ∀ {s : FState} {t : Nat} {p : FPc}, (s.w.buf = [] ∨ ∃ t line, s.pc t = .flushing line) →
      (∀ line, s.pc t ≠ .flushing line) → s.w.buf = [] ∨ ∃ t' line, putAt s.pc t p t' = .flushing line := by
    rintro s t p (h | ⟨t', line, h⟩) hne
    · exact .inl h
    · refine .inr ⟨t', line, ?_⟩
      rw [putAt_ne _ _ ?_]
      · exact h
      · rintro rfl; exact hne _ h
  cases hs with
  | call t line ht hp => exact other h (by simp [hp])
  | lock t line hp hl => exact other h (by simp [hp])
  | fire t line n hp hn hf => exact other h (by simp [hp])
  | pass t line hp hn => exact other h (by simp [hp])
  | move t line target e hp hfree hne hc hr =>
    have hm := moved_of_sameFs s.w c.fn target e (hc hfs).1 (hc hfs).2
    generalize s.w.moveFile c.fn target e = r at hm
    cases hm with
    | not => exact other h (by simp [hp])
    | done i ok hi =>
      left
      simp only [FileW.reopen, FileW.close, FileW.open]
      cases hf : s.w.file with
      | none => cases ok <;> simp [hcl hf] <;> grind
      | some k => cases ok <;> simp <;> grind
  | write t line auto w' hp hw' => exact .inr ⟨t, line, putAt_same ..⟩
  | writeFails t line hp hf => exact other h (by simp [hp])
  | flush t line w' hp hfo hw' =>
    left
    unfold FileW.flush at hw'
    cases hf : s.w.file with
    | none => rw [hf] at hw'; cases hw'
    | some k => rw [hf] at hw'; cases hw'; rfl
  | flushFails t line hp hfo hf => exact .inl (hcl hf)
  | noFlush t line hp hfo => rw [hforced] at hfo; cases hfo

/-- With `forced_flush` something is kept only while a thread is between `write` and `flush`. -/
theorem ORun.kept_flushing {c : FConf} {harmless : Bool} {s₀ s : FState} {into : List (Nat × Str)}
    (hfs : c.sameFs = true) (hforced : c.forced = true) (hstart : FStart c s₀) (hrun : ORun c harmless s₀ s into) :
    s.w.buf = [] ∨ ∃ t line, s.pc t = .flushing line := by
  induction hrun with
  | init => exact .inl hstart.buf
  | handler hr hs _ ih => exact flushing_step hfs hforced (hr.inv hfs hstart).closed ih hs
  | line hr hs _ _ ih => exact flushing_step hfs hforced (hr.inv hfs hstart).closed ih hs
  | @outside s w into hr hs ih =>
    have : w.buf = s.w.buf := by generalize s.w = v at hs; cases hs <;> rfl
    simp only [this]
    exact ih

/-- **C96** (second part): with the default `forced_flush`, when no call is in progress, the files themselves hold all
the lines. -/
theorem C96_all_lines_are_in_files_at_rest (c : FConf) (hfs : c.sameFs = true) (hforced : c.forced = true)
    (harmless : Bool) (s₀ s : FState) (into : List (Nat × Str)) (hstart : FStart c s₀)
    (hrun : ORun c harmless s₀ s into) (hrest : ∀ t, s.pc t = .idle) (i : Nat) (hi : i < s.w.fresh) :
    s.w.data i = before s₀ i ++ linesOf i into := by
  have h := (C96_lines_are_in_the_file_they_were_given_to c hfs harmless s₀ s into hstart hrun).2 i hi
  have hb : s.w.buf = [] := by
    rcases hrun.kept_flushing hfs hforced hstart with h | ⟨t, line, h⟩
    · exact h
    · rw [hrest] at h; cases h
  rw [← h]
  simp [pendingFor, hb]

theorem moveFile_not (w : FileW) (fn target : Str) (e : MoveEnv) (h : (w.moveFile fn target e).2 = false) :
    (w.moveFile fn target e).1.file = w.file := by
  have h1 := (moveOnce_buf w fn target e.first).2
  unfold FileW.moveFile at h ⊢
  split at h
  · cases h
  · rename_i w1 hm
    rw [hm] at h1
    simpa using h1
  · rename_i w1 hm
    rw [hm] at h1
    have h2 := (moveOnce_buf w1 fn target e.second).2
    cases hk : e.mkdir with
    | false => simpa [hk] using h1
    | true =>
      simp only [hk, if_true] at h ⊢
      split at h
      · cases h
      · rename_i w2 o ho hm2
        rw [hm2] at h2
        simp only at h1 h2 ⊢
        rw [h2, h1]

/-- **C96** (third part): a log file keeps receiving the lines under its new name. As long as the handler itself has
rotated nothing, all lines go to the file it opened at first, whatever has become of its name. -/
theorem C96_renamed_file_keeps_receiving_lines (c : FConf) (harmless : Bool) (s₀ s : FState)
    (into : List (Nat × Str)) (hstart : FStart c s₀) (hrun : ORun c harmless s₀ s into) (hrot : s.rotated = []) :
    s.w.file = s₀.w.file ∧ ∀ x ∈ into, s₀.w.file = some x.1 := by
  have keep : ∀ {s s' : FState}, FStep c s s' → s'.rotated = [] → s.rotated = [] ∧ s'.w.file = s.w.file := by
    intro s s' hs hr
    cases hs with
    | move t line target e hp hfree hne hc hrl =>
      simp only at hr ⊢
      split at hr
      · simp at hr
      · rename_i hm
        exact ⟨hr, moveFile_not _ _ _ _ (by simpa using hm)⟩
    | write t line auto w' hp hw' =>
      refine ⟨hr, ?_⟩
      unfold FileW.write at hw'
      cases hf : s.w.file with
      | none => rw [hf] at hw'; cases hw'
      | some k => rw [hf] at hw'; cases hw'; rfl
    | flush t line w' hp hfo hw' =>
      refine ⟨hr, ?_⟩
      unfold FileW.flush at hw'
      cases hf : s.w.file with
      | none => rw [hf] at hw'; cases hw'
      | some k => rw [hf] at hw'; cases hw'; rfl
    | call t line ht hp => exact ⟨hr, rfl⟩
    | lock t line hp hl => exact ⟨hr, rfl⟩
    | fire t line n hp hn hf => exact ⟨hr, rfl⟩
    | pass t line hp hn => exact ⟨hr, rfl⟩
    | writeFails t line hp hf => exact ⟨hr, rfl⟩
    | flushFails t line hp hfo hf => exact ⟨hr, rfl⟩
    | noFlush t line hp hfo => exact ⟨hr, rfl⟩
  induction hrun with
  | init => exact ⟨rfl, by simp⟩
  | handler _ hs _ ih =>
    obtain ⟨h1, h2⟩ := keep hs hrot
    exact ⟨h2.trans (ih h1).1, (ih h1).2⟩
  | @line s s' into i l _ hs hf _ ih =>
    obtain ⟨h1, h2⟩ := keep hs hrot
    refine ⟨h2.trans (ih h1).1, ?_⟩
    intro x hx
    rcases List.mem_append.1 hx with hx | hx
    · exact (ih h1).2 x hx
    · simp only [List.mem_singleton] at hx
      subst hx
      rw [← (ih h1).1, hf]
  | @outside s w into _ hs ih =>
    have : w.file = s.w.file := by generalize s.w = v at hs; cases hs <;> rfl
    exact ⟨this.trans (ih hrot).1, (ih hrot).2⟩

/-! ### Files with names -/

/-- Others neither remove nor replace files: what has a name keeps one. -/
theorem ORun.names {c : FConf} {s₀ s : FState} {into : List (Nat × Str)} (hfs : c.sameFs = true)
    (hstart : FStart c s₀) (hrun : ORun c true s₀ s into) :
    (∀ i, s.w.file = some i → ∃ p, s.w.files p = some i) ∧ ∀ x ∈ into, ∃ p, s.w.files p = some x.1 := by
  -- one step of the handler
  have one : ∀ {s s' : FState}, (∀ p i, s.w.files p = some i → i < s.w.fresh) →
      (∀ i, s.w.file = some i → i < s.w.fresh) →
      (∀ i, s.w.file = some i → ∃ p, s.w.files p = some i) → FStep c s s' →
      (∀ i, s'.w.file = some i → ∃ p, s'.w.files p = some i) ∧
      ∀ p i, s.w.files p = some i → ∃ q, s'.w.files q = some i := by
    intro s s' hb hf h hs
    cases hs with
    | move t line target e hp hfree hne hc hrl =>
      have hm := moved_of_sameFs s.w c.fn target e (hc hfs).1 (hc hfs).2
      generalize s.w.moveFile c.fn target e = r at hm
      cases hm with
      | not => exact ⟨h, fun p i hi => ⟨p, hi⟩⟩
      | done i ok hi =>
        have hn : ∀ p j, putAt (putAt s.w.files c.fn none) target (some i) p = some j → j < s.w.fresh := by
          intro p j hj
          simp only [putAt] at hj
          grind
        have hr := reopen_holds
          ({ s.w with files := putAt (putAt s.w.files c.fn none) target (some i) } : FileW) c.fn ok hf hn
        generalize ({ s.w with files := putAt (putAt s.w.files c.fn none) target (some i) } : FileW).reopen
          c.fn ok = w' at hr
        obtain ⟨-, -, -, -, -, -, -, r8, -, r10⟩ := hr
        refine ⟨fun j hj => ⟨_, r10 j hj⟩, ?_⟩
        intro p j hj
        by_cases hpf : p = c.fn
        · subst hpf
          rw [hi] at hj
          cases hj
          exact ⟨target, by rw [r8 _ hne]; exact putAt_same ..⟩
        · refine ⟨p, ?_⟩
          simp only
          rw [r8 _ hpf]
          simp only
          rw [putAt_ne _ _ ?_, putAt_ne _ _ hpf]
          · exact hj
          · rintro rfl; rw [hfree] at hj; cases hj
    | write t line auto w' hp hw' =>
      unfold FileW.write at hw'
      cases hf' : s.w.file with
      | none => rw [hf'] at hw'; cases hw'
      | some k => rw [hf'] at hw'; cases hw'; exact ⟨by rw [← hf']; exact h, fun p i hi => ⟨p, hi⟩⟩
    | flush t line w' hp hfo hw' =>
      unfold FileW.flush at hw'
      cases hf' : s.w.file with
      | none => rw [hf'] at hw'; cases hw'
      | some k => rw [hf'] at hw'; cases hw'; exact ⟨by rw [← hf']; exact h, fun p i hi => ⟨p, hi⟩⟩
    | call t line ht hp => exact ⟨h, fun p i hi => ⟨p, hi⟩⟩
    | lock t line hp hl => exact ⟨h, fun p i hi => ⟨p, hi⟩⟩
    | fire t line n hp hn hf => exact ⟨h, fun p i hi => ⟨p, hi⟩⟩
    | pass t line hp hn => exact ⟨h, fun p i hi => ⟨p, hi⟩⟩
    | writeFails t line hp hf => exact ⟨h, fun p i hi => ⟨p, hi⟩⟩
    | flushFails t line hp hfo hf => exact ⟨h, fun p i hi => ⟨p, hi⟩⟩
    | noFlush t line hp hfo => exact ⟨h, fun p i hi => ⟨p, hi⟩⟩
  induction hrun with
  | init =>
    obtain ⟨i, h1, h2⟩ := hstart.opened
    refine ⟨fun j hj => ⟨c.fn, ?_⟩, by simp⟩
    rw [h1, ← h2, hj]
  | handler hr hs _ ih =>
    have hinv := hr.inv hfs hstart
    obtain ⟨h1, h2⟩ := one hinv.named hinv.openBelow ih.1 hs
    exact ⟨h1, fun x hx => (ih.2 x hx).elim fun p hp => h2 p _ hp⟩
  | @line s s' into i l hr hs hf _ ih =>
    have hinv := hr.inv hfs hstart
    obtain ⟨h1, h2⟩ := one hinv.named hinv.openBelow ih.1 hs
    refine ⟨h1, fun x hx => ?_⟩
    rcases List.mem_append.1 hx with hx | hx
    · exact (ih.2 x hx).elim fun p hp => h2 p _ hp
    · simp only [List.mem_singleton] at hx
      subst hx
      exact (ih.1 i hf).elim fun p hp => h2 p _ hp
  | @outside s w into hr hs ih =>
    have hinv := hr.inv hfs hstart
    suffices (w.file = s.w.file) ∧ ∀ p i, s.w.files p = some i → ∃ q, w.files q = some i by
      refine ⟨?_, fun x hx => (ih.2 x hx).elim fun p hp => this.2 p _ hp⟩
      intro i hi
      exact (ih.1 i (this.1 ▸ hi)).elim fun p hp => this.2 p _ hp
    have hnamed := hinv.named
    generalize s.w = v at hs hnamed
    cases hs with
    | rename p q i hp hne hq =>
      refine ⟨rfl, fun p' j hj => ?_⟩
      have := hq rfl
      by_cases h1 : p' = p
      · subst h1
        rw [hp] at hj
        cases hj
        exact ⟨q, putAt_same ..⟩
      · refine ⟨p', ?_⟩
        simp only
        rw [putAt_ne _ _ ?_, putAt_ne _ _ h1]
        · exact hj
        · rintro rfl; rw [this] at hj; cases hj
    | remove p hh => cases hh
    | create p hp =>
      refine ⟨rfl, fun p' j hj => ⟨p', ?_⟩⟩
      simp only
      rw [putAt_ne _ _ ?_]
      · exact hj
      · rintro rfl; rw [hp] at hj; cases hj

/-- **C96** (fourth part): as long as others only rename files and create new ones, every written line is in a file
that can still be found by a name. -/
theorem C96_lines_stay_in_named_files_partial (c : FConf) (hfs : c.sameFs = true) (s₀ s : FState)
    (into : List (Nat × Str)) (hstart : FStart c s₀) (hrun : ORun c true s₀ s into) :
    ∀ x ∈ into, ∃ name, s.w.files name = some x.1 := (hrun.names hfs hstart).2

/-! ### The name is gone -/

/-- **C96** (fifth part): when the name of the log file is gone (removed or given away), the handler does not notice:
from then on, however many lines are written by however many threads, it rotates nothing, opens nothing, reports
nothing to the fallback, and leaves all names as they are. -/
theorem C96_missing_name_is_not_noticed (c : FConf) (s s' : FState) (hopen : s.w.file ≠ none)
    (hname : s.w.files c.fn = none) (hrun : FRun c s s') :
    s'.rotated = s.rotated ∧ s'.w.file = s.w.file ∧ s'.alt = s.alt ∧ s'.w.files = s.w.files := by
  induction hrun with
  | init => exact ⟨rfl, rfl, rfl, rfl⟩
  | @step s1 s2 _ hs ih =>
    obtain ⟨i1, i2, i3, i4⟩ := ih
    cases hs with
    | call t line ht hp => exact ⟨i1, i2, i3, i4⟩
    | lock t line hp hl => exact ⟨i1, i2, i3, i4⟩
    | fire t line n hp hn hf => exact ⟨i1, i2, i3, i4⟩
    | pass t line hp hn => exact ⟨i1, i2, i3, i4⟩
    | move t line target e hp hfree hne hc hr =>
      have hno : s1.w.files c.fn = none := by rw [i4]; exact hname
      have : s1.w.moveFile c.fn target e = (s1.w, false) := by
        simp only [FileW.moveFile, FileW.moveOnce, hno]
        cases e.mkdir <;> rfl
      rw [this]
      exact ⟨i1, i2, i3, i4⟩
    | write t line auto w' hp hw' =>
      unfold FileW.write at hw'
      cases hf : s1.w.file with
      | none => rw [hf] at hw'; cases hw'
      | some k => rw [hf] at hw'; cases hw'; exact ⟨i1, hf ▸ i2, i3, i4⟩
    | writeFails t line hp hf => exact absurd (i2 ▸ hf) hopen
    | flush t line w' hp hfo hw' =>
      unfold FileW.flush at hw'
      cases hf : s1.w.file with
      | none => rw [hf] at hw'; cases hw'
      | some k => rw [hf] at hw'; cases hw'; exact ⟨i1, hf ▸ i2, i3, i4⟩
    | flushFails t line hp hfo hf => exact absurd (i2 ▸ hf) hopen
    | noFlush t line hp hfo => exact ⟨i1, i2, i3, i4⟩

/-- Only the open file changes. -/
theorem others_unchanged {c : FConf} {s s' : FState} (hopen : s.w.file ≠ none) (hname : s.w.files c.fn = none)
    (hrun : FRun c s s') (i : Nat) (hi : s.w.file ≠ some i) : s'.w.data i = s.w.data i := by
  induction hrun with
  | init => rfl
  | @step s1 s2 hr hs ih =>
    obtain ⟨i1, i2, i3, i4⟩ := C96_missing_name_is_not_noticed c s s1 hopen hname hr
    cases hs with
    | move t line target e hp hfree hne hc hr =>
      have hno : s1.w.files c.fn = none := by rw [i4]; exact hname
      have : s1.w.moveFile c.fn target e = (s1.w, false) := by
        simp only [FileW.moveFile, FileW.moveOnce, hno]
        cases e.mkdir <;> rfl
      rw [this]
      exact ih
    | write t line auto w' hp hw' =>
      unfold FileW.write at hw'
      cases hf : s1.w.file with
      | none => rw [hf] at hw'; cases hw'
      | some k =>
        rw [hf] at hw'; cases hw'
        simp only
        rw [putAt_ne _ _ ?_]
        · exact ih
        · rintro rfl; exact hi (i2 ▸ hf)
    | flush t line w' hp hfo hw' =>
      unfold FileW.flush at hw'
      cases hf : s1.w.file with
      | none => rw [hf] at hw'; cases hw'
      | some k =>
        rw [hf] at hw'; cases hw'
        simp only
        rw [putAt_ne _ _ ?_]
        · exact ih
        · rintro rfl; exact hi (i2 ▸ hf)
    | call t line ht hp => exact ih
    | lock t line hp hl => exact ih
    | fire t line n hp hn hf => exact ih
    | pass t line hp hn => exact ih
    | writeFails t line hp hf => exact ih
    | flushFails t line hp hfo hf => exact ih
    | noFlush t line hp hfo => exact ih

/-- **C96** (sixth part): if the log file is removed, no later line reaches any file that has a name, and nobody is
told: neither is the fallback called nor is a new log file made. (`hsync`: the handler has the file with its name
open, as it has at the beginning and after every rotation; `hone`: no other name stands for it.) -/
theorem C96_lines_after_removal_are_lost (c : FConf) (s s' : FState) (i : Nat) (hsync : s.w.files c.fn = some i)
    (hopen : s.w.file = some i) (hone : ∀ p, s.w.files p = some i → p = c.fn)
    (hrun : FRun c { s with w := { s.w with files := putAt s.w.files c.fn none } } s') :
    (∀ p, p ≠ c.fn → content s'.w p = content s.w p) ∧ s'.w.files c.fn = none ∧ s'.alt = s.alt ∧
    s'.rotated = s.rotated := by
  have hn : putAt s.w.files c.fn none c.fn = none := putAt_same ..
  have ho : ({ s with w := { s.w with files := putAt s.w.files c.fn none } } : FState).w.file ≠ none := by
    simp [hopen]
  obtain ⟨h1, h2, h3, h4⟩ := C96_missing_name_is_not_noticed c _ s' ho hn hrun
  refine ⟨?_, by rw [h4]; exact hn, h3, h1⟩
  intro p hp
  refine content_congr (by rw [h4]; exact putAt_ne _ _ hp) ?_
  intro j hj
  refine others_unchanged ho hn hrun j ?_
  simp only [hopen, ne_eq, Option.some.injEq]
  rintro rfl
  exact hp (hone p hj)

/-! ### Another file has the name -/

/-- **C96** (seventh part): if another, empty file has been put in the place of the log (as `logrotate` does with
`create`), the rules are asked about that file: nothing is rotated however long the real log becomes, the new file
stays empty, and all lines go to the old file. -/
theorem C96_replaced_log_is_never_rotated (c : FConf) (hempty : c.fires 0 = false) (s s' : FState) (i j : Nat)
    (hopen : s.w.file = some i) (hname : s.w.files c.fn = some j) (hij : i ≠ j) (hdata : s.w.data j = [])
    (hpc : ∀ t line, s.pc t ≠ .moving line) (hrun : FRun c s s') :
    s'.rotated = s.rotated ∧ s'.w.file = some i ∧ s'.w.files = s.w.files ∧ s'.w.data j = [] ∧ s'.alt = s.alt := by
  suffices (s'.rotated = s.rotated ∧ s'.w.file = some i ∧ s'.w.files = s.w.files ∧ s'.w.data j = [] ∧
      s'.alt = s.alt) ∧ ∀ t line, s'.pc t ≠ .moving line from this.1
  have other : ∀ {pc : Nat → FPc} {t : Nat} {p : FPc}, (∀ t line, pc t ≠ .moving line) →
      (∀ line, p ≠ .moving line) → ∀ t' line, putAt pc t p t' ≠ .moving line := by
    intro pc t p h1 h2 t' line
    unfold putAt
    split
    · exact h2 line
    · exact h1 t' line
  induction hrun with
  | init => exact ⟨⟨rfl, hopen, rfl, hdata, rfl⟩, hpc⟩
  | @step s1 s2 _ hs ih =>
    obtain ⟨⟨i1, i2, i3, i4, i5⟩, i6⟩ := ih
    cases hs with
    | call t line ht hp => exact ⟨⟨i1, i2, i3, i4, i5⟩, other i6 (by simp)⟩
    | lock t line hp hl => exact ⟨⟨i1, i2, i3, i4, i5⟩, other i6 (by simp)⟩
    | fire t line n hp hn hf =>
      rw [FileW.size, i3, hname] at hn
      simp only [Option.map_some, Option.some.injEq, i4] at hn
      subst hn
      rw [show byteSize [] = 0 from rfl, hempty] at hf
      cases hf
    | pass t line hp hn => exact ⟨⟨i1, i2, i3, i4, i5⟩, other i6 (by simp)⟩
    | move t line target e hp hfree hne hc hr => exact absurd hp (i6 t line)
    | write t line auto w' hp hw' =>
      unfold FileW.write at hw'
      rw [i2] at hw'
      cases hw'
      exact ⟨⟨i1, rfl, i3, by simp only; rw [putAt_ne _ _ hij.symm]; exact i4, i5⟩, other i6 (by simp)⟩
    | writeFails t line hp hf => rw [i2] at hf; cases hf
    | flush t line w' hp hfo hw' =>
      unfold FileW.flush at hw'
      rw [i2] at hw'
      cases hw'
      exact ⟨⟨i1, rfl, i3, by simp only; rw [putAt_ne _ _ hij.symm]; exact i4, i5⟩, other i6 (by simp)⟩
    | flushFails t line hp hfo hf => rw [i2] at hf; cases hf
    | noFlush t line hp hfo => exact ⟨⟨i1, i2, i3, i4, i5⟩, other i6 (by simp)⟩

/-- **C96** (eighth part): a rotation puts everything right: after it the handler has the file with its name open
(unless the system refused to open one), whatever it had open before. -/
theorem C96_rotation_repairs (c : FConf) (s s' : FState) (hs : FStep c s s') (hrot : s'.rotated ≠ s.rotated)
    (hopen : s'.w.file ≠ none) : s'.w.file = s'.w.files c.fn := by
  have hre : ∀ (w : FileW) (ok : Bool), (w.reopen c.fn ok).file ≠ none →
      (w.reopen c.fn ok).file = (w.reopen c.fn ok).files c.fn := by
    intro w ok h
    obtain ⟨files, data, fresh, file, buf⟩ := w
    revert h
    cases file <;> simp only [FileW.reopen, FileW.close, FileW.open] <;> cases ok <;>
      simp only [Bool.false_eq_true, if_false, if_true, ne_eq, not_true_eq_false, false_imp_iff]
    all_goals
      intro _
      cases h : files c.fn with
      | none => exact (putAt_same ..).symm
      | some j => exact h.symm
  cases hs with
  | move t line target e hp hfree hne hc hr =>
    simp only at hrot hopen ⊢
    split at hrot
    · rename_i hm
      unfold FileW.moveFile at hm hopen ⊢
      split at hm
      · rename_i h; simp only [h] at hopen; exact hre _ _ hopen
      · cases hm
      · rename_i w1 h
        simp only [h] at hopen
        cases hk : e.mkdir with
        | false => simp [hk] at hm
        | true =>
          simp only [hk, if_true] at hm hopen ⊢
          split at hm
          · rename_i h'; simp only [h'] at hopen; exact hre _ _ hopen
          · cases hm
    · exact absurd rfl hrot
  | call t line ht hp => exact absurd rfl hrot
  | lock t line hp hl => exact absurd rfl hrot
  | fire t line n hp hn hf => exact absurd rfl hrot
  | pass t line hp hn => exact absurd rfl hrot
  | write t line auto w' hp hw' => exact absurd rfl hrot
  | writeFails t line hp hf => exact absurd rfl hrot
  | flush t line w' hp hfo hw' => exact absurd rfl hrot
  | flushFails t line hp hfo hf => exact absurd rfl hrot
  | noFlush t line hp hfo => exact absurd rfl hrot

/-! ### Examples -/

/-- The log is renamed to `x`, removed, or renamed and created again; then a line `ab` is written. -/
theorem exOutside (harmless : Bool) (w : FileW) (hw : ORun (exFConf true 1 true true) harmless exFile
      { exFile with w := w } []) (hf : w.file = some 0) (hb : w.buf = [])
    (hsize : ∀ n, w.size "log".toList = some n → n = 0) :
    ∃ s, ORun (exFConf true 1 true true) harmless exFile s [(0, "ab".toList)] ∧ s.w.files = w.files ∧
      s.rotated = [] ∧ s.pc = (fun _ => .idle) ∧ s.w.data 0 = w.data 0 ++ "ab".toList := by
  have h1 := hw.handler (.call _ 0 "ab".toList (by decide) rfl) rfl
  have h2 := h1.handler (.lock _ 0 "ab".toList rfl rfl) rfl
  have h3 := h2.handler (.pass _ 0 "ab".toList rfl (fun n hn => by
    have := hsize n hn; subst this; rfl)) rfl
  have h4 := h3.line (i := 0) (.write _ 0 "ab".toList 0
    { w with data := putAt w.data 0 (w.data 0 ++ []), buf := "ab".toList } rfl (by simp [FileW.write, hf, hb])) hf rfl
  have h5 := h4.handler (.flush _ 0 "ab".toList
    { w with data := putAt w.data 0 (w.data 0 ++ "ab".toList), buf := [] } rfl rfl (by
      simp only [FileW.flush, hf, putAt_same, List.append_nil, Option.some.injEq, FileW.mk.injEq, true_and, and_true]
      funext x; unfold putAt; split <;> rfl)) rfl
  refine ⟨_, h5, rfl, rfl, ?_, by dsimp only; rw [putAt_same]⟩
  funext t
  unfold putAt
  by_cases h : t = 0 <;> simp [h, exFile]

-- the log is renamed, then a line is written: it is in the renamed file
example : ∃ s, FStart (exFConf true 1 true true) exFile ∧
    ORun (exFConf true 1 true true) true exFile s [(0, "ab".toList)] ∧ s.rotated = [] ∧ (∀ t, s.pc t = .idle) ∧
    s.w.files "x".toList = some 0 ∧ s.w.files "log".toList = none ∧ s.w.data 0 = "ab".toList := by
  obtain ⟨s, h1, h2, h3, h4, h5⟩ := exOutside true _
    (.outside .init (.rename exFile.w "log".toList "x".toList 0 rfl (by decide) (fun _ => by decide +kernel))) rfl rfl
    (fun n hn => by revert hn; unfold FileW.size; simp only; rw [putAt_ne _ _ (by decide), putAt_same]; simp)
  refine ⟨s, exFile_start .., h1, h3, fun t => by rw [h4], ?_, ?_, h5⟩
  · rw [h2]; decide +kernel
  · rw [h2]; decide +kernel

-- at the beginning the hypotheses of the sixth part are met, and so is one thread's line after the removal
example : exFile.w.files (exFConf true 1 true true).fn = some 0 ∧ exFile.w.file = some 0 ∧
    (∀ p, exFile.w.files p = some 0 → p = (exFConf true 1 true true).fn) ∧
    ∃ s', FRun (exFConf true 1 true true) { exFile with w := { exFile.w with
        files := putAt exFile.w.files (exFConf true 1 true true).fn none } } s' ∧ s'.written = ["ab".toList] := by
  refine ⟨rfl, rfl, fun p hp => (exFile_start true 1 true true).distinct p _ 0 hp rfl, _,
    .step (.step (.step (.step .init (.call _ 0 "ab".toList (by decide) rfl)) (.lock _ 0 "ab".toList rfl rfl))
      (.pass _ 0 "ab".toList rfl (fun n hn => ?_))) (.write _ 0 "ab".toList 0 _ rfl rfl), rfl⟩
  revert hn
  unfold FileW.size
  simp only
  rw [putAt_same]
  simp

-- the log is renamed and created again: the hypotheses of the seventh part are met
example : ∃ s, ORun (exFConf true 1 true true) true exFile s [] ∧ s.w.file = some 0 ∧
    s.w.files (exFConf true 1 true true).fn = some 1 ∧ s.w.data 1 = [] ∧ (exFConf true 1 true true).fires 0 = false ∧
    ∀ t line, s.pc t ≠ .moving line := by
  refine ⟨_, .outside (.outside .init (.rename exFile.w "log".toList "x".toList 0 rfl (by decide)
    (fun _ => by decide +kernel))) (.create _ "log".toList (by decide +kernel)), rfl, by decide +kernel, by decide +kernel, rfl, ?_⟩
  · intro t line h; cases h

-- a file with one byte is put in the place of the log, then the handler rotates it and is back at its name
example : ∃ s s', FStep (exFConf true 1 true true) s s' ∧ s'.rotated ≠ s.rotated ∧ s'.w.file ≠ none ∧
    s.w.file ≠ s.w.files "log".toList := by
  refine ⟨⟨⟨fun p => if p = "log".toList then some 1 else none, fun _ => ['a'], 2, some 0, []⟩,
    fun _ => .moving "ab".toList, some 0, [], [], []⟩, _,
    .move _ 0 "ab".toList "old".toList ⟨.renamed, .renamed, true, true⟩ rfl (by decide +kernel)
      (by dsimp only [exFConf]; decide) (fun _ => ⟨rfl, rfl⟩) (fun _ => ⟨.inl rfl, rfl⟩), ?_, ?_, ?_⟩
  · decide +kernel
  · decide +kernel
  · decide +kernel

/-- **C96** is false in full: when others may remove files, a line can be written, without any report, to a file that
has no name. (The log is removed before the first line.) -/
theorem C96_lines_stay_in_named_files_fails :
    ¬ ∀ (c : FConf) (s₀ s : FState) (into : List (Nat × Str)), c.sameFs = true → c.reliable = true →
      c.forced = true → FStart c s₀ → ORun c false s₀ s into → ∀ x ∈ into, ∃ name, s.w.files name = some x.1 := by
  intro h
  obtain ⟨s, h1, h2, h3, h4, h5⟩ := exOutside false _
    (.outside .init (.remove exFile.w "log".toList rfl)) rfl rfl
    (fun n hn => by revert hn; unfold FileW.size; simp only; rw [putAt_same]; simp)
  obtain ⟨p, hp⟩ := h _ _ s _ rfl rfl rfl (exFile_start ..) h1 (0, "ab".toList) (by simp)
  rw [h2] at hp
  simp only [putAt] at hp
  split at hp
  · cases hp
  · rename_i hne
    simp only [exFile] at hp
    rw [if_neg hne] at hp
    cases hp

end Polog
