import Verif.File.CrashThreads

/-! A run of two threads with a rotation between the two parts of a call: it meets the hypotheses of the theorems of
`File/Count.lean`, `File/ByThread.lean` and `File/CrashThreads.lean`. -/

namespace Polog
open FileSpec

theorem FTraceT.go {c : FConf} {s₀ s s' : FState} {calls writes : List (Nat × Str)} (r : FTraceT c s₀ calls writes s)
    (hs : FStep c s s') (u : Nat) (p : FPc) (hpc : s'.pc = putAt s.pc u p) (h0 : s.pc u ≠ .idle) (hw : s'.written = s.written) :
    FTraceT c s₀ calls writes s' := by
  refine r.other hs (fun t ht => ?_) hw
  rw [hpc, putAt_ne _ _ (fun h : t = u => h0 (h ▸ ht)), ht]

/-- Thread 0 writes `ab` and has still to flush it; thread 1 rotates the file and writes `cd` into the new one. -/
theorem exFile_two : ∃ s : FState, FTraceT (exFConf true 2 true true) exFile [(0, "ab".toList), (1, "cd".toList)]
      [(0, "ab".toList), (1, "cd".toList)] s ∧
    s.pc 0 = .flushing "ab".toList ∧ s.pc 1 = .flushing "cd".toList ∧ (∀ t, t ≠ 0 → t ≠ 1 → s.pc t = .idle) ∧
    s.written = ["ab".toList, "cd".toList] ∧ s.alt = [] ∧ s.rotated = ["old".toList] ∧ s.w.file ≠ none := by
  have r : FTraceT (exFConf true 2 true true) exFile [] [] exFile := .init
  have r := r.call (t := 0) (line := "ab".toList) (.call _ 0 "ab".toList (by decide) rfl) rfl rfl
  have r := r.go (.lock _ 0 "ab".toList rfl rfl) 0 _ rfl (by decide) rfl
  have r := r.go (.pass _ 0 "ab".toList rfl (by intro n hn; cases hn; rfl)) 0 _ rfl (by decide) rfl
  have r := r.write (t := 0) (line := "ab".toList) (.write _ 0 "ab".toList 1 _ rfl rfl) rfl rfl
  have r := r.call (t := 1) (line := "cd".toList) (.call _ 1 "cd".toList (by decide) rfl) rfl rfl
  have r := r.go (.lock _ 1 "cd".toList rfl rfl) 1 _ rfl (by decide) rfl
  have r := r.go (.fire _ 1 "cd".toList 1 rfl (by decide +kernel) rfl) 1 _ rfl (by decide) rfl
  have r := r.go (.move _ 1 "cd".toList "old".toList ⟨.renamed, .renamed, true, true⟩ rfl (by decide +kernel)
    (by dsimp only [exFConf]; decide) (fun _ => ⟨rfl, rfl⟩) (fun _ => ⟨.inl rfl, rfl⟩)) 1 _ rfl (by decide) rfl
  have r := r.write (t := 1) (line := "cd".toList) (.write _ 1 "cd".toList 0 _ rfl rfl) rfl rfl
  refine ⟨_, r, rfl, rfl, fun t h0 h1 => ?_, rfl, rfl, rfl, by decide +kernel⟩
  simp [putAt, exFile, h0, h1]

/-- Both threads flush and return. -/
theorem exFile_two_ended : ∃ s : FState, FTraceT (exFConf true 2 true true) exFile [(0, "ab".toList), (1, "cd".toList)]
      [(0, "ab".toList), (1, "cd".toList)] s ∧ (∀ t, s.pc t = .idle) ∧ s.written = ["ab".toList, "cd".toList] ∧ s.alt = [] ∧
    s.rotated = ["old".toList] := by
  obtain ⟨s, r, h0, h1, h2, hw, ha, hr, hf⟩ := exFile_two
  obtain ⟨i, hi⟩ := Option.ne_none_iff_exists'.1 hf
  have r := r.go (.flush s 0 "ab".toList _ h0 rfl (by unfold FileW.flush; rw [hi])) 0 _ rfl (by rw [h0]; exact nofun) rfl
  have r := r.go (.flush _ 1 "cd".toList _ (by dsimp only; rw [putAt_ne _ _ (by decide)]; exact h1) rfl
    rfl) 1 _ rfl (by dsimp only; rw [putAt_ne _ _ (by decide), h1]; exact nofun) rfl
  refine ⟨_, r, fun t => ?_, hw, ha, hr⟩
  dsimp only
  by_cases h : t = 1
  · subst h; rw [putAt_same]
  · rw [putAt_ne _ _ h]
    by_cases h' : t = 0
    · subst h'; rw [putAt_same]
    · rw [putAt_ne _ _ h', h2 t h' h]

/-- `C36_each_thread_writes_in_order` at work: after the run nothing of thread 0 and thread 1 is missing. -/
example : ∃ (s : FState) (calls writes : List (Nat × Str)), FStart (exFConf true 2 true true) exFile ∧
    FTraceT (exFConf true 2 true true) exFile calls writes s ∧ (∀ t, s.pc t = .idle) ∧ s.alt = [] ∧
    ofThread 0 writes = ["ab".toList] ∧ ofThread 1 writes = ["cd".toList] ∧ s.rotated = ["old".toList] := by
  obtain ⟨s, r, hi, -, ha, hr⟩ := exFile_two_ended
  have h := (C36_each_thread_writes_in_order _ _ s _ _ (exFile_start ..) r).2
  exact ⟨s, _, _, exFile_start .., r, hi, ha, ((h 0).2 (hi 0) ha).trans rfl, ((h 1).2 (hi 1) ha).trans rfl, hr⟩

/-- `C36_written_as_often_as_called` and `C36_reliable_system_writes_everything`: the hypotheses hold of that run. -/
example : ∃ s : FState, FStart (exFConf true 2 true true) exFile ∧
    FTrace (exFConf true 2 true true) exFile ["ab".toList, "cd".toList] s ∧ (∀ t, s.pc t = .idle) ∧
    s.written.Perm ["ab".toList, "cd".toList] := by
  obtain ⟨s, r, hi, -⟩ := exFile_two_ended
  exact ⟨s, exFile_start .., r.toTrace, hi,
    (C36_reliable_system_writes_everything (exFConf true 2 true true) rfl exFile s _ (exFile_start ..) r.toTrace hi).1⟩

/-- `C36_all_on_disk_at_rest_partial`: the rotated file has `ab`, the new one has `cd`. -/
example : ∃ s : FState, FRun (exFConf true 2 true true) exFile s ∧ (∀ t, s.pc t = .idle) ∧
    content s.w "old".toList ++ content s.w "log".toList = "abcd".toList := by
  obtain ⟨s, r, hi, hw, -, hr⟩ := exFile_two_ended
  have h := C36_all_on_disk_at_rest_partial (exFConf true 2 true true) rfl rfl exFile s (exFile_start ..) r.toTrace.toRun hi
  rw [hw, hr] at h
  exact ⟨s, r.toTrace.toRun, hi, by simpa [content, exFile, exFConf] using h⟩

/-- `C74_threads_lose_only_lines_in_work`: a stop while both threads have still to flush. -/
example : ∃ (s : FState) (writes : List (Nat × Str)), FTraceT (exFConf true 2 true true) exFile writes writes s ∧ writes.length = 2 ∧
    s.pc 0 = .flushing "ab".toList ∧ s.pc 1 = .flushing "cd".toList ∧ s.rotated = ["old".toList] := by
  obtain ⟨s, r, h0, h1, -, -, -, hr, -⟩ := exFile_two
  exact ⟨s, _, r, rfl, h0, h1, hr⟩

/-- `C36_one_thread_writes_in_order`: a run of one thread. -/
example : ∃ s : FState, (exFConf true 1 true true).threads = 1 ∧ FStart (exFConf true 1 true true) exFile ∧
    FTrace (exFConf true 1 true true) exFile ["ab".toList] s ∧ s.written = ["ab".toList] := by
  have r : FTraceT (exFConf true 1 true true) exFile [] [] exFile := .init
  have r := r.call (t := 0) (line := "ab".toList) (.call _ 0 "ab".toList (by decide) rfl) rfl rfl
  have r := r.go (.lock _ 0 "ab".toList rfl rfl) 0 _ rfl (by decide) rfl
  have r := r.go (.pass _ 0 "ab".toList rfl (by intro n hn; cases hn; rfl)) 0 _ rfl (by decide) rfl
  have r := r.write (t := 0) (line := "ab".toList) (.write _ 0 "ab".toList 1 _ rfl rfl) rfl rfl
  exact ⟨_, rfl, exFile_start .., r.toTrace, rfl⟩

end Polog
