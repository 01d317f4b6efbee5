import Verif.File.ByThread

/-! C74 for several threads: what is on the disk at any moment, so also when the program is stopped then. Here a move of the file is
one step (in `File/Crash.lean`, for one thread, it is split). `File/Examples.lean` has a run that meets the hypotheses. -/

namespace Polog
open FileSpec

theorem moveFile_buf_cases (w : FileW) (fn target : Str) (e : MoveEnv) :
    (w.moveFile fn target e).1.buf = w.buf ∨ (w.moveFile fn target e).1.buf = [] := by
  have hre : ∀ (w : FileW) ok, (w.reopen fn ok).buf = w.buf ∨ (w.reopen fn ok).buf = [] := by
    intro w ok
    have hopen : ∀ (w : FileW), (w.open fn ok).buf = w.buf := by
      intro w
      unfold FileW.open
      cases ok
      · rfl
      · simp only [if_true]
        split <;> rfl
    unfold FileW.reopen
    rw [hopen]
    unfold FileW.close
    split
    · exact .inl rfl
    · exact .inr rfl
  unfold FileW.moveFile
  have h1 := (moveOnce_buf w fn target e.first).1
  rcases hm : w.moveOnce fn target e.first with ⟨w1, o⟩
  rw [hm] at h1
  cases o with
  | moved => exact h1 ▸ hre w1 _
  | failed => exact .inl h1
  | notFound =>
    dsimp only
    split
    · have h2 := (moveOnce_buf w1 fn target e.second).1.trans h1
      rcases hm : w1.moveOnce fn target e.second with ⟨w2, o⟩
      rw [hm] at h2
      cases o with
      | moved => exact h2 ▸ hre w2 _
      | failed => exact .inl h2
      | notFound => exact .inl h2
    · exact .inl h1

/-- With `forced_flush`: the last lines written, of which something is in the buffer, belong to threads that are about to
flush. -/
def Unflushed (writes : List (Nat × Str)) (s : FState) : Prop :=
  ∃ done pend part, writes = done ++ pend ∧ part ++ s.w.buf = (pend.map Prod.snd).flatten ∧
    (∀ x ∈ pend, s.pc x.1 = .flushing x.2) ∧ (pend.map Prod.fst).Nodup

theorem Unflushed.nothing (writes : List (Nat × Str)) {s : FState} (h : s.w.buf = []) : Unflushed writes s :=
  ⟨writes, [], [], by simp, by simp [h], by simp, by simp⟩

theorem Unflushed.keep {writes : List (Nat × Str)} {s s' : FState} (h : Unflushed writes s) {t : Nat} {q : FPc}
    (ht : ∀ l, s.pc t ≠ .flushing l) (hp : s'.pc = putAt s.pc t q) (hb : s'.w.buf = s.w.buf ∨ s'.w.buf = []) : Unflushed writes s' := by
  rcases hb with hb | hb
  · obtain ⟨done, pend, part, h1, h2, h3, h4⟩ := h
    refine ⟨done, pend, part, h1, by rw [hb, h2], fun x hx => ?_, h4⟩
    have := h3 x hx
    rw [hp, putAt_ne _ _ (by rintro rfl; exact ht _ this)]
    exact this
  · exact .nothing _ hb

theorem Unflushed.write {writes : List (Nat × Str)} {s s' : FState} (h : Unflushed writes s) {t : Nat} {line : Str} {auto : Nat}
    (ht : s.pc t = .writing line) (hp : s'.pc = putAt s.pc t (.flushing line)) (hb : s'.w.buf = (s.w.buf ++ line).drop auto) :
    Unflushed (writes ++ [(t, line)]) s' := by
  obtain ⟨done, pend, part, h1, h2, h3, h4⟩ := h
  have hne : ∀ x ∈ pend, x.1 ≠ t := by
    rintro x hx rfl
    have := h3 x hx
    rw [ht] at this; cases this
  refine ⟨done, pend ++ [(t, line)], part ++ (s.w.buf ++ line).take auto, by rw [h1, List.append_assoc], ?_, fun x hx => ?_, ?_⟩
  · rw [hb, List.append_assoc, List.take_append_drop, ← List.append_assoc, h2, List.map_append, List.flatten_append]
    simp
  · rw [hp]
    rcases List.mem_append.1 hx with hx | hx
    · rw [putAt_ne _ _ (hne x hx)]; exact h3 x hx
    · rw [List.mem_singleton.1 hx]; exact putAt_same ..
  · rw [List.map_append, List.nodup_append]
    refine ⟨h4, by simp, ?_⟩
    intro a ha b hb
    obtain ⟨x, hx, rfl⟩ := List.mem_map.1 ha
    have : b = t := by simpa using hb
    subst this
    exact hne x hx

theorem FTraceT.unflushed {c : FConf} (hf : c.forced = true) (hfs : c.sameFs = true) {s₀ s : FState} {calls writes : List (Nat × Str)}
    (h₀ : FStart c s₀) (h : FTraceT c s₀ calls writes s) : FInv c s₀ s ∧ Unflushed writes s := by
  induction h with
  | init => exact ⟨.init h₀, .nothing _ h₀.buf⟩
  | @call calls writes s s' t line _ hs h1 h2 ih =>
    refine ⟨ih.1.step hs (.inl hfs), ?_⟩
    have hsame : ∀ (t' : Nat) (q : FPc), s.pc t' ≠ .idle → s'.pc = putAt s.pc t' q → False := by
      intro t' q hne hp
      rw [hp] at h2
      by_cases ht : t = t'
      · subst ht; exact hne h1
      · rw [putAt_ne _ _ ht, h1] at h2; cases h2
    cases hs with
    | call t' l htn hpc => exact ih.2.keep (t := t') (fun l => by rw [hpc]; exact (fun h => nomatch h)) rfl (.inl rfl)
    | lock t' l hpc _ | fire t' l n hpc _ _ | pass t' l hpc _ | move t' l target e hpc _ _ _ _ | write t' l auto w' hpc _
    | writeFails t' l hpc _ | flush t' l w' hpc _ _ | flushFails t' l hpc _ _ | noFlush t' l hpc _ =>
      exact (hsame t' _ (by rw [hpc]; simp) rfl).elim
  | @write calls writes s s' t line _ hs h1 h2 ih =>
    refine ⟨ih.1.step hs (.inl hfs), ?_⟩
    have hno : ∀ (t' : Nat) (q : FPc), s'.pc = putAt s.pc t' q → q ≠ .flushing line → False := by
      intro t' q hp hne
      rw [hp] at h2
      by_cases ht : t = t'
      · subst ht; rw [putAt_same] at h2; exact hne h2
      · rw [putAt_ne _ _ ht, h1] at h2; cases h2
    cases hs with
    | write t' l auto w' hpc hw =>
      change putAt s.pc t' (.flushing l) t = .flushing line at h2
      have ht : t = t' := by
        by_contra hne
        rw [putAt_ne _ _ hne, h1] at h2; cases h2
      subst ht
      rw [putAt_same] at h2
      cases h2
      refine ih.2.write (auto := auto) hpc rfl ?_
      unfold FileW.write at hw
      split at hw
      · cases hw
      · cases hw; rfl
    | call t' l _ hpc | lock t' l hpc _ | fire t' l n hpc _ _ | pass t' l hpc _ | move t' l target e hpc _ _ _ _
    | writeFails t' l hpc _ | flush t' l w' hpc _ _ | flushFails t' l hpc _ _ | noFlush t' l hpc _ =>
      exact (hno t' _ rfl (fun h => nomatch h)).elim
  | @other calls writes s s' _ hs h1 h2 ih =>
    refine ⟨ih.1.step hs (.inl hfs), ?_⟩
    cases hs with
    | call t l _ hpc | lock t l hpc _ | fire t l n hpc _ _ | pass t l hpc _ | writeFails t l hpc _ =>
      exact ih.2.keep (t := t) (fun l => by rw [hpc]; exact (fun h => nomatch h)) rfl (.inl rfl)
    | move t l target e hpc _ _ _ _ =>
      exact ih.2.keep (t := t) (fun l => by rw [hpc]; exact (fun h => nomatch h)) rfl (moveFile_buf_cases _ _ _ _)
    | write t l auto w' hpc hw =>
      change s.written ++ [l] = s.written at h2
      simp at h2
    | flush t l w' hpc _ hfl =>
      refine .nothing _ ?_
      show w'.buf = []
      unfold FileW.flush at hfl
      split at hfl
      · cases hfl
      · cases hfl; rfl
    | flushFails t l hpc _ hn => exact .nothing _ (ih.1.wf.closed hn)
    | noFlush t l hpc hnf => rw [hf] at hnf; cases hnf

/-- **C74** for several threads: whenever the program is stopped, the rotated files and the file hold what was there before, then
whole lines, and then possibly a beginning of some more text. What is missing of the written lines are the last ones: at most one
of each thread, and only of threads that have not yet returned from the handler with this line. Lines of calls of the handler
that have returned are never missing. -/
theorem C74_threads_lose_only_lines_in_work (c : FConf) (hf : c.forced = true) (hfs : c.sameFs = true) (s₀ s : FState)
    (calls writes : List (Nat × Str)) (h₀ : FStart c s₀) (hr : FTraceT c s₀ calls writes s) :
    ∃ done pend part, writes = done ++ pend ∧ part <+: (pend.map Prod.snd).flatten ∧
      (∀ x ∈ pend, s.pc x.1 = .flushing x.2) ∧ (pend.map Prod.fst).Nodup ∧
      (s.rotated.map (content s.w)).flatten ++ content s.w c.fn = content s₀.w c.fn ++ (done.map Prod.snd).flatten ++ part := by
  obtain ⟨hinv, done, pend, part, h1, h2, h3, h4⟩ := hr.unflushed hf hfs h₀
  refine ⟨done, pend, part, h1, ⟨_, h2⟩, h3, h4, ?_⟩
  have hn := hinv.content
  unfold NothingLost at hn
  rw [← (hr.order h₀).all, h1, List.map_append, List.flatten_append, ← h2, ← List.append_assoc, ← List.append_assoc] at hn
  exact List.append_cancel_right hn

end Polog
