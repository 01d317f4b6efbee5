import Verif.File.Trace

/-! C36: every line is written as often as the handler was called with it, and in this order by one thread. `File/Examples.lean` has a run that meets the hypotheses. -/

namespace Polog

/-- The line a thread has still to write. -/
def FPc.before : FPc → Option Str
  | .start l => some l
  | .checking l => some l
  | .moving l => some l
  | .writing l => some l
  | _ => none

/-- How many threads have still to write this line. -/
def FState.pending (s : FState) (n : Nat) (line : Str) : Nat :=
  ((List.range n).map fun t => if (s.pc t).before = some line then 1 else 0).sum

theorem sum_putAt (pc : Nat → FPc) (t : Nat) (q : FPc) (line : Str) : ∀ n, t < n →
    ((List.range n).map fun x => if (putAt pc t q x).before = some line then 1 else 0).sum +
        (if (pc t).before = some line then 1 else 0) =
      ((List.range n).map fun x => if (pc x).before = some line then 1 else 0).sum +
        (if q.before = some line then 1 else 0) := by
  intro n
  induction n with
  | zero => intro h; exact absurd h (Nat.not_lt_zero _)
  | succ n ih =>
    intro h
    simp only [List.range_succ, List.map_append, List.sum_append, List.map_cons, List.map_nil, List.sum_cons,
      List.sum_nil, Nat.add_zero]
    by_cases ht : t = n
    · subst ht
      rw [putAt_same]
      have : ((List.range t).map fun x => if (putAt pc t q x).before = some line then 1 else 0) =
          ((List.range t).map fun x => if (pc x).before = some line then 1 else 0) := by
        refine List.map_congr_left fun x hx => ?_
        rw [putAt_ne _ _ (by have := List.mem_range.1 hx; omega)]
      rw [this]
      omega
    · have := ih (by omega)
      rw [putAt_ne _ _ (show n ≠ t by omega)]
      omega

/-- Written at most as often as called; called at most as often as written or given to `alt`. -/
structure FCount (c : FConf) (calls : List Str) (s : FState) : Prop where
  active : ∀ t, s.pc t ≠ .idle → t < c.threads
  notMore : ∀ l, s.written.count l + s.pending c.threads l ≤ calls.count l
  notLess : ∀ l, calls.count l ≤ s.written.count l + s.alt.count l + s.pending c.threads l

theorem FCount.move {c : FConf} {calls : List Str} {s s' : FState} (h : FCount c calls s) {t : Nat} {q : FPc}
    (ht : s.pc t ≠ .idle) (hp : s'.pc = putAt s.pc t q) (hw : s'.written = s.written) (ha : s'.alt = s.alt)
    (hq : q.before = (s.pc t).before) : FCount c calls s' := by
  have key : ∀ l, s'.pending c.threads l = s.pending c.threads l := by
    intro l
    have := sum_putAt s.pc t q l c.threads (h.active t ht)
    unfold FState.pending
    rw [hp]
    rw [hq] at this
    omega
  refine ⟨fun x hx => ?_, fun l => ?_, fun l => ?_⟩
  · rw [hp] at hx
    by_cases hxt : x = t
    · subst hxt; exact h.active _ ht
    · rw [putAt_ne _ _ hxt] at hx; exact h.active x hx
  · rw [hw, key]; exact h.notMore l
  · rw [hw, ha, key]; exact h.notLess l

theorem FCount.finish {c : FConf} {calls : List Str} {s s' : FState} (h : FCount c calls s) {t : Nat} {q : FPc} {l : Str}
    (ht : s.pc t ≠ .idle) (hp : s'.pc = putAt s.pc t q) (hb : (s.pc t).before = some l) (hq : q.before = none)
    (hwa : (s'.written = s.written ++ [l] ∧ s'.alt = s.alt) ∨ (s'.written = s.written ∧ s'.alt = s.alt ++ [l])) :
    FCount c calls s' := by
  have key : ∀ x, s'.pending c.threads x + (if l = x then 1 else 0) = s.pending c.threads x := by
    intro x
    have := sum_putAt s.pc t q x c.threads (h.active t ht)
    unfold FState.pending
    rw [hp]
    rw [hb, hq] at this
    simp only [Option.some.injEq, reduceCtorEq, if_false, Nat.add_zero] at this
    exact this
  refine ⟨fun x hx => ?_, fun x => ?_, fun x => ?_⟩
  · rw [hp] at hx
    by_cases hxt : x = t
    · subst hxt; exact h.active _ ht
    · rw [putAt_ne _ _ hxt] at hx; exact h.active x hx
  · have k := key x
    have n := h.notMore x
    rcases hwa with ⟨hw, _⟩ | ⟨hw, _⟩
    · rw [hw, List.count_append, List.count_singleton]
      simp only [beq_iff_eq]
      omega
    · rw [hw]
      omega
  · have k := key x
    have n := h.notLess x
    rcases hwa with ⟨hw, ha⟩ | ⟨hw, ha⟩
    · rw [hw, ha, List.count_append, List.count_singleton]
      simp only [beq_iff_eq]
      omega
    · rw [hw, ha, List.count_append, List.count_singleton]
      simp only [beq_iff_eq]
      omega

theorem FCount.step {c : FConf} {calls : List Str} {s s' : FState} (h : FCount c calls s) (hs : FStep c s s')
    (hidle : ∀ t, s.pc t = .idle → s'.pc t = .idle) : FCount c calls s' := by
  cases hs with
  | call t l _ hpc =>
    have := hidle t hpc
    change putAt s.pc t (.start l) t = .idle at this
    rw [putAt_same] at this; cases this
  | lock t l hpc _ => exact h.move (t := t) (by rw [hpc]; simp) rfl rfl rfl (by rw [hpc]; rfl)
  | fire t l n hpc _ _ => exact h.move (t := t) (by rw [hpc]; simp) rfl rfl rfl (by rw [hpc]; rfl)
  | pass t l hpc _ => exact h.move (t := t) (by rw [hpc]; simp) rfl rfl rfl (by rw [hpc]; rfl)
  | move t l target e hpc _ _ _ _ => exact h.move (t := t) (by rw [hpc]; simp) rfl rfl rfl (by rw [hpc]; rfl)
  | write t l auto w' hpc _ =>
    exact h.finish (t := t) (l := l) (by rw [hpc]; simp) rfl (by rw [hpc]; rfl) rfl (.inl ⟨rfl, rfl⟩)
  | writeFails t l hpc _ =>
    exact h.finish (t := t) (l := l) (by rw [hpc]; simp) rfl (by rw [hpc]; rfl) rfl (.inr ⟨rfl, rfl⟩)
  | flush t l w' hpc _ _ => exact h.move (t := t) (by rw [hpc]; simp) rfl rfl rfl (by rw [hpc]; rfl)
  | flushFails t l hpc _ _ =>
    have h1 : FCount c calls { s with pc := putAt s.pc t .idle } :=
      h.move (t := t) (by rw [hpc]; simp) rfl rfl rfl (by rw [hpc]; rfl)
    refine ⟨h1.active, h1.notMore, fun x => ?_⟩
    have := h1.notLess x
    show _ ≤ _ + (s.alt ++ [l]).count x + _
    rw [List.count_append]
    exact Nat.le_trans this (by dsimp only; show _ ≤ _ + (_ + _) + FState.pending ⟨s.w, putAt s.pc t .idle, _, _, _, _⟩ _ _; unfold FState.pending; dsimp only; omega)
  | noFlush t l hpc _ => exact h.move (t := t) (by rw [hpc]; simp) rfl rfl rfl (by rw [hpc]; rfl)

theorem FCount.start {c : FConf} {calls : List Str} {s s' : FState} (h : FCount c calls s) (hs : FStep c s s')
    {t : Nat} {line : Str} (h1 : s.pc t = .idle) (h2 : s'.pc t = .start line) : FCount c (calls ++ [line]) s' := by
  have hsame : ∀ (t' : Nat) (q : FPc), s.pc t' ≠ .idle → s'.pc = putAt s.pc t' q → False := by
    intro t' q hne hp
    rw [hp] at h2
    by_cases ht : t = t'
    · subst ht; exact hne h1
    · rw [putAt_ne _ _ ht, h1] at h2; cases h2
  cases hs with
  | call t' l htn hpc =>
    change putAt s.pc t' (.start l) t = .start line at h2
    have ht : t = t' := by
      by_contra hne
      rw [putAt_ne _ _ hne, h1] at h2; cases h2
    subst ht
    rw [putAt_same] at h2
    cases h2
    have key : ∀ x, FState.pending { s with pc := putAt s.pc t (.start line) } c.threads x =
        s.pending c.threads x + (if line = x then 1 else 0) := by
      intro x
      have := sum_putAt s.pc t (.start line) x c.threads htn
      rw [hpc] at this
      have e1 : FPc.before .idle = none := rfl
      have e2 : FPc.before (.start line) = some line := rfl
      rw [e1, e2] at this
      simp only [Option.some.injEq, reduceCtorEq, if_false, Nat.add_zero] at this
      exact this
    refine ⟨fun x hx => ?_, fun x => ?_, fun x => ?_⟩
    · by_cases hxt : x = t
      · subst hxt; exact htn
      · change putAt s.pc t _ x ≠ _ at hx
        rw [putAt_ne _ _ hxt] at hx; exact h.active x hx
    · rw [key, List.count_append, List.count_singleton]
      simp only [beq_iff_eq]
      have := h.notMore x
      omega
    · rw [key, List.count_append, List.count_singleton]
      simp only [beq_iff_eq]
      have := h.notLess x
      omega
  | lock t' l hpc _ => exact (hsame t' _ (by rw [hpc]; simp) rfl).elim
  | fire t' l n hpc _ _ => exact (hsame t' _ (by rw [hpc]; simp) rfl).elim
  | pass t' l hpc _ => exact (hsame t' _ (by rw [hpc]; simp) rfl).elim
  | move t' l target e hpc _ _ _ _ => exact (hsame t' _ (by rw [hpc]; simp) rfl).elim
  | write t' l auto w' hpc _ => exact (hsame t' _ (by rw [hpc]; simp) rfl).elim
  | writeFails t' l hpc _ => exact (hsame t' _ (by rw [hpc]; simp) rfl).elim
  | flush t' l w' hpc _ _ => exact (hsame t' _ (by rw [hpc]; simp) rfl).elim
  | flushFails t' l hpc _ _ => exact (hsame t' _ (by rw [hpc]; simp) rfl).elim
  | noFlush t' l hpc _ => exact (hsame t' _ (by rw [hpc]; simp) rfl).elim

theorem FState.pending_idle {s : FState} (h : ∀ t, s.pc t = .idle) (n : Nat) (l : Str) : s.pending n l = 0 := by
  unfold FState.pending
  induction n with
  | zero => rfl
  | succ n ih =>
    rw [List.range_succ, List.map_append, List.sum_append, ih, List.map_cons, h n]
    rfl

theorem FTrace.count {c : FConf} {s₀ s : FState} {calls : List Str} (h₀ : FStart c s₀) (hr : FTrace c s₀ calls s) :
    FCount c calls s := by
  induction hr with
  | init =>
    refine ⟨fun t h => absurd (h₀.idle t) h, fun l => ?_, fun l => ?_⟩
    · rw [FState.pending_idle h₀.idle, h₀.history.1]; simp
    · simp
  | call _ hs h1 h2 ih => exact ih.start hs h1 h2
  | other _ hs hi ih => exact ih.step hs hi

theorem FTrace.toRun {c : FConf} {s₀ s : FState} {calls : List Str} (hr : FTrace c s₀ calls s) : FRun c s₀ s := by
  induction hr with
  | init => exact .init
  | call _ hs _ _ ih => exact .step ih hs
  | other _ hs _ ih => exact .step ih hs

/-- **C36**: when the handler is at rest, whatever the schedule was, every line was written at most as often as the handler was
called with it, and each call whose line was not written gave it to `alt`. -/
theorem C36_written_as_often_as_called (c : FConf) (s₀ s : FState) (calls : List Str) (h₀ : FStart c s₀)
    (hr : FTrace c s₀ calls s) (hidle : ∀ t, s.pc t = .idle) (line : Str) :
    s.written.count line ≤ calls.count line ∧ calls.count line ≤ s.written.count line + s.alt.count line := by
  have h := hr.count h₀
  have h1 := h.notMore line
  have h2 := h.notLess line
  rw [FState.pending_idle hidle] at h1 h2
  exact ⟨by omega, by omega⟩

/-- **C36**: if files can always be moved and opened, the lines written are exactly those of the calls, each as often as it was
called. -/
theorem C36_reliable_system_writes_everything (c : FConf) (hc : c.reliable = true) (s₀ s : FState) (calls : List Str)
    (h₀ : FStart c s₀) (hr : FTrace c s₀ calls s) (hidle : ∀ t, s.pc t = .idle) : s.written.Perm calls ∧ s.alt = [] := by
  have ho := C36_no_line_refused_while_open_partial c s₀ s h₀ hr.toRun
  have ha : s.alt = [] := ho.1 (ho.2 hc)
  refine ⟨List.perm_iff_count.2 fun l => ?_, ha⟩
  have := C36_written_as_often_as_called c s₀ s calls h₀ hr hidle l
  rw [ha] at this
  simp only [List.count_nil, Nat.add_zero] at this
  omega

/-- With one thread: what was written and what is being written are calls, in their order. -/
structure FOrder (calls : List Str) (s : FState) : Prop where
  only : ∀ t, s.pc t ≠ .idle → t = 0
  order : (s.written ++ (s.pc 0).before.toList).Sublist calls

theorem FOrder.change {calls : List Str} {s s' : FState} (h : FOrder calls s) {t : Nat} {q : FPc}
    (ht : s.pc t ≠ .idle) (hp : s'.pc = putAt s.pc t q)
    (ho : (s'.written ++ q.before.toList).Sublist (s.written ++ (s.pc t).before.toList)) : FOrder calls s' := by
  have h0 := h.only t ht
  subst h0
  refine ⟨fun x hx => ?_, ?_⟩
  · by_contra hx0
    rw [hp, putAt_ne _ _ hx0] at hx
    exact hx0 (h.only x hx)
  · rw [hp, putAt_same]
    exact ho.trans h.order

theorem FOrder.step {c : FConf} {calls : List Str} {s s' : FState} (h : FOrder calls s) (hs : FStep c s s')
    (hidle : ∀ t, s.pc t = .idle → s'.pc t = .idle) : FOrder calls s' := by
  cases hs with
  | call t l _ hpc =>
    have := hidle t hpc
    change putAt s.pc t (.start l) t = .idle at this
    rw [putAt_same] at this; cases this
  | lock t l hpc _ => exact h.change (t := t) (by rw [hpc]; simp) rfl (by rw [hpc]; exact List.Sublist.refl _)
  | fire t l n hpc _ _ => exact h.change (t := t) (by rw [hpc]; simp) rfl (by rw [hpc]; exact List.Sublist.refl _)
  | pass t l hpc _ => exact h.change (t := t) (by rw [hpc]; simp) rfl (by rw [hpc]; exact List.Sublist.refl _)
  | move t l target e hpc _ _ _ _ => exact h.change (t := t) (by rw [hpc]; simp) rfl (by rw [hpc]; exact List.Sublist.refl _)
  | write t l auto w' hpc _ =>
    exact h.change (t := t) (by rw [hpc]; simp) rfl (by rw [hpc]; simp [FPc.before])
  | writeFails t l hpc _ => exact h.change (t := t) (by rw [hpc]; simp) rfl (by rw [hpc]; simp [FPc.before])
  | flush t l w' hpc _ _ => exact h.change (t := t) (by rw [hpc]; simp) rfl (by rw [hpc]; exact List.Sublist.refl _)
  | flushFails t l hpc _ _ => exact h.change (t := t) (by rw [hpc]; simp) rfl (by rw [hpc]; exact List.Sublist.refl _)
  | noFlush t l hpc _ => exact h.change (t := t) (by rw [hpc]; simp) rfl (by rw [hpc]; exact List.Sublist.refl _)

theorem FOrder.start {c : FConf} (hc : c.threads = 1) {calls : List Str} {s s' : FState} (h : FOrder calls s)
    (hs : FStep c s s') {t : Nat} {line : Str} (h1 : s.pc t = .idle) (h2 : s'.pc t = .start line) :
    FOrder (calls ++ [line]) s' := by
  have hsame : ∀ (t' : Nat) (q : FPc), s.pc t' ≠ .idle → s'.pc = putAt s.pc t' q → False := by
    intro t' q hne hp
    rw [hp] at h2
    by_cases ht : t = t'
    · subst ht; exact hne h1
    · rw [putAt_ne _ _ ht, h1] at h2; cases h2
  cases hs with
  | call t' l htn hpc =>
    change putAt s.pc t' (.start l) t = .start line at h2
    have ht : t = t' := by
      by_contra hne
      rw [putAt_ne _ _ hne, h1] at h2; cases h2
    subst ht
    rw [putAt_same] at h2
    cases h2
    have h0 : t = 0 := by omega
    subst h0
    have ho := h.order
    rw [hpc] at ho
    refine ⟨fun x hx => ?_, ?_⟩
    · by_contra hx0
      change putAt s.pc 0 _ x ≠ _ at hx
      rw [putAt_ne _ _ hx0] at hx
      exact hx0 (h.only x hx)
    · show (s.written ++ (putAt s.pc 0 (FPc.start line) 0).before.toList).Sublist _
      rw [putAt_same]
      have e : FPc.before .idle = none := rfl
      rw [e] at ho
      simp only [Option.toList_none, List.append_nil] at ho
      exact ho.append (List.Sublist.refl _)
  | lock t' l hpc _ => exact (hsame t' _ (by rw [hpc]; simp) rfl).elim
  | fire t' l n hpc _ _ => exact (hsame t' _ (by rw [hpc]; simp) rfl).elim
  | pass t' l hpc _ => exact (hsame t' _ (by rw [hpc]; simp) rfl).elim
  | move t' l target e hpc _ _ _ _ => exact (hsame t' _ (by rw [hpc]; simp) rfl).elim
  | write t' l auto w' hpc _ => exact (hsame t' _ (by rw [hpc]; simp) rfl).elim
  | writeFails t' l hpc _ => exact (hsame t' _ (by rw [hpc]; simp) rfl).elim
  | flush t' l w' hpc _ _ => exact (hsame t' _ (by rw [hpc]; simp) rfl).elim
  | flushFails t' l hpc _ _ => exact (hsame t' _ (by rw [hpc]; simp) rfl).elim
  | noFlush t' l hpc _ => exact (hsame t' _ (by rw [hpc]; simp) rfl).elim

/-- **C36**: one thread writes its lines in the order of the calls, whatever the system refuses. -/
theorem C36_one_thread_writes_in_order (c : FConf) (hc : c.threads = 1) (s₀ s : FState) (calls : List Str)
    (h₀ : FStart c s₀) (hr : FTrace c s₀ calls s) : s.written.Sublist calls := by
  have h : FOrder calls s := by
    induction hr with
    | init =>
      refine ⟨fun t h => absurd (h₀.idle t) h, ?_⟩
      rw [h₀.history.1, h₀.idle 0]
      exact List.Sublist.refl _
    | call _ hs h1 h2 ih => exact ih.start hc hs h1 h2
    | other _ hs hi ih => exact ih.step hs hi
  exact (List.sublist_append_left _ _).trans h.order

/-- One thread, a system that never refuses: exactly the lines of the calls, in their order. -/
theorem FTrace.written_eq {c : FConf} (hc : c.threads = 1) (hrel : c.reliable = true) {s₀ s : FState} {calls : List Str}
    (h₀ : FStart c s₀) (hr : FTrace c s₀ calls s) (hidle : ∀ t, s.pc t = .idle) : s.written = calls :=
  (C36_one_thread_writes_in_order c hc s₀ s calls h₀ hr).eq_of_length
    (C36_reliable_system_writes_everything c hrel s₀ s calls h₀ hr hidle).1.length_eq

/-- With `forced_flush`: what is buffered belongs to a thread that is about to flush. -/
def BufOwned (s : FState) : Prop := s.w.buf = [] ∨ ∃ t l, s.pc t = .flushing l

theorem BufOwned.keep {s s' : FState} (h : BufOwned s) {t : Nat} {q : FPc} (ht : ∀ l, s.pc t ≠ .flushing l)
    (hp : s'.pc = putAt s.pc t q) (hb : s.w.buf = [] → s'.w.buf = []) : BufOwned s' := by
  rcases h with h | ⟨x, l, hx⟩
  · exact .inl (hb h)
  · refine .inr ⟨x, l, ?_⟩
    rw [hp, putAt_ne _ _ (by rintro rfl; exact ht l hx)]
    exact hx

theorem BufOwned.step {c : FConf} (hf : c.forced = true) {s s' : FState} (hw : s.w.file = none → s.w.buf = []) (h : BufOwned s)
    (hs : FStep c s s') : BufOwned s' := by
  cases hs with
  | call t l _ hpc => exact h.keep (t := t) (fun l => by rw [hpc]; exact (fun h => nomatch h)) rfl id
  | lock t l hpc _ => exact h.keep (t := t) (fun l => by rw [hpc]; exact (fun h => nomatch h)) rfl id
  | fire t l n hpc _ _ => exact h.keep (t := t) (fun l => by rw [hpc]; exact (fun h => nomatch h)) rfl id
  | pass t l hpc _ => exact h.keep (t := t) (fun l => by rw [hpc]; exact (fun h => nomatch h)) rfl id
  | move t l target e hpc _ _ _ _ =>
    exact h.keep (t := t) (fun l => by rw [hpc]; exact (fun h => nomatch h)) rfl (moveFile_buf _ _ _ _)
  | write t l auto w' hpc _ => exact .inr ⟨t, l, putAt_same ..⟩
  | writeFails t l hpc _ => exact h.keep (t := t) (fun l => by rw [hpc]; exact (fun h => nomatch h)) rfl id
  | flush t l w' hpc _ hfl =>
    refine .inl ?_
    show w'.buf = []
    unfold FileW.flush at hfl
    split at hfl
    · cases hfl
    · cases hfl; rfl
  | flushFails t l hpc _ hn => exact .inl (hw hn)
  | noFlush t l hpc hnf => rw [hf] at hnf; cases hnf

/-- **C36**: with `forced_flush`, whenever no call of the handler is going on, all written text has left the program, whatever the
schedule of the threads was (rotated files on the file system of the log). So the rotated files and the file hold what was in
the file at first and the written lines, in order. -/
theorem C36_all_on_disk_at_rest_partial (c : FConf) (hf : c.forced = true) (hfs : c.sameFs = true) (s₀ s : FState)
    (h₀ : FStart c s₀) (hr : FRun c s₀ s) (hidle : ∀ t, s.pc t = .idle) :
    (s.rotated.map (FileSpec.content s.w)).flatten ++ FileSpec.content s.w c.fn =
      FileSpec.content s₀.w c.fn ++ s.written.flatten := by
  have h : FInv c s₀ s ∧ BufOwned s := by
    clear hidle
    induction hr with
    | init => exact ⟨FInv.init h₀, .inl h₀.buf⟩
    | step _ hs ih => exact ⟨ih.1.step hs (.inl hfs), ih.2.step hf ih.1.wf.closed hs⟩
  have hb : s.w.buf = [] := by
    rcases h.2 with hb | ⟨t, l, ht⟩
    · exact hb
    · rw [hidle t] at ht; cases ht
  have := h.1.content
  unfold FileSpec.NothingLost at this
  rw [hb, List.append_nil] at this
  exact this

end Polog
