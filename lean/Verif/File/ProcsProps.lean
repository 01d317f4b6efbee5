import Verif.File.ProcsLemmas

/-! C106: the file handler in forked processes. -/

namespace Polog
open ProcsSpec

/-- **C106 (partial).** Processes with any number of threads start, fork, exit and die at any moment, rotate
the log and write to it; `forced_flush` is on.  If a process forks only while none of its other threads is in
the handler, then every line whose call of the handler has finished, in the parent or in a child, is in the log
or in a rotated file, whole and exactly once, and the files contain nothing that was not written.
Missing: forks during calls of other threads and `forced_flush=False`, see below. -/
theorem C106_lines_of_forked_processes_once_partial (c : PrConf) (hf : c.forced = true) (hc : c.calm = true)
    (s₀ s : PrState) (h₀ : PrStart s₀) (hr : PrRun c s₀ s) : OnceOnDisk c.fn s₀ s := by
  obtain ⟨placed, wait, h⟩ := hr.inv hf hc h₀
  exact ⟨placed, h.nodup, h.ltPlaced, h.data, h.named, h.fin⟩

/-- **C106 (partial).** If moreover all calls have finished, the lines in the files are exactly the lines
written: each number once. -/
theorem C106_files_are_what_was_written_partial (c : PrConf) (hf : c.forced = true) (hc : c.calm = true)
    (s₀ s : PrState) (h₀ : PrStart s₀) (hr : PrRun c s₀ s)
    (hall : ∀ k < s.written.length, k ∈ s.finished) :
    ∃ placed : List (Nat × Nat), (placed.map Prod.snd).Perm (List.range s.written.length) ∧
      ∀ i, s.data i = s₀.data i ++
        ((placed.filter (fun x => x.1 = i)).map (fun x => s.written.getD x.2 [])).flatten := by
  obtain ⟨placed, h1, h2, h3, -, h5⟩ := C106_lines_of_forked_processes_once_partial c hf hc s₀ s h₀ hr
  refine ⟨placed, (List.perm_ext_iff_of_nodup h1 List.nodup_range).2 fun k => ⟨fun hk => ?_, fun hk => ?_⟩, h3⟩
  · obtain ⟨x, hx, rfl⟩ := List.mem_map.1 hk
    exact List.mem_range.2 (h2 x hx)
  · exact h5 k (hall k (List.mem_range.1 hk))

/-- **C71 (partial), several threads in each process**: a line whose call of the handler has finished can be
found in the log or in a rotated file.  Missing: as in `C71_lines_of_all_processes_kept_partial`. -/
theorem C71_lines_of_all_threads_can_be_found_partial (c : PrConf) (hf : c.forced = true) (hc : c.calm = true)
    (s₀ s : PrState) (h₀ : PrStart s₀) (hr : PrRun c s₀ s) (k : Nat) (hk : k ∈ s.finished) :
    ∃ name line a b, (name = c.fn ∨ name ∈ s.rotated) ∧ s.written[k]? = some line ∧
      TextIs s name (a ++ line ++ b) := by
  obtain ⟨placed, -, h2, h3, h4, h5⟩ := C106_lines_of_forked_processes_once_partial c hf hc s₀ s h₀ hr
  obtain ⟨x, hx, rfl⟩ := List.mem_map.1 (h5 k hk)
  have hlt := h2 x hx
  obtain ⟨name, hn, hn'⟩ := h4 x hx
  have hm : s.written.getD x.2 [] ∈
      (placed.filter (fun y => y.1 = x.1)).map (fun y => s.written.getD y.2 []) :=
    List.mem_map.2 ⟨x, List.mem_filter.2 ⟨hx, by simp⟩, rfl⟩
  obtain ⟨a, b, hab⟩ := List.append_of_mem hm
  refine ⟨name, s.written.getD x.2 [], s₀.data x.1 ++ a.flatten, b.flatten, hn', ?_, x.1, hn, ?_⟩
  · simp [List.getD, List.getElem?_eq_getElem hlt]
  · rw [h3, hab]; simp

/-! ### A child after a calm fork can log -/

/-- In the body of `with self.lock` of the file wrapper. -/
def PrPc.inLock : PrPc → Bool
  | .moving _ _ => true
  | .reopening _ => true
  | .inWrite _ => true
  | .inFlush _ => true
  | _ => false

/-- In the body of `with self.lock` of the rotator. -/
def PrPc.inRot : PrPc → Bool
  | .moving _ _ => true
  | .reopening _ => true
  | .checking _ => true
  | _ => false

/-- A lock is taken exactly while its owner is inside. -/
structure PrLocks (s : PrState) : Prop where
  lock : ∀ p t, s.lock p = some t ↔ (s.pc p t).inLock = true
  rot : ∀ p t, s.rotLock p = some t ↔ (s.pc p t).inRot = true

theorem PrLocks.step {c : PrConf} (hc : c.calm = true) {s s' : PrState} (h : PrLocks s)
    (_hu : ∀ p, s.used p = false → ∀ t, s.pc p t = .absent) (hs : PrStep c s s') : PrLocks s' := by
  obtain ⟨h1, h2⟩ := h
  cases hs <;> (constructor <;>
    simp only [PrState.go, PrState.setLock, PrState.setRot, PrState.put, PrState.forked, PrState.gone, putAt, ite_apply] <;>
    grind [PrPc.inLock, PrPc.inRot])

theorem PrRun.locks {c : PrConf} (hf : c.forced = true) (hc : c.calm = true) {s₀ s : PrState} (h₀ : PrStart s₀)
    (hr : PrRun c s₀ s) : PrLocks s := by
  induction hr with
  | init =>
    constructor <;> intro p t <;> rw [h₀.absent]
    · rw [(h₀.free p).1]; simp [PrPc.inLock]
    · rw [(h₀.free p).2]; simp [PrPc.inRot]
  | step hr hs ih =>
    obtain ⟨_, _, hi⟩ := hr.inv hf hc h₀
    exact ih.step hc hi.numbers hs

theorem PrRun.trans {c : PrConf} {a b d : PrState} (h : PrRun c a b) (h' : PrRun c b d) : PrRun c a d := by
  induction h' with
  | init => exact h
  | step _ hs ih => exact .step ih hs

theorem PrState.pc_go_self (s : PrState) (p t : Nat) (x : PrPc) : (s.go p t x).pc p t = x := by
  rw [pr_pc_go, if_pos ⟨rfl, rfl⟩]

/-- The rotator is done with: the thread is about to write, and nothing else has changed. -/
theorem pr_rotation {c : PrConf} (s : PrState) (p t : Nat) (line : Str) (hp : s.pc p t = .idle)
    (hl : s.lock p = none) (hrl : s.rotLock p = none) :
    ∃ s', PrRun c s s' ∧ s'.pc p t = .writing line ∧ s'.lock p = none ∧ s'.fd = s.fd ∧ s'.buf = s.buf ∧
      s'.data = s.data ∧ s'.files = s.files ∧
      s'.written = s.written ∧ s'.finished = s.finished ∧ (∀ q u, (q ≠ p ∨ u ≠ t) → s'.pc q u = s.pc q u) ∧
      s'.used = s.used := by
  have hne : ∀ (s : PrState) (x : PrPc) q u, (q ≠ p ∨ u ≠ t) → (s.go p t x).pc q u = s.pc q u := by
    intro s x q u h
    rw [pr_pc_go, if_neg]
    rintro ⟨rfl, rfl⟩
    rcases h with h | h <;> exact h rfl
  have r : PrRun c s s := .init
  have r := r.step (.call _ p t line hp)
  have r := r.step (.enterRot _ p t line (PrState.pc_go_self _ _ _ _) hrl)
  have key : ∀ x : PrState, x = ((s.go p t (.start line)).setRot p (some t)).go p t (.checking line) →
      x.lock = s.lock ∧ x.fd = s.fd ∧ x.buf = s.buf ∧ x.data = s.data ∧ x.files = s.files ∧
        x.written = s.written ∧ x.finished = s.finished ∧
        x.pc p t = .checking line ∧ (∀ q u, (q ≠ p ∨ u ≠ t) → x.pc q u = s.pc q u) ∧ x.used = s.used := by
    rintro x rfl
    refine ⟨rfl, rfl, rfl, rfl, rfl, rfl, rfl, PrState.pc_go_self _ _ _ _, fun q u h => ?_, rfl⟩
    rw [hne _ _ q u h]
    exact hne _ _ q u h
  generalize ((s.go p t (.start line)).setRot p (some t)).go p t (.checking line) = x at r key
  obtain ⟨e1, e2, e3, e4, e4', e5, e6, e7, e8, e9⟩ := key x rfl
  by_cases hfire : ∃ n, (x.view p).size c.fn = some n ∧ c.fires n = true
  · obtain ⟨n, hn, hn'⟩ := hfire
    have r := r.step (.fire _ p t line n e7 hn hn' (by rw [e1]; exact hl))
    have r := r.step (.refused _ p t line false (PrState.pc_go_self _ _ _ _))
    refine ⟨_, r, PrState.pc_go_self _ _ _ _, putAt_same _ _ _, e2, e3, e4, e4', e5, e6, fun q u h => ?_, e9⟩
    rw [hne _ _ q u h, ← e8 q u h]
    exact hne _ _ q u h
  · have r := r.step (.pass _ p t line e7 (fun n hn => by
      cases hf : c.fires n with
      | false => rfl
      | true => exact absurd ⟨n, hn, hf⟩ hfire))
    refine ⟨_, r, PrState.pc_go_self _ _ _ _, (congrFun e1 p).trans hl, e2, e3, e4, e4', e5, e6, fun q u h => ?_, e9⟩
    rw [hne _ _ q u h, ← e8 q u h]
    rfl

/-- A thread outside the handler can write a line when the locks are free and the file is open. -/
theorem pr_logs {c : PrConf} (hf : c.forced = true) (s : PrState) (p t i : Nat) (line : Str)
    (hp : s.pc p t = .idle) (hl : s.lock p = none) (hrl : s.rotLock p = none) (hfd : s.fd p = some i) :
    ∃ s', PrRun c s s' ∧ s'.pc p t = .idle ∧ s'.written = s.written ++ [line] ∧
      s'.finished = s.finished ++ [s.written.length] ∧ s'.data i = s.data i ++ s.buf p ++ line ∧
      s'.files = s.files ∧ (∀ q u, (q ≠ p ∨ u ≠ t) → s'.pc q u = s.pc q u) ∧ s'.fd p = some i ∧
      s'.used = s.used := by
  have hne : ∀ (s : PrState) (x : PrPc) q u, (q ≠ p ∨ u ≠ t) → (s.go p t x).pc q u = s.pc q u := by
    intro s x q u h
    rw [pr_pc_go, if_neg]
    rintro ⟨rfl, rfl⟩
    rcases h with h | h <;> exact h rfl
  obtain ⟨x, r, h1, h2, h3, h4, h5, h5', h6, h7, h8, h9⟩ := pr_rotation (c := c) s p t line hp hl hrl
  rw [← h3] at hfd
  have r := r.step (.enterWrite _ p t line h1 h2)
  have r := r.step (.write _ p t line _ (PrState.pc_go_self _ _ _ _)
    (by unfold FileW.write PrState.view; dsimp only [PrState.go, PrState.setLock]; rw [hfd]))
  have r := r.step (.enterFlush _ p t _ (PrState.pc_go_self _ _ _ _) hf (putAt_same _ _ _))
  have r := r.step (.flush _ p t _ _ (PrState.pc_go_self _ _ _ _)
    (by unfold FileW.flush PrState.view; dsimp only [PrState.go, PrState.setLock, PrState.put]; rw [putAt_same]))
  refine ⟨_, r, PrState.pc_go_self _ _ _ _, ?_, ?_, ?_, h5', fun q u h => ?_, ?_, h9⟩
  · change x.written ++ [line] = _; rw [h6]
  · change x.finished ++ [x.written.length] = _; rw [h6, h7]
  · change putAt _ i _ i = _
    rw [putAt_same]
    rw [putAt_same, putAt_same, h5, h4]
    simp
  · rw [hne _ _ q u h, ← h8 q u h]
    change ((PrState.go _ p t _).pc q u) = _
    rw [hne _ _ q u h]
    change ((PrState.go _ p t _).pc q u) = _
    rw [hne _ _ q u h]
    exact hne _ _ q u h
  · change putAt _ p (some i) p = _
    rw [putAt_same]

/-- **C106**: a child made by `os.fork()` while the other threads of the process are outside the handler can
log: from every such moment, whatever the rules of rotation say, the child alone can finish a call of the
handler, and the line comes to the end of the file that the process had open. -/
theorem C106_child_of_a_calm_fork_can_log (c : PrConf) (hf : c.forced = true) (hc : c.calm = true)
    (s₀ s s' : PrState) (h₀ : PrStart s₀) (hr : PrRun c s₀ s) (p t q i : Nat) (hpt : s.pc p t = .idle)
    (hq : s.used q = false) (hquiet : ∀ u, s.pc p u = .idle ∨ s.pc p u = .absent) (hfd : s.fd p = some i)
    (hs' : s' = s.forked p t q) (line : Str) :
    PrStep c s s' ∧ ∃ s'', PrRun c s' s'' ∧ s''.written = s.written ++ [line] ∧
      s''.finished = s.finished ++ [s.written.length] ∧ s''.data i = s.data i ++ line ∧
      ∀ r ≠ q, s''.pc r = s'.pc r := by
  have hl := hr.locks hf hc h₀
  obtain ⟨_, _, hi⟩ := hr.inv hf hc h₀
  have hlock : s.lock p = none := by
    cases h : s.lock p with
    | none => rfl
    | some u =>
      have := (hl.lock p u).1 h
      rcases hquiet u with e | e <;> rw [e] at this <;> cases this
  have hrot : s.rotLock p = none := by
    cases h : s.rotLock p with
    | none => rfl
    | some u =>
      have := (hl.rot p u).1 h
      rcases hquiet u with e | e <;> rw [e] at this <;> cases this
  have hb : s.buf p = [] := by
    rw [hi.buf, hi.quiet (p := p) (fun u => by rcases hquiet u with e | e <;> rw [e] <;> rfl)]; rfl
  subst hs'
  refine ⟨.fork s p t q hpt hq (fun _ => hquiet), ?_⟩
  obtain ⟨x, r, -, h2, h3, h4, -, h5, -⟩ := pr_logs hf (s.forked p t q) q t i line
    (by change putAt s.pc q (putAt (fun _ => PrPc.absent) t .idle) q t = _; rw [putAt_same, putAt_same])
    (by change putAt s.lock q (s.lock p) q = _; rw [putAt_same, hlock])
    (by change putAt s.rotLock q (s.rotLock p) q = _; rw [putAt_same, hrot])
    (by change putAt s.fd q (s.fd p) q = _; rw [putAt_same, hfd])
  refine ⟨x, r, h2, h3, ?_, fun r hr => funext fun u => h5 r u (.inl hr)⟩
  rw [h4]
  change s.data i ++ putAt s.buf q (s.buf p) q ++ line = _
  rw [putAt_same, hb, List.append_nil]

/-! ### Forks while another thread is in the handler -/

/-- No process, an empty file system. -/
def prEmpty : PrState :=
  ⟨fun _ => none, fun _ => [], 0, fun _ => none, fun _ => [], fun _ => none, fun _ => none, fun _ _ => .absent,
    fun _ => false, [], [], []⟩

theorem prEmpty_start : PrStart prEmpty :=
  ⟨fun _ => rfl, fun _ _ => rfl, fun _ => rfl, fun _ => rfl, fun _ => ⟨rfl, rfl⟩, fun _ _ h => (nomatch h),
    fun _ _ => rfl, rfl, rfl, rfl⟩

/-- Nobody of process `q` ever gets the lock. -/
structure Shut (q : Nat) (s : PrState) : Prop where
  used : s.used q = true
  lock : s.lock q ≠ none ∨ ∀ t, s.pc q t = .absent
  out : ∀ t, (s.pc q t).inLock = false ∧ (s.pc q t).num = none

theorem Shut.step {c : PrConf} {q : Nat} {s s' : PrState} (h : Shut q s) (hs : PrStep c s s') : Shut q s' := by
  obtain ⟨h1, h2, h3⟩ := h
  cases hs <;> (constructor <;>
    simp only [PrState.go, PrState.setLock, PrState.setRot, PrState.put, PrState.forked, PrState.gone, putAt,
      ite_apply] <;>
    grind [PrPc.inLock, PrPc.num])

theorem Shut.run {c : PrConf} {q : Nat} {s s' : PrState} (h : Shut q s) (hr : PrRun c s s') : Shut q s' := by
  induction hr with
  | init => exact h
  | step _ hs ih => exact ih.step hs

/-- A thread of a process that is shut out stays in its call. -/
theorem Shut.stays {c : PrConf} {q v : Nat} {line : Str} {s s' : PrState} (h : Shut q s) (hs : PrStep c s s')
    (hv : (s.pc q v = .start line ∨ s.pc q v = .checking line ∨ s.pc q v = .writing line) ∨
      ∀ t, s.pc q t = .absent) :
    (s'.pc q v = .start line ∨ s'.pc q v = .checking line ∨ s'.pc q v = .writing line) ∨
      ∀ t, s'.pc q t = .absent := by
  obtain ⟨h1, h2, h3⟩ := h
  have h4 := h3 v
  cases hs <;>
    simp only [PrState.go, PrState.setLock, PrState.setRot, PrState.put, PrState.forked, PrState.gone, putAt,
      ite_apply] <;>
    grind [PrPc.inLock, PrPc.num]

theorem Shut.stays_run {c : PrConf} {q v : Nat} {line : Str} {s s' : PrState} (h : Shut q s)
    (hr : PrRun c s s')
    (hv : (s.pc q v = .start line ∨ s.pc q v = .checking line ∨ s.pc q v = .writing line) ∨
      ∀ t, s.pc q t = .absent) :
    (s'.pc q v = .start line ∨ s'.pc q v = .checking line ∨ s'.pc q v = .writing line) ∨
      ∀ t, s'.pc q t = .absent := by
  induction hr with
  | init => exact hv
  | step hr' hs ih => exact (h.run hr').stays hs ih

/-- **C106**: if `os.fork()` is called while another thread holds the lock of the handler (it is writing,
flushing or rotating), the child can never write with this handler: a call of the handler in the child, by
whatever thread and whenever it is made, does not return as long as the child lives, whatever the other
processes do. -/
theorem C106_fork_during_a_call_shuts_the_child_out (c : PrConf) (s s₁ s₂ : PrState) (p t q u v : Nat) (line : Str)
    (hlock : s.lock p = some u) (h₁ : PrRun c (s.forked p t q) s₁) (hcall : s₁.pc q v = .start line)
    (h₂ : PrRun c s₁ s₂) :
    (s₂.pc q v = .start line ∨ s₂.pc q v = .checking line ∨ s₂.pc q v = .writing line) ∨
      ∀ t', s₂.pc q t' = .absent := by
  have h0 : Shut q (s.forked p t q) := by
    refine ⟨putAt_same _ _ _, .inl ?_, fun t' => ?_⟩
    · change putAt s.lock q (s.lock p) q ≠ none
      rw [putAt_same, hlock]; simp
    · change (putAt s.pc q (putAt (fun _ => PrPc.absent) t .idle) q t').inLock = false ∧
        (putAt s.pc q (putAt (fun _ => PrPc.absent) t .idle) q t').num = none
      rw [putAt_same]
      unfold putAt
      split <;> exact ⟨rfl, rfl⟩
  exact (h0.run h₁).stays_run h₂ (.inl (.inl hcall))

/-- Nobody of process `q` ever gets the lock of the rotator. -/
structure ShutRot (q : Nat) (s : PrState) : Prop where
  used : s.used q = true
  lock : s.rotLock q ≠ none ∨ ∀ t, s.pc q t = .absent
  out : ∀ t, s.pc q t = .idle ∨ s.pc q t = .absent ∨ ∃ l, s.pc q t = .start l

theorem ShutRot.step {c : PrConf} {q : Nat} {s s' : PrState} (h : ShutRot q s) (hs : PrStep c s s') :
    ShutRot q s' := by
  obtain ⟨h1, h2, h3⟩ := h
  cases hs <;> (constructor <;>
    simp only [PrState.go, PrState.setLock, PrState.setRot, PrState.put, PrState.forked, PrState.gone, putAt,
      ite_apply] <;>
    grind)

theorem ShutRot.stays {c : PrConf} {q v : Nat} {line : Str} {s s' : PrState} (h : ShutRot q s)
    (hs : PrStep c s s') (hv : s.pc q v = .start line ∨ ∀ t, s.pc q t = .absent) :
    s'.pc q v = .start line ∨ ∀ t, s'.pc q t = .absent := by
  obtain ⟨h1, h2, h3⟩ := h
  have h4 := h3 v
  cases hs <;>
    simp only [PrState.go, PrState.setLock, PrState.setRot, PrState.put, PrState.forked, PrState.gone, putAt,
      ite_apply] <;>
    grind

/-- **C106**: the same if another thread holds the lock of the rotator at the fork (it is checking, before it
writes its line, whether the log has to be rotated): no call of the handler in the child returns. -/
theorem C106_fork_during_a_check_shuts_the_child_out (c : PrConf) (s s₁ s₂ : PrState) (p t q u v : Nat)
    (line : Str) (hlock : s.rotLock p = some u) (h₁ : PrRun c (s.forked p t q) s₁)
    (hcall : s₁.pc q v = .start line) (h₂ : PrRun c s₁ s₂) :
    s₂.pc q v = .start line ∨ ∀ t', s₂.pc q t' = .absent := by
  have h0 : ShutRot q (s.forked p t q) := by
    refine ⟨putAt_same _ _ _, .inl ?_, fun t' => ?_⟩
    · change putAt s.rotLock q (s.rotLock p) q ≠ none
      rw [putAt_same, hlock]; simp
    · change putAt s.pc q (putAt (fun _ => PrPc.absent) t .idle) q t' = _ ∨
        putAt s.pc q (putAt (fun _ => PrPc.absent) t .idle) q t' = _ ∨ _
      rw [putAt_same]
      unfold putAt
      split
      · exact .inl rfl
      · exact .inr (.inl rfl)
  have run : ∀ {a b}, ShutRot q a → PrRun c a b → ShutRot q b := by
    intro a b ha hb
    induction hb with
    | init => exact ha
    | step _ hs ih => exact ih.step hs
  have h1 := run h0 h₁
  have hv : s₁.pc q v = .start line ∨ ∀ t, s₁.pc q t = .absent := .inl hcall
  clear hcall
  induction h₂ with
  | init => exact hv
  | step hr hs ih => exact (run h1 hr).stays hs ih

example : -- a reachable moment at which another thread holds the lock of the rotator only
    ∃ c s, PrRun c prEmpty s ∧ s.rotLock 0 = some 0 ∧ s.lock 0 = none ∧ s.pc 0 1 = .idle ∧ s.used 1 = false := by
  let c : PrConf := ⟨['f'], fun _ => false, true, false⟩
  have r : PrRun c prEmpty prEmpty := .init
  have r := r.step (.begin _ 0 0 rfl)
  have r := r.step (.thread _ 0 1 0 (by decide +kernel) rfl)
  have r := r.step (.call _ 0 0 ['a'] rfl)
  have r := r.step (.enterRot _ 0 0 ['a'] rfl rfl)
  exact ⟨c, _, r, rfl, rfl, rfl, rfl⟩

/-- **C106 fails for forks during a call**: thread 0 of process 0 is inside `write`, thread 1 forks; the call
of the handler that process 1 then makes never returns. -/
theorem C106_child_hangs_fails :
    ∃ c s, c.forced = true ∧ PrRun c prEmpty s ∧ s.pc 1 1 = .start ['b'] ∧
      ∀ s', PrRun c s s' →
        (s'.pc 1 1 = .start ['b'] ∨ s'.pc 1 1 = .checking ['b'] ∨ s'.pc 1 1 = .writing ['b']) ∨
          ∀ t, s'.pc 1 t = .absent := by
  let c : PrConf := ⟨['f'], fun _ => false, true, false⟩
  have r : PrRun c prEmpty prEmpty := .init
  have r := r.step (.begin _ 0 0 rfl)
  have r := r.step (.thread _ 0 1 0 (by decide +kernel) rfl)
  have r := r.step (.call _ 0 0 ['a'] rfl)
  have r := r.step (.enterRot _ 0 0 ['a'] rfl rfl)
  have r := r.step (.pass _ 0 0 ['a'] rfl (fun _ _ => rfl))
  have r := r.step (.enterWrite _ 0 0 ['a'] rfl rfl)
  have r' := r.step (.fork _ 0 1 1 rfl rfl (fun h => nomatch h))
  have r' := r'.step (.call _ 1 1 ['b'] rfl)
  refine ⟨c, _, rfl, r', rfl, fun s' hs' => ?_⟩
  exact C106_fork_during_a_call_shuts_the_child_out c _ _ s' 0 1 1 0 1 ['b'] rfl
    (PrRun.init.step (.call _ 1 1 ['b'] rfl)) rfl hs'

/-- **C106 fails for forks during a call**: thread 0 of process 0 has written its line and not yet flushed it,
thread 1 forks; the line comes to the file twice, although `forced_flush` is on. -/
theorem C106_fork_between_write_and_flush_fails :
    ∃ c s, c.forced = true ∧ PrRun c prEmpty s ∧ s.written = [['a']] ∧ s.finished = [0] ∧
      TextIs s c.fn ['a', 'a'] ∧ ¬ OnceOnDisk c.fn prEmpty s := by
  let c : PrConf := ⟨['f'], fun _ => false, true, false⟩
  have r : PrRun c prEmpty prEmpty := .init
  have r := r.step (.begin _ 0 0 rfl)
  have r := r.step (.thread _ 0 1 0 (by decide +kernel) rfl)
  have r := r.step (.call _ 0 0 ['a'] rfl)
  have r := r.step (.enterRot _ 0 0 ['a'] rfl rfl)
  have r := r.step (.pass _ 0 0 ['a'] rfl (fun _ _ => rfl))
  have r := r.step (.enterWrite _ 0 0 ['a'] rfl rfl)
  have r := r.step (.write _ 0 0 ['a'] _ rfl rfl)
  have r := r.step (.fork _ 0 1 1 rfl rfl (fun h => nomatch h))
  have r := r.step (.enterFlush _ 0 0 0 rfl rfl rfl)
  have r := r.step (.flush _ 0 0 0 _ rfl rfl)
  have r := r.step (.exit _ 1 (fun u => by
    by_cases hu : u = 1
    · subst hu; exact .inl rfl
    · right
      change (if u = 1 then PrPc.idle else PrPc.absent) = _
      rw [if_neg hu]))
  refine ⟨c, _, rfl, r, rfl, rfl, ⟨0, rfl, rfl⟩, ?_⟩
  rintro ⟨placed, h1, h2, h3, -, -⟩
  have hd : ['a', 'a'] = [] ++ _ := h3 0
  match placed, h1, h2, hd with
  | [], _, _, hd => simp at hd
  | [x], _, h2, hd =>
    have hx : x.2 < 1 := h2 x (by simp)
    obtain ⟨i, k⟩ := x
    have hk : k = 0 := by dsimp only at hx; omega
    subst hk
    by_cases hi : i = 0
    · subst hi
      exact absurd hd (by decide +kernel)
    · simp [hi] at hd
  | x :: y :: _, h1, h2, _ =>
    have hx : x.2 < 1 := h2 x (by simp)
    have hy : y.2 < 1 := h2 y (by simp)
    simp only [List.map_cons, List.nodup_cons, List.mem_cons] at h1
    exact h1.1 (.inl (by omega))

/-- **C106 fails with `forced_flush=False`**: a line waits in the buffer when the process forks, no thread is in
the handler; when both processes have ended, the line is in the file twice. -/
theorem C106_waiting_lines_come_twice_fails :
    ∃ c s, c.calm = true ∧ PrRun c prEmpty s ∧ s.written = [['a']] ∧ s.finished = [0] ∧
      TextIs s c.fn ['a', 'a'] := by
  let c : PrConf := ⟨['f'], fun _ => false, false, true⟩
  have hq : ∀ u, (if u = 0 then PrPc.idle else PrPc.absent) = .idle ∨
      (if u = 0 then PrPc.idle else PrPc.absent) = .absent := fun u => by
    by_cases hu : u = 0
    · exact .inl (if_pos hu)
    · exact .inr (if_neg hu)
  have r : PrRun c prEmpty prEmpty := .init
  have r := r.step (.begin _ 0 0 rfl)
  have r := r.step (.call _ 0 0 ['a'] rfl)
  have r := r.step (.enterRot _ 0 0 ['a'] rfl rfl)
  have r := r.step (.pass _ 0 0 ['a'] rfl (fun _ _ => rfl))
  have r := r.step (.enterWrite _ 0 0 ['a'] rfl rfl)
  have r := r.step (.write _ 0 0 ['a'] _ rfl rfl)
  have r := r.step (.noFlush _ 0 0 0 rfl rfl)
  have r := r.step (.fork _ 0 0 1 rfl rfl (fun _ u => by
    by_cases hu : u = 0
    · subst hu; exact .inl rfl
    · right; simp [PrState.go, PrState.put, PrState.setLock, PrState.setRot, putAt, hu, prEmpty]))
  have r := r.step (.exit _ 1 (fun u => hq u))
  have r := r.step (.exit _ 0 (fun u => by
    by_cases hu : u = 0
    · subst hu; exact .inl rfl
    · right
      simp [PrState.go, PrState.put, PrState.setLock, PrState.setRot, PrState.gone, PrState.forked, putAt, hu,
        prEmpty]))
  exact ⟨c, _, rfl, r, rfl, rfl, 0, rfl, rfl⟩

example : -- a run with a fork that meets the hypotheses: parent and child both log, with two threads in the parent
    ∃ c s, c.forced = true ∧ c.calm = true ∧ PrRun c prEmpty s ∧ s.written = [['a'], ['b']] ∧
      s.finished = [0, 1] ∧ s.data 0 = ['a', 'b'] := by
  let c : PrConf := ⟨['f'], fun _ => true, true, true⟩
  have r : PrRun c prEmpty prEmpty := .init
  have r := r.step (.begin _ 0 0 rfl)
  have r := r.step (.thread _ 0 1 0 (by decide +kernel) rfl)
  generalize hs : PrState.go _ 0 1 .idle = s at r
  obtain ⟨x, r1, h1, h2, h3, h4, -, h5, h6, h7⟩ := pr_logs (c := c) rfl s 0 0 0 ['a']
    (by rw [← hs]; rfl) (by rw [← hs]; rfl) (by rw [← hs]; rfl) (by rw [← hs]; rfl)
  obtain ⟨h8, y, r2, h9, h10, h11, -⟩ := C106_child_of_a_calm_fork_can_log c rfl rfl prEmpty x _ prEmpty_start
    (r.trans r1) 0 0 1 0 h1 (by rw [h7, ← hs]; rfl)
    (fun u => by
      by_cases hu : u = 0
      · subst hu; exact .inl h1
      · rw [h5 0 u (.inr hu), ← hs]
        by_cases hu' : u = 1
        · subst hu'; exact .inl rfl
        · right; simp [PrState.go, PrState.put, putAt, hu, hu']) h6 rfl ['b']
  refine ⟨c, y, rfl, rfl, ((r.trans r1).step h8).trans r2, ?_, ?_, ?_⟩
  · rw [h9, h2, ← hs]; rfl
  · rw [h10, h3, h2, ← hs]; rfl
  · rw [h11, h4, ← hs]; rfl

end Polog
