import Verif.File.Count
import Mathlib.Data.Set.Finite.Lattice
import Mathlib.Data.Fintype.EquivFin

/-! C36: calls of the file handler finish. -/

namespace Polog

open FileSpec

/-- Whether a thread at this point holds the lock of the rotator. -/
def FPc.holds : FPc → Bool
  | .checking _ => true
  | .moving _ => true
  | _ => false

/-- How many steps a thread at this point still has to do, at most. -/
def FPc.left : FPc → Nat
  | .idle => 0
  | .start _ => 5
  | .checking _ => 4
  | .moving _ => 3
  | .writing _ => 2
  | .flushing _ => 1

/-- What holds in every run about locks, threads and names. -/
structure FLive (c : FConf) (s : FState) : Prop where
  lock : ∀ t, s.rotLock = some t ↔ (s.pc t).holds = true
  few : ∀ t, c.threads ≤ t → s.pc t = .idle
  names : {p : Str | s.w.files p ≠ none}.Finite

theorem FLive.init {c : FConf} {s : FState} (h : FStart c s) : FLive c s := by
  refine ⟨fun t => ?_, fun t _ => h.idle t, ?_⟩
  · rw [h.unlocked, h.idle t]; simp [FPc.holds]
  · refine Set.Finite.of_injOn (f := fun p => (s.w.files p).getD 0) (t := {i | i < s.w.fresh}) ?_ ?_ (Set.finite_lt_nat _)
    · intro p hp
      obtain ⟨i, hi⟩ := Option.ne_none_iff_exists'.1 hp
      simpa [hi] using h.below p i hi
    · intro p hp q hq he
      obtain ⟨i, hi⟩ := Option.ne_none_iff_exists'.1 hp
      obtain ⟨j, hj⟩ := Option.ne_none_iff_exists'.1 hq
      simp only [hi, hj, Option.getD_some] at he
      subst he
      exact h.distinct p q i hi hj

theorem moveFile_names {w : FileW} {fn target p : Str} {e : MoveEnv} (h : (w.moveFile fn target e).1.files p ≠ none) :
    p = fn ∨ p = target ∨ w.files p ≠ none := by
  by_cases h1 : p = fn
  · exact .inl h1
  by_cases h2 : p = target
  · exact .inr (.inl h2)
  refine .inr (.inr ?_)
  have hone : ∀ (w : FileW) r, (w.moveOnce fn target r).1.files p = w.files p := by
    intro w r
    unfold FileW.moveOnce
    cases w.files fn <;> cases r <;> simp [putAt, h1, h2]
  have hre : ∀ (w : FileW) ok, (w.reopen fn ok).files p = w.files p := by
    intro w ok
    have hc : w.close.files = w.files := by unfold FileW.close; cases w.file <;> rfl
    unfold FileW.reopen FileW.open
    cases ok with
    | false => simp [hc]
    | true =>
      rw [if_pos rfl]
      cases w.close.files fn <;> simp [putAt, h1, hc]
  have key : (w.moveFile fn target e).1.files p = w.files p := by
    unfold FileW.moveFile
    have h1 := hone w e.first
    rcases hm : w.moveOnce fn target e.first with ⟨w1, o⟩
    rw [hm] at h1
    cases o with
    | moved => dsimp only; rw [hre, h1]
    | failed => exact h1
    | notFound =>
      dsimp only
      split
      · have h2 := hone w1 e.second
        rcases hm2 : w1.moveOnce fn target e.second with ⟨w2, o⟩
        rw [hm2] at h2
        cases o with
        | moved => dsimp only; rw [hre, h2, h1]
        | failed => exact h2.trans h1
        | notFound => exact h2.trans h1
      · exact h1
  rwa [key] at h

theorem FLive.step {c : FConf} {s s' : FState} (h : FLive c s) (hs : FStep c s s') : FLive c s' := by
  obtain ⟨hl, hf, hn⟩ := h
  cases hs with
  | call t line ht hpc =>
    refine ⟨fun x => ?_, fun x hx => ?_, hn⟩ <;> dsimp only <;> by_cases hx' : x = t
    · subst hx'; have := hl x; rw [hpc] at this; rw [putAt_same, this]; rfl
    · rw [putAt_ne _ _ hx']; exact hl x
    · omega
    · rw [putAt_ne _ _ hx']; exact hf x hx
  | lock t line hpc hnone =>
    refine ⟨fun x => ?_, fun x hx => ?_, hn⟩ <;> dsimp only <;> by_cases hx' : x = t
    · subst hx'; rw [putAt_same]; simp [FPc.holds]
    · rw [putAt_ne _ _ hx']; have := hl x; rw [hnone] at this; simp only [← this]; simp [Ne.symm hx']
    · subst hx'; rw [hf x hx] at hpc; cases hpc
    · rw [putAt_ne _ _ hx']; exact hf x hx
  | fire t line n hpc _ _ =>
    refine ⟨fun x => ?_, fun x hx => ?_, hn⟩ <;> dsimp only <;> by_cases hx' : x = t
    · subst hx'; have := hl x; rw [hpc] at this; rw [putAt_same, this]; rfl
    · rw [putAt_ne _ _ hx']; exact hl x
    · subst hx'; rw [hf x hx] at hpc; cases hpc
    · rw [putAt_ne _ _ hx']; exact hf x hx
  | pass t line hpc _ =>
    have ht : s.rotLock = some t := (hl t).2 (by rw [hpc]; rfl)
    refine ⟨fun x => ?_, fun x hx => ?_, hn⟩ <;> dsimp only <;> by_cases hx' : x = t
    · subst hx'; rw [putAt_same]; simp [FPc.holds]
    · rw [putAt_ne _ _ hx', ← hl x, ht]; simp [Ne.symm hx']
    · subst hx'; rw [hf x hx] at hpc; cases hpc
    · rw [putAt_ne _ _ hx']; exact hf x hx
  | move t line target e hpc _ _ _ _ =>
    have ht : s.rotLock = some t := (hl t).2 (by rw [hpc]; rfl)
    refine ⟨fun x => ?_, fun x hx => ?_, ?_⟩
    · dsimp only
      by_cases hx' : x = t
      · subst hx'; rw [putAt_same]; simp [FPc.holds]
      · rw [putAt_ne _ _ hx', ← hl x, ht]; simp [Ne.symm hx']
    · dsimp only
      by_cases hx' : x = t
      · subst hx'; rw [hf x hx] at hpc; cases hpc
      · rw [putAt_ne _ _ hx']; exact hf x hx
    · refine ((hn.insert target).insert c.fn).subset ?_
      intro p hp
      rcases moveFile_names hp with h | h | h
      · exact .inl h
      · exact .inr (.inl h)
      · exact .inr (.inr h)
  | write t line auto w' hpc hw =>
    have hfw : w'.files = s.w.files := by
      unfold FileW.write at hw
      cases hfile : s.w.file <;> rw [hfile] at hw <;> cases hw
      rfl
    refine ⟨fun x => ?_, fun x hx => ?_, ?_⟩
    · dsimp only
      by_cases hx' : x = t
      · subst hx'; have := hl x; rw [hpc] at this; rw [putAt_same, this]; rfl
      · rw [putAt_ne _ _ hx']; exact hl x
    · dsimp only
      by_cases hx' : x = t
      · subst hx'; rw [hf x hx] at hpc; cases hpc
      · rw [putAt_ne _ _ hx']; exact hf x hx
    · dsimp only; rw [hfw]; exact hn
  | flush t line w' hpc _ hw =>
    have hfw : w'.files = s.w.files := by
      unfold FileW.flush at hw
      cases hfile : s.w.file <;> rw [hfile] at hw <;> cases hw
      rfl
    refine ⟨fun x => ?_, fun x hx => ?_, ?_⟩
    · dsimp only
      by_cases hx' : x = t
      · subst hx'; have := hl x; rw [hpc] at this; rw [putAt_same, this]; rfl
      · rw [putAt_ne _ _ hx']; exact hl x
    · dsimp only
      by_cases hx' : x = t
      · subst hx'; rw [hf x hx] at hpc; cases hpc
      · rw [putAt_ne _ _ hx']; exact hf x hx
    · dsimp only; rw [hfw]; exact hn
  | writeFails t line hpc _ =>
    refine ⟨fun x => ?_, fun x hx => ?_, hn⟩ <;> dsimp only <;> by_cases hx' : x = t
    · subst hx'; have := hl x; rw [hpc] at this; rw [putAt_same, this]; rfl
    · rw [putAt_ne _ _ hx']; exact hl x
    · subst hx'; rw [hf x hx] at hpc; cases hpc
    · rw [putAt_ne _ _ hx']; exact hf x hx
  | flushFails t line hpc _ _ =>
    refine ⟨fun x => ?_, fun x hx => ?_, hn⟩ <;> dsimp only <;> by_cases hx' : x = t
    · subst hx'; have := hl x; rw [hpc] at this; rw [putAt_same, this]; rfl
    · rw [putAt_ne _ _ hx']; exact hl x
    · subst hx'; rw [hf x hx] at hpc; cases hpc
    · rw [putAt_ne _ _ hx']; exact hf x hx
  | noFlush t line hpc _ =>
    refine ⟨fun x => ?_, fun x hx => ?_, hn⟩ <;> dsimp only <;> by_cases hx' : x = t
    · subst hx'; have := hl x; rw [hpc] at this; rw [putAt_same, this]; rfl
    · rw [putAt_ne _ _ hx']; exact hl x
    · subst hx'; rw [hf x hx] at hpc; cases hpc
    · rw [putAt_ne _ _ hx']; exact hf x hx

theorem FRun.live {c : FConf} {s₀ s : FState} (h₀ : FStart c s₀) (hr : FRun c s₀ s) : FLive c s := by
  induction hr with
  | init => exact .init h₀
  | step _ hs ih => exact ih.step hs

theorem putAt_idle {pc : Nat → FPc} {t : Nat} {q : FPc} (h : pc t ≠ .idle) (x : Nat) (hx : pc x = .idle) :
    putAt pc t q x = .idle := by
  by_cases hxt : x = t
  · subst hxt; exact absurd hx h
  · rw [putAt_ne _ _ hxt, hx]

/-- A thread that does not wait for the lock can go on. -/
theorem FLive.moves {c : FConf} {s : FState} (h : FLive c s) {t : Nat} (ht : s.pc t ≠ .idle)
    (hw : ∀ line, s.pc t = .start line → s.rotLock = none) :
    ∃ s', FStep c s s' ∧ ∀ x, s.pc x = .idle → s'.pc x = .idle := by
  cases hpc : s.pc t with
  | idle => exact absurd hpc ht
  | start line => exact ⟨_, .lock s t line hpc (hw line hpc), putAt_idle ht⟩
  | checking line =>
    by_cases hf : ∃ n, s.w.size c.fn = some n ∧ c.fires n = true
    · obtain ⟨n, h1, h2⟩ := hf
      exact ⟨_, .fire s t line n hpc h1 h2, putAt_idle ht⟩
    · refine ⟨_, .pass s t line hpc (fun n hn => ?_), putAt_idle ht⟩
      cases hfn : c.fires n with
      | false => rfl
      | true => exact absurd ⟨n, hn, hfn⟩ hf
  | moving line =>
    obtain ⟨target, htar⟩ := ((h.names.insert c.fn).infinite_compl).nonempty
    simp only [Set.mem_compl_iff, Set.mem_insert_iff, Set.mem_ofPred_eq, not_or, not_not] at htar
    exact ⟨_, .move s t line target ⟨.renamed, .renamed, true, true⟩ hpc htar.2 htar.1
      (fun _ => ⟨rfl, rfl⟩) (fun _ => ⟨.inl rfl, rfl⟩), putAt_idle ht⟩
  | writing line =>
    cases hf : s.w.file with
    | none => exact ⟨_, .writeFails s t line hpc hf, putAt_idle ht⟩
    | some i => exact ⟨_, .write s t line 0 _ hpc (by unfold FileW.write; rw [hf]), putAt_idle ht⟩
  | flushing line =>
    cases hfo : c.forced with
    | false => exact ⟨_, .noFlush s t line hpc hfo, putAt_idle ht⟩
    | true =>
      cases hf : s.w.file with
      | none => exact ⟨_, .flushFails s t line hpc hfo hf, putAt_idle ht⟩
      | some i => exact ⟨_, .flush s t line _ hpc hfo (by unfold FileW.flush; rw [hf]), putAt_idle ht⟩

/-- Some thread can go on unless all are idle. -/
theorem FLive.progress {c : FConf} {s : FState} (h : FLive c s) {t : Nat} (ht : s.pc t ≠ .idle) :
    ∃ s', FStep c s s' ∧ ∀ x, s.pc x = .idle → s'.pc x = .idle := by
  cases hl : s.rotLock with
  | none => exact h.moves ht (fun _ _ => hl)
  | some o =>
    have ho := (h.lock o).1 hl
    refine h.moves (t := o) ?_ ?_
    · intro hi; rw [hi] at ho; cases ho
    · intro line hi; rw [hi] at ho; cases ho

/-- Steps all threads together still have to do, at most. -/
def FState.left (c : FConf) (s : FState) : Nat := ((List.range c.threads).map fun t => (s.pc t).left).sum

theorem left_putAt {pc : Nat → FPc} {t : Nat} {q : FPc} (hq : q.left < (pc t).left) (l : List Nat) :
    (l.map fun x => (putAt pc t q x).left).sum ≤ (l.map fun x => (pc x).left).sum ∧
    (t ∈ l → (l.map fun x => (putAt pc t q x).left).sum < (l.map fun x => (pc x).left).sum) := by
  induction l with
  | nil => simp
  | cons a l ih =>
    simp only [List.map_cons, List.sum_cons, List.mem_cons]
    by_cases ha : a = t
    · subst ha
      rw [putAt_same]
      exact ⟨by omega, fun _ => by omega⟩
    · rw [putAt_ne _ _ ha]
      refine ⟨by omega, fun h => ?_⟩
      have := ih.2 (h.resolve_left (fun h => ha h.symm))
      omega

theorem FLive.decreases {c : FConf} {s s' : FState} (h : FLive c s) (hs : FStep c s s')
    (hi : ∀ t, s.pc t = .idle → s'.pc t = .idle) : s'.left c < s.left c := by
  have key : ∀ (t : Nat) (q : FPc), s'.pc = putAt s.pc t q → q.left < (s.pc t).left → s'.left c < s.left c := by
    intro t q hp hq
    unfold FState.left
    rw [hp]
    refine (left_putAt hq _).2 (List.mem_range.2 ?_)
    by_contra hge
    rw [h.few t (by omega)] at hq
    simp [FPc.left] at hq
  cases hs with
  | call t line _ hpc =>
    have := hi t hpc
    dsimp only at this
    rw [putAt_same] at this; cases this
  | lock t line hpc _ => exact key t _ rfl (by rw [hpc]; simp [FPc.left])
  | fire t line n hpc _ _ => exact key t _ rfl (by rw [hpc]; simp [FPc.left])
  | pass t line hpc _ => exact key t _ rfl (by rw [hpc]; simp [FPc.left])
  | move t line target e hpc _ _ _ _ => exact key t _ rfl (by rw [hpc]; simp [FPc.left])
  | write t line auto w' hpc _ => exact key t _ rfl (by rw [hpc]; simp [FPc.left])
  | writeFails t line hpc _ => exact key t _ rfl (by rw [hpc]; simp [FPc.left])
  | flush t line w' hpc _ _ => exact key t _ rfl (by rw [hpc]; simp [FPc.left])
  | flushFails t line hpc _ _ => exact key t _ rfl (by rw [hpc]; simp [FPc.left])
  | noFlush t line hpc _ => exact key t _ rfl (by rw [hpc]; simp [FPc.left])

theorem FileSpec.GoesOn.live {c : FConf} {s s' : FState} {n : Nat} (h : FLive c s) (hg : GoesOn c s n s') :
    FLive c s' ∧ n + s'.left c ≤ s.left c := by
  induction hg with
  | here => exact ⟨h, by omega⟩
  | step _ hs hi ih => exact ⟨ih.1.step hs, by have := ih.1.decreases hs hi; omega⟩

theorem FState.left_le (c : FConf) (s : FState) : s.left c ≤ 5 * c.threads := by
  unfold FState.left
  have hb : ∀ p : FPc, p.left ≤ 5 := by intro p; cases p <;> simp [FPc.left]
  have : ∀ l : List Nat, (l.map fun t => (s.pc t).left).sum ≤ 5 * l.length := by
    intro l
    induction l with
    | nil => simp
    | cons a l ih => simp only [List.map_cons, List.sum_cons, List.length_cons]; have := hb (s.pc a); omega
  simpa using this (List.range c.threads)

/-- **C36**: the threads never wait for each other for ever. At every moment of every run, whatever the system does and in
whatever order the threads go on: if no thread starts a new call, there are at most five more steps for each thread, and as long
as a call is not finished, some thread can go on. -/
theorem C36_every_schedule_finishes (c : FConf) (s₀ s s' : FState) (n : Nat) (h₀ : FStart c s₀) (hr : FRun c s₀ s)
    (hg : GoesOn c s n s') :
    n ≤ 5 * c.threads ∧ ((∃ t, s'.pc t ≠ .idle) → ∃ s'', GoesOn c s (n + 1) s'') := by
  obtain ⟨h1, h2⟩ := hg.live (hr.live h₀)
  refine ⟨by have := s.left_le c; omega, fun ⟨t, ht⟩ => ?_⟩
  obtain ⟨s'', h3, h4⟩ := h1.progress ht
  exact ⟨s'', .step hg h3 h4⟩

theorem FileSpec.GoesOn.trace {c : FConf} {s₀ s s' : FState} {n : Nat} {calls : List Str} (h : FTrace c s₀ calls s)
    (hg : GoesOn c s n s') : FTrace c s₀ calls s' := by
  induction hg with
  | here => exact h
  | step _ hs hi ih => exact .other ih hs hi

/-- **C36**: so all calls can be brought to an end, and if files can always be moved and opened, then exactly the lines of these
calls are written. -/
theorem C36_calls_can_be_finished (c : FConf) (s₀ s : FState) (calls : List Str) (h₀ : FStart c s₀) (hr : FTrace c s₀ calls s) :
    ∃ n s', GoesOn c s n s' ∧ (∀ t, s'.pc t = .idle) ∧ (c.reliable = true → s'.written.Perm calls) := by
  have key : ∀ k n s', GoesOn c s n s' → s'.left c ≤ k → ∃ n s', GoesOn c s n s' ∧ ∀ t, s'.pc t = .idle := by
    intro k
    induction k with
    | zero =>
      intro n s' hg hk
      refine ⟨n, s', hg, fun t => ?_⟩
      by_contra ht
      obtain ⟨s'', h3, h4⟩ := (hg.live (hr.toRun.live h₀)).1.progress ht
      have := (hg.live (hr.toRun.live h₀)).1.decreases h3 h4
      omega
    | succ k ih =>
      intro n s' hg hk
      by_cases hi : ∀ t, s'.pc t = .idle
      · exact ⟨n, s', hg, hi⟩
      · obtain ⟨t, ht⟩ := not_forall.1 hi
        obtain ⟨s'', h3, h4⟩ := (hg.live (hr.toRun.live h₀)).1.progress ht
        have := (hg.live (hr.toRun.live h₀)).1.decreases h3 h4
        exact ih (n + 1) s'' (.step hg h3 h4) (by omega)
  obtain ⟨n, s', hg, hi⟩ := key _ 0 s .here (Nat.le_refl _)
  exact ⟨n, s', hg, hi, fun hc => (C36_reliable_system_writes_everything c hc s₀ s' calls h₀ (hg.trace hr) hi).1⟩

/-- A run with two threads in the handler: one holds the lock of the rotator and the other waits for it. -/
example : ∃ c s₀ s, FStart c s₀ ∧ FTrace c s₀ ["ab".toList, "cd".toList] s ∧ s.pc 0 = .checking "ab".toList ∧
    s.pc 1 = .start "cd".toList ∧ s.rotLock = some 0 := by
  refine ⟨exFConf true 2 false true, exFile, _, exFile_start .., .other (.call (t := 1) (.call (t := 0) .init
    (.call _ 0 "ab".toList (by decide) rfl) rfl rfl)
    (.call _ 1 "cd".toList (by decide) rfl) rfl rfl) (.lock _ 0 "ab".toList rfl rfl) ?_, rfl, rfl, rfl⟩
  exact putAt_idle (by simp [putAt])

end Polog
